/-
C28: what upstreams learn about the client's address.
-/
import Verif.Model.Ecs
import Verif.Props.Edns

namespace Verif.Props
open Dns Ecs

/-- A message carries an EDNS0 option (in any OPT record of the additional section). -/
def Carries (m : Msg) (o : EOption) : Prop := ∃ r ∈ m.extra, ∃ os, r.data = .opt os ∧ o ∈ os

/-- An ordinary message: at most one OPT record, with at most one client-subnet option. -/
def OneSubnet (m : Msg) : Prop :=
  optCount m.extra ≤ 1 ∧ ∀ os, m.edns0 = some os → (os.filter (fun o => o.code == 8)).length ≤ 1

/-- The first `n` bits of an address, the rest zero. -/
def IsPrefixOf (n : Nat) : IP → IP → Prop
  | .v4 p, .v4 a => n ≤ 32 ∧ ∀ i (_ : i < 32), p.getMsbD i = (a.getMsbD i && decide (i < n))
  | .v6 p, .v6 a => n ≤ 128 ∧ ∀ i (_ : i < 128), p.getMsbD i = (a.getMsbD i && decide (i < n))
  | _, _ => False

theorem networkOf_spec {ip m : IP} {n : Nat} (h : networkOf ip n = some m) : IsPrefixOf n m ip := by
  cases ip with
  | v4 a =>
    simp only [networkOf] at h
    split at h
    · rename_i hn
      cases h
      refine ⟨hn, ?_⟩
      intro i hi
      simp only [BitVec.getMsbD_and, BitVec.getMsbD_shiftLeft, BitVec.getMsbD_allOnes]
      congr 1
      simp only [decide_eq_decide]
      omega
    · cases h
  | v6 a =>
    simp only [networkOf] at h
    split at h
    · rename_i hn
      cases h
      refine ⟨hn, ?_⟩
      intro i hi
      simp only [BitVec.getMsbD_and, BitVec.getMsbD_shiftLeft, BitVec.getMsbD_allOnes]
      congr 1
      simp only [decide_eq_decide]
      omega
    · cases h

theorem lastOpt_mem {rs : List RR} {os : List EOption} (h : lastOpt rs = some os) :
    ∃ r ∈ rs, r.data = .opt os := by
  induction rs with
  | nil => cases h
  | cons r rs ih =>
    simp only [lastOpt] at h
    cases hl : lastOpt rs with
    | some o =>
      rw [hl] at h
      cases h
      obtain ⟨r', h1, h2⟩ := ih hl
      exact ⟨r', by simp [h1], h2⟩
    | none =>
      rw [hl] at h
      simp only at h
      split at h
      · cases h
        exact ⟨r, by simp, by assumption⟩
      · cases h

theorem carries_iff {m : Msg} (h : optCount m.extra ≤ 1) (o : EOption) :
    Carries m o ↔ ∃ os, m.edns0 = some os ∧ o ∈ os := by
  constructor
  · rintro ⟨r, hr, os, hd, ho⟩
    refine ⟨os, ?_, ho⟩
    unfold Msg.edns0
    generalize m.extra = rs at *
    induction rs with
    | nil => simp at hr
    | cons x rs ih =>
      rw [optCount_cons] at h
      rcases List.mem_cons.1 hr with rfl | hr'
      · have hx : r.isOpt = true := by simp [RR.isOpt, hd]
        rw [hx] at h
        simp only [if_true] at h
        have : lastOpt rs = none := optCount_zero_iff.1 (by omega)
        simp [lastOpt, this, hd]
      · have := ih (by omega) hr'
        simp [lastOpt, this]
  · rintro ⟨os, h1, h2⟩
    obtain ⟨r, hr, hd⟩ := lastOpt_mem h1
    exact ⟨r, hr, os, hd, h2⟩

theorem getEdns0Option_isSome_of_carries {m : Msg} (h : optCount m.extra ≤ 1) {o : EOption} (hc : Carries m o) :
    (getEdns0Option m o.code).isSome := by
  obtain ⟨os, h1, h2⟩ := (carries_iff h o).1 hc
  unfold getEdns0Option
  rw [h1]
  simp only [List.find?_isSome]
  exact ⟨o, h2, by simp⟩

theorem mem_dropFirstCode {c : Nat} {o : EOption} {os : List EOption} (h : o ∈ dropFirstCode c os) : o ∈ os := by
  induction os with
  | nil => exact h
  | cons x os ih =>
    simp only [dropFirstCode] at h
    split at h
    · simp [h]
    · rcases List.mem_cons.1 h with rfl | h
      · simp
      · simp [ih h]

theorem optCount_dropFirst_le (rs : List RR) : optCount (dropFirstOpt rs) ≤ optCount rs := by
  induction rs with
  | nil => simp [dropFirstOpt]
  | cons r rs ih =>
    simp only [dropFirstOpt]
    split
    · rw [optCount_cons]; omega
    · rw [optCount_cons, optCount_cons]; omega

theorem optCount_remove_le (m : Msg) (c : Nat) : optCount (removeEdns0Option m c).extra ≤ optCount m.extra := by
  unfold removeEdns0Option
  split
  · exact Nat.le_refl _
  · simp only
    split
    · refine Nat.le_trans (optCount_dropFirst_le _) ?_
      simp [optCount_update]
    · simp [optCount_update]

/-- The address rest of the chain uses as the client's: normally the sender's; if so configured, the
one in a client-subnet option with full prefix length. -/
theorem C28_client_address (cfg : Cfg) (request r : Request) (h : transform cfg request = some r) :
    (r.clientIP = request.clientIP) ∨
    (cfg.useAsClient = true ∧ ∃ family netmask scope, getEdns0Option request.req 8 = some (.subnet family netmask scope r.clientIP) ∧
      (family = 1 ∧ netmask = 32 ∨ family = 2 ∧ netmask = 128)) := by
  have hc : r.clientIP = request.clientIP ∨
      (cfg.isEnabled = true ∧ r.clientIP = effectiveClient cfg (getEdns0Option request.req 8) request.clientIP) := by
    unfold transform at h
    split at h
    · rename_i he
      simp only at h
      split at h
      · split at h
        · cases h
        · cases h; exact .inr ⟨he, rfl⟩
        · cases h; exact .inr ⟨he, rfl⟩
      · split at h
        · cases h; exact .inr ⟨he, rfl⟩
        · cases h; exact .inr ⟨he, rfl⟩
    · cases h; exact .inl rfl
  rcases hc with hc | ⟨_, hc⟩
  · exact .inl hc
  · unfold effectiveClient at hc
    split at hc
    · rename_i family netmask scope addr hso
      split at hc
      · rename_i hcond
        simp only [Bool.and_eq_true, Bool.or_eq_true, beq_iff_eq] at hcond
        exact .inr ⟨hcond.1, family, netmask, scope, by rw [hso, hc], hcond.2⟩
      · exact .inl hc
    · exact .inl hc

/-- **C28, no masks.** Enabled (as client address), not forwarding, no masks: the next resolver sees no
client-subnet option. -/
theorem C28_no_masks_partial (cfg : Cfg) (he : cfg.isEnabled = true) (hf : cfg.forward = false)
    (h4 : cfg.ipv4Mask = 0) (h6 : cfg.ipv6Mask = 0) (request : Request) (hone : OneSubnet request.req) :
    ∃ r, transform cfg request = some r ∧ ∀ o, Carries r.req o → o.code ≠ 8 := by
  unfold transform
  rw [if_pos he]
  simp only [h4, h6, hf]
  cases hso : getEdns0Option request.req 8 with
  | none =>
    refine ⟨_, rfl, ?_⟩
    intro o ho h8
    have := getEdns0Option_isSome_of_carries hone.1 (show Carries request.req o from ho)
    rw [h8, hso] at this
    simp at this
  | some so =>
    refine ⟨_, rfl, ?_⟩
    intro o ho h8
    have hcount := Nat.le_trans (optCount_remove_le request.req 8) hone.1
    have := getEdns0Option_isSome_of_carries hcount (show Carries (removeEdns0Option request.req 8) o from ho)
    rw [h8, C29_remove_get_partial request.req 8 hone.2] at this
    simp at this

theorem carries_set {m : Msg} (h : optCount m.extra ≤ 1) {o x : EOption} (hx : Carries (setEdns0Option m o) x) :
    x = o ∨ (x.code ≠ o.code ∧ Carries m x) := by
  have hc : optCount (setEdns0Option m o).extra ≤ 1 := by
    unfold setEdns0Option
    cases he : m.edns0 with
    | none =>
      have h0 : optCount m.extra = 0 := optCount_zero_iff.2 he
      simp only
      rw [show optCount (m.extra ++ [freshOpt [o]]) = optCount m.extra + 1 by
        simp [optCount, freshOpt, RR.isOpt]]
      omega
    | some os => simp [optCount_update]; exact h
  obtain ⟨os, h1, h2⟩ := (carries_iff hc x).1 hx
  unfold setEdns0Option at h1
  cases he : m.edns0 with
  | none =>
    rw [he] at h1
    simp only [Msg.edns0] at h1
    rw [lastOpt_snoc_opt _ _ [o] rfl] at h1
    cases h1
    exact .inl (List.mem_singleton.1 h2)
  | some os0 =>
    rw [he] at h1
    simp only [Msg.edns0, lastOpt_update] at h1
    have he' : lastOpt m.extra = some os0 := he
    rw [he'] at h1
    simp only [Option.map_some, Option.some.injEq] at h1
    rw [← h1] at h2
    rcases List.mem_append.1 h2 with h2 | h2
    · obtain ⟨h3, h4⟩ := List.mem_filter.1 h2
      exact .inr ⟨by simpa using h4, (carries_iff h x).2 ⟨os0, he, h3⟩⟩
    · exact .inl (List.mem_singleton.1 h2)

/-- The configured prefix length for an address. -/
def maskFor (cfg : Cfg) : IP → Nat
  | .v4 _ => cfg.ipv4Mask
  | .v6 _ => cfg.ipv6Mask

/-- Address family numbers. -/
def familyOf : IP → Nat
  | .v4 _ => 1
  | .v6 _ => 2

/-- **C28, masked.** Not forwarding, and a prefix length is configured for the family of the client's
address: the next resolver sees exactly one client-subnet option, with the client's address cut to
that length. -/
theorem C28_masked_partial (cfg : Cfg) (hf : cfg.forward = false) (h4 : cfg.ipv4Mask ≤ 32) (h6 : cfg.ipv6Mask ≤ 128)
    (request : Request) (hone : optCount request.req.extra ≤ 1) (ip : IP)
    (hip : effectiveClient cfg (getEdns0Option request.req 8) request.clientIP = some ip)
    (hmask : 0 < maskFor cfg ip) :
    ∃ r, transform cfg request = some r ∧ r.clientIP = some ip ∧
      ∃ p, IsPrefixOf (maskFor cfg ip) p ip ∧
        let o : EOption := .subnet (familyOf ip) (maskFor cfg ip) 0 (some p)
        Carries r.req o ∧ ∀ x, Carries r.req x → x.code = 8 → x = o := by
  have hsrc : ∀ so, subnetSource cfg so (some ip) = some ip := by
    intro so
    unfold subnetSource
    split <;> simp [hf]
  have hm : (decide (cfg.ipv4Mask > 0) || decide (cfg.ipv6Mask > 0)) = true := by
    cases ip <;> simp_all [maskFor]
  have he : cfg.isEnabled = true := by
    simp only [Cfg.isEnabled]
    rw [Bool.or_assoc, hm]
    simp
  have hnew : ∃ p, networkOf ip (maskFor cfg ip) = some p ∧ newOption cfg (some ip) =
      some (some (.subnet (familyOf ip) (maskFor cfg ip) 0 (some p))) := by
    cases ip with
    | v4 a =>
      refine ⟨_, if_pos h4, ?_⟩
      simp only [maskFor] at hmask
      simp [newOption, hmask, maskIP, networkOf, h4, maskFor, familyOf]
    | v6 a =>
      refine ⟨_, if_pos h6, ?_⟩
      simp only [maskFor] at hmask
      simp [newOption, hmask, maskIP, networkOf, h6, maskFor, familyOf]
  obtain ⟨p, hp, hnew⟩ := hnew
  refine ⟨{ request with clientIP := some ip,
                         req := setEdns0Option request.req (.subnet (familyOf ip) (maskFor cfg ip) 0 (some p)) },
    ?_, rfl, p, networkOf_spec hp, ?_, ?_⟩
  · unfold transform
    rw [if_pos he]
    simp only [hip, hm, if_true, hsrc, hnew]
  · have h := C29_set_get request.req (.subnet (familyOf ip) (maskFor cfg ip) 0 (some p))
    simp only [getEdns0Option] at h
    split at h
    · cases h
    · rename_i os hos
      obtain ⟨r, hr, hd⟩ := lastOpt_mem hos
      exact ⟨r, hr, os, hd, List.mem_of_find?_eq_some h⟩
  · intro x hx h8
    rcases carries_set hone hx with h | ⟨h, _⟩
    · exact h
    · exact absurd h8 h

/-- **C28, forwarding.** If client subnets are forwarded, the message is handed on as it came if no prefix length is configured;
otherwise the one option the next resolver sees has the address of the client's own option, cut to the length configured for the
family of that address. -/
theorem C28_forwarded (cfg : Cfg) (hf : cfg.forward = true) (h4 : cfg.ipv4Mask ≤ 32) (h6 : cfg.ipv6Mask ≤ 128)
    (request : Request) (hone : optCount request.req.extra ≤ 1) (family netmask scope : Nat) (ip : IP)
    (hso : getEdns0Option request.req 8 = some (.subnet family netmask scope (some ip))) :
    (cfg.ipv4Mask = 0 → cfg.ipv6Mask = 0 → ∃ r, transform cfg request = some r ∧ r.req = request.req) ∧
    (0 < maskFor cfg ip → ∃ r p, transform cfg request = some r ∧ IsPrefixOf (maskFor cfg ip) p ip ∧
        let o : EOption := .subnet (familyOf ip) (maskFor cfg ip) 0 (some p)
        Carries r.req o ∧ ∀ x, Carries r.req x → x.code = 8 → x = o) := by
  have he : cfg.isEnabled = true := by simp [Cfg.isEnabled, hf]
  refine ⟨fun h40 h60 => ?_, fun hmask => ?_⟩
  · unfold transform
    rw [if_pos he]
    simp only [h40, h60, hf, hso]
    exact ⟨_, rfl, rfl⟩
  · have hm : (decide (cfg.ipv4Mask > 0) || decide (cfg.ipv6Mask > 0)) = true := by
      cases ip <;> simp_all [maskFor]
    have hnew : ∃ p, networkOf ip (maskFor cfg ip) = some p ∧ newOption cfg (some ip) =
        some (some (.subnet (familyOf ip) (maskFor cfg ip) 0 (some p))) := by
      cases ip with
      | v4 a =>
        refine ⟨_, if_pos h4, ?_⟩
        simp only [maskFor] at hmask
        simp [newOption, hmask, maskIP, networkOf, h4, maskFor, familyOf]
      | v6 a =>
        refine ⟨_, if_pos h6, ?_⟩
        simp only [maskFor] at hmask
        simp [newOption, hmask, maskIP, networkOf, h6, maskFor, familyOf]
    obtain ⟨p, hp, hnew⟩ := hnew
    refine ⟨{ request with
        clientIP := effectiveClient cfg (some (.subnet family netmask scope (some ip))) request.clientIP,
        req := setEdns0Option request.req (.subnet (familyOf ip) (maskFor cfg ip) 0 (some p)) }, p, ?_, networkOf_spec hp, ?_, ?_⟩
    · unfold transform
      rw [if_pos he]
      simp only [hm, if_true, hso, optionAddress, subnetSource, hf, hnew]
    · have h := C29_set_get request.req (.subnet (familyOf ip) (maskFor cfg ip) 0 (some p))
      simp only [getEdns0Option] at h
      split at h
      · cases h
      · rename_i os hos
        obtain ⟨r, hr, hd⟩ := lastOpt_mem hos
        exact ⟨r, hr, os, hd, List.mem_of_find?_eq_some h⟩
    · intro x hx h8
      rcases carries_set hone hx with h | ⟨h, _⟩
      · exact h
      · exact absurd h8 h

/-- Everything except the client address and the EDNS0 data of the request is handed on unchanged. -/
theorem C28_rest_unchanged (cfg : Cfg) (request r : Request) (h : transform cfg request = some r) :
    SameOutsideExtra r.req request.req ∧ plainRecords r.req.extra = plainRecords request.req.extra ∧
    r.requestClientID = request.requestClientID ∧ r.protocol = request.protocol ∧ r.clientNames = request.clientNames := by
  unfold transform at h
  split at h
  · simp only at h
    split at h
    · split at h
      · cases h
      · cases h; exact ⟨rfl, rfl, rfl, rfl, rfl⟩
      · rename_i o _
        cases h
        exact ⟨(C29_only_opt_changes request.req o 0).1.1, (C29_only_opt_changes request.req o 0).1.2, rfl, rfl, rfl⟩
    · split at h
      · cases h
        have := C29_only_opt_changes request.req (.ede 0 []) 8
        exact ⟨this.2.1.1, this.2.1.2, rfl, rfl, rfl⟩
      · cases h; exact ⟨rfl, rfl, rfl, rfl, rfl⟩
  · cases h; exact ⟨rfl, rfl, rfl, rfl, rfl⟩

/-- A request with the client's own subnet option (full address). -/
def ecsRequest (client : IP) : Request :=
  { clientIP := some client, req := { extra := [freshOpt [sampleSubnet 0x01020304#32]] } }

/-- **C28 is false as stated, 1.** With the resolver switched off altogether (no options set), clients'
subnet options go to the upstreams as they are. -/
theorem C28_disabled_leaks :
    ∃ (cfg : Cfg) (request r : Request), cfg.forward = false ∧ cfg.ipv4Mask = 0 ∧ cfg.ipv6Mask = 0 ∧
      transform cfg request = some r ∧ Carries r.req (sampleSubnet 0x01020304#32) :=
  ⟨{}, ecsRequest (.v4 1), ecsRequest (.v4 1), rfl, rfl, rfl, rfl, _, List.mem_cons_self, _, rfl, by simp⟩

/-- **C28 is false as stated, 2.** With only an IPv4 prefix length configured, the subnet option of a
client connected by IPv6 is forwarded with the full address. -/
theorem C28_other_family_leaks :
    ∃ (cfg : Cfg) (request r : Request), cfg.forward = false ∧ cfg.ipv4Mask = 24 ∧ OneSubnet request.req ∧
      transform cfg request = some r ∧ Carries r.req (sampleSubnet 0x01020304#32) :=
  ⟨{ ipv4Mask := 24 }, ecsRequest (.v6 1), ecsRequest (.v6 1), rfl, rfl, ⟨by decide, by
    intro os h
    have : os = [sampleSubnet 0x01020304#32] := by
      have h' : some [sampleSubnet 0x01020304#32] = some os := h
      exact (Option.some.inj h').symm
    rw [this]
    decide⟩, rfl, _, List.mem_cons_self, _, rfl, by simp⟩

/-- **C28 is false as stated, 3.** Of two subnet options only the first is removed. -/
theorem C28_second_option_leaks :
    ∃ (cfg : Cfg) (request r : Request), cfg.isEnabled = true ∧ cfg.forward = false ∧ cfg.ipv4Mask = 0 ∧
      cfg.ipv6Mask = 0 ∧ transform cfg request = some r ∧ Carries r.req (sampleSubnet 2) :=
  ⟨{ useAsClient := true }, { req := { extra := [freshOpt [sampleSubnet 1, sampleSubnet 2]] } },
    { clientIP := some (.v4 1), req := { extra := [freshOpt [sampleSubnet 2]] } }, rfl, rfl, rfl, rfl, rfl,
    _, List.mem_cons_self, _, rfl, by simp⟩

/-- With only an IPv6 prefix length (longer than 32 bits) configured, every query of an IPv4 client
panics in this resolver: the IPv4 address is masked with the IPv6 length. -/
theorem C28_ipv6_only_panics {W : Type} (cfg : Cfg) (hf : cfg.forward = false) (hu : cfg.useAsClient = false)
    (h4 : cfg.ipv4Mask = 0) (h6 : 32 < cfg.ipv6Mask) (request : Request) (a : BitVec 32)
    (hip : request.clientIP = some (.v4 a)) (next : Resolver W) (w : W) :
    ecs cfg next request w = (.panic, w) := by
  have he : effectiveClient cfg (getEdns0Option request.req 8) request.clientIP = some (.v4 a) := by
    unfold effectiveClient
    split <;> simp [hu, hip]
  have hs : ∀ so, subnetSource cfg so (some (.v4 a)) = some (.v4 a) := by
    intro so
    unfold subnetSource
    split <;> simp [hf]
  have hpos : 0 < cfg.ipv6Mask := by omega
  have hn : ¬ cfg.ipv6Mask ≤ 32 := by omega
  unfold ecs transform
  simp [Cfg.isEnabled, h4, hf, hu, hpos, he, hs, newOption, maskIP, networkOf, hn]

/-- **C28 is false as stated, 3.** With only an IPv6 prefix length of at most 32 bits configured, every
query of an IPv4 client gets an option that claims the IPv6 family but carries an IPv4 address. -/
theorem C28_ipv6_only_mixed (cfg : Cfg) (hf : cfg.forward = false) (hu : cfg.useAsClient = false)
    (h4 : cfg.ipv4Mask = 0) (h0 : 0 < cfg.ipv6Mask) (h6 : cfg.ipv6Mask ≤ 32) (request : Request) (a : BitVec 32)
    (hone : optCount request.req.extra ≤ 1) (hip : request.clientIP = some (.v4 a)) :
    ∃ r p, transform cfg request = some r ∧ IsPrefixOf cfg.ipv6Mask p (.v4 a) ∧
      Carries r.req (.subnet 2 cfg.ipv6Mask 0 (some p)) ∧
      ∀ x, Carries r.req x → x.code = 8 → x = .subnet 2 cfg.ipv6Mask 0 (some p) := by
  have he : effectiveClient cfg (getEdns0Option request.req 8) request.clientIP = some (.v4 a) := by
    unfold effectiveClient
    split <;> simp [hu, hip]
  have hs : ∀ so, subnetSource cfg so (some (.v4 a)) = some (.v4 a) := by
    intro so
    unfold subnetSource
    split <;> simp [hf]
  have hn : ∃ p, networkOf (.v4 a) cfg.ipv6Mask = some p ∧
      newOption cfg (some (.v4 a)) = some (some (.subnet 2 cfg.ipv6Mask 0 (some p))) := by
    refine ⟨_, if_pos h6, ?_⟩
    simp [newOption, h4, h0, maskIP, networkOf, h6]
  obtain ⟨p, hp, hn⟩ := hn
  refine ⟨{ request with clientIP := some (.v4 a), req := setEdns0Option request.req (.subnet 2 cfg.ipv6Mask 0 (some p)) },
    p, ?_, networkOf_spec hp, ?_, ?_⟩
  · unfold transform
    simp [Cfg.isEnabled, h4, hf, hu, h0, he, hs, hn]
  · have h := C29_set_get request.req (.subnet 2 cfg.ipv6Mask 0 (some p))
    simp only [getEdns0Option] at h
    split at h
    · cases h
    · rename_i os hos
      obtain ⟨r, hr, hd⟩ := lastOpt_mem hos
      exact ⟨r, hr, os, hd, List.mem_of_find?_eq_some h⟩
  · intro x hx h8
    rcases carries_set hone hx with h | ⟨h, _⟩
    · exact h
    · exact absurd h8 h

-- Concrete instances.
example : (transform { ipv6Mask := 24 } (ecsRequest (.v4 0x0a0b0c0d#32))).map (·.req.extra) =
    some [freshOpt [.subnet 2 24 0 (some (.v4 0x0a0b0c00#32))]] := by decide

example : (effectiveClient { ipv4Mask := 24 } (getEdns0Option (ecsRequest (.v4 0x0a0b0c0d#32)).req 8)
    (ecsRequest (.v4 0x0a0b0c0d#32)).clientIP = some (.v4 0x0a0b0c0d#32)) ∧
  (transform { ipv4Mask := 24 } (ecsRequest (.v4 0x0a0b0c0d#32))).map (·.req.extra) =
    some [freshOpt [.subnet 1 24 0 (some (.v4 0x0a0b0c00#32))]] := by decide

example : (transform { forward := true, ipv4Mask := 24 } (ecsRequest (.v4 0x0a0b0c0d#32))).map (·.req.extra) =
    some [freshOpt [.subnet 1 24 0 (some (.v4 0x01020300#32))]] := by decide

end Verif.Props
