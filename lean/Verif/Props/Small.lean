/-
C30, C42, C43: special-use names, extended errors, filtered query types.
-/
import Verif.Model.Small
import Verif.Spec.SpecialUse
import Verif.Props.Edns

namespace Verif.Props
open Dns Small Spec

variable {W : Type}

/-! ### C43 -/

/-- An empty successful reply to a query: same id, first question repeated, reply bit set, nothing in
any section. -/
def EmptySuccess (req res : Msg) : Prop :=
  res.id = req.id ∧ res.response = true ∧ res.rcode = 0 ∧ res.question = req.question.take 1 ∧
    res.answer = [] ∧ res.ns = [] ∧ res.extra = []

/-- **C43.** A query whose (first) question has a filtered type is answered at once with an empty
success, whatever the rest of the chain would do, and the rest is not even called (the world is
untouched). Any other query is passed on unchanged and the result is that of the rest. -/
theorem C43_filtered (types : List Nat) (request : Request) (q : Question) (qs : List Question)
    (hq : request.req.question = q :: qs) :
    (q.qtype ∈ types → ∃ r, r.rtype = .filtered ∧ EmptySuccess request.req r.res ∧
      ∀ (next : Resolver W) (w : W), filtering types next request w = (.ok r, w)) ∧
    (q.qtype ∉ types → ∀ (next : Resolver W) (w : W), filtering types next request w = next request w) := by
  constructor
  · intro h
    refine ⟨{ res := ({} : Msg).setRcode request.req rcodeSuccess, rtype := .filtered }, rfl, ?_, fun next w => ?_⟩
    · simp [EmptySuccess, Msg.setRcode, Msg.setReply, hq, rcodeSuccess]
    · simp only [filtering, hq]
      rw [if_pos (by simpa using h)]
  · intro h next w
    simp only [filtering, hq]
    rw [if_neg (by simpa using h)]

/-- Only the first question counts: in a message with two questions (possible over DoH) a filtered type
in the second one is passed on. -/
theorem C43_second_question_passes :
    ∃ (types : List Nat) (request : Request), (∃ q ∈ request.req.question, q.qtype ∈ types) ∧
      ∀ (next : Resolver Unit) (w : Unit), filtering types next request w = next request w :=
  ⟨[28], { req := { question := [⟨str! "a.", 1, 1⟩, ⟨str! "a.", 28, 1⟩] } }, by decide, fun _ _ => rfl⟩

example : filtering (W := Nat) [28] (fun _ w => (.err [], w + 1))
    { req := { id := 7, question := [⟨str! "a.", 28, 1⟩] } } 0 =
    (.ok { res := { id := 7, response := true, question := [⟨str! "a.", 28, 1⟩] }, rtype := .filtered }, 0) := by
  decide

/-! ### C42 -/

/-- The code of RFC 8914 for each way to produce a response; none for an ordinary upstream answer. -/
def rfc8914 : RType → Option Nat
  | .resolved => none
  | .cached => some 13      -- "Cached Error"
  | .blocked | .notfqdn => some 15   -- "Blocked"
  | .filtered | .special => some 17  -- "Filtered"
  | .conditional | .customdns | .hostsfile => some 4  -- "Forged Answer"

/-- **C42.** With extended errors enabled, the response of the rest of the chain gets the option with
the code of its kind and its reason; all other options, all other records, the header and the question
stay. Ordinary upstream answers, errors and missing responses are not touched. Disabled, nothing is
changed. The rest of the chain is called with the same request. -/
theorem C42_ede_partial (next : Resolver W) (request : Request) (w : W) :
    (ede false next request w = next request w) ∧
    ((ede true next request w).2 = (next request w).2) ∧
    (∀ r, (next request w).1 = .ok r →
      (rfc8914 r.rtype = none → (ede true next request w).1 = .ok r) ∧
      (∀ code, rfc8914 r.rtype = some code → ∃ r', (ede true next request w).1 = .ok r' ∧
        getEdns0Option r'.res 15 = some (.ede code r.reason) ∧
        (∀ c, c ≠ 15 → getEdns0Option r'.res c = getEdns0Option r.res c) ∧
        SameOutsideExtra r'.res r.res ∧ plainRecords r'.res.extra = plainRecords r.res.extra ∧
        r'.reason = r.reason ∧ r'.rtype = r.rtype)) ∧
    ((∀ r, (next request w).1 ≠ .ok r) → (ede true next request w).1 = (next request w).1) := by
  refine ⟨rfl, ?_, ?_, ?_⟩
  · simp only [ede, Bool.not_true, Bool.false_eq_true, if_false]
    cases h : next request w with
    | mk o w' => cases o <;> rfl
  · intro r hr
    have he : (ede true next request w).1 = .ok (addExtraReasoning r) := by
      simp only [ede, Bool.not_true, Bool.false_eq_true, if_false]
      cases h : next request w with
      | mk o w' => rw [h] at hr; cases hr; rfl
    constructor
    · intro hn
      rw [he]
      cases ht : r.rtype <;> rw [ht] at hn <;> simp [rfc8914] at hn
      simp [addExtraReasoning, ht, toExtendedErrorCode]
    · intro code hc
      have h0 : toExtendedErrorCode r.rtype = code ∧ code ≠ 0 := by
        cases ht : r.rtype <;> rw [ht] at hc <;> simp [rfc8914] at hc <;> subst hc <;> decide
      refine ⟨_, he, ?_⟩
      have hres : (addExtraReasoning r).res = setEdns0Option r.res (.ede code r.reason) := by
        simp [addExtraReasoning, h0.1, h0.2]
      have hrest : (addExtraReasoning r).reason = r.reason ∧ (addExtraReasoning r).rtype = r.rtype := by
        unfold addExtraReasoning; split <;> exact ⟨rfl, rfl⟩
      rw [hres]
      exact ⟨C29_set_get r.res (.ede code r.reason),
        fun c hc => C29_set_get_other r.res (.ede code r.reason) c hc,
        (C29_only_opt_changes r.res (.ede code r.reason) 0).1.1,
        (C29_only_opt_changes r.res (.ede code r.reason) 0).1.2, hrest⟩
  · intro h
    simp only [ede, Bool.not_true, Bool.false_eq_true, if_false]

/-- **C42 is false as stated.** In the chain of server.go, filtering and the FQDN check come before the
resolver that adds the codes: their responses have kinds with a code, but never carry one. -/
theorem C42_filtered_without_code :
    ∃ (request request' : Request) (r r' : Response),
      (∀ (next : Resolver W) (w : W), filtering [28] (fqdnOnly true (ede true next)) request w = (.ok r, w)) ∧
      (rfc8914 r.rtype).isSome ∧ getEdns0Option r.res 15 = none ∧
      (∀ (next : Resolver W) (w : W), filtering [28] (fqdnOnly true (ede true next)) request' w = (.ok r', w)) ∧
      (rfc8914 r'.rtype).isSome ∧ getEdns0Option r'.res 15 = none :=
  ⟨{ req := { question := [⟨str! "a.b.", 28, 1⟩] } }, { req := { question := [⟨str! "b.", 1, 1⟩] } },
    _, _, fun _ _ => rfl, by decide, by decide, fun _ _ => rfl, by decide, by decide⟩

/-- A cookie option. -/
def cookie : EOption := .other 10 (str! "ck") (by decide)

/-- A blocked response gets code 15 with its reason, next to an existing option. -/
example : (ede true (fun _ w => (.ok { res := { extra := [freshOpt [cookie]] }, reason := str! "BLOCKED (ads)", rtype := .blocked }, w)) { req := {} } ()).1 =
    .ok { res := { extra := [freshOpt [cookie, .ede 15 (str! "BLOCKED (ads)")]] }, reason := str! "BLOCKED (ads)", rtype := .blocked } := by decide

/-! ### The FQDN check -/

/-- **C43, names without a dot.** With the FQDN check enabled, a query for a name of a single label
is answered with NXDOMAIN and reaches no further resolver; any other query is passed on unchanged. -/
theorem C43_fqdn_only (request : Request) (q : Question) (qs : List Question)
    (hq : request.req.question = q :: qs) :
    ('.' ∉ extractDomain q.name → ∃ r, r.rtype = .notfqdn ∧ r.res.rcode = 3 ∧ r.res.answer = [] ∧
      ∀ (next : Resolver W) (w : W), fqdnOnly true next request w = (.ok r, w)) ∧
    ('.' ∈ extractDomain q.name → ∀ (next : Resolver W) (w : W), fqdnOnly true next request w = next request w) ∧
    (∀ (next : Resolver W) (w : W), fqdnOnly false next request w = next request w) := by
  refine ⟨?_, ?_, fun _ _ => rfl⟩
  · intro h
    refine ⟨{ res := { rcode := 3 }, reason := str! "NOTFQDN", rtype := .notfqdn }, rfl, rfl, rfl, fun next w => ?_⟩
    simp only [fqdnOnly, hq, if_true]
    rw [if_pos (by simpa using h)]
    rfl
  · intro h next w
    simp only [fqdnOnly, hq, if_true]
    rw [if_neg (by simpa using h)]

/-! ### C30 -/

/-- No zone of the table lies in another one. -/
theorem sudn_not_nested : ∀ e ∈ sudnHandlers, ∀ e' ∈ sudnHandlers,
    ('.' :: e'.1).isSuffixOf e.1 = false := by decide +kernel

theorem sudn_keys_ne : ∀ e ∈ sudnHandlers, e.1 ≠ [] := by decide +kernel

theorem sudn_classes : ∀ e ∈ sudnHandlers,
    (e.2 = .nxdomain ↔ Reserved e.1) ∧ (e.2 = .localhost ↔ e.1 = str! "localhost.") ∧
    (e.2 = .appendixG ↔ AppendixG e.1) ∧ (e.2 = .homeArpa ↔ e.1 = str! "home.arpa.") := by
  decide +kernel

theorem sudn_reserved : ∀ z, Reserved z → AMap.get sudnHandlers z = some .nxdomain := by
  rintro z (h | ⟨i, hi, rfl⟩ | ⟨c, hc, rfl⟩)
  · exact (by decide +kernel : ∀ z ∈ [str! "test.", str! "invalid.", str! "local.", str! "onion.", str! "10.in-addr.arpa.",
      str! "168.192.in-addr.arpa.", str! "254.169.in-addr.arpa."], AMap.get sudnHandlers z = some .nxdomain) z h
  · exact (by decide +kernel : ∀ i ∈ List.range 16,
      AMap.get sudnHandlers (Nat.toDigits 10 (16 + i) ++ str! ".172.in-addr.arpa.") = some .nxdomain) i hi
  · exact (by decide +kernel : ∀ c ∈ ['8', '9', 'a', 'b'],
      AMap.get sudnHandlers (c :: str! ".e.f.ip6.arpa.") = some .nxdomain) c hc

theorem sudn_appendixG : ∀ z, AppendixG z → AMap.get sudnHandlers z = some .appendixG := by
  intro z h
  exact (by decide +kernel : ∀ z ∈ [str! "intranet.", str! "internal.", str! "private.", str! "corp.", str! "home.", str! "lan."],
    AMap.get sudnHandlers z = some .appendixG) z h

/-- The handler found is that of the only zone of the table the name lies in. -/
theorem sudnHandler_iff (name : Str) (h : SudnHandler) :
    sudnHandler name = some h ↔ ∃ z, InZone name z ∧ AMap.get sudnHandlers z = some h := by
  unfold sudnHandler
  constructor
  · intro hs
    cases hw : walk (AMap.get sudnHandlers) (name.length + 1) name with
    | none => rw [hw] at hs; cases hs
    | some x =>
      obtain ⟨z, h'⟩ := x
      rw [hw] at hs
      cases hs
      obtain ⟨h1, _, h3, _⟩ := walk_some hw
      exact ⟨z, h1, h3⟩
  · rintro ⟨z, hz, hg⟩
    have hm := AMap.get_eq_some_mem hg
    have hne := sudn_keys_ne _ hm
    have : walk (AMap.get sudnHandlers) (name.length + 1) name = some (z, h) := by
      rw [walk_spec _ _ _ (by omega)]
      refine ⟨⟨hz, ⟨hne, by simp [hg]⟩, ?_⟩, hg⟩
      rintro z' hz' ⟨_, hs⟩
      obtain ⟨h', hh'⟩ := Option.isSome_iff_exists.1 hs
      have hm' := AMap.get_eq_some_mem hh'
      rcases Nat.lt_or_ge z.length z'.length with hl | hl
      · -- then z is a proper suffix of z'
        exfalso
        have : ('.' :: z).isSuffixOf z' = true := by
          rw [List.isSuffixOf_iff_suffix]
          have hsuf : ∀ {n z : Str}, InZone n z → ∀ m, m < n.length - z.length → True := fun _ _ _ => trivial
          have : ('.' :: z) <:+ name := by
            rcases hz with rfl | ⟨p, rfl⟩
            · have := InZone.length hz'
              omega
            · exact ⟨p, rfl⟩
          have h' : z' <:+ name := by
            rcases hz' with rfl | ⟨p, rfl⟩
            · exact List.suffix_refl _
            · exact ⟨p ++ ['.'], by simp⟩
          exact List.suffix_of_suffix_length_le this h' (by simp; omega)
        rw [sudn_not_nested _ hm' _ hm] at this
        cases this
      · exact hl
    rw [this]
    rfl

/-- **C30 for names in lower case.** With special-use handling enabled, a query for a special-use name
is answered locally - NXDOMAIN without records, or for localhost's addresses the loopback address -
whatever the rest of the chain does, which is not called. Every other name is passed on unchanged. -/
theorem C30_special_use_partial (cfg : SudnCfg) (henable : cfg.enable = true) (request : Request)
    (q : Question) (qs : List Question) (hq : request.req.question = q :: qs) (hlow : lower q.name = q.name) :
    (SpecialUse cfg.appendixG q.name (q.qtype == 43) → ∃ r, r.rtype = .special ∧
      r.res.question = [q] ∧ r.res.id = request.req.id ∧
      ((r.res.rcode = 3 ∧ r.res.answer = []) ∨
       (InZone q.name (str! "localhost.") ∧ r.res.rcode = 0 ∧
        ((q.qtype = 1 ∧ r.res.answer = [⟨q.name, 1, 1, 0, .a (.v4 0x7f000001#32)⟩]) ∨
         (q.qtype = 28 ∧ r.res.answer = [⟨q.name, 28, 1, 0, .aaaa (.v6 1#128)⟩])))) ∧
      ∀ (next : Resolver W) (w : W), sudn cfg next request w = (.ok r, w)) ∧
    (¬ SpecialUse cfg.appendixG q.name (q.qtype == 43) →
      ∀ (next : Resolver W) (w : W), sudn cfg next request w = next request w) := by
  have hnx : (newSudnResponse request rcodeNXDomain).rtype = .special ∧
      (newSudnResponse request rcodeNXDomain).res.question = [q] ∧
      (newSudnResponse request rcodeNXDomain).res.id = request.req.id ∧
      (newSudnResponse request rcodeNXDomain).res.rcode = 3 ∧
      (newSudnResponse request rcodeNXDomain).res.answer = [] := by
    simp [newSudnResponse, newResponse, Msg.setReply, hq, rcodeNXDomain]
  -- what the resolver does with a handler's response
  have hrun : ∀ r, (sudnHandler q.name).bind (callSudn cfg request q) = some r →
      ∀ (next : Resolver W) (w : W), sudn cfg next request w = (.ok r, w) := by
    intro r hr next w
    simp only [sudn, henable, Bool.not_true, Bool.false_eq_true, if_false, hq, hr]
  constructor
  · rintro ⟨z, hz, hcase⟩
    rw [hlow] at hz
    rcases hcase with h | rfl | ⟨hg, h⟩ | ⟨rfl, hds⟩
    · have := (sudnHandler_iff q.name .nxdomain).2 ⟨z, hz, sudn_reserved z h⟩
      exact ⟨_, hnx.1, hnx.2.1, hnx.2.2.1, .inl hnx.2.2.2, hrun _ (by rw [this]; rfl)⟩
    · have := (sudnHandler_iff q.name .localhost).2 ⟨_, hz, by decide +kernel⟩
      refine ⟨sudnLocalhost request q, ?_, ?_, ?_, ?_, hrun _ (by rw [this]; rfl)⟩
      · unfold sudnLocalhost
        split
        · rfl
        · split <;> rfl
      · unfold sudnLocalhost
        split
        · simp [newSudnResponse, newResponse, Msg.setReply, hq]
        · split <;> simp [newSudnResponse, newResponse, Msg.setReply, hq]
      · unfold sudnLocalhost
        split
        · rfl
        · split <;> rfl
      · unfold sudnLocalhost
        by_cases hA : q.qtype = typeA
        · rw [if_pos hA]
          exact .inr ⟨hz, rfl, .inl ⟨hA, by simp [hA, typeA]⟩⟩
        · rw [if_neg hA]
          by_cases h4 : q.qtype = typeAAAA
          · rw [if_pos h4]
            exact .inr ⟨hz, rfl, .inr ⟨h4, by simp [h4, typeAAAA]⟩⟩
          · rw [if_neg h4]
            exact .inl hnx.2.2.2
    · have := (sudnHandler_iff q.name .appendixG).2 ⟨z, hz, sudn_appendixG z h⟩
      refine ⟨_, hnx.1, hnx.2.1, hnx.2.2.1, .inl hnx.2.2.2, hrun _ ?_⟩
      rw [this]
      simp [callSudn, hg]
    · have := (sudnHandler_iff q.name .homeArpa).2 ⟨_, hz, by decide +kernel⟩
      refine ⟨_, hnx.1, hnx.2.1, hnx.2.2.1, .inl hnx.2.2.2, hrun _ ?_⟩
      have : q.qtype ≠ 43 := by simpa using hds
      simp [*, callSudn, typeDS]
  · intro hns next w
    have hnone : (sudnHandler q.name).bind (callSudn cfg request q) = none := by
      cases hh : sudnHandler q.name with
      | none => rfl
      | some h =>
        obtain ⟨z, hz, hg⟩ := (sudnHandler_iff q.name h).1 hh
        obtain ⟨c1, c2, c3, c4⟩ := sudn_classes _ (AMap.get_eq_some_mem hg)
        simp only at c1 c2 c3 c4
        have hz' : InZone (lower q.name) z := by rw [hlow]; exact hz
        cases h with
        | nxdomain => exact absurd ⟨z, hz', .inl (c1.1 rfl)⟩ hns
        | localhost => exact absurd ⟨z, hz', .inr (.inl (c2.1 rfl))⟩ hns
        | pass => rfl
        | appendixG =>
          show (if (!cfg.appendixG) = true then none else _) = none
          cases hgx : cfg.appendixG with
          | false => rfl
          | true => exact absurd ⟨z, hz', .inr (.inr (.inl ⟨hgx, c3.1 rfl⟩))⟩ hns
        | homeArpa =>
          show (if q.qtype = typeDS then none else _) = none
          by_cases hds : q.qtype = typeDS
          · rw [if_pos hds]
          · exact absurd ⟨z, hz', .inr (.inr (.inr ⟨c4.1 rfl, by simpa [typeDS] using hds⟩))⟩ hns
    simp only [sudn, henable, Bool.not_true, Bool.false_eq_true, if_false, hq, hnone]

theorem lower_inZone {n z : Str} (h : InZone n z) : InZone (lower n) (lower z) := by
  rcases h with rfl | ⟨p, rfl⟩
  · exact .inl rfl
  · exact .inr ⟨lower p, by simp [lower, lowerChar]⟩

/-- **C30, other names.** A name that is not special, in any letter case, is passed on unchanged. -/
theorem C30_others (cfg : SudnCfg) (request : Request) (q : Question) (qs : List Question) (hq : request.req.question = q :: qs)
    (hns : ¬ SpecialUse cfg.appendixG q.name (q.qtype == 43)) (next : Resolver W) (w : W) :
    sudn cfg next request w = next request w := by
  have hnone : (sudnHandler q.name).bind (callSudn cfg request q) = none := by
    cases hh : sudnHandler q.name with
    | none => rfl
    | some h =>
      obtain ⟨z, hz, hg⟩ := (sudnHandler_iff q.name h).1 hh
      have hmem := AMap.get_eq_some_mem hg
      obtain ⟨c1, c2, c3, c4⟩ := sudn_classes _ hmem
      simp only at c1 c2 c3 c4
      have hlz : lower z = z := by
        have : ∀ e ∈ sudnHandlers, lower e.1 = e.1 := by decide +kernel
        exact this _ hmem
      have hz' : InZone (lower q.name) z := by
        have := lower_inZone hz
        rwa [hlz] at this
      cases h with
      | nxdomain => exact absurd ⟨z, hz', .inl (c1.1 rfl)⟩ hns
      | localhost => exact absurd ⟨z, hz', .inr (.inl (c2.1 rfl))⟩ hns
      | pass => rfl
      | appendixG =>
        show (if (!cfg.appendixG) = true then none else _) = none
        cases hgx : cfg.appendixG with
        | false => rfl
        | true => exact absurd ⟨z, hz', .inr (.inr (.inl ⟨hgx, c3.1 rfl⟩))⟩ hns
      | homeArpa =>
        show (if q.qtype = typeDS then none else _) = none
        by_cases hds : q.qtype = typeDS
        · rw [if_pos hds]
        · exact absurd ⟨z, hz', .inr (.inr (.inr ⟨c4.1 rfl, by simpa [typeDS] using hds⟩))⟩ hns
  cases he : cfg.enable with
  | false => simp only [sudn, he, Bool.not_false, if_true]
  | true => simp only [sudn, he, Bool.not_true, Bool.false_eq_true, if_false, hq, hnone]

/-- **C30 is false as stated.** The table is looked up with the name as the client wrote it: a query for
`printer.LOCAL.` is sent upstream. -/
theorem C30_upper_case_leaks :
    ∃ (request : Request) (q : Question), request.req.question = [q] ∧ SpecialUse true q.name (q.qtype == 43) ∧
      ∀ (next : Resolver W) (w : W), sudn ⟨true, true⟩ next request w = next request w :=
  ⟨{ req := { question := [⟨str! "printer.LOCAL.", 1, 1⟩] } }, _, rfl,
    ⟨str! "local.", .inr ⟨str! "printer", by decide⟩, .inl (by decide)⟩, fun _ _ => rfl⟩

/-- Concrete: a private reverse name in lower case is special, an ordinary name is not. -/
example : SpecialUse true (str! "1.0.17.172.in-addr.arpa.") false :=
  ⟨str! "17.172.in-addr.arpa.", .inr ⟨str! "1.0", by decide⟩, .inl (by decide)⟩

example : (sudn (W := Nat) ⟨true, true⟩ (fun _ w => (.err [], w + 1))
    { req := { question := [⟨str! "x.localhost.", 1, 1⟩] } } 0).2 = 0 ∧
    (sudn (W := Nat) ⟨true, true⟩ (fun _ w => (.err [], w + 1))
    { req := { question := [⟨str! "x.localhost.org.", 1, 1⟩] } } 0).2 = 1 := by decide

end Verif.Props
