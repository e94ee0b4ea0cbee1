/-
C135: what is written under `bootstrapDns` is what the server uses, in all forms it may be written in.
-/
import Verif.Model.BootForms
import Verif.Props.ConfigText

namespace Verif.Props
open Verif.Dns Verif.BootForms

/-! ### Specification -/

/-- Reading a mapping into the fields of an upstream succeeds with their names as keys only (strict reading). -/
def StrictFields (env : BootForms.Env) : Prop :=
  ∀ fs u, env.direct fs = some u → ∀ f ∈ fs, f.1 ∈ [str! "net", str! "host", str! "port", str! "path", str! "commonname"]

/-- A node stands for an upstream: as text, or field by field (which is not documented). -/
inductive WritesUpstream (env : BootForms.Env) : Node → UpstreamUrl.Upstream → Prop
  | text {s u} : UpstreamUrl.parse env.isIP s = some u → WritesUpstream env (.scalar s) u
  | byField {fs u} : env.direct fs = some u → WritesUpstream env (.map fs) u

/-- A node lists addresses, in order. -/
def ListsAddresses (env : BootForms.Env) (n : Node) (ips : List IP) : Prop :=
  ∃ texts : List Str, n = .seq (texts.map .scalar) ∧ texts.map env.readIP = ips.map some

/-- A mapping with the keys "upstream" and "ips", each at most once, in any order. -/
structure LongForm (env : BootForms.Env) (fs : List (Str × Node)) (x : ConfigText.BootItem) : Prop where
  once : (fs.map Prod.fst).Nodup
  keys : ∀ f ∈ fs, f.1 = str! "upstream" ∨ f.1 = str! "ips"
  upstream : ∀ n, (str! "upstream", n) ∈ fs → WritesUpstream env n x.upstream
  noUpstream : (∀ n, (str! "upstream", n) ∉ fs) → x.upstream = {}
  ips : ∀ n, (str! "ips", n) ∈ fs → ListsAddresses env n x.ips
  noIPs : (∀ n, (str! "ips", n) ∉ fs) → x.ips = []

/-- A node stands for a bootstrap server. -/
inductive WritesServer (env : BootForms.Env) : Node → ConfigText.BootItem → Prop
  | short {n u} : WritesUpstream env n u → WritesServer env n ⟨u, []⟩
  | long {fs x} : fs ≠ [] → LongForm env fs x → WritesServer env (.map fs) x

/-! ### Reading -/

variable {env : BootForms.Env}

theorem upstream_iff (n : Node) (u : UpstreamUrl.Upstream) : BootForms.upstream env n = some u ↔ WritesUpstream env n u := by
  constructor
  · intro h
    cases n with
    | scalar s => exact .text h
    | map fs => exact .byField h
    | seq _ => cases h
  · rintro (h | h) <;> exact h

theorem readIPs_iff (items : List Node) : ∀ ips, items.mapM (fun n => match n with | .scalar s => env.readIP s | _ => none) = some ips ↔
    ∃ texts : List Str, items = texts.map .scalar ∧ texts.map env.readIP = ips.map some := by
  induction items with
  | nil =>
    intro ips
    simp only [List.mapM_nil]
    constructor
    · intro h
      cases h
      exact ⟨[], rfl, rfl⟩
    · rintro ⟨texts, h1, h2⟩
      have : texts = [] := by simpa using h1.symm
      subst this
      have : ips = [] := by simpa using h2.symm
      rw [this]
      rfl
  | cons n items ih =>
    intro ips
    simp only [List.mapM_cons, Option.bind_eq_bind, Option.bind_eq_some_iff]
    constructor
    · rintro ⟨ip, h1, rest, h2, h3⟩
      cases h3
      obtain ⟨texts, h4, h5⟩ := (ih rest).1 h2
      cases n with
      | scalar s => exact ⟨s :: texts, by rw [h4]; rfl, by simp only [List.map_cons, h5]; rw [show env.readIP s = some ip from h1]⟩
      | seq _ => cases h1
      | map _ => cases h1
    · rintro ⟨texts, h1, h2⟩
      cases texts with
      | nil => cases h1
      | cons s texts =>
        cases h1
        cases ips with
        | nil => cases h2
        | cons ip ips =>
          simp only [List.map_cons, List.cons.injEq] at h2
          exact ⟨ip, h2.1, ips, (ih ips).2 ⟨texts, rfl, h2.2⟩, rfl⟩

theorem addresses_iff (n : Node) (ips : List IP) : addresses env n = some ips ↔ ListsAddresses env n ips := by
  cases n with
  | seq items =>
    refine Iff.trans (show addresses env (.seq items) = some ips ↔ _ from readIPs_iff items ips) ?_
    constructor
    · rintro ⟨t, rfl, h⟩
      exact ⟨t, rfl, h⟩
    · rintro ⟨t, h1, h⟩
      cases h1
      exact ⟨t, rfl, h⟩
  | scalar _ => exact ⟨fun h => (nomatch (show none = some ips from h)), fun ⟨_, h, _⟩ => nomatch h⟩
  | map _ => exact ⟨fun h => (nomatch (show none = some ips from h)), fun ⟨_, h, _⟩ => nomatch h⟩

theorem fields_iff (fs : List (Str × Node)) : ∀ u ips x, fields env fs u ips = some x ↔
    (fs.map Prod.fst).Nodup ∧ (∀ f ∈ fs, f.1 = str! "upstream" ∨ f.1 = str! "ips") ∧
    (∀ n, (str! "upstream", n) ∈ fs → u = none ∧ WritesUpstream env n x.upstream) ∧ ((∀ n, (str! "upstream", n) ∉ fs) → x.upstream = u.getD {}) ∧
    (∀ n, (str! "ips", n) ∈ fs → ips = none ∧ ListsAddresses env n x.ips) ∧ ((∀ n, (str! "ips", n) ∉ fs) → x.ips = ips.getD []) := by
  have hne : str! "ips" ≠ str! "upstream" := by decide
  induction fs with
  | nil =>
    intro u ips x
    simp only [fields]
    constructor
    · intro h
      cases h
      exact ⟨List.nodup_nil, (fun _ h => nomatch h), (fun _ h => nomatch h), fun _ => rfl, (fun _ h => nomatch h), fun _ => rfl⟩
    · rintro ⟨_, _, _, h1, _, h2⟩
      obtain ⟨a, b⟩ := x
      simp only at h1 h2
      rw [h1 (fun _ h => nomatch h), h2 (fun _ h => nomatch h)]
  | cons f fs ih =>
    intro u ips x
    obtain ⟨k, n⟩ := f
    unfold fields
    by_cases hk : k = str! "upstream"
    · subst hk
      rw [if_pos rfl]
      refine Iff.trans (b := ∃ y, u = none ∧ BootForms.upstream env n = some y ∧ fields env fs (some y) ips = some x) ?_ ?_
      · cases u with
        | some _ => exact ⟨fun h => by simp at h, fun ⟨_, h, _⟩ => nomatch h⟩
        | none =>
          cases BootForms.upstream env n with
          | none => exact ⟨(fun h => nomatch h), fun ⟨_, _, h, _⟩ => nomatch h⟩
          | some y => exact ⟨fun h => ⟨y, rfl, rfl, h⟩, fun ⟨_, _, h, h'⟩ => by cases h; exact h'⟩
      constructor
      · rintro ⟨y, h1, h2, h3⟩
        obtain ⟨g1, g2, g3, g4, g5, g6⟩ := (ih _ _ _).1 h3
        have hno : ∀ n, (str! "upstream", n) ∉ fs := fun n h => nomatch (g3 n h).1
        have hy : x.upstream = y := g4 hno
        refine ⟨?_, ?_, ?_, ?_, ?_, ?_⟩
        · simp only [List.map_cons, List.nodup_cons]
          refine ⟨fun h => ?_, g1⟩
          obtain ⟨⟨a, b⟩, hm, ha⟩ := List.mem_map.1 h
          simp only at ha
          subst ha
          exact hno b hm
        · intro f hf
          rcases List.mem_cons.1 hf with rfl | hf
          · exact .inl rfl
          · exact g2 f hf
        · intro m hm
          rcases List.mem_cons.1 hm with hm | hm
          · cases hm
            exact ⟨h1, by rw [hy]; exact (upstream_iff _ _).1 h2⟩
          · exact absurd hm (hno m)
        · exact fun h => absurd List.mem_cons_self (h n)
        · intro m hm
          rcases List.mem_cons.1 hm with hm | hm
          · exact absurd (congrArg Prod.fst hm) hne
          · exact g5 m hm
        · exact fun h => g6 (fun m hm => h m (List.mem_cons_of_mem _ hm))
      · rintro ⟨g1, g2, g3, g4, g5, g6⟩
        obtain ⟨h1, h2⟩ := g3 n List.mem_cons_self
        simp only [List.map_cons, List.nodup_cons] at g1
        have hno : ∀ n, (str! "upstream", n) ∉ fs := fun n h => g1.1 (List.mem_map.2 ⟨_, h, rfl⟩)
        refine ⟨x.upstream, h1, (upstream_iff _ _).2 h2, (ih _ _ _).2 ⟨g1.2, fun f hf => g2 f (List.mem_cons_of_mem _ hf), fun m hm => absurd hm (hno m),
          fun _ => rfl, fun m hm => g5 m (List.mem_cons_of_mem _ hm), fun h => g6 (fun m hm => ?_)⟩⟩
        rcases List.mem_cons.1 hm with hm | hm
        · exact absurd (congrArg Prod.fst hm) hne
        · exact h m hm
    · rw [if_neg hk]
      by_cases hk' : k = str! "ips"
      · subst hk'
        rw [if_pos rfl]
        refine Iff.trans (b := ∃ y, ips = none ∧ addresses env n = some y ∧ fields env fs u (some y) = some x) ?_ ?_
        · cases ips with
          | some _ => exact ⟨fun h => by simp at h, fun ⟨_, h, _⟩ => nomatch h⟩
          | none =>
            cases addresses env n with
            | none => exact ⟨(fun h => nomatch h), fun ⟨_, _, h, _⟩ => nomatch h⟩
            | some y => exact ⟨fun h => ⟨y, rfl, rfl, h⟩, fun ⟨_, _, h, h'⟩ => by cases h; exact h'⟩
        constructor
        · rintro ⟨y, h1, h2, h3⟩
          obtain ⟨g1, g2, g3, g4, g5, g6⟩ := (ih _ _ _).1 h3
          have hno : ∀ n, (str! "ips", n) ∉ fs := fun n h => nomatch (g5 n h).1
          have hy : x.ips = y := g6 hno
          refine ⟨?_, ?_, ?_, ?_, ?_, ?_⟩
          · simp only [List.map_cons, List.nodup_cons]
            refine ⟨fun h => ?_, g1⟩
            obtain ⟨⟨a, b⟩, hm, ha⟩ := List.mem_map.1 h
            simp only at ha
            subst ha
            exact hno b hm
          · intro f hf
            rcases List.mem_cons.1 hf with rfl | hf
            · exact .inr rfl
            · exact g2 f hf
          · intro m hm
            rcases List.mem_cons.1 hm with hm | hm
            · exact absurd (congrArg Prod.fst hm).symm hne
            · exact g3 m hm
          · exact fun h => g4 (fun m hm => h m (List.mem_cons_of_mem _ hm))
          · intro m hm
            rcases List.mem_cons.1 hm with hm | hm
            · cases hm
              exact ⟨h1, by rw [hy]; exact (addresses_iff _ _).1 h2⟩
            · exact absurd hm (hno m)
          · exact fun h => absurd List.mem_cons_self (h n)
        · rintro ⟨g1, g2, g3, g4, g5, g6⟩
          obtain ⟨h1, h2⟩ := g5 n List.mem_cons_self
          simp only [List.map_cons, List.nodup_cons] at g1
          have hno : ∀ n, (str! "ips", n) ∉ fs := fun n h => g1.1 (List.mem_map.2 ⟨_, h, rfl⟩)
          refine ⟨x.ips, h1, (addresses_iff _ _).2 h2, (ih _ _ _).2 ⟨g1.2, fun f hf => g2 f (List.mem_cons_of_mem _ hf),
            fun m hm => g3 m (List.mem_cons_of_mem _ hm), fun h => g4 (fun m hm => ?_), fun m hm => absurd hm (hno m), fun _ => rfl⟩⟩
          rcases List.mem_cons.1 hm with hm | hm
          · exact absurd (congrArg Prod.fst hm).symm hne
          · exact h m hm
      · rw [if_neg hk']
        refine ⟨(fun h => nomatch h), fun h => ?_⟩
        exact absurd (h.2.1 (k, n) List.mem_cons_self) (fun h => h.elim hk hk')

theorem fields_long (fs : List (Str × Node)) (x : ConfigText.BootItem) : fields env fs none none = some x ↔ LongForm env fs x := by
  rw [fields_iff]
  constructor
  · rintro ⟨h1, h2, h3, h4, h5, h6⟩
    exact ⟨h1, h2, fun n h => (h3 n h).2, h4, fun n h => (h5 n h).2, h6⟩
  · rintro ⟨h1, h2, h3, h4, h5, h6⟩
    exact ⟨h1, h2, fun n h => ⟨rfl, h3 n h⟩, h4, fun n h => ⟨rfl, h5 n h⟩, h6⟩

/-- **C135, one server.** A node is read as a bootstrap server exactly if it stands for it in one of the forms. -/
theorem C135_server (hs : StrictFields env) (hd : (env.direct []).isSome) (n : Node) (x : ConfigText.BootItem) : item env n = some x ↔ WritesServer env n x := by
  unfold item
  cases hu : BootForms.upstream env n with
  | some u =>
    simp only
    have hst := (upstream_iff n u).1 hu
    constructor
    · intro h
      cases h
      exact .short hst
    · rintro (h | ⟨hf, h⟩)
      · rw [(upstream_iff _ _).2 h] at hu
        cases hu
        rfl
      · exfalso
        rename_i fs
        cases fs with
        | nil => exact hf rfl
        | cons f fs =>
          have h1 := hs _ _ hu f List.mem_cons_self
          rcases h.keys f List.mem_cons_self with h2 | h2 <;> rw [h2] at h1 <;> exact absurd h1 (by decide)
  | none =>
    simp only
    constructor
    · intro h
      cases n with
      | map fs =>
        refine .long ?_ ((fields_long _ _).1 h)
        rintro rfl
        rw [show env.direct [] = none from hu] at hd
        cases hd
      | scalar _ => cases h
      | seq _ => cases h
    · rintro (h | ⟨_, h⟩)
      · rw [(upstream_iff _ _).2 h] at hu
        cases hu
      · exact (fields_long _ _).2 h

/-- **C135.** What is read from a list of nodes is one server for each of them, in order, and nothing if one of them is wrong; a node that is
no list is read like the list of this node. -/
theorem C135_read (hs : StrictFields env) (hd : (env.direct []).isSome) (xs : List ConfigText.BootItem) :
    (∀ ns, BootForms.read env (.seq ns) = some xs ↔ ns.length = xs.length ∧ ∀ p ∈ ns.zip xs, WritesServer env p.1 p.2) ∧
    (∀ n, (∀ ns, n ≠ .seq ns) → (BootForms.read env n = some xs ↔ ∃ x, xs = [x] ∧ WritesServer env n x) ∧
      BootForms.read env n = BootForms.read env (.seq [n])) := by
  have hseq : ∀ ns, BootForms.read env (.seq ns) = ns.mapM (item env) := fun _ => rfl
  constructor
  · intro ns
    rw [hseq]
    induction ns generalizing xs with
    | nil =>
      simp only [List.mapM_nil]
      constructor
      · intro h
        cases h
        exact ⟨rfl, fun _ h => nomatch h⟩
      · rintro ⟨h, _⟩
        have : xs = [] := by simpa using h.symm
        rw [this]
        rfl
    | cons n ns ih =>
      simp only [List.mapM_cons, Option.bind_eq_bind, Option.bind_eq_some_iff]
      constructor
      · rintro ⟨x, h1, rest, h2, h3⟩
        cases h3
        obtain ⟨g1, g2⟩ := (ih rest).1 h2
        refine ⟨by simp [g1], ?_⟩
        intro p hp
        rcases List.mem_cons.1 hp with rfl | hp
        · exact (C135_server hs hd _ _).1 h1
        · exact g2 p hp
      · rintro ⟨h1, h2⟩
        cases xs with
        | nil => cases h1
        | cons x xs =>
          exact ⟨x, (C135_server hs hd _ _).2 (h2 (n, x) List.mem_cons_self), xs,
            (ih xs).2 ⟨by simpa using h1, fun p hp => h2 p (List.mem_cons_of_mem _ hp)⟩, rfl⟩
  · intro n hn
    have hread : BootForms.read env n = (item env n).map (fun x => [x]) := by
      unfold BootForms.read
      cases item env n with
      | some x => rfl
      | none =>
        cases n with
        | seq ns => exact absurd rfl (hn ns)
        | _ => rfl
    constructor
    · rw [hread, Option.map_eq_some_iff]
      constructor
      · rintro ⟨x, h1, rfl⟩
        exact ⟨x, rfl, (C135_server hs hd _ _).1 h1⟩
      · rintro ⟨x, rfl, h⟩
        exact ⟨x, (C135_server hs hd _ _).2 h, rfl⟩
    · rw [hread, hseq]
      cases h : item env n <;> simp [List.mapM_cons, h]

/-- **C135, the documented forms.** An upstream as text alone, after "upstream", or together with addresses in any order of the two: all are read
as this upstream with these addresses. -/
theorem C135_forms (hs : StrictFields env) (hd : (env.direct []).isSome) (s : Str) (u : UpstreamUrl.Upstream) (hp : UpstreamUrl.parse env.isIP s = some u)
    (texts : List Str) (ips : List IP) (hi : texts.map env.readIP = ips.map some) :
    BootForms.read env (.scalar s) = some [⟨u, []⟩] ∧
    BootForms.read env (.map [(str! "upstream", .scalar s)]) = some [⟨u, []⟩] ∧
    BootForms.read env (.map [(str! "upstream", .scalar s), (str! "ips", .seq (texts.map .scalar))]) = some [⟨u, ips⟩] ∧
    BootForms.read env (.map [(str! "ips", .seq (texts.map .scalar)), (str! "upstream", .scalar s)]) = some [⟨u, ips⟩] := by
  have hr := fun n x (hn : ∀ ns, n ≠ Node.seq ns) (h : WritesServer env n x) => (((C135_read hs hd [x]).2 n hn).1).2 ⟨x, rfl, h⟩
  have hpn : WritesUpstream env (.scalar s) u := .text hp
  refine ⟨hr _ _ (fun _ h => nomatch h) (.short hpn), hr _ _ (fun _ h => nomatch h) (.long (by simp) ⟨?_, ?_, ?_, ?_, ?_, ?_⟩),
    hr _ _ (fun _ h => nomatch h) (.long (by simp) ⟨?_, ?_, ?_, ?_, ?_, ?_⟩), hr _ _ (fun _ h => nomatch h) (.long (by simp) ⟨?_, ?_, ?_, ?_, ?_, ?_⟩)⟩
  all_goals first
    | decide
    | (simp; done)
    | (intro n h; simp at h; subst h; first | exact hpn | exact ⟨texts, rfl, hi⟩)
    | (intro h; exact absurd (h (.scalar s)) (by simp))
    | (intro h; exact absurd (h (.seq (texts.map .scalar))) (by simp))

/-! ### Samples -/

/-- Reading single fields, as far as used here: the host. -/
def hostOnly : List (Str × Node) → Option UpstreamUrl.Upstream
  | [] => some {}
  | [(k, .scalar s)] => if k = str! "host" then some { host := s } else none
  | _ => none

/-- One address is known. -/
def formsEnv : BootForms.Env where
  isIP := fun s => s = str! "9.9.9.9"
  readIP := fun s => if s = str! "9.9.9.9" then some (.v4 0x09090909#32) else none
  direct := hostOnly

theorem forms_strict : StrictFields formsEnv := by
  intro fs u h f hf
  match fs, h, hf with
  | [(k, .scalar s)], h, hf =>
    have h : (if k = str! "host" then some ({ host := s } : UpstreamUrl.Upstream) else none) = some u := h
    cases List.mem_singleton.1 hf
    by_cases hk : k = str! "host"
    · simp [hk]
    · rw [if_neg hk] at h; cases h

-- what the theorems need
example : StrictFields formsEnv ∧ (formsEnv.direct []).isSome ∧
    UpstreamUrl.parse formsEnv.isIP (str! "tcp-tls:dns.org") = some ⟨.tcpTls, str! "dns.org", 853, [], []⟩ ∧
    [str! "9.9.9.9"].map formsEnv.readIP = [IP.v4 0x09090909#32].map some := ⟨forms_strict, rfl, by decide +kernel, by decide⟩

-- a list of two servers; a key that is misspelt
example : (BootForms.read formsEnv (.seq [.scalar (str! "9.9.9.9"), .map [(str! "ips", .seq [.scalar (str! "9.9.9.9")]), (str! "upstream", .scalar (str! "tcp-tls:dns.org"))]])).map
      (fun l => l.map (fun x => (x.upstream, x.ips))) =
    some [(⟨.tcpUdp, str! "9.9.9.9", 53, [], []⟩, []), (⟨.tcpTls, str! "dns.org", 853, [], []⟩, [.v4 0x09090909#32])] ∧
    (BootForms.read formsEnv (.seq [.scalar (str! "9.9.9.9"), .map [(str! "ip", .seq [.scalar (str! "9.9.9.9")]), (str! "upstream", .scalar (str! "tcp-tls:dns.org"))]])).isSome =
      false := by decide +kernel

/-- **C135** is false if every server has to be one that could be written as text: a mapping with the key "host" is read field by field,
without the checks and defaults of texts. The result has port 0, and the bootstrap takes it. -/
theorem C135_fields_false :
    (BootForms.read formsEnv (.map [(str! "host", .scalar (str! "9.9.9.9"))])).map (fun l => l.map (fun x => (x.upstream, x.ips))) =
      some [({ host := str! "9.9.9.9", port := 0 }, [])] ∧
    (ConfigText.bootstraped (fun s => formsEnv.readIP s) [⟨{ host := str! "9.9.9.9" }, []⟩]).isLeft = true := by decide +kernel

end Verif.Props
