/-
C26, C27: conditional upstreams and rewriting.
-/
import Verif.Model.Conditional
import Verif.Base.ListLemmas

namespace Verif.Props
open Dns Cond Spec

variable {W : Type}

/-! ### C26 -/

/-- A zone is configured (the letter case of the configuration does not matter). -/
def Configured (cfg : List (Str × Resolver W)) (z : Str) : Prop := ∃ e ∈ cfg, lower e.1 = z

/-- What forwarding a query to a group of upstreams means: the group is asked the same message with
the first question's name in lower case; its answer comes back as "conditional" answer with all
records unchanged (only the name in the question section is set to the name asked); its errors come
back unchanged. -/
def ForwardedTo (r : Resolver W) (request : Request) (q : Question) (w : W) (result : Outcome × Msg × W) : Prop :=
  ∃ asked : Request,
    asked = { request with req := { request.req with
      question := { q with name := fqdn (extractDomain q.name) } :: request.req.question.tail } } ∧
    result.2.2 = (r asked w).2 ∧
    (∀ e, (r asked w).1 = .err e → result.1 = .err e) ∧
    (∀ x, (r asked w).1 = .ok x → ∃ y, result.1 = .ok y ∧ y.rtype = .conditional ∧
      { y.res with question := [] } = { x.res with question := [] } ∧
      (∀ b bs, x.res.question = b :: bs → y.res.question = { b with name := fqdn (extractDomain q.name) } :: bs))

theorem internalResolve_forwarded (r : Resolver W) (request : Request) (q : Question) (qs : List Question)
    (hq : request.req.question = q :: qs) (w : W) :
    ForwardedTo r request q w (internalResolve r (extractDomain q.name) request w) := by
  refine ⟨_, rfl, ?_⟩
  unfold internalResolve
  have hset : setName (fqdn (extractDomain q.name)) request.req.question =
      { q with name := fqdn (extractDomain q.name) } :: request.req.question.tail := by
    rw [hq]; rfl
  rw [hset]
  simp only
  generalize r _ w = x
  obtain ⟨o, w'⟩ := x
  cases o with
  | ok y =>
    refine ⟨rfl, by simp, ?_⟩
    intro x hx
    cases hx
    refine ⟨_, rfl, rfl, rfl, ?_⟩
    intro b bs hb
    simp [hb, setName]
  | noResponse => exact ⟨rfl, by simp, by simp⟩
  | err e => exact ⟨rfl, fun e' h => h, by simp⟩
  | panic => exact ⟨rfl, by simp, by simp⟩

theorem buildMapping_get (cfg : List (Str × Resolver W)) (m : AMap Str (Resolver W)) (z : Str) :
    (AMap.get (buildMapping cfg m) z = AMap.get m z ∧ ¬ Configured cfg z) ∨
    (∃ e ∈ cfg, lower e.1 = z ∧ AMap.get (buildMapping cfg m) z = some e.2) := by
  induction cfg generalizing m with
  | nil => exact .inl ⟨rfl, by rintro ⟨e, he, _⟩; simp at he⟩
  | cons e cfg ih =>
    obtain ⟨domain, r⟩ := e
    rcases ih (m.put (lower domain) r) with ⟨h1, h2⟩ | ⟨e, he, h1, h2⟩
    · by_cases hd : lower domain = z
      · right
        refine ⟨(domain, r), by simp, hd, ?_⟩
        show AMap.get (buildMapping cfg (m.put (lower domain) r)) z = _
        rw [h1, hd, AMap.get_put_self]
      · left
        refine ⟨?_, ?_⟩
        · show AMap.get (buildMapping cfg (m.put (lower domain) r)) z = _
          rw [h1, AMap.get_put_ne m r hd]
        · rintro ⟨e, he, hl⟩
          rcases List.mem_cons.1 he with rfl | he
          · exact hd hl
          · exact h2 ⟨e, he, hl⟩
    · exact .inr ⟨e, by simp [he], h1, h2⟩

theorem buildMapping_isSome (cfg : List (Str × Resolver W)) (z : Str) :
    (AMap.get (buildMapping cfg []) z).isSome = true ↔ Configured cfg z := by
  rcases buildMapping_get cfg [] z with ⟨h1, h2⟩ | ⟨e, he, h1, h2⟩
  · rw [h1]; simp [h2]
  · rw [h2]; simp only [Option.isSome_some, true_iff]; exact ⟨e, he, h1⟩

theorem buildMapping_length (cfg : List (Str × Resolver W)) (z : Str) (h : Configured cfg z) :
    (buildMapping cfg []).length > 0 := by
  have := (buildMapping_isSome cfg z).2 h
  cases hb : buildMapping cfg [] with
  | nil => rw [hb] at this; simp at this
  | cons a as => simp

/-- **C26.** A query whose name has several labels is forwarded to the upstreams of the longest
configured zone it lies in; a query for a single label is forwarded to those of the zone "." if
configured; every other query is passed on unchanged. In every order of the configuration map. -/
theorem C26_most_specific (cfg : List (Str × Resolver W)) (next : MResolver W) (request : Request)
    (q : Question) (qs : List Question) (hq : request.req.question = q :: qs) (w : W) :
    let name := extractDomain q.name
    let result := conditional (buildMapping cfg []) next request w
    (∀ z, '.' ∈ name → Longest (fun z => z ≠ [] ∧ Configured cfg z) name z →
      ∃ e ∈ cfg, lower e.1 = z ∧ ForwardedTo e.2 request q w result) ∧
    ('.' ∉ name → Configured cfg (str! ".") →
      ∃ e ∈ cfg, lower e.1 = str! "." ∧ ForwardedTo e.2 request q w result) ∧
    (('.' ∈ name → ∀ z, InZone name z → z ≠ [] → ¬ Configured cfg z) →
      ('.' ∉ name → ¬ Configured cfg (str! ".")) → result = next request w) := by
  simp only
  have hP : (fun z => z ≠ [] ∧ Configured cfg z) =
      (fun z : Str => z ≠ [] ∧ (AMap.get (buildMapping cfg []) z).isSome = true) := by
    funext z
    rw [buildMapping_isSome]
  have fwd : ∀ z r, Configured cfg z → lookup (buildMapping cfg []) (extractDomain q.name) = some r →
      ForwardedTo r request q w (conditional (buildMapping cfg []) next request w) := by
    intro z r hz hl
    unfold conditional
    rw [if_pos (buildMapping_length cfg z hz)]
    simp only [hq, hl]
    exact internalResolve_forwarded r request q qs hq w
  refine ⟨?_, ?_, ?_⟩
  · intro z hdot hz
    have hconf := hz.2.1.2
    rcases buildMapping_get cfg [] z with ⟨_, h2⟩ | ⟨e, he, h1, h2⟩
    · exact absurd hconf h2
    · refine ⟨e, he, h1, fwd z e.2 hconf ?_⟩
      have hw := (walk_spec (AMap.get (buildMapping cfg [])) ((extractDomain q.name).length + 1)
        (extractDomain q.name) (by omega) z e.2).2 ⟨by rw [← hP]; exact hz, h2⟩
      unfold lookup
      rw [if_pos (by simpa using hdot), hw]
      rfl
  · intro hdot hconf
    rcases buildMapping_get cfg [] (str! ".") with ⟨_, h2⟩ | ⟨e, he, h1, h2⟩
    · exact absurd hconf h2
    · refine ⟨e, he, h1, fwd _ e.2 hconf ?_⟩
      unfold lookup
      rw [if_neg (by simpa using hdot)]
      exact h2
  · intro h1 h2
    have hl : lookup (buildMapping cfg []) (extractDomain q.name) = none := by
      unfold lookup
      by_cases hdot : '.' ∈ extractDomain q.name
      · rw [if_pos (by simpa using hdot), (walk_eq_none _ _ _ (by omega)).2]
        · rfl
        · intro z hz hne
          have := h1 hdot z hz hne
          rw [← buildMapping_isSome] at this
          simpa using this
      · rw [if_neg (by simpa using hdot)]
        have := h2 hdot
        rw [← buildMapping_isSome] at this
        simpa using this
    unfold conditional
    split
    · simp only [hq, hl]
    · rfl

/-- A mapping for a single label is not used for that very label as name (only for names below it):
`fritz` goes on although `fritz` is configured. -/
theorem C26_single_label_zone_not_used (r : Resolver W) (next : MResolver W) (w : W) :
    conditional (buildMapping [(str! "fritz", r)] []) next { req := { question := [⟨str! "fritz.", 1, 1⟩] } } w =
      next { req := { question := [⟨str! "fritz.", 1, 1⟩] } } w := rfl

/-- The name is sent, and shown to the client, in lower case: the question section of the response
differs from the client's question if that was written otherwise. -/
theorem C26_question_case_lost : ∃ (request : Request) (y : Response) (r : Resolver Unit),
    (∀ req' w, (r req' w).1 = .ok { res := ({} : Msg).setReply req'.req }) ∧
    (conditional (buildMapping [(str! "lan", r)] []) (pure noop') request ()).1 = .ok y ∧
    y.res.question ≠ request.req.question :=
  ⟨{ req := { question := [⟨str! "NAS.lan.", 1, 1⟩] } }, _,
    fun req' w => (.ok { res := ({} : Msg).setReply req'.req }, w), fun _ _ => rfl, rfl, by decide⟩
where noop' : Resolver Unit := fun _ w => (.noResponse, w)

-- Concrete: two nested zones; the name lies in both, the longer one is the most specific.
example : Longest (fun z => z ≠ [] ∧ Configured (W := Unit)
    [(str! "Lan", fun _ w => (.noResponse, w)), (str! "nas.lan", fun _ w => (.noResponse, w))] z)
    (str! "a.nas.lan") (str! "nas.lan") := by
  refine ⟨.inr ⟨['a'], rfl⟩, ⟨by decide, ⟨(str! "nas.lan", fun _ w => (.noResponse, w)), by simp, rfl⟩⟩, ?_⟩
  rintro z hz ⟨_, e, he, rfl⟩
  simp only [List.mem_cons, List.not_mem_nil, or_false] at he
  rcases he with rfl | rfl <;> decide

/-! ### C27 -/

/-- A rule applies to a domain: the domain lies properly below the rule's key. -/
def RuleApplies (rules : List (Str × Str)) (domain : Str) : Prop :=
  ∃ p k v, (k, v) ∈ rules ∧ domain = p ++ '.' :: k

/-- What the inner resolver sees of a question: the name, with the suffix of some applicable rule
replaced; type and class stay. -/
def Rewritten (rules : List (Str × Str)) (q q' : Question) : Prop :=
  ∃ p k v, (k, v) ∈ rules ∧ extractDomain q.name = p ++ '.' :: k ∧
    q' = { q with name := fqdn (p ++ '.' :: v) }

/-- No rule changes the name: none applies, or one that replaces the suffix by itself. -/
def Unchanged (rules : List (Str × Str)) (q : Question) : Prop :=
  ¬ RuleApplies rules (extractDomain q.name) ∨ ∃ p k, (k, k) ∈ rules ∧ extractDomain q.name = p ++ '.' :: k

/-- What becomes of one question: the question, what the inner resolver sees, and whether it counts
as rewritten. -/
def SeenAs (rules : List (Str × Str)) (x : Question × Question × Bool) : Prop :=
  (x.2.2 = true ∧ Rewritten rules x.1 x.2.1) ∨ (x.2.2 = false ∧ x.2.1 = x.1 ∧ Unchanged rules x.1)

theorem cutSuffix_some {s suf p : Str} (h : cutSuffix s suf = some p) : s = p ++ suf := by
  unfold cutSuffix at h
  split at h
  · rename_i hs
    obtain ⟨t, ht⟩ := List.isSuffixOf_iff_suffix.1 hs
    cases h
    rw [← ht]
    simp
  · cases h

theorem cutSuffix_none {s suf : Str} (h : cutSuffix s suf = none) : ∀ p, s ≠ p ++ suf := by
  unfold cutSuffix at h
  split at h
  · cases h
  · rename_i hs
    rintro p rfl
    exact hs (List.isSuffixOf_iff_suffix.2 ⟨p, rfl⟩)

theorem rewriteDomain_cases (rules : List (Str × Str)) (d : Str) :
    (∃ p k v, (k, v) ∈ rules ∧ d = p ++ '.' :: k ∧ rewriteDomain rules d = p ++ '.' :: v) ∨
    (¬ RuleApplies rules d ∧ rewriteDomain rules d = d) := by
  induction rules with
  | nil =>
    right
    refine ⟨?_, rfl⟩
    rintro ⟨p, k, v, h, _⟩
    simp at h
  | cons kv rules ih =>
    obtain ⟨k, v⟩ := kv
    unfold rewriteDomain
    cases hc : cutSuffix d ('.' :: k) with
    | some p => exact .inl ⟨p, k, v, by simp, cutSuffix_some hc, rfl⟩
    | none =>
      simp only
      rcases ih with ⟨p, k', v', h1, h2, h3⟩ | ⟨h1, h2⟩
      · exact .inl ⟨p, k', v', by simp [h1], h2, h3⟩
      · refine .inr ⟨?_, h2⟩
        rintro ⟨p, k', v', hm, hd⟩
        rcases List.mem_cons.1 hm with h | hm
        · cases h
          exact cutSuffix_none hc p hd
        · exact h1 ⟨p, k', v', hm, hd⟩

/-- Summary of `rewriteQuestions`: the questions with, for each, whether it was rewritten. -/
theorem rewriteQuestions_spec (rules : List (Str × Str)) (order : Nat → List (Str × Str))
    (horder : ∀ i, (order i).Perm rules) (i : Nat) (qs : List Question) (names : AMap Str Str) :
    ∃ flags : List (Question × Question × Bool),
      flags.map (fun x => x.1) = qs ∧ flags.map (fun x => x.2.1) = (rewriteQuestions order i qs names).1 ∧
      (rewriteQuestions order i qs names).2.1 = flags.any (fun x => x.2.2) ∧
      (∀ x ∈ flags, SeenAs rules x) ∧
      (∀ x ∈ flags, ¬ RuleApplies rules (extractDomain x.1.name) → x.2.2 = false) ∧
      (∀ n, (∃ x ∈ flags, x.2.2 = true ∧ x.2.1.name = n ∧
              AMap.get (rewriteQuestions order i qs names).2.2 n = some x.1.name) ∨
            ((∀ x ∈ flags, x.2.2 = true → x.2.1.name ≠ n) ∧
              AMap.get (rewriteQuestions order i qs names).2.2 n = AMap.get names n)) := by
  induction qs generalizing i names with
  | nil => exact ⟨[], rfl, rfl, rfl, by simp, by simp, fun n => .inr ⟨by simp, rfl⟩⟩
  | cons q qs ih =>
    by_cases hr : rewriteDomain (order i) (extractDomain q.name) ≠ extractDomain q.name
    · obtain ⟨flags, f1, f2, f3, f4, f5, f6⟩ := ih (i + 1)
        (names.put (fqdn (rewriteDomain (order i) (extractDomain q.name))) q.name)
      have hrw : Rewritten rules q { q with name := fqdn (rewriteDomain (order i) (extractDomain q.name)) } := by
        rcases rewriteDomain_cases (order i) (extractDomain q.name) with ⟨p, k, v, h1, h2, h3⟩ | ⟨_, h2⟩
        · exact ⟨p, k, v, (horder i).mem_iff.1 h1, h2, by rw [h3]⟩
        · exact absurd h2 hr
      have hap : RuleApplies rules (extractDomain q.name) := by
        obtain ⟨p, k, v, h1, h2, _⟩ := hrw
        exact ⟨p, k, v, h1, h2⟩
      refine ⟨(q, { q with name := fqdn (rewriteDomain (order i) (extractDomain q.name)) }, true) :: flags,
        by simp [f1], by simp [rewriteQuestions, hr, f2], by simp [rewriteQuestions, hr], ?_, ?_, ?_⟩
      · intro x hx
        rcases List.mem_cons.1 hx with rfl | hx
        · exact .inl ⟨rfl, hrw⟩
        · exact f4 x hx
      · intro x hx hn
        rcases List.mem_cons.1 hx with rfl | hx
        · exact absurd hap hn
        · exact f5 x hx hn
      · intro n
        have hnames : (rewriteQuestions order i (q :: qs) names).2.2 =
            (rewriteQuestions order (i + 1) qs
              (names.put (fqdn (rewriteDomain (order i) (extractDomain q.name))) q.name)).2.2 := by
          simp [rewriteQuestions, hr]
        rw [hnames]
        rcases f6 n with ⟨x, hx, h1, h2, h3⟩ | ⟨h1, h2⟩
        · exact .inl ⟨x, by simp [hx], h1, h2, h3⟩
        · by_cases hn : fqdn (rewriteDomain (order i) (extractDomain q.name)) = n
          · left
            refine ⟨_, List.mem_cons_self, rfl, hn, ?_⟩
            rw [h2, hn, AMap.get_put_self]
          · right
            refine ⟨?_, by rw [h2, AMap.get_put_ne names _ hn]⟩
            intro x hx hb
            rcases List.mem_cons.1 hx with rfl | hx
            · exact hn
            · exact h1 x hx hb
    · obtain ⟨flags, f1, f2, f3, f4, f5, f6⟩ := ih (i + 1) names
      refine ⟨(q, q, false) :: flags, by simp [f1], by simp [rewriteQuestions, hr, f2],
        by simp [rewriteQuestions, hr, f3], ?_, ?_, ?_⟩
      · intro x hx
        rcases List.mem_cons.1 hx with rfl | hx
        · refine .inr ⟨rfl, rfl, ?_⟩
          rcases rewriteDomain_cases (order i) (extractDomain q.name) with ⟨p, k, v, h1, h2, h3⟩ | ⟨h1, _⟩
          · have hr' : rewriteDomain (order i) (extractDomain q.name) = extractDomain q.name :=
              Classical.byContradiction hr
            rw [h3, h2] at hr'
            have := List.append_cancel_left hr'
            obtain rfl : v = k := (List.cons.inj this).2
            exact .inr ⟨p, v, (horder i).mem_iff.1 h1, h2⟩
          · refine .inl ?_
            rintro ⟨p, k, v, h2, h3⟩
            exact h1 ⟨p, k, v, (horder i).mem_iff.2 h2, h3⟩
        · exact f4 x hx
      · intro x hx hn
        rcases List.mem_cons.1 hx with rfl | hx
        · rfl
        · exact f5 x hx hn
      · intro n
        have hnames : (rewriteQuestions order i (q :: qs) names).2.2 =
            (rewriteQuestions order (i + 1) qs names).2.2 := by
          simp [rewriteQuestions, hr]
        rw [hnames]
        rcases f6 n with ⟨x, hx, h1, h2, h3⟩ | ⟨h1, h2⟩
        · exact .inl ⟨x, by simp [hx], h1, h2, h3⟩
        · refine .inr ⟨?_, h2⟩
          intro x hx hb
          rcases List.mem_cons.1 hx with rfl | hx
          · cases hb
          · exact h1 x hx hb

/-- What the client is shown for a name in the inner resolver's response: a name that some question was
rewritten to is replaced by that question's original name; every other name stays. -/
def ShownAs (flags : List (Question × Question × Bool)) (name shown : Str) : Prop :=
  (∃ x ∈ flags, x.2.2 = true ∧ x.2.1.name = name ∧ shown = x.1.name) ∨
  ((∀ x ∈ flags, x.2.2 = true → x.2.1.name ≠ name) ∧ shown = name)

/-- The response as the client gets it: question and answer names shown as above, all else as in the
inner resolver's response. -/
def Reverted (flags : List (Question × Question × Bool)) (r y : Response) : Prop :=
  Pointwise (fun a b => ShownAs flags a.name b.name ∧ b = { a with name := b.name }) r.res.question y.res.question ∧
  Pointwise (fun a b => ShownAs flags a.name b.name ∧ b = { a with name := b.name }) r.res.answer y.res.answer ∧
  y = { r with res := { r.res with question := y.res.question, answer := y.res.answer } }

theorem revert_reverted (names : AMap Str Str) (flags : List (Question × Question × Bool))
    (h : ∀ n, (∃ x ∈ flags, x.2.2 = true ∧ x.2.1.name = n ∧ AMap.get names n = some x.1.name) ∨
      ((∀ x ∈ flags, x.2.2 = true → x.2.1.name ≠ n) ∧ AMap.get names n = none)) (r : Response) :
    Reverted flags r (revert names r) := by
  have hn : ∀ n, ShownAs flags n (revertName names n) := by
    intro n
    unfold revertName
    rcases h n with ⟨x, hx, h1, h2, h3⟩ | ⟨h1, h2⟩
    · rw [h3]; exact .inl ⟨x, hx, h1, h2, rfl⟩
    · rw [h2]; exact .inr ⟨h1, rfl⟩
  exact ⟨Pointwise.map _ _ (fun a _ => ⟨hn a.name, rfl⟩), Pointwise.map _ _ (fun a _ => ⟨hn a.name, rfl⟩), rfl⟩

theorem reverted_none (flags : List (Question × Question × Bool)) (h : ∀ x ∈ flags, x.2.2 = false) (r : Response) :
    Reverted flags r r := by
  have hn : ∀ n, ShownAs flags n n := by
    intro n
    refine .inr ⟨?_, rfl⟩
    intro x hx hb
    rw [h x hx] at hb
    cases hb
  refine ⟨?_, ?_, rfl⟩
  · have := Pointwise.map (R := fun (a b : Question) => ShownAs flags a.name b.name ∧ b = { a with name := b.name })
      id r.res.question (fun a _ => ⟨hn a.name, rfl⟩)
    simpa using this
  · have := Pointwise.map (R := fun (a b : RR) => ShownAs flags a.name b.name ∧ b = { a with name := b.name })
      id r.res.answer (fun a _ => ⟨hn a.name, rfl⟩)
    simpa using this

/-- **C27.** For every request there is a list saying for each question what the inner resolver sees of
it (rewritten by an applicable rule; unchanged if no rule applies), such that for every inner and next
resolver: the inner resolver is called once, with exactly these questions and the request otherwise
unchanged;
- its response is shown to the client with every rewritten name replaced by the original one,
- its error is returned,
- if it has no response, or with the fallback option an error or an empty answer, the next resolver is
  called with the original message (resp. the message as the inner resolver left it, if nothing was
  rewritten) and its result returned. -/
theorem C27_rewriting (rules : List (Str × Str)) (order : Nat → List (Str × Str))
    (horder : ∀ i, (order i).Perm rules) (fallback : Bool) (request : Request) :
    ∃ flags : List (Question × Question × Bool),
      flags.map (fun x => x.1) = request.req.question ∧ (∀ x ∈ flags, SeenAs rules x) ∧
      ∀ (inner next : MResolver W) (w : W),
        let seen := { request with req := { request.req with question := flags.map (fun x => x.2.1) } }
        let i := inner seen w
        let original := { request with req := if flags.any (fun x => x.2.2) then request.req else i.2.1 }
        let result := rewriter fallback order inner next request w
        (∀ r, i.1 = .ok r → (fallback = true → r.res.answer ≠ []) →
          ∃ y, result = (.ok y, original.req, i.2.2) ∧ Reverted flags r y) ∧
        (∀ r, i.1 = .ok r → fallback = true → r.res.answer = [] → result = next original i.2.2) ∧
        (i.1 = .noResponse → result = next original i.2.2) ∧
        (∀ e, i.1 = .err e → fallback = true → result = next original i.2.2) ∧
        (∀ e, i.1 = .err e → fallback = false → result = (.err e, original.req, i.2.2)) := by
  obtain ⟨flags, f1, f2, f3, f4, f5, f6⟩ := rewriteQuestions_spec rules order horder 0 request.req.question []
  refine ⟨flags, f1, f4, ?_⟩
  intro inner next w
  simp only
  -- the request the inner resolver gets
  have hseen : (if (rewriteQuestions order 0 request.req.question []).2.1 then
      { request with req := { request.req with question := (rewriteQuestions order 0 request.req.question []).1 } }
      else request) = { request with req := { request.req with question := flags.map (fun x => x.2.1) } } := by
    rw [f3, ← f2]
    by_cases hb : flags.any (fun x => x.2.2) = true
    · rw [if_pos hb]
    · rw [if_neg hb]
      have : flags.map (fun x => x.2.1) = request.req.question := by
        rw [← f1]
        apply List.map_congr_left
        intro x hx
        rcases f4 x hx with ⟨hx2, _⟩ | ⟨_, h, _⟩
        · exact absurd (List.any_eq_true.2 ⟨x, hx, hx2⟩) hb
        · exact h
      rw [this]
  have hrun : ∀ res, rewriter fallback order inner next request w = res ↔
      (match inner { request with req := { request.req with question := flags.map (fun x => x.2.1) } } w with
      | (o, msg, w) =>
        let original := if flags.any (fun x => x.2.2) then request.req else msg
        match o with
        | .panic => (.panic, msg, w)
        | .err e =>
          if fallback then next { request with req := original } w else (.err e, original, w)
        | .noResponse => next { request with req := original } w
        | .ok r =>
          if fallback && r.res.answer.isEmpty then next { request with req := original } w
          else if flags.any (fun x => x.2.2) then
            (.ok (revert (rewriteQuestions order 0 request.req.question []).2.2 r), original, w)
          else (.ok r, original, w)) = res := by
    intro res
    unfold rewriter
    rw [← hseen, ← f3]
    rfl
  generalize hi : inner { request with req := { request.req with question := flags.map (fun x => x.2.1) } } w = i at hrun ⊢
  obtain ⟨o, msg, w'⟩ := i
  have hnames := revert_reverted (rewriteQuestions order 0 request.req.question []).2.2 flags f6
  refine ⟨?_, ?_, ?_, ?_, ?_⟩
  · rintro r rfl hf
    have hcond : (fallback && r.res.answer.isEmpty) = false := by
      cases fallback with
      | false => rfl
      | true =>
        have := hf rfl
        cases ha : r.res.answer with
        | nil => exact absurd ha this
        | cons a as => rfl
    by_cases hb : flags.any (fun x => x.2.2) = true
    · refine ⟨_, (hrun _).2 ?_, hnames r⟩
      simp [hcond, hb]
    · refine ⟨r, (hrun _).2 ?_, reverted_none flags ?_ r⟩
      · simp only [hcond]
        rw [if_neg hb]
        simp [hb]
      · intro x hx
        cases hx2 : x.2.2 with
        | false => rfl
        | true => exact absurd (List.any_eq_true.2 ⟨x, hx, hx2⟩) hb
  · rintro r rfl hf ha
    apply (hrun _).2
    simp [hf, ha]
  · rintro rfl
    exact (hrun _).2 rfl
  · rintro e rfl hf
    apply (hrun _).2
    simp [hf]
  · rintro e rfl hf
    apply (hrun _).2
    simp [hf]

/-- **C27, a query with one question.** If a rule applied and the inner resolver answers the question
it was asked, with records of that name, the client sees its own question and records of the name
it asked for, exactly as written. -/
theorem C27_client_view_partial (rules : List (Str × Str)) (order : Nat → List (Str × Str))
    (horder : ∀ i, (order i).Perm rules) (request : Request) (q : Question)
    (hq : request.req.question = [q]) :
    ∃ q', (Rewritten rules q q' ∨ (q' = q ∧ Unchanged rules q)) ∧ ∀ (inner next : MResolver W) (w : W) (r : Response),
      (inner { request with req := { request.req with question := [q'] } } w).1 = .ok r →
      r.res.question = [q'] → (∀ a ∈ r.res.answer, a.name = q'.name) →
      ∃ y, (rewriter false order inner next request w).1 = .ok y ∧ y.res.question = [q] ∧
        (∀ a ∈ y.res.answer, a.name = q.name) ∧ y.res.answer.map RR.data = r.res.answer.map RR.data := by
  obtain ⟨flags, f1, f2, f3⟩ := C27_rewriting (W := W) rules order horder false request
  rw [hq] at f1
  cases flags with
  | nil => simp at f1
  | cons x xs =>
    cases xs with
    | cons y ys => simp at f1
    | nil =>
      simp only [List.map_cons, List.map_nil, List.cons.injEq, and_true] at f1
      obtain ⟨x1, x2, b⟩ := x
      subst f1
      refine ⟨x2, ?_, ?_⟩
      · rcases f2 _ List.mem_cons_self with ⟨_, h⟩ | ⟨_, h, h'⟩
        · exact .inl h
        · exact .inr ⟨h, h'⟩
      · intro inner next w r hr hrq hra
        obtain ⟨y, hy, g1, g2, g3⟩ := (f3 inner next w).1 r hr (by simp)
        have hshown : ∀ s, ShownAs [(x1, x2, b)] x2.name s → s = x1.name := by
          rintro s (⟨x, hx, h1, h2, h3⟩ | ⟨h1, h2⟩)
          · rw [List.mem_singleton.1 hx] at h3; exact h3
          · rcases f2 _ List.mem_cons_self with ⟨hb, _⟩ | ⟨_, h, _⟩
            · exact absurd rfl (h1 _ List.mem_cons_self hb)
            · simp only at h; rw [h2, h]
        refine ⟨y, by rw [hy], ?_, ?_, ?_⟩
        · rw [hrq] at g1
          generalize hyq : y.res.question = yq at g1
          cases g1 with
          | cons h1 h2 =>
            cases h2
            rename_i b'
            have := hshown _ h1.1
            have hx2 : x2 = { x1 with name := x2.name } := by
              rcases f2 _ List.mem_cons_self with ⟨_, p, k, v, _, _, h⟩ | ⟨_, h, _⟩
              · simp only at h; rw [h]
              · simp only at h; rw [h]
            rw [h1.2, this, hx2]
        · generalize y.res.answer = ya at g2
          generalize r.res.answer = ra at g2 hra
          induction g2 with
          | nil => simp
          | cons h1 h2 ih =>
            intro a ha
            rcases List.mem_cons.1 ha with rfl | ha
            · have := h1.1
              rw [hra _ List.mem_cons_self] at this
              exact hshown _ this
            · exact ih (fun a ha => hra a (by simp [ha])) a ha
        · generalize y.res.answer = ya at g2
          generalize r.res.answer = ra at g2
          clear hra
          induction g2 with
          | nil => rfl
          | cons h1 h2 ih => rw [List.map_cons, List.map_cons, ih, h1.2]

/-- The conditional resolver passes a request on, or deals with it itself. -/
theorem conditional_cases (mapping : AMap Str (Resolver W)) (request : Request) (w : W) :
    (∀ next : MResolver W, conditional mapping next request w = next request w) ∨
    ∃ x : Outcome × Msg × W, (∀ next : MResolver W, conditional mapping next request w = x) ∧ x.1 ≠ .noResponse := by
  unfold conditional
  by_cases hm : mapping.length > 0
  · simp only [if_pos hm]
    cases request.req.question with
    | nil => exact .inr ⟨_, fun _ => rfl, by simp⟩
    | cons q qs =>
      simp only
      cases lookup mapping (extractDomain q.name) with
      | none => exact .inl fun _ => rfl
      | some reso =>
        refine .inr ⟨internalResolve reso (extractDomain q.name) request w, fun _ => rfl, ?_⟩
        simp only [internalResolve]
        generalize reso _ w = x
        obtain ⟨o, w'⟩ := x
        cases o <;> simp
  · exact .inl fun _ => by rw [if_neg hm]

/-- **C27, no rule applies.** Around the conditional resolver, rewriting does not change anything for
queries no rule applies to: the same resolvers are asked the same and the result is the same as
without any rules (fallback option off). -/
theorem C27_no_rule_same (rules : List (Str × Str)) (order : Nat → List (Str × Str))
    (horder : ∀ i, (order i).Perm rules) (mapping : AMap Str (Resolver W)) (next : MResolver W)
    (request : Request) (hno : ∀ q ∈ request.req.question, ¬ RuleApplies rules (extractDomain q.name)) (w : W) :
    newRewriter ⟨rules, false⟩ order (conditional mapping) next request w = conditional mapping next request w := by
  unfold newRewriter
  split
  · rfl
  · have hb : (rewriteQuestions order 0 request.req.question []).2.1 = false := by
      obtain ⟨flags, f1, f2, f3, f4, f5, f6⟩ := rewriteQuestions_spec rules order horder 0 request.req.question []
      rw [f3, List.any_eq_false]
      intro x hx
      have := f5 x hx (hno x.1 (by rw [← f1]; exact List.mem_map.2 ⟨x, hx, rfl⟩))
      simp [this]
    have hrun : ∀ inner : MResolver W, rewriter false order inner next request w =
        (match inner request w with
        | (.panic, msg, w) => (.panic, msg, w)
        | (.err e, msg, w) => (.err e, msg, w)
        | (.noResponse, msg, w) => next { request with req := msg } w
        | (.ok r, msg, w) => (.ok r, msg, w)) := by
      intro inner
      unfold rewriter
      simp only [hb, Bool.false_eq_true, if_false, Bool.false_and]
      generalize inner request w = x
      obtain ⟨o, msg, w'⟩ := x
      cases o <;> rfl
    rw [hrun]
    rcases conditional_cases mapping request w with h | ⟨x, h1, h2⟩
    · rw [h, h]
    · rw [h1, h1]
      obtain ⟨o, msg, w'⟩ := x
      cases o with
      | noResponse => exact absurd rfl h2
      | _ => rfl

/-- **C27 is false as stated.** Names are reverted by exact comparison: an inner resolver that answers
with the name in other letters (as upstreams may) shows the client the rewritten name. -/
theorem C27_other_case_not_reverted :
    ∃ (inner next : MResolver Unit) (request : Request) (y : Response),
      (rewriter false (fun _ => [(str! "home", str! "lan")]) inner next request ()).1 = .ok y ∧
      request.req.question = [⟨str! "nas.home.", 1, 1⟩] ∧
      y.res.answer.map RR.name = [str! "NAS.lan."] :=
  ⟨fun request w => (.ok { res := { ({} : Msg).setReply request.req with
      answer := [⟨str! "NAS.lan.", 1, 1, 60, .a (.v4 1)⟩] } }, request.req, w),
    fun request w => (.noResponse, request.req, w),
    { req := { question := [⟨str! "nas.home.", 1, 1⟩] } }, _, rfl, rfl, rfl⟩

/-- With several applicable rules it depends on Go's map order which one is used. -/
theorem C27_overlapping_rules_depend_on_map_order :
    rewriteDomain [(str! "home", str! "lan"), (str! "x.home", str! "net")] (str! "a.x.home") = str! "a.x.lan" ∧
    rewriteDomain [(str! "x.home", str! "net"), (str! "home", str! "lan")] (str! "a.x.home") = str! "a.net" := by
  decide

-- Concrete: a rule applies, the inner resolver sees the rewritten name, the client its own.
example : (rewriter false (fun _ => [(str! "home", str! "lan")])
      (fun request w => (.ok { res := { ({} : Msg).setReply request.req with
        answer := request.req.question.map (fun q => ⟨q.name, 1, 1, 60, .a (.v4 1)⟩) } }, request.req,
        w ++ request.req.question.map Question.name))
      (fun request w => (.noResponse, request.req, w))
      { req := { question := [⟨str! "NAS.Home.", 1, 1⟩] } } []) =
    (.ok { res := { response := true, question := [⟨str! "NAS.Home.", 1, 1⟩], answer := [⟨str! "NAS.Home.", 1, 1, 60, .a (.v4 1)⟩] } },
      { question := [⟨str! "NAS.Home.", 1, 1⟩] }, [str! "nas.lan."]) := by decide

end Verif.Props
