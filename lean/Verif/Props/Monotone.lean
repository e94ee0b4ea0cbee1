/-
C119: more entries on denylists only block more, more entries on allowlists only allow more, and entries that have nothing to do with
a query change nothing for it.
-/
import Verif.Props.Blocking

namespace Verif.Props
open Verif.Dns Verif.StringCache Verif.Spec Verif.Blocking Verif.Lists

variable {E : RegexEngine}

/-- The two set-ups differ in the content of their lists only. -/
structure SameButLists (s s' : Setup E) : Prop where
  env : s'.env = s.env
  cfg : s'.cfg = s.cfg
  handler : s'.handler = s.handler
  disabled : s'.status.disabledGroups = s.status.disabledGroups
  fqdnIPs : s'.fqdnIPs = s.fqdnIPs

/-- The second has all entries of the denylists of the first, and the same allowlists. -/
structure MoreDenied (s s' : Setup E) : Prop extends SameButLists s s' where
  allow : ∀ g e, e ∈ currentList g s'.allowHist ↔ e ∈ currentList g s.allowHist
  deny : ∀ g e, e ∈ currentList g s.denyHist → e ∈ currentList g s'.denyHist

/-- The second has all entries of the allowlists of the first, and the same denylists. -/
structure MoreAllowed (s s' : Setup E) : Prop extends SameButLists s s' where
  allow : ∀ g e, e ∈ currentList g s.allowHist → e ∈ currentList g s'.allowHist
  deny : ∀ g e, e ∈ currentList g s'.denyHist ↔ e ∈ currentList g s.denyHist

theorem SameButLists.act {s s' : Setup E} (h : SameButLists s s') (request : Request) (g : Str) : s'.Act request g ↔ s.Act request g := by
  unfold Setup.Act
  rw [h.env, h.cfg, h.disabled, h.fqdnIPs]

theorem SameButLists.only {s s' : Setup E} (h : SameButLists s s') (request : Request) : s'.OnlyAllowed request ↔ s.OnlyAllowed request := by
  unfold Setup.OnlyAllowed
  simp only [h.act, h.cfg]

theorem SameButLists.blocked {s s' : Setup E} (h : SameButLists s s') (request : Request) (q : Question) (o : Outcome) :
    IsBlockAnswer s' request q o ↔ IsBlockAnswer s request q o := by
  unfold IsBlockAnswer
  rw [h.handler]

/-- **C119 (denylists).** With more entries on denylists, a query is answered as before or blocked. -/
theorem C119_deny {W : Type} {s s' : Setup E} (h : MoreDenied s s') (next : Resolver W) (request : Request) (w : W)
    (hq : request.req.question ≠ []) :
    resolve s'.env s'.state next request w = resolve s.env s.state next request w ∨
    ∃ q ∈ request.req.question, IsBlockAnswer s' request q (resolve s'.env s'.state next request w).1 := by
  have ha : ∀ x, s'.Allowed request x ↔ s.Allowed request x := by
    intro x; unfold Setup.Allowed; simp only [h.act, h.allow]
  have hd : ∀ x, s.Denied request x → s'.Denied request x := by
    rintro x ⟨g, h1, e, h2, h3⟩; exact ⟨g, (h.act request g).2 h1, e, h.deny g e h2, h3⟩
  have hop : ∀ q, s'.Open request q → s.Open request q := fun q ⟨h1, h2, h3⟩ =>
    ⟨fun x => h1 ((ha _).2 x), fun x => h2 ((h.only _).2 x), fun x => h3 (hd _ x)⟩
  rcases C15_cases s' request with ⟨q, hb⟩ | hal | hopen
  · right
    obtain ⟨o, h1, h2⟩ := C15_blocked_by_name s' next request w q hb
    obtain ⟨pre, post, h3, _⟩ := hb
    exact ⟨q, by rw [h3]; simp, by rw [h1]; exact h2⟩
  · left
    rw [C15_allowed_by_name s' next request w hal]
    obtain ⟨pre, q, post, h1, h2, h3⟩ := hal
    rw [C15_allowed_by_name s next request w ⟨pre, q, post, h1, fun p hp => hop p (h2 p hp), (ha _).1 h3⟩]
  · have hopen' : ∀ q ∈ request.req.question, s.Open request q := fun q hq => hop q (hopen q hq)
    rcases Classical.em (∃ r, (next request w).1 = .ok r ∧ s'.AnswerBlocked request r.res.answer) with ⟨r, hr, hb⟩ | hb
    · right
      cases hqs : request.req.question with
      | nil => exact absurd hqs hq
      | cons q qs =>
        obtain ⟨o, h1, h2⟩ := C15_blocked_by_answer s' next request w (next request w).2 q qs hqs hopen r (by rw [← hr]) hb
        exact ⟨q, by simp, by rw [h1]; exact h2⟩
    · left
      rw [C15_passed s' next request w hopen (fun r hr hx => hb ⟨r, hr, hx⟩), C15_passed s next request w hopen' ?_]
      rintro r hr ⟨rr, h1, x, h2, h3, h4⟩
      exact hb ⟨r, hr, rr, h1, x, by rw [h.env]; exact h2, fun hx => h3 ((ha x).1 hx), hd x h4⟩

/-- **C119 (denylists, blocked stays blocked).** What was blocked is blocked with more entries on denylists, with the same answer. -/
theorem C119_stays_blocked {W : Type} {s s' : Setup E} (h : MoreDenied s s') (next : Resolver W) (request : Request) (w : W)
    (q : Question) (hq : request.req.question = [q]) (hb : IsBlockAnswer s request q (resolve s.env s.state next request w).1) :
    IsBlockAnswer s' request q (resolve s'.env s'.state next request w).1 := by
  rcases C119_deny h next request w (by rw [hq]; simp) with h1 | ⟨q', h1, h2⟩
  · rw [h1, h.blocked]; exact hb
  · rw [hq] at h1
    simp only [List.mem_cons, List.not_mem_nil, or_false] at h1
    subst h1
    exact h2

/-- **C119 (allowlists).** With more entries on allowlists, a query gets what the next resolver answers, or it was blocked before and
is blocked in the same way. -/
theorem C119_allow {W : Type} {s s' : Setup E} (h : MoreAllowed s s') (next : Resolver W) (request : Request) (w : W)
    (hq : request.req.question ≠ []) :
    resolve s'.env s'.state next request w = next request w ∨
    ∃ q ∈ request.req.question, IsBlockAnswer s request q (resolve s.env s.state next request w).1 ∧
      IsBlockAnswer s' request q (resolve s'.env s'.state next request w).1 ∧
      (resolve s'.env s'.state next request w).2 = (resolve s.env s.state next request w).2 := by
  have ha : ∀ x, s.Allowed request x → s'.Allowed request x := by
    rintro x ⟨g, h1, e, h2, h3⟩; exact ⟨g, (h.act request g).2 h1, e, h.allow g e h2, h3⟩
  have hd : ∀ x, s'.Denied request x ↔ s.Denied request x := by
    intro x; unfold Setup.Denied; simp only [h.act, h.deny]
  have hop : ∀ q, s'.Open request q → s.Open request q := fun q ⟨h1, h2, h3⟩ =>
    ⟨fun x => h1 (ha _ x), fun x => h2 ((h.only _).2 x), fun x => h3 ((hd _).2 x)⟩
  rcases C15_cases s' request with ⟨q, hb⟩ | hal | hopen
  · right
    obtain ⟨o, h1, h2⟩ := C15_blocked_by_name s' next request w q hb
    obtain ⟨pre, post, h3, h4, h5, h6⟩ := hb
    obtain ⟨o', h1', h2'⟩ := C15_blocked_by_name s next request w q ⟨pre, post, h3, fun p hp => hop p (h4 p hp), fun x => h5 (ha _ x),
      h6.imp (h.only request).1 (hd _).1⟩
    exact ⟨q, by rw [h3]; simp, by rw [h1']; exact h2', by rw [h1]; exact h2, by rw [h1, h1']⟩
  · exact .inl (C15_allowed_by_name s' next request w hal)
  · have hopen' : ∀ q ∈ request.req.question, s.Open request q := fun q hq => hop q (hopen q hq)
    rcases Classical.em (∃ r, (next request w).1 = .ok r ∧ s'.AnswerBlocked request r.res.answer) with ⟨r, hr, hb⟩ | hb
    · right
      cases hqs : request.req.question with
      | nil => exact absurd hqs hq
      | cons q qs =>
        obtain ⟨o, h1, h2⟩ := C15_blocked_by_answer s' next request w (next request w).2 q qs hqs hopen r (by rw [← hr]) hb
        obtain ⟨rr, g1, x, g2, g3, g4⟩ := hb
        obtain ⟨o', h1', h2'⟩ := C15_blocked_by_answer s next request w (next request w).2 q qs hqs hopen' r (by rw [← hr])
          ⟨rr, g1, x, by rw [← h.env]; exact g2, fun y => g3 (ha x y), (hd x).1 g4⟩
        exact ⟨q, by simp, by rw [h1']; exact h2', by rw [h1]; exact h2, by rw [h1, h1']⟩
    · exact .inl (C15_passed s' next request w hopen (fun r hr hx => hb ⟨r, hr, hx⟩))

/-- Names and addresses the lists are asked for: those of the questions, and those in the answer of the next resolver. -/
def LookedUp {W : Type} (s : Setup E) (next : Resolver W) (request : Request) (w : W) (x : Str) : Prop :=
  (∃ q ∈ request.req.question, x = extractDomain q.name) ∨
  ∃ r, (next request w).1 = .ok r ∧ ∃ rr ∈ r.res.answer, Checked s.env rr x

/-- **C119 (other entries).** If lists are changed - entries added or removed, of any list - and no entry of the difference matches the
name asked for or an address or alias in the answer, the query gets the same answer as before: the same outcome of the next resolver or
the same block answer, and the next resolver is asked, or not asked, as before. -/
theorem C119_unrelated {W : Type} {s s' : Setup E} (h : SameButLists s s') (next : Resolver W) (request : Request) (w : W)
    (hq : request.req.question ≠ [])
    (hx : ∀ x, LookedUp s next request w x → ∀ g e, EntryMatches E e x →
      (e ∈ currentList g s.allowHist ↔ e ∈ currentList g s'.allowHist) ∧ (e ∈ currentList g s.denyHist ↔ e ∈ currentList g s'.denyHist)) :
    resolve s'.env s'.state next request w = resolve s.env s.state next request w ∨
    ∃ q ∈ request.req.question, IsBlockAnswer s request q (resolve s.env s.state next request w).1 ∧
      IsBlockAnswer s' request q (resolve s'.env s'.state next request w).1 ∧
      (resolve s'.env s'.state next request w).2 = (resolve s.env s.state next request w).2 := by
  have ha : ∀ x, LookedUp s next request w x → (s'.Allowed request x ↔ s.Allowed request x) := by
    intro x hl
    constructor
    · rintro ⟨g, h1, e, h2, h3⟩; exact ⟨g, (h.act request g).1 h1, e, (hx x hl g e h3).1.2 h2, h3⟩
    · rintro ⟨g, h1, e, h2, h3⟩; exact ⟨g, (h.act request g).2 h1, e, (hx x hl g e h3).1.1 h2, h3⟩
  have hd : ∀ x, LookedUp s next request w x → (s'.Denied request x ↔ s.Denied request x) := by
    intro x hl
    constructor
    · rintro ⟨g, h1, e, h2, h3⟩; exact ⟨g, (h.act request g).1 h1, e, (hx x hl g e h3).2.2 h2, h3⟩
    · rintro ⟨g, h1, e, h2, h3⟩; exact ⟨g, (h.act request g).2 h1, e, (hx x hl g e h3).2.1 h2, h3⟩
  have hop : ∀ q ∈ request.req.question, s'.Open request q → s.Open request q := fun q hm ⟨h1, h2, h3⟩ =>
    ⟨fun x => h1 ((ha _ (.inl ⟨q, hm, rfl⟩)).2 x), fun x => h2 ((h.only _).2 x), fun x => h3 ((hd _ (.inl ⟨q, hm, rfl⟩)).2 x)⟩
  rcases C15_cases s' request with ⟨q, hb⟩ | hal | hopen
  · right
    obtain ⟨o, h1, h2⟩ := C15_blocked_by_name s' next request w q hb
    obtain ⟨pre, post, h3, h4, h5, h6⟩ := hb
    have hm : q ∈ request.req.question := by rw [h3]; simp
    obtain ⟨o', h1', h2'⟩ := C15_blocked_by_name s next request w q ⟨pre, post, h3, fun p hp => hop p (by rw [h3]; simp [hp]) (h4 p hp),
      fun x => h5 ((ha _ (.inl ⟨q, hm, rfl⟩)).2 x), h6.imp (h.only request).1 (hd _ (.inl ⟨q, hm, rfl⟩)).1⟩
    exact ⟨q, hm, by rw [h1']; exact h2', by rw [h1]; exact h2, by rw [h1, h1']⟩
  · left
    rw [C15_allowed_by_name s' next request w hal]
    obtain ⟨pre, q, post, h1, h2, h3⟩ := hal
    have hm : q ∈ request.req.question := by rw [h1]; simp
    rw [C15_allowed_by_name s next request w ⟨pre, q, post, h1, fun p hp => hop p (by rw [h1]; simp [hp]) (h2 p hp),
      (ha _ (.inl ⟨q, hm, rfl⟩)).1 h3⟩]
  · have hopen' : ∀ q ∈ request.req.question, s.Open request q := fun q hq => hop q hq (hopen q hq)
    have hans : ∀ r, (next request w).1 = .ok r → (s'.AnswerBlocked request r.res.answer ↔ s.AnswerBlocked request r.res.answer) := by
      intro r hr
      constructor
      · rintro ⟨rr, g1, x, g2, g3, g4⟩
        rw [h.env] at g2
        have hl : LookedUp s next request w x := .inr ⟨r, hr, rr, g1, g2⟩
        exact ⟨rr, g1, x, g2, fun y => g3 ((ha x hl).2 y), (hd x hl).1 g4⟩
      · rintro ⟨rr, g1, x, g2, g3, g4⟩
        have hl : LookedUp s next request w x := .inr ⟨r, hr, rr, g1, g2⟩
        exact ⟨rr, g1, x, by rw [h.env]; exact g2, fun y => g3 ((ha x hl).1 y), (hd x hl).2 g4⟩
    rcases Classical.em (∃ r, (next request w).1 = .ok r ∧ s'.AnswerBlocked request r.res.answer) with ⟨r, hr, hb⟩ | hb
    · right
      cases hqs : request.req.question with
      | nil => exact absurd hqs hq
      | cons q qs =>
        obtain ⟨o, h1, h2⟩ := C15_blocked_by_answer s' next request w (next request w).2 q qs hqs hopen r (by rw [← hr]) hb
        obtain ⟨o', h1', h2'⟩ := C15_blocked_by_answer s next request w (next request w).2 q qs hqs hopen' r (by rw [← hr]) ((hans r hr).1 hb)
        exact ⟨q, by simp, by rw [h1']; exact h2', by rw [h1]; exact h2, by rw [h1, h1']⟩
    · left
      rw [C15_passed s' next request w hopen (fun r hr hx => hb ⟨r, hr, hx⟩),
        C15_passed s next request w hopen' (fun r hr hx => hb ⟨r, hr, (hans r hr).2 hx⟩)]

/-! ### Examples -/

/-- The set-up of the examples with one more entry on the denylist, and with one more on the allowlist. -/
def moreDeniedSetup : Setup prefixEngine :=
  { demoSetup with denyHist := [(str! "g", [str! "/ads/", str! "/track/"])], deny := { regex := [(str! "g", [str! "ads", str! "track"])] }, hdeny := rfl }

/-- The set-up of the examples with one more entry on the allowlist. -/
def moreAllowedSetup : Setup prefixEngine :=
  { demoSetup with allowHist := [(str! "g", [str! "/good/", str! "/ads.good/"])], allow := { regex := [(str! "g", [str! "good", str! "ads.good"])] }, hallow := rfl }

theorem demo_currentList (l : List Str) (g e : Str) : e ∈ currentList g [(str! "g", l)] ↔ g = str! "g" ∧ e ∈ l := by
  unfold currentList
  simp
  by_cases hg : g = ['g']
  · subst hg; simp
  · simp [hg, Ne.symm hg]

example : MoreDenied demoSetup moreDeniedSetup where
  env := rfl
  cfg := rfl
  handler := rfl
  disabled := rfl
  fqdnIPs := rfl
  allow := fun _ _ => Iff.rfl
  deny := by
    intro g e h
    rw [show demoSetup.denyHist = [(str! "g", [str! "/ads/"])] from rfl, demo_currentList] at h
    rw [show moreDeniedSetup.denyHist = [(str! "g", [str! "/ads/", str! "/track/"])] from rfl, demo_currentList]
    exact ⟨h.1, by simp at h ⊢; exact .inl h.2⟩

example : MoreAllowed demoSetup moreAllowedSetup where
  env := rfl
  cfg := rfl
  handler := rfl
  disabled := rfl
  fqdnIPs := rfl
  deny := fun _ _ => Iff.rfl
  allow := by
    intro g e h
    rw [show demoSetup.allowHist = [(str! "g", [str! "/good/"])] from rfl, demo_currentList] at h
    rw [show moreAllowedSetup.allowHist = [(str! "g", [str! "/good/", str! "/ads.good/"])] from rfl, demo_currentList]
    exact ⟨h.1, by simp at h ⊢; exact .inl h.2⟩

-- newly blocked; newly allowed
example :
    verdict (resolve plainEnv demoSetup.state (countingNext (str! "t.")) (askFor [str! "track.com."]) 0) = (some .resolved, 1) ∧
    verdict (resolve plainEnv moreDeniedSetup.state (countingNext (str! "t.")) (askFor [str! "track.com."]) 0) = (some .blocked, 0) ∧
    verdict (resolve plainEnv demoSetup.state (countingNext (str! "t.")) (askFor [str! "ads.good.com."]) 0) = (some .blocked, 0) ∧
    verdict (resolve plainEnv moreAllowedSetup.state (countingNext (str! "t.")) (askFor [str! "ads.good.com."]) 0) = (some .resolved, 1) := by
  decide

/-- A group with no lists. -/
def bareGroup : Setup prefixEngine where
  env := plainEnv
  cfg := { clientGroupsBlock := [(str! "default", [str! "g"])] }
  handler := .zeroIP 60
  denyHist := []
  allowHist := []
  deny := {}
  allow := {}
  hdeny := rfl
  hallow := rfl

/-- The group with a first allowlist. -/
def firstAllowlist : Setup prefixEngine where
  env := plainEnv
  cfg := { allowGroups := [(str! "g", 1)], clientGroupsBlock := [(str! "default", [str! "g"])] }
  handler := .zeroIP 60
  denyHist := []
  allowHist := [(str! "g", [str! "/good/"])]
  deny := {}
  allow := { regex := [(str! "g", [str! "good"])] }
  hdeny := rfl
  hallow := rfl

/-- **A first allowlist blocks.** Unlike a further entry, the first allowlist of a group without denylists blocks names that were not
blocked (documented: such groups allow nothing else). -/
theorem C119_first_allowlist_blocks :
    verdict (resolve plainEnv bareGroup.state (countingNext (str! "t.")) (askFor [str! "x.com."]) 0) = (some .resolved, 1) ∧
    verdict (resolve plainEnv firstAllowlist.state (countingNext (str! "t.")) (askFor [str! "x.com."]) 0) = (some .blocked, 0) := by
  decide

end Verif.Props
