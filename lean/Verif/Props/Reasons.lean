/-
C15: the reason of a block answer (in the query log, in metrics and, with EDE, in the answer itself).
-/
import Verif.Props.Blocking

namespace Verif.Props
open Spec Dns Blocking StringCache

variable {E : RegexEngine}

/-- The groups, in order and without repetition, that are in effect for the client and whose denylist has the name or
address. -/
structure DenyGroups (s : Setup E) (request : Request) (x : Str) (gs : List Str) : Prop where
  sorted : SortedStr gs
  mem : ∀ g, g ∈ gs ↔ s.Act request g ∧ ∃ e ∈ currentList g s.denyHist, EntryMatches E e x

theorem deny_groups (s : Setup E) (request : Request) (x : Str) (h : («matches» (s.groups request) s.deny x).length > 0) :
    DenyGroups s request x («matches» (s.groups request) s.deny x) := by
  have hg : (s.groups request).length > 0 := by
    unfold «matches» at h
    split at h
    · assumption
    · simp at h
  unfold «matches»
  rw [if_pos hg]
  have := C03_lookup_union E _ _ s.hdeny x (s.groups request)
  exact ⟨this.1, fun g => by rw [this.2, s.mem_groups]⟩

theorem joinChar_intercalate (c : Char) (l : List Str) : joinChar c l = List.intercalate [c] l := by
  induction l with
  | nil => rfl
  | cons a l ih =>
    cases l with
    | nil => simp [joinChar, List.intercalate]
    | cons b l =>
      rw [joinChar, ih]
      simp [List.intercalate]

/-- The text for a name that is blocked. -/
def NameReason (s : Setup E) (request : Request) (x reason : Str) : Prop :=
  (s.OnlyAllowed request ∧ reason = str! "BLOCKED (ALLOWLIST ONLY)") ∨
  (¬ s.OnlyAllowed request ∧ ∃ gs, DenyGroups s request x gs ∧ reason = str! "BLOCKED (" ++ List.intercalate [','] gs ++ [')'])

/-- The text for a record of the answer that is blocked. -/
def RecordReason (s : Setup E) (request : Request) (rr : RR) (x reason : Str) : Prop :=
  ∃ gs, DenyGroups s request x gs ∧
    ((∃ t, rr.data = .cname t) ∧ reason = str! "BLOCKED CNAME (" ++ List.intercalate [','] gs ++ [')'] ∨
     (∀ t, rr.data ≠ .cname t) ∧ reason = str! "BLOCKED IP (" ++ List.intercalate [','] gs ++ [')'])

theorem denylist_reason (s : Setup E) (request : Request) (qs : List Question) (o : Outcome)
    (h : handleDenylist s.state (s.groups request) request qs = .blocked o) :
    ∃ pre q post, qs = pre ++ q :: post ∧ (∀ p ∈ pre, s.Open request p) ∧ ¬ s.Open request q ∧
      ∃ r, o = .ok r ∧ r.rtype = .blocked ∧ NameReason s request (extractDomain q.name) r.reason := by
  induction qs with
  | nil => simp [handleDenylist] at h
  | cons q qs ih =>
    unfold handleDenylist at h
    split at h
    · cases h
    · rename_i ha
      have ha' := fun h => ha ((s.allow_iff request _).2 h)
      split at h
      · rename_i ho
        cases h
        have := (s.only_iff request).1 ho
        exact ⟨[], q, qs, rfl, by simp, fun h => h.2.1 this, _, rfl, rfl, .inl ⟨this, rfl⟩⟩
      · rename_i ho
        have ho' := fun h => ho ((s.only_iff request).2 h)
        split at h
        · rename_i hd
          cases h
          have := (s.deny_iff request _).1 hd
          refine ⟨[], q, qs, rfl, by simp, fun h => h.2.2 this, _, rfl, rfl, .inr ⟨ho', _, deny_groups s request _ hd, ?_⟩⟩
          rw [← joinChar_intercalate]
          rfl
        · rename_i hd
          have hd' := fun h => hd ((s.deny_iff request _).2 h)
          obtain ⟨pre, p, post, h1, h2, h3⟩ := ih h
          have hopen : s.Open request q := ⟨ha', ho', hd'⟩
          exact ⟨q :: pre, p, post, by rw [h1]; rfl, by simpa [hopen] using h2, h3⟩

/-- **C15 (reason, by name).** The reason names exactly the client's groups whose denylist has the name, or says that
only allowed names may be asked for. -/
theorem C15_reason_by_name {W : Type} (s : Setup E) (next : Resolver W) (request : Request) (w : W) (q : Question)
    (h : s.NameBlocked request q) :
    ∃ r, resolve s.env s.state next request w = (.ok r, w) ∧ r.rtype = .blocked ∧
      NameReason s request (extractDomain q.name) r.reason := by
  obtain ⟨o, h1, h2⟩ := C15_blocked_by_name s next request w q h
  obtain ⟨pre, post, g1, g2, g3, g4⟩ := h
  have hq : ¬ s.Open request q := by
    rintro ⟨_, h5, h6⟩
    rcases g4 with g4 | g4
    · exact h5 g4
    · exact h6 g4
  have hspec := handleDenylist_spec s request request.req.question
  have hlen : (s.groups request).length > 0 := by
    rcases Classical.em ((s.groups request).length > 0) with h | h
    · exact h
    · have := no_groups_open s request h (extractDomain q.name)
      rcases g4 with h4 | h4
      · exact absurd h4 this.2.2
      · exact absurd h4 this.2.1
  unfold resolve at h1 ⊢
  simp only at h1 ⊢
  rw [show groupsToCheck s.env s.state.cgb s.state.fqdnIPs s.state.status request = s.groups request
    from rfl, if_pos hlen] at h1 ⊢
  revert hspec
  cases hd : handleDenylist s.state (s.groups request) request request.req.question with
  | allowed =>
    rintro ⟨pre', p, post', k1, k2, k3⟩
    have := first_unique (g1.symm.trans k1) g2 k2 hq (fun h => h.1 k3)
    exact absurd (this ▸ k3) g3
  | blocked o' =>
    intro _
    obtain ⟨pre', p, post', k1, k2, k3, r, rfl, k5, k6⟩ := denylist_reason s request _ _ hd
    have := first_unique (g1.symm.trans k1) g2 k2 hq k3
    subst this
    exact ⟨r, rfl, k5, k6⟩
  | no =>
    intro h
    exact absurd (h q (by rw [g1]; simp)) hq

theorem answer_reason (s : Setup E) (request : Request) (answer : List RR) (o : Outcome) (q : Question) (qs : List Question)
    (hq : request.req.question = q :: qs)
    (h : checkAnswer s.env s.state (s.groups request) request answer = some o) :
    ∃ pre rr post x, answer = pre ++ rr :: post ∧ ¬ s.AnswerBlocked request pre ∧
      Checked s.env rr x ∧ ¬ s.Allowed request x ∧ s.Denied request x ∧
      ∃ r, o = .ok r ∧ r.rtype = .blocked ∧ RecordReason s request rr x r.reason := by
  induction answer with
  | nil => simp [checkAnswer] at h
  | cons rr rrs ih =>
    have hc := checked_iff s.env rr
    have hmore : (¬ ∃ x, Checked s.env rr x ∧ ¬ s.Allowed request x ∧ s.Denied request x) →
        checkAnswer s.env s.state (s.groups request) request rrs = some o →
        ∃ pre rr' post x, rr :: rrs = pre ++ rr' :: post ∧ ¬ s.AnswerBlocked request pre ∧
          Checked s.env rr' x ∧ ¬ s.Allowed request x ∧ s.Denied request x ∧
          ∃ r, o = .ok r ∧ r.rtype = .blocked ∧ RecordReason s request rr' x r.reason := by
      intro hn h
      obtain ⟨pre, r', post, x, h1, h2, h3⟩ := ih h
      refine ⟨rr :: pre, r', post, x, by rw [h1]; rfl, ?_, h3⟩
      rintro ⟨y, hy, z, hz⟩
      rcases List.mem_cons.1 hy with rfl | hy
      · exact hn ⟨z, hz⟩
      · exact h2 ⟨y, hy, z, hz⟩
    unfold checkAnswer at h
    simp only at h
    split at h
    · rename_i hlen
      have hne : (extractEntry s.env rr).1 ≠ [] := by intro h; simp [h] at hlen
      split at h
      · rename_i ha
        refine hmore ?_ h
        rintro ⟨x, hx, h1, _⟩
        exact h1 (((hc x).1 hx).1 ▸ (s.allow_iff request _).1 ha)
      · rename_i ha
        split at h
        · rename_i hd
          rw [hq] at h
          simp only [Option.some.injEq] at h
          subst h
          refine ⟨[], rr, rrs, _, rfl, ?_, (hc _).2 ⟨rfl, hne⟩, fun h => ha ((s.allow_iff request _).2 h),
            (s.deny_iff request _).1 hd, _, rfl, rfl, _, deny_groups s request _ hd, ?_⟩
          · rintro ⟨y, hy, _⟩
            simp at hy
          · rw [← joinChar_intercalate]
            revert hne
            unfold extractEntry
            cases hdat : rr.data with
            | cname t =>
              intro _
              exact .inl ⟨⟨t, rfl⟩, rfl⟩
            | a ip =>
              intro _
              exact .inr ⟨fun t h => RData.noConfusion h, rfl⟩
            | aaaa ip =>
              intro _
              exact .inr ⟨fun t h => RData.noConfusion h, rfl⟩
            | _ =>
              intro h
              exact absurd rfl h
        · rename_i hd
          refine hmore ?_ h
          rintro ⟨x, hx, _, h2⟩
          exact hd ((s.deny_iff request _).2 (((hc x).1 hx).1 ▸ h2))
    · rename_i hlen
      refine hmore ?_ h
      rintro ⟨x, hx, _⟩
      have := (hc x).1 hx
      exact this.2 (this.1.trans (List.length_eq_zero_iff.1 (by omega)))

/-- **C15 (reason, by answer).** The reason names the kind of the first record of the answer that is blocked, and exactly
the client's groups whose denylist has its address or alias. -/
theorem C15_reason_by_answer {W : Type} (s : Setup E) (next : Resolver W) (request : Request) (w w1 : W)
    (q : Question) (qs : List Question) (hq : request.req.question = q :: qs)
    (hopen : ∀ q ∈ request.req.question, s.Open request q) (r : Response)
    (hnext : next request w = (.ok r, w1)) (h : s.AnswerBlocked request r.res.answer) :
    ∃ pre rr post x r', r.res.answer = pre ++ rr :: post ∧ ¬ s.AnswerBlocked request pre ∧
      Checked s.env rr x ∧ ¬ s.Allowed request x ∧ s.Denied request x ∧
      resolve s.env s.state next request w = (.ok r', w1) ∧ r'.rtype = .blocked ∧ RecordReason s request rr x r'.reason := by
  have hlen : (s.groups request).length > 0 := by
    rcases Classical.em ((s.groups request).length > 0) with h' | h'
    · exact h'
    · obtain ⟨rr, _, x, _, _, h3⟩ := h
      exact absurd h3 (no_groups_open s request h' x).2.1
  rw [resolve_open s next request w hopen]
  unfold askNext
  rw [hnext]
  obtain ⟨o, h1, _⟩ := (checkAnswer_spec s request r.res.answer).1 q qs hq h
  obtain ⟨pre, rr, post, x, k1, k2, k3, k4, k5, r', rfl, k6, k7⟩ := answer_reason s request _ o q qs hq h1
  simp only [if_pos hlen, h1]
  exact ⟨pre, rr, post, x, r', k1, k2, k3, k4, k5, rfl, k6, k7⟩

/-- The reason of a response. -/
def reasonOf : Outcome → Str
  | .ok r => r.reason
  | _ => []

-- Blocked by name, by alias, and because of an allowlist without denylist.
example :
    reasonOf (resolve plainEnv demoSetup.state (countingNext (str! "t.")) (askFor [str! "ADS.com."]) 0).1 = str! "BLOCKED (g)" ∧
    reasonOf (resolve plainEnv demoSetup.state (countingNext (str! "ads.com.")) (askFor [str! "x.com."]) 0).1 =
      str! "BLOCKED CNAME (g)" ∧
    reasonOf (resolve plainEnv { demoSetup.state with allowOnly := [str! "g"] } (countingNext (str! "ads.com."))
      (askFor [str! "x.com."]) 0).1 = str! "BLOCKED (ALLOWLIST ONLY)" := by decide

-- The groups: in order, without repetition.
example : («matches» [str! "z", str! "g", str! "a", str! "g"] (E := prefixEngine)
    { regex := [(str! "g", [str! "ads"]), (str! "a", [str! "ad"]), (str! "z", [str! "x"])] } (str! "ads.com")) =
    [str! "a", str! "g"] := by decide

end Verif.Props
