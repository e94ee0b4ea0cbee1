/-
C20: locking between queries and status changes.
-/
import Verif.Model.StatusLock

namespace Verif.Props
open StatusLock

/-- All goroutines have finished. -/
def AllDone (ts : Threads) : Prop := ∀ p ∈ ts, p = .done

/-- A query holding the outer read lock with a group left to check, and a status change waiting. -/
def Embrace (ts : Threads) : Prop := (∃ n, Pc.holdOuter (n + 1) ∈ ts) ∧ Pc.pending ∈ ts

theorem step_of_next {ts : Threads} {p p' : Pc} (hp : p ∈ ts)
    (h : p.next (anyReading ts) (anyWriting ts) = some p') : ∃ ts', Step ts ts' := by
  obtain ⟨pre, post, rfl⟩ := List.append_of_mem hp
  exact ⟨_, .mk pre post p p' h⟩

/-- **C20, when progress is possible.** In every state, whatever the number of queries and status
changes: either all have finished, or some goroutine can take a step, or a query that still has a
group to check and a waiting status change block each other. -/
theorem C20_progress_partial (ts : Threads) (hdone : ¬ AllDone ts) (he : ¬ Embrace ts) :
    ∃ ts', Step ts ts' := by
  -- goroutines that never wait
  by_cases h0 : ∃ p ∈ ts, (∃ n, p = .holdBoth n) ∨ p = .holdWrite ∨ p = .holdOuter 0
  · obtain ⟨p, hp, ⟨n, rfl⟩ | rfl | rfl⟩ := h0
    · exact step_of_next hp rfl
    · exact step_of_next hp rfl
    · exact step_of_next hp rfl
  · have hno : ∀ p ∈ ts, (∀ n, p ≠ .holdBoth n) ∧ p ≠ .holdWrite ∧ p ≠ .holdOuter 0 := by
      intro p hp
      refine ⟨fun n h => h0 ⟨p, hp, .inl ⟨n, h⟩⟩, fun h => h0 ⟨p, hp, .inr (.inl h)⟩,
        fun h => h0 ⟨p, hp, .inr (.inr h)⟩⟩
    by_cases hpend : Pc.pending ∈ ts
    · -- the waiting writer can go ahead: nobody reads
      have hread : anyReading ts = false := by
        unfold anyReading
        rw [List.any_eq_false]
        intro p hp
        cases p with
        | holdOuter n =>
          cases n with
          | zero => exact absurd rfl (hno _ hp).2.2
          | succ n => exact absurd ⟨⟨n, hp⟩, hpend⟩ he
        | holdBoth n => exact absurd rfl ((hno _ hp).1 n)
        | _ => simp [Pc.reading]
      exact step_of_next (p' := .holdWrite) hpend (by simp [Pc.next, hread])
    · -- nobody writes: everybody can go ahead
      have hwrite : anyWriting ts = false := by
        unfold anyWriting
        rw [List.any_eq_false]
        intro p hp
        cases p with
        | pending => exact absurd hp hpend
        | holdWrite => exact absurd rfl (hno _ hp).2.1
        | _ => simp [Pc.writing]
      obtain ⟨p, hp, hne⟩ : ∃ p ∈ ts, p ≠ .done := by
        rcases Classical.em (∃ p ∈ ts, p ≠ .done) with h | h
        · exact h
        · exact absurd (fun p hp => Classical.byContradiction fun hn => h ⟨p, hp, hn⟩) hdone
      cases p with
      | done => exact absurd rfl hne
      | wantOuter n => exact step_of_next (p' := .holdOuter n) hp (by simp [Pc.next, hwrite])
      | holdOuter n =>
        cases n with
        | zero => exact step_of_next hp rfl
        | succ n => exact step_of_next (p' := .holdBoth n) hp (by simp [Pc.next, hwrite])
      | holdBoth n => exact step_of_next hp rfl
      | wantWrite => exact step_of_next (p' := .pending) hp (by simp [Pc.next, hwrite])
      | pending => exact absurd hp hpend
      | holdWrite => exact step_of_next hp rfl

/-- Steps a goroutine has left. -/
def left : Pc → Nat
  | .wantOuter n => 2 * n + 2
  | .holdOuter n => 2 * n + 1
  | .holdBoth n => 2 * n + 2
  | .wantWrite => 3
  | .pending => 2
  | .holdWrite => 1
  | .done => 0

/-- Total number of steps left. -/
def leftAll (ts : Threads) : Nat := (ts.map left).sum

/-- Every execution ends: each step reduces the total number of steps left by one. -/
theorem C20_executions_end {ts ts' : Threads} (h : Step ts ts') : leftAll ts' + 1 = leftAll ts := by
  cases h with
  | mk pre post p p' h =>
    have : left p' + 1 = left p := by
      generalize anyReading (pre ++ p :: post) = r at h
      generalize anyWriting (pre ++ p :: post) = w at h
      cases p with
      | holdOuter n =>
        cases n with
        | zero => simp [Pc.next] at h; subst h; rfl
        | succ n => cases w <;> simp [Pc.next] at h; subst h; simp [left]; omega
      | wantOuter n => cases w <;> simp [Pc.next] at h; subst h; simp [left]
      | holdBoth n => simp [Pc.next] at h; subst h; simp [left]
      | wantWrite => cases w <;> simp [Pc.next] at h; subst h; rfl
      | pending => cases r <;> simp [Pc.next] at h; subst h; rfl
      | holdWrite => simp [Pc.next] at h; subst h; rfl
      | done => simp [Pc.next] at h
    simp only [leftAll, List.map_append, List.map_cons, List.sum_append_nat, List.sum_cons]
    omega

/-- Something that holds of all steps of single goroutines holds of whole executions. -/
theorem steps_forall {P : Pc → Prop} (hP : ∀ p r w p', P p → p.next r w = some p' → P p')
    {ts ts' : Threads} (h : Steps ts ts') (h0 : ∀ p ∈ ts, P p) : ∀ p ∈ ts', P p := by
  induction h with
  | refl => exact h0
  | tail _ hstep ih =>
    cases hstep with
    | mk pre post p p' hn =>
      intro x hx
      simp only [List.mem_append, List.mem_cons] at hx
      rcases hx with hx | rfl | hx
      · exact ih x (by simp [hx])
      · exact hP p _ _ _ (ih p (by simp)) hn
      · exact ih x (by simp [hx])

/-- **C20, without status changes.** Any number of concurrent queries, with any number of groups,
always finish: an execution that cannot go on has completed every query. -/
theorem C20_queries_alone_partial (ts ts' : Threads) (h0 : ∀ p ∈ ts, ∃ n, p = .wantOuter n)
    (h : Steps ts ts') (hend : ¬ ∃ ts'', Step ts' ts'') : AllDone ts' := by
  have hP := steps_forall (P := fun p => p.writing = false ∧ p ≠ .wantWrite) (by
    rintro p r w p' ⟨h1, h2⟩ hn
    cases p with
    | holdOuter n =>
      cases n with
      | zero => simp [Pc.next] at hn; subst hn; simp [Pc.writing]
      | succ n => cases w <;> simp [Pc.next] at hn; subst hn; simp [Pc.writing]
    | wantOuter n => cases w <;> simp [Pc.next] at hn; subst hn; simp [Pc.writing]
    | holdBoth n => simp [Pc.next] at hn; subst hn; simp [Pc.writing]
    | wantWrite => exact absurd rfl h2
    | pending => simp [Pc.writing] at h1
    | holdWrite => simp [Pc.writing] at h1
    | done => simp [Pc.next] at hn) h (by
    intro p hp
    obtain ⟨n, rfl⟩ := h0 p hp
    simp [Pc.writing])
  rcases Classical.em (AllDone ts') with hd | hd
  · exact hd
  · refine absurd (C20_progress_partial ts' hd ?_) hend
    rintro ⟨_, hpend⟩
    have := (hP _ hpend).1
    simp [Pc.writing] at this

/-- **C20, queries without groups.** If no query has a group to check (nothing is configured for its
client), queries and status changes always finish. -/
theorem C20_without_groups_partial (ts ts' : Threads)
    (h0 : ∀ p ∈ ts, p = .wantOuter 0 ∨ p = .wantWrite)
    (h : Steps ts ts') (hend : ¬ ∃ ts'', Step ts' ts'') : AllDone ts' := by
  have hP := steps_forall (P := fun p => ∀ n, p ≠ .holdOuter (n + 1) ∧ p ≠ .wantOuter (n + 1) ∧ p ≠ .holdBoth n) (by
    intro p r w p' h1 hn
    cases p with
    | holdOuter n =>
      cases n with
      | zero => simp [Pc.next] at hn; subst hn; simp
      | succ n => exact absurd rfl (h1 n).1
    | wantOuter n =>
      cases n with
      | zero => cases w <;> simp [Pc.next] at hn; subst hn; simp
      | succ n => exact absurd rfl (h1 n).2.1
    | holdBoth n => exact absurd rfl (h1 n).2.2
    | wantWrite => cases w <;> simp [Pc.next] at hn; subst hn; simp
    | pending => cases r <;> simp [Pc.next] at hn; subst hn; simp
    | holdWrite => simp [Pc.next] at hn; subst hn; simp
    | done => simp [Pc.next] at hn) h (by
    intro p hp n
    rcases h0 p hp with rfl | rfl <;> simp)
  rcases Classical.em (AllDone ts') with hd | hd
  · exact hd
  · refine absurd (C20_progress_partial ts' hd ?_) hend
    rintro ⟨⟨n, hn⟩, _⟩
    exact (hP _ hn n).1 rfl

/-- Position `i` of the goroutines. -/
def At (ts : Threads) (i : Nat) (p : Pc) : Prop := ts[i]? = some p

/-- Once a query and a status change block each other, they do so for ever. -/
theorem embrace_stays {ts ts' : Threads} {i j n : Nat} (h : Steps ts ts')
    (hi : At ts i (.holdOuter (n + 1))) (hj : At ts j .pending) :
    At ts' i (.holdOuter (n + 1)) ∧ At ts' j .pending := by
  induction h with
  | refl => exact ⟨hi, hj⟩
  | tail _ hstep ih =>
    obtain ⟨h1, h2⟩ := ih
    cases hstep with
    | mk pre post p p' hn =>
      have hr : anyReading (pre ++ p :: post) = true :=
        List.any_eq_true.2 ⟨_, List.mem_of_getElem? h1, rfl⟩
      have hw : anyWriting (pre ++ p :: post) = true :=
        List.any_eq_true.2 ⟨_, List.mem_of_getElem? h2, rfl⟩
      rw [hr, hw] at hn
      have stay : ∀ k q, At (pre ++ p :: post) k q → q ≠ p → At (pre ++ p' :: post) k q := by
        intro k q hk hne
        unfold At at hk ⊢
        rcases Nat.lt_trichotomy k pre.length with hlt | heq | hgt
        · rw [List.getElem?_append_left hlt] at hk ⊢; exact hk
        · rw [heq, List.getElem?_append_right (by omega)] at hk
          simp at hk
          exact absurd hk.symm hne
        · rw [List.getElem?_append_right (by omega)] at hk ⊢
          obtain ⟨m, hm⟩ : ∃ m, k - pre.length = m + 1 := ⟨k - pre.length - 1, by omega⟩
          rw [hm] at hk ⊢
          simpa using hk
      refine ⟨stay _ _ h1 ?_, stay _ _ h2 ?_⟩
      · rintro rfl; simp [Pc.next] at hn
      · rintro rfl; simp [Pc.next] at hn

/-- **C20 is false.** For every query with at least one group to check, and every set of further
goroutines about to start, there is an interleaving in which the query and a status change block
each other: however the execution goes on, neither of them ever finishes. -/
theorem C20_deadlock (n : Nat) (others : Threads) (hstart : Start others) :
    ∃ ts, Steps (.wantOuter (n + 1) :: .wantWrite :: others) ts ∧
      ∀ ts', Steps ts ts' → At ts' 0 (.holdOuter (n + 1)) ∧ At ts' 1 .pending := by
  have hr : others.any Pc.writing = false := by
    rw [List.any_eq_false]
    intro p hp
    rcases hstart p hp with ⟨n, rfl⟩ | rfl <;> simp [Pc.writing]
  refine ⟨.holdOuter (n + 1) :: .pending :: others, ?_, fun ts' h => embrace_stays h rfl rfl⟩
  have s1 : Step (.wantOuter (n + 1) :: .wantWrite :: others) (.holdOuter (n + 1) :: .wantWrite :: others) :=
    .mk [] (.wantWrite :: others) _ _ (by simp [Pc.next, anyWriting, Pc.writing, hr])
  have s2 : Step (.holdOuter (n + 1) :: .wantWrite :: others) (.holdOuter (n + 1) :: .pending :: others) :=
    .mk [.holdOuter (n + 1)] others _ _ (by simp [Pc.next, anyWriting, Pc.writing, hr])
  exact .tail (.tail (.refl _) s1) s2

/-- Further: while the two block each other, no other query gets an answer and no other status change
happens: no goroutine that has not started yet ever gets its lock. -/
theorem C20_deadlock_starves {ts ts' : Threads} {i j k n : Nat} (h : Steps ts ts')
    (hi : At ts i (.holdOuter (n + 1))) (hj : At ts j .pending) (p : Pc)
    (hk : At ts k p) (hp : (∃ m, p = .wantOuter m) ∨ p = .wantWrite) : At ts' k p := by
  induction h with
  | refl => exact hk
  | tail hs hstep ih =>
    obtain ⟨h1, h2⟩ := embrace_stays hs hi hj
    cases hstep with
    | mk pre post q q' hn =>
      have hw : anyWriting (pre ++ q :: post) = true :=
        List.any_eq_true.2 ⟨_, List.mem_of_getElem? h2, rfl⟩
      rw [hw] at hn
      unfold At at ih ⊢
      rcases Nat.lt_trichotomy k pre.length with hlt | heq | hgt
      · rw [List.getElem?_append_left hlt] at ih ⊢; exact ih
      · rw [heq, List.getElem?_append_right (by omega)] at ih
        simp at ih
        subst ih
        rcases hp with ⟨m, rfl⟩ | rfl <;> simp [Pc.next] at hn
      · rw [List.getElem?_append_right (by omega)] at ih ⊢
        obtain ⟨m, hm⟩ : ∃ m, k - pre.length = m + 1 := ⟨k - pre.length - 1, by omega⟩
        rw [hm] at ih ⊢
        simpa using ih

/-- Two goroutines may be at these places at the same time: none of them changes the status while the other
reads or changes it. -/
def Compatible (p q : Pc) : Prop :=
  (p = .holdWrite → q ≠ .holdWrite ∧ (∀ n, q ≠ .holdOuter n) ∧ ∀ n, q ≠ .holdBoth n) ∧
  (q = .holdWrite → p ≠ .holdWrite ∧ (∀ n, p ≠ .holdOuter n) ∧ ∀ n, p ≠ .holdBoth n)

/-- The invariant behind `C20_exclusion`: also at most one goroutine has announced a change. -/
def Compatible' (p q : Pc) : Prop :=
  ¬ (p.writing = true ∧ q.writing = true) ∧ ¬ (p = .holdWrite ∧ q.reading = true) ∧ ¬ (q = .holdWrite ∧ p.reading = true)

theorem Compatible'.symm {p q : Pc} (h : Compatible' p q) : Compatible' q p :=
  ⟨fun ⟨a, b⟩ => h.1 ⟨b, a⟩, fun x => h.2.2 x, fun x => h.2.1 x⟩

theorem compatible_next {p p' q : Pc} {r w : Bool} (hc : Compatible' p q) (hr : r = false → q.reading = false)
    (hw : w = false → q.writing = false) (h : p.next r w = some p') : Compatible' p' q := by
  unfold Compatible' at hc ⊢
  cases p with
  | wantOuter n => cases w <;> simp [Pc.next] at h; subst h; have := hw rfl; cases q <;> simp_all [Pc.writing, Pc.reading]
  | holdOuter n =>
    cases n with
    | zero => simp [Pc.next] at h; subst h; simp [Pc.writing, Pc.reading]
    | succ n => cases w <;> simp [Pc.next] at h; subst h; have := hw rfl; cases q <;> simp_all [Pc.writing, Pc.reading]
  | holdBoth n => simp [Pc.next] at h; subst h; cases q <;> simp_all [Pc.writing, Pc.reading]
  | wantWrite => cases w <;> simp [Pc.next] at h; subst h; have := hw rfl; cases q <;> simp_all [Pc.writing, Pc.reading]
  | pending => cases r <;> simp [Pc.next] at h; subst h; have := hr rfl; cases q <;> simp_all [Pc.writing, Pc.reading]
  | holdWrite => simp [Pc.next] at h; subst h; simp [Pc.writing, Pc.reading]
  | done => simp [Pc.next] at h

/-- **C20, exclusion.** In every execution of any number of queries and status changes: while one goroutine
changes the status, no other reads or changes it. -/
theorem C20_exclusion (ts ts' : Threads) (h0 : Start ts) (h : Steps ts ts') : ts'.Pairwise Compatible := by
  have hinv : ts'.Pairwise Compatible' := by
    induction h with
    | refl =>
      rw [List.pairwise_iff_forall_sublist]
      intro a b hab
      have ha := h0 a (hab.subset (by simp))
      have hb := h0 b (hab.subset (by simp))
      rcases ha with ⟨n, rfl⟩ | rfl <;> rcases hb with ⟨m, rfl⟩ | rfl <;> simp [Compatible', Pc.writing, Pc.reading]
    | tail _ hstep ih =>
      cases hstep with
      | mk pre post p p' hn =>
        rw [List.pairwise_append, List.pairwise_cons] at ih ⊢
        obtain ⟨i1, ⟨i2, i3⟩, i4⟩ := ih
        have hall : ∀ q ∈ pre ++ p :: post, (anyReading (pre ++ p :: post) = false → q.reading = false) ∧
            (anyWriting (pre ++ p :: post) = false → q.writing = false) := by
          intro q hq
          refine ⟨fun e => ?_, fun e => ?_⟩
          · exact Bool.eq_false_iff.2 (List.any_eq_false.1 e q hq)
          · exact Bool.eq_false_iff.2 (List.any_eq_false.1 e q hq)
        refine ⟨i1, ⟨fun q hq => ?_, i3⟩, fun a ha b hb => ?_⟩
        · have := hall q (by simp [hq])
          exact compatible_next (i2 q hq) this.1 this.2 hn
        · rcases List.mem_cons.1 hb with rfl | hb
          · have := hall a (by simp [ha])
            exact (compatible_next (i4 a ha p (by simp)).symm this.1 this.2 hn).symm
          · exact i4 a ha b (by simp [hb])
  refine hinv.imp ?_
  intro p q ⟨h1, h2, h3⟩
  refine ⟨?_, ?_⟩
  · rintro rfl
    refine ⟨?_, fun n => ?_, fun n => ?_⟩
    · rintro rfl; exact h1 ⟨rfl, rfl⟩
    · rintro rfl; exact h2 ⟨rfl, rfl⟩
    · rintro rfl; exact h2 ⟨rfl, rfl⟩
  · rintro rfl
    refine ⟨?_, fun n => ?_, fun n => ?_⟩
    · rintro rfl; exact h1 ⟨rfl, rfl⟩
    · rintro rfl; exact h3 ⟨rfl, rfl⟩
    · rintro rfl; exact h3 ⟨rfl, rfl⟩

-- Instances: three queries and two status changes about to start.
example : Start [.wantOuter 2, .wantWrite, .wantOuter 0, .wantOuter 5, .wantWrite] := by
  intro p hp
  simp only [List.mem_cons, List.not_mem_nil, or_false] at hp
  rcases hp with rfl | rfl | rfl | rfl | rfl
  · exact .inl ⟨_, rfl⟩
  · exact .inr rfl
  · exact .inl ⟨_, rfl⟩
  · exact .inl ⟨_, rfl⟩
  · exact .inr rfl

example : ¬ AllDone [.wantOuter 2, .wantWrite] ∧ ¬ Embrace [.wantOuter 2, .wantWrite] := by
  constructor
  · intro h
    have := h (.wantOuter 2) (by simp)
    cases this
  · rintro ⟨_, h⟩
    revert h; decide

end Verif.Props
