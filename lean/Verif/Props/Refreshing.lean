/-
C117: loading lists and hosts files with several goroutines.
-/
import Verif.Model.Refreshing
import Verif.Props.ListRefresh

namespace Verif.Props
open StringCache Spec Lists Refreshing

variable {α : Type}

/-- A producer that was not disturbed: it could not open its source, or it sent all there is. -/
def Natural (s : Src α) (sent : List α) (err : Option SrcErr) : Prop :=
  (∃ e, s.openErr = some e ∧ sent = [] ∧ err = some e) ∨
  (s.openErr = none ∧ sent = s.lines.flatten ∧
    err = if s.lenient = true ∧ s.lines.flatten ≠ [] then none else s.endErr)

/-- A producer that was stopped because another one failed: it sent the first lines. -/
def CutOff (s : Src α) (sent : List α) (err : Option SrcErr) : Prop :=
  (sent = [] ∧ err = some .other) ∨
  (s.openErr = none ∧ (∃ k, sent = (s.lines.take k).flatten) ∧
    err = if s.lenient = true ∧ sent ≠ [] then none else some .other)

/-- A source that fails by itself. -/
def SourceFails (s : Src α) : Prop := ∃ sent e, Natural s sent (some e)

theorem set_split {β : Type} : ∀ {l : List β} {i : Nat} {t : β}, l[i]? = some t →
    ∃ a b, l = a ++ t :: b ∧ ∀ t', l.set i t' = a ++ t' :: b
  | [], i, t, h => by simp at h
  | x :: l, 0, t, h => by
    simp only [List.getElem?_cons_zero, Option.some.injEq] at h
    subst h
    exact ⟨[], l, rfl, fun _ => rfl⟩
  | x :: l, i + 1, t, h => by
    simp only [List.getElem?_cons_succ] at h
    obtain ⟨a, b, h1, h2⟩ := set_split h
    exact ⟨x :: a, b, by rw [h1]; rfl, fun t' => by rw [List.set_cons_succ, h2]; rfl⟩

/-- What a producer has done so far. -/
def Sound (t : Thread α) : Prop :=
  match t.phase with
  | .waiting => t.sent = []
  | .opening => t.sent = []
  | .reading line lines => t.src.openErr = none ∧
    ∃ k, t.sent ++ line = (t.src.lines.take k).flatten ∧ lines = t.src.lines.drop k
  | .ended err => Natural t.src t.sent err ∨ CutOff t.src t.sent err

/-- The error of a producer that failed, with its group. -/
def failureOf (t : Thread α) : Option (Str × SrcErr) :=
  match t.phase with
  | .ended (some e) => some (t.group, e)
  | _ => none

/-- What holds at all times. -/
structure LoadInv (limit cap : Nat) (sources : List (Str × Src α)) (st : State α) : Prop where
  sources : st.threads.map (fun t => (t.group, t.src)) = sources
  sound : ∀ t ∈ st.threads, Sound t
  values : (st.taken ++ st.chan).Perm (st.threads.flatMap (fun t => t.sent.map (fun x => (t.group, x))))
  turns : st.threads.countP Thread.running ≤ limit
  room : ∀ g, st.chan.countP (fun p => p.1 = g) ≤ cap
  errs : st.errs.Perm (st.threads.filterMap failureOf)
  first : ∀ p, st.errs.head? = some p → ∃ t ∈ st.threads, t.group = p.1 ∧ Natural t.src t.sent (some p.2) ∧
    t.phase = .ended (some p.2)
  calm : st.errs = [] → ∀ t ∈ st.threads, ∀ err, t.phase = .ended err → Natural t.src t.sent err

theorem inv_start (limit cap : Nat) (sources : List (Str × Src α)) : LoadInv limit cap sources (Refreshing.start sources) where
  sources := by
    show List.map _ (List.map _ sources) = sources
    rw [List.map_map]
    exact List.map_id' sources
  sound := by
    intro t ht
    simp only [Refreshing.start, List.mem_map] at ht
    obtain ⟨s, _, rfl⟩ := ht
    exact rfl
  values := by
    have : ∀ l : List (Str × Src α), (List.flatMap (fun t : Thread α => t.sent.map (fun x => (t.group, x)))
        (l.map (fun s => { group := s.1, src := s.2 }))) = [] := by
      intro l; induction l with
      | nil => rfl
      | cons x l ih => simp [ih]
    show List.Perm [] _
    rw [Refreshing.start, this]
  turns := by
    have : ∀ l : List (Str × Src α), List.countP Thread.running (l.map (fun s => ({ group := s.1, src := s.2 } : Thread α))) = 0 := by
      intro l; induction l with
      | nil => rfl
      | cons x l ih => simp [ih, Thread.running]
    rw [Refreshing.start, this]; omega
  room := fun g => by simp [Refreshing.start]
  errs := by
    have : ∀ l : List (Str × Src α), List.filterMap failureOf (l.map (fun s => ({ group := s.1, src := s.2 } : Thread α))) = [] := by
      intro l; induction l with
      | nil => rfl
      | cons x l ih => rw [List.map_cons, List.filterMap_cons]; exact ih
    show List.Perm [] _
    rw [Refreshing.start, this]
  first := by simp [Refreshing.start]
  calm := by
    intro _ t ht err h
    simp only [Refreshing.start, List.mem_map] at ht
    obtain ⟨s, _, rfl⟩ := ht
    cases h

/-- Replacing a producer that goes on and sends nothing. -/
theorem inv_put {limit cap : Nat} {sources : List (Str × Src α)} {st : State α} (h : LoadInv limit cap sources st)
    {i : Nat} {t : Thread α} (ht : st.threads[i]? = some t) (ph : Phase α)
    (hnow : ∀ err, t.phase ≠ .ended err) (hph : ∀ err, ph ≠ .ended err)
    (hs : Sound { t with phase := ph })
    (hr : t.running = true ∨ st.threads.countP Thread.running < limit) :
    LoadInv limit cap sources (st.put i { t with phase := ph }) := by
  obtain ⟨a, b, h1, h2⟩ := set_split ht
  have hput : (st.put i { t with phase := ph }).threads = a ++ { t with phase := ph } :: b := h2 _
  have hf : failureOf { t with phase := ph } = none := by
    unfold failureOf
    cases ph with
    | ended err => exact absurd rfl (hph err)
    | _ => rfl
  have hf0 : failureOf t = none := by
    unfold failureOf
    cases hp : t.phase with
    | ended err => exact absurd hp (hnow err)
    | _ => rfl
  constructor
  · rw [hput, ← h.sources, h1]; simp
  · intro u hu
    rw [hput] at hu
    rcases List.mem_append.1 hu with hu | hu
    · exact h.sound u (by rw [h1]; exact List.mem_append_left _ hu)
    · rcases List.mem_cons.1 hu with rfl | hu
      · exact hs
      · exact h.sound u (by rw [h1]; exact List.mem_append_right _ (List.mem_cons_of_mem _ hu))
  · have := h.values
    rw [hput]
    rw [h1] at this
    simpa [State.put] using this
  · have := h.turns
    rw [hput]
    rw [h1] at this hr
    simp only [List.countP_append, List.countP_cons] at this hr ⊢
    have hle : (if ({ t with phase := ph } : Thread α).running = true then 1 else 0) ≤ 1 := by split <;> omega
    rcases hr with hr | hr
    · rw [hr] at this
      simp only [if_true] at this
      omega
    · omega
  · exact h.room
  · have := h.errs
    rw [hput]
    rw [h1] at this
    simpa [State.put, hf, hf0] using this
  · intro p hp
    obtain ⟨u, hu, e1, e2, e3⟩ := h.first p hp
    refine ⟨u, ?_, e1, e2, e3⟩
    rw [hput]
    rw [h1] at hu
    rcases List.mem_append.1 hu with hu | hu
    · exact List.mem_append_left _ hu
    · rcases List.mem_cons.1 hu with rfl | hu
      · exact absurd e3 (hnow _)
      · exact List.mem_append_right _ (List.mem_cons_of_mem _ hu)
  · intro he u hu err hp
    rw [hput] at hu
    rcases List.mem_append.1 hu with hu | hu
    · exact h.calm he u (by rw [h1]; exact List.mem_append_left _ hu) err hp
    · rcases List.mem_cons.1 hu with rfl | hu
      · exact absurd hp (hph err)
      · exact h.calm he u (by rw [h1]; exact List.mem_append_right _ (List.mem_cons_of_mem _ hu)) err hp

/-- A producer returns. -/
theorem inv_finish {limit cap : Nat} {sources : List (Str × Src α)} {st : State α} (h : LoadInv limit cap sources st)
    {i : Nat} {t : Thread α} (ht : st.threads[i]? = some t) (err : Option SrcErr)
    (hnow : ∀ err, t.phase ≠ .ended err)
    (hs : Natural t.src t.sent err ∨ (CutOff t.src t.sent err ∧ st.threads.any Thread.failed = true)) :
    LoadInv limit cap sources (st.finish i t err) := by
  obtain ⟨a, b, h1, h2⟩ := set_split ht
  have hput : (st.finish i t err).threads = a ++ { t with phase := .ended err } :: b := h2 _
  have hf0 : failureOf t = none := by
    unfold failureOf
    cases hp : t.phase with
    | ended err => exact absurd hp (hnow err)
    | _ => rfl
  have hne : st.threads.any Thread.failed = true → st.errs ≠ [] := by
    intro ha he
    have hperm := h.errs
    rw [he] at hperm
    have hnil := List.Perm.nil_eq hperm
    rw [List.any_eq_true] at ha
    obtain ⟨u, hu, hfu⟩ := ha
    unfold Thread.failed at hfu
    have : ∃ p, failureOf u = some p := by
      unfold failureOf
      split at hfu
      · rename_i e heq; exact ⟨_, by rw [heq]⟩
      · exact absurd hfu (by simp)
    obtain ⟨p, hp⟩ := this
    have : p ∈ st.threads.filterMap failureOf := List.mem_filterMap.2 ⟨u, hu, hp⟩
    rw [← hnil] at this
    cases this
  constructor
  · rw [hput, ← h.sources, h1]; simp
  · intro u hu
    rw [hput] at hu
    rcases List.mem_append.1 hu with hu | hu
    · exact h.sound u (by rw [h1]; exact List.mem_append_left _ hu)
    · rcases List.mem_cons.1 hu with rfl | hu
      · rcases hs with hs | hs
        · exact .inl hs
        · exact .inr hs.1
      · exact h.sound u (by rw [h1]; exact List.mem_append_right _ (List.mem_cons_of_mem _ hu))
  · have := h.values
    rw [hput]
    rw [h1] at this
    simpa [State.finish] using this
  · have := h.turns
    rw [hput]
    rw [h1] at this
    simp only [List.countP_append, List.countP_cons] at this ⊢
    have h0 : ({ t with phase := .ended err } : Thread α).running = false := rfl
    rw [h0]
    simp only [Bool.false_eq_true, if_false]
    omega
  · exact h.room
  · have := h.errs
    rw [hput]
    rw [h1] at this
    show (st.errs ++ (err.map (fun e => (t.group, e))).toList).Perm _
    cases err with
    | none =>
      have hf1 : failureOf ({ t with phase := .ended none } : Thread α) = none := rfl
      simpa [hf1, List.filterMap_cons, hf0] using this
    | some e =>
      simp only [Option.map_some, Option.toList_some, List.filterMap_append, List.filterMap_cons, failureOf]
      simp only [List.filterMap_append, List.filterMap_cons, hf0] at this
      refine (List.perm_append_comm.trans ?_)
      refine ((this.cons (t.group, e))).trans ?_
      exact List.perm_middle.symm
  · intro p hp
    have keep : ∀ u ∈ st.threads, ∀ e, u.phase = .ended e → u ∈ (st.finish i t err).threads := by
      intro u hu e he
      rw [hput]
      rw [h1] at hu
      rcases List.mem_append.1 hu with hu | hu
      · exact List.mem_append_left _ hu
      · rcases List.mem_cons.1 hu with rfl | hu
        · exact absurd he (hnow _)
        · exact List.mem_append_right _ (List.mem_cons_of_mem _ hu)
    have hp : (st.errs ++ (err.map (fun e => (t.group, e))).toList).head? = some p := hp
    cases hes : st.errs with
    | cons q qs =>
      rw [hes] at hp
      obtain ⟨u, hu, e1, e2, e3⟩ := h.first p (by rw [hes]; exact hp)
      exact ⟨u, keep u hu _ e3, e1, e2, e3⟩
    | nil =>
      rw [hes] at hp
      cases err with
      | none => simp at hp
      | some e =>
        simp only [Option.map_some, Option.toList_some, List.nil_append, List.head?_cons, Option.some.injEq] at hp
        subst hp
        refine ⟨{ t with phase := .ended (some e) }, ?_, rfl, ?_, rfl⟩
        · rw [hput]; exact List.mem_append_right _ (List.mem_cons_self ..)
        · rcases hs with hs | hs
          · exact hs
          · exact absurd hes (hne hs.2)
  · intro he u hu e hp
    have he : st.errs ++ (err.map (fun e => (t.group, e))).toList = [] := he
    have he0 : st.errs = [] := (List.append_eq_nil_iff.1 he).1
    rw [hput] at hu
    rcases List.mem_append.1 hu with hu | hu
    · exact h.calm he0 u (by rw [h1]; exact List.mem_append_left _ hu) e hp
    · rcases List.mem_cons.1 hu with rfl | hu
      · cases hp
        rcases hs with hs | hs
        · exact hs
        · exact absurd he0 (hne hs.2)
      · exact h.calm he0 u (by rw [h1]; exact List.mem_append_right _ (List.mem_cons_of_mem _ hu)) e hp

theorem inv_step {limit cap : Nat} {sources : List (Str × Src α)} {st st' : State α} (h : LoadInv limit cap sources st)
    (m : Move) (hm : step limit cap st m = some st') : LoadInv limit cap sources st' := by
  cases m with
  | start i =>
    simp only [step] at hm
    cases ht : st.threads[i]? with
    | none => rw [ht] at hm; cases hm
    | some t =>
      rw [ht] at hm
      simp only at hm
      cases hp : t.phase with
      | waiting =>
        rw [hp] at hm
        simp only at hm
        by_cases hl : st.threads.countP Thread.running < limit
        · rw [if_pos hl] at hm
          cases hm
          have hs := h.sound t (List.mem_of_getElem? ht)
          unfold Sound at hs
          rw [hp] at hs
          exact inv_put h ht .opening (by rw [hp]; intro e he; cases he) (by intro e he; cases he) hs (.inr hl)
        · rw [if_neg hl] at hm; cases hm
      | opening => rw [hp] at hm; cases hm
      | reading _ _ => rw [hp] at hm; cases hm
      | ended _ => rw [hp] at hm; cases hm
  | openSource i =>
    simp only [step] at hm
    cases ht : st.threads[i]? with
    | none => rw [ht] at hm; cases hm
    | some t =>
      rw [ht] at hm
      simp only at hm
      cases hp : t.phase with
      | opening =>
        rw [hp] at hm
        simp only at hm
        have hs := h.sound t (List.mem_of_getElem? ht)
        unfold Sound at hs
        rw [hp] at hs
        cases ho : t.src.openErr with
        | some e =>
          rw [ho] at hm
          cases hm
          exact inv_finish h ht _ (by rw [hp]; intro e he; cases he) (.inl (.inl ⟨e, ho, hs, rfl⟩))
        | none =>
          rw [ho] at hm
          cases hm
          refine inv_put h ht _ (by rw [hp]; intro e he; cases he) (by intro e he; cases he) ?_ (.inl (by simp [Thread.running, hp]))
          exact ⟨ho, 0, by simpa using hs, by simp⟩
      | waiting => rw [hp] at hm; cases hm
      | reading _ _ => rw [hp] at hm; cases hm
      | ended _ => rw [hp] at hm; cases hm
  | next i =>
    simp only [step] at hm
    cases ht : st.threads[i]? with
    | none => rw [ht] at hm; cases hm
    | some t =>
      rw [ht] at hm
      simp only at hm
      cases hp : t.phase with
      | reading line lines =>
        have hs := h.sound t (List.mem_of_getElem? ht)
        unfold Sound at hs
        rw [hp] at hs hm
        obtain ⟨ho, k, hk1, hk2⟩ := hs
        cases line with
        | cons x l => cases hm
        | nil =>
          cases lines with
          | cons l ls =>
            cases hm
            refine inv_put h ht _ (by rw [hp]; intro e he; cases he) (by intro e he; cases he) ?_ (.inl (by simp [Thread.running, hp]))
            refine ⟨ho, k + 1, ?_, ?_⟩
            · have hlt : k < t.src.lines.length := by
                apply Classical.byContradiction
                intro hn
                rw [List.drop_eq_nil_of_le (by omega)] at hk2
                cases hk2
              rw [List.take_succ_eq_append_getElem hlt, List.flatten_append, ← hk1]
              have : t.src.lines[k] = l := by
                have := List.getElem_cons_drop hlt
                rw [← hk2] at this
                exact (List.cons.inj this).1
              simp [this]
            · rw [← List.tail_drop, ← hk2]; rfl
          | nil =>
            simp only at hm
            cases hm
            have hall : t.sent = t.src.lines.flatten := by
              have : t.src.lines.length ≤ k := List.drop_eq_nil_iff.1 hk2.symm
              rw [List.append_nil, List.take_of_length_le this] at hk1
              exact hk1
            refine inv_finish h ht _ (by rw [hp]; intro e he; cases he) (.inl (.inr ⟨ho, hall, ?_⟩))
            unfold outcome
            rw [← hall]
            simp
      | waiting => rw [hp] at hm; cases hm
      | opening => rw [hp] at hm; cases hm
      | ended _ => rw [hp] at hm; cases hm
  | stop i =>
    simp only [step] at hm
    by_cases ha : st.threads.any Thread.failed = true
    · rw [if_pos ha] at hm
      cases ht : st.threads[i]? with
      | none => rw [ht] at hm; cases hm
      | some t =>
        rw [ht] at hm
        simp only at hm
        have hs := h.sound t (List.mem_of_getElem? ht)
        unfold Sound at hs
        cases hp : t.phase with
        | waiting =>
          rw [hp] at hs hm
          cases hm
          exact inv_finish h ht _ (by rw [hp]; intro e he; cases he) (.inr ⟨.inl ⟨hs, rfl⟩, ha⟩)
        | opening =>
          rw [hp] at hs hm
          cases hm
          exact inv_finish h ht _ (by rw [hp]; intro e he; cases he) (.inr ⟨.inl ⟨hs, rfl⟩, ha⟩)
        | ended _ => rw [hp] at hm; cases hm
        | reading line lines =>
          rw [hp] at hs hm
          cases line with
          | cons x l => cases hm
          | nil =>
            simp only at hm
            cases hm
            obtain ⟨ho, k, hk1, hk2⟩ := hs
            refine inv_finish h ht _ (by rw [hp]; intro e he; cases he) (.inr ⟨.inr ⟨ho, ⟨k, by simpa using hk1⟩, ?_⟩, ha⟩)
            unfold outcome
            simp
    · rw [if_neg ha] at hm; cases hm
  | send i =>
    simp only [step] at hm
    cases ht : st.threads[i]? with
    | none => rw [ht] at hm; cases hm
    | some t =>
      rw [ht] at hm
      simp only at hm
      cases hp : t.phase with
      | waiting => rw [hp] at hm; cases hm
      | opening => rw [hp] at hm; cases hm
      | ended _ => rw [hp] at hm; cases hm
      | reading line lines =>
        have hs := h.sound t (List.mem_of_getElem? ht)
        unfold Sound at hs
        rw [hp] at hs hm
        obtain ⟨ho, k, hk1, hk2⟩ := hs
        cases line with
        | nil => cases hm
        | cons x l =>
          simp only at hm
          by_cases hc : st.chan.countP (fun p => p.1 = t.group) < cap
          · rw [if_pos hc] at hm
            cases hm
            obtain ⟨a, b, h1, h2⟩ := set_split ht
            have hput : (st.put i { t with phase := .reading l lines, sent := t.sent ++ [x] }).threads =
              a ++ { t with phase := .reading l lines, sent := t.sent ++ [x] } :: b := h2 _
            have hf0 : failureOf t = none := by unfold failureOf; rw [hp]
            have hr0 : t.running = true := by simp [Thread.running, hp]
            constructor
            · show List.map _ (st.put i _).threads = _
              rw [hput, ← h.sources, h1]; simp
            · intro u hu
              have hu : u ∈ (st.put i { t with phase := .reading l lines, sent := t.sent ++ [x] }).threads := hu
              rw [hput] at hu
              rcases List.mem_append.1 hu with hu | hu
              · exact h.sound u (by rw [h1]; exact List.mem_append_left _ hu)
              · rcases List.mem_cons.1 hu with rfl | hu
                · exact ⟨ho, k, by rw [← hk1]; simp, hk2⟩
                · exact h.sound u (by rw [h1]; exact List.mem_append_right _ (List.mem_cons_of_mem _ hu))
            · have := h.values
              show (st.taken ++ (st.chan ++ [(t.group, x)])).Perm (List.flatMap _ (st.put i _).threads)
              rw [hput]
              rw [h1] at this
              simp only [List.flatMap_append, List.flatMap_cons, List.map_append, List.map_cons, List.map_nil] at this ⊢
              rw [← List.append_assoc]
              refine (List.perm_append_comm.trans ?_)
              refine ((this.cons (t.group, x))).trans ?_
              refine List.Perm.trans ?_ (List.Perm.append_left _ (List.perm_append_comm.append_right _))
              rw [List.singleton_append, List.cons_append]
              exact List.perm_middle.symm
            · have := h.turns
              show List.countP _ (st.put i _).threads ≤ _
              rw [hput]
              rw [h1] at this
              simp only [List.countP_append, List.countP_cons, hr0] at this ⊢
              have hr1 : ({ t with phase := .reading l lines, sent := t.sent ++ [x] } : Thread α).running = true := rfl
              rw [hr1]
              exact this
            · intro g
              show List.countP _ (st.chan ++ [(t.group, x)]) ≤ cap
              have := h.room g
              rw [List.countP_append]
              by_cases hg : t.group = g
              · subst hg
                simp only [List.countP_cons, List.countP_nil, decide_true, if_true]
                omega
              · simp only [List.countP_cons, List.countP_nil, decide_eq_true_eq, if_neg hg]
                omega
            · have := h.errs
              show st.errs.Perm (List.filterMap _ (st.put i _).threads)
              rw [hput]
              rw [h1] at this
              have hf1 : failureOf ({ t with phase := .reading l lines, sent := t.sent ++ [x] } : Thread α) = none := rfl
              simpa [hf0, hf1] using this
            · intro p hpp
              obtain ⟨u, hu, e1, e2, e3⟩ := h.first p hpp
              refine ⟨u, ?_, e1, e2, e3⟩
              show u ∈ (st.put i _).threads
              rw [hput]
              rw [h1] at hu
              rcases List.mem_append.1 hu with hu | hu
              · exact List.mem_append_left _ hu
              · rcases List.mem_cons.1 hu with rfl | hu
                · rw [hp] at e3; cases e3
                · exact List.mem_append_right _ (List.mem_cons_of_mem _ hu)
            · intro he u hu err hpp
              have hu : u ∈ (st.put i { t with phase := .reading l lines, sent := t.sent ++ [x] }).threads := hu
              rw [hput] at hu
              rcases List.mem_append.1 hu with hu | hu
              · exact h.calm he u (by rw [h1]; exact List.mem_append_left _ hu) err hpp
              · rcases List.mem_cons.1 hu with rfl | hu
                · cases hpp
                · exact h.calm he u (by rw [h1]; exact List.mem_append_right _ (List.mem_cons_of_mem _ hu)) err hpp
          · rw [if_neg hc] at hm; cases hm
  | take g =>
    simp only [step] at hm
    cases hf : st.chan.find? (fun p => p.1 = g) with
    | none => rw [hf] at hm; cases hm
    | some p =>
      rw [hf] at hm
      cases hm
      have hpg : decide (p.1 = g) = true := List.find?_some (p := fun p : Str × α => decide (p.1 = g)) hf
      obtain ⟨_, as, bs, hd, hnone⟩ := List.find?_eq_some_iff_append.1 hf
      have her : st.chan.eraseP (fun p => p.1 = g) = as ++ bs := by
        rw [hd, List.eraseP_append_right _ (by intro b hb; simpa using hnone b hb), List.eraseP_cons_of_pos (p := fun p : Str × α => decide (p.1 = g)) hpg]
      constructor
      · exact h.sources
      · exact h.sound
      · show ((st.taken ++ [p]) ++ st.chan.eraseP (fun p => p.1 = g)).Perm _
        rw [her]
        refine List.Perm.trans ?_ h.values
        rw [hd, List.append_assoc]
        exact List.Perm.append_left _ (List.perm_middle (a := p) (l₁ := as) (l₂ := bs)).symm
      · exact h.turns
      · intro g'
        show List.countP _ (st.chan.eraseP (fun p => p.1 = g)) ≤ cap
        have := h.room g'
        rw [her]
        rw [hd] at this
        simp only [List.countP_append, List.countP_cons] at this ⊢
        omega
      · exact h.errs
      · exact h.first
      · exact h.calm

theorem inv_run {limit cap : Nat} {sources : List (Str × Src α)} (ms : List Move) : ∀ {st st' : State α},
    LoadInv limit cap sources st → run limit cap st ms = some st' → LoadInv limit cap sources st' := by
  induction ms with
  | nil => intro st st' h hr; cases hr; exact h
  | cons m ms ih =>
    intro st st' h hr
    simp only [run] at hr
    cases hm : step limit cap st m with
    | none => rw [hm] at hr; cases hr
    | some s => rw [hm] at hr; exact ih (inv_step h m hm) hr

/-! ### At most so many at a time -/

/-- A source is being opened or read. -/
def busy (t : Thread α) : Bool :=
  match t.phase with
  | .waiting => false
  | .ended _ => false
  | _ => true

/-- **C117** Whatever the goroutines do: at no time are more sources being opened or read than `concurrency` says,
and never does a group hold more values between its producers and its consumer than fit into the channel. -/
theorem C117_limit (limit cap : Nat) (sources : List (Str × Src α)) (ms : List Move) (st : State α)
    (h : run limit cap (Refreshing.start sources) ms = some st) :
    (st.threads.filter busy).length ≤ limit ∧ ∀ g, (st.chan.filter (fun p => p.1 = g)).length ≤ cap := by
  have hi := inv_run ms (inv_start limit cap sources) h
  have hb : (busy : Thread α → Bool) = Thread.running := by
    funext t
    unfold busy Thread.running
    cases t.phase <;> rfl
  refine ⟨?_, fun g => ?_⟩
  · rw [hb, ← List.countP_eq_length_filter]; exact hi.turns
  · rw [← List.countP_eq_length_filter]; exact hi.room g

/-! ### It ends -/

/-- **C117** Loading never gets stuck: as long as a producer has not ended or a value has not been taken, something
can happen. -/
theorem C117_never_stuck (limit cap : Nat) (hl : 0 < limit) (hc : 0 < cap) (st : State α)
    (h : (∃ t ∈ st.threads, ∀ err, t.phase ≠ .ended err) ∨ st.chan ≠ []) :
    ∃ m st', step limit cap st m = some st' := by
  cases hch : st.chan with
  | cons p ps =>
    refine ⟨.take p.1, { st with chan := st.chan.eraseP (fun q => q.1 = p.1), taken := st.taken ++ [p] }, ?_⟩
    simp only [step, hch, List.find?_cons, decide_true]
  | nil =>
    rcases h with ⟨t, ht, hp⟩ | h
    · by_cases hr : ∃ u ∈ st.threads, u.running = true
      · obtain ⟨u, hu, hur⟩ := hr
        obtain ⟨i, hi⟩ := List.getElem?_of_mem hu
        unfold Thread.running at hur
        cases hup : u.phase with
        | waiting => rw [hup] at hur; cases hur
        | ended _ => rw [hup] at hur; cases hur
        | opening =>
          cases ho : u.src.openErr with
          | none => exact ⟨.openSource i, _, by simp only [step, hi, hup, ho]; rfl⟩
          | some e => exact ⟨.openSource i, _, by simp only [step, hi, hup, ho]; rfl⟩
        | reading line lines =>
          cases line with
          | nil =>
            cases lines with
            | nil => exact ⟨.next i, _, by simp only [step, hi, hup]; rfl⟩
            | cons l ls => exact ⟨.next i, _, by simp only [step, hi, hup]; rfl⟩
          | cons x l =>
            refine ⟨.send i, { st.put i { u with phase := .reading l lines, sent := u.sent ++ [x] } with
              chan := st.chan ++ [(u.group, x)] }, ?_⟩
            simp only [step, hi, hup, hch, List.countP_nil, if_pos hc]
      · have h0 : st.threads.countP Thread.running = 0 := by
          rw [List.countP_eq_zero]
          intro u hu hur
          exact hr ⟨u, hu, hur⟩
        obtain ⟨i, hi⟩ := List.getElem?_of_mem ht
        cases htp : t.phase with
        | waiting =>
          refine ⟨.start i, st.put i { t with phase := .opening }, ?_⟩
          simp only [step, hi, htp, h0, if_pos hl]
        | ended err => exact absurd htp (hp err)
        | opening => exact absurd ⟨t, ht, by simp [Thread.running, htp]⟩ hr
        | reading _ _ => exact absurd ⟨t, ht, by simp [Thread.running, htp]⟩ hr
    · exact absurd hch h

/-- The moves that are left to a producer, with those of the consumer for its values. -/
def weight (t : Thread α) : Nat :=
  match t.phase with
  | .waiting => 3 + t.src.lines.length + 2 * t.src.lines.flatten.length
  | .opening => 2 + t.src.lines.length + 2 * t.src.lines.flatten.length
  | .reading line lines => 1 + lines.length + 2 * (line.length + lines.flatten.length)
  | .ended _ => 0

/-- The moves that are left. -/
def movesLeft (st : State α) : Nat := (st.threads.map weight).sum + st.chan.length

theorem weight_set {l : List (Thread α)} {i : Nat} {t : Thread α} (ht : l[i]? = some t) (t' : Thread α) :
    ((l.set i t').map weight).sum + weight t = (l.map weight).sum + weight t' := by
  obtain ⟨a, b, h1, h2⟩ := set_split ht
  rw [h2, h1]
  simp only [List.map_append, List.map_cons, List.sum_append, List.sum_cons]
  omega

theorem movesLeft_step {limit cap : Nat} {st st' : State α} (m : Move) (hm : step limit cap st m = some st') :
    movesLeft st' + 1 ≤ movesLeft st := by
  have put : ∀ {i t} (ph : Phase α), st.threads[i]? = some t → weight { t with phase := ph } + 1 ≤ weight t →
      movesLeft (st.put i { t with phase := ph }) + 1 ≤ movesLeft st := by
    intro i t ph ht hw
    have := weight_set ht { t with phase := ph }
    unfold movesLeft State.put
    simp only
    omega
  have fin : ∀ {i t} (err : Option SrcErr), st.threads[i]? = some t → 1 ≤ weight t →
      movesLeft (st.finish i t err) + 1 ≤ movesLeft st := by
    intro i t err ht hw
    have := weight_set ht { t with phase := .ended err }
    have h0 : weight ({ t with phase := .ended err } : Thread α) = 0 := rfl
    unfold movesLeft State.finish
    simp only
    omega
  cases m with
  | start i =>
    simp only [step] at hm
    cases ht : st.threads[i]? with
    | none => rw [ht] at hm; cases hm
    | some t =>
      rw [ht] at hm
      simp only at hm
      split at hm
      · rename_i hp
        split at hm
        · cases hm; exact put _ ht (by simp only [weight, hp]; omega)
        · cases hm
      · cases hm
  | openSource i =>
    simp only [step] at hm
    cases ht : st.threads[i]? with
    | none => rw [ht] at hm; cases hm
    | some t =>
      rw [ht] at hm
      simp only at hm
      split at hm
      · rename_i hp
        split at hm
        · cases hm; exact fin _ ht (by simp only [weight, hp]; omega)
        · cases hm; exact put _ ht (by simp only [weight, hp, List.length_nil]; omega)
      · cases hm
  | next i =>
    simp only [step] at hm
    cases ht : st.threads[i]? with
    | none => rw [ht] at hm; cases hm
    | some t =>
      rw [ht] at hm
      simp only at hm
      split at hm
      · rename_i l ls hp
        cases hm
        refine put _ ht ?_
        simp only [weight, hp, List.length_nil, List.length_cons, List.flatten_cons, List.length_append]
        omega
      · rename_i hp
        cases hm; exact fin _ ht (by simp only [weight, hp]; omega)
      · cases hm
  | send i =>
    simp only [step] at hm
    cases ht : st.threads[i]? with
    | none => rw [ht] at hm; cases hm
    | some t =>
      rw [ht] at hm
      simp only at hm
      split at hm
      · rename_i x l ls hp
        split at hm
        · cases hm
          have hw := weight_set ht { t with phase := .reading l ls, sent := t.sent ++ [x] }
          have h1 : weight ({ t with phase := .reading l ls, sent := t.sent ++ [x] } : Thread α) =
            1 + ls.length + 2 * (l.length + ls.flatten.length) := rfl
          have h2 : weight t = 1 + ls.length + 2 * ((x :: l).length + ls.flatten.length) := by simp only [weight, hp]
          rw [h1, h2] at hw
          simp only [movesLeft, State.put, List.length_append, List.length_cons, List.length_nil] at hw ⊢
          omega
        · cases hm
      · cases hm
  | stop i =>
    simp only [step] at hm
    split at hm
    · cases ht : st.threads[i]? with
      | none => rw [ht] at hm; cases hm
      | some t =>
        rw [ht] at hm
        simp only at hm
        split at hm
        · rename_i hp; cases hm; exact fin _ ht (by simp only [weight, hp]; omega)
        · rename_i hp; cases hm; exact fin _ ht (by simp only [weight, hp]; omega)
        · rename_i hp; cases hm; exact fin _ ht (by simp only [weight, hp]; omega)
        · cases hm
    · cases hm
  | take g =>
    simp only [step] at hm
    cases hf : st.chan.find? (fun p => p.1 = g) with
    | none => rw [hf] at hm; cases hm
    | some p =>
      rw [hf] at hm
      cases hm
      obtain ⟨hpg, as, bs, hd, hnone⟩ := List.find?_eq_some_iff_append.1 hf
      have her : st.chan.eraseP (fun p => p.1 = g) = as ++ bs := by
        rw [hd, List.eraseP_append_right _ (by intro b hb; simpa using hnone b hb),
          List.eraseP_cons_of_pos (p := fun p : Str × α => decide (p.1 = g)) hpg]
      have hlen : st.chan.length = as.length + (bs.length + 1) := by rw [hd]; simp
      unfold movesLeft
      simp only [her, List.length_append, hlen]
      omega

/-- **C117** Loading ends: no schedule has more moves than three for each source, one for each line, and two for
each entry. -/
theorem C117_ends (limit cap : Nat) (sources : List (Str × Src α)) (ms : List Move) (st : State α)
    (h : run limit cap (Refreshing.start sources) ms = some st) :
    ms.length ≤ (sources.map (fun s => 3 + s.2.lines.length + 2 * s.2.lines.flatten.length)).sum := by
  have key : ∀ (ms : List Move) (st st' : State α), run limit cap st ms = some st' →
      movesLeft st' + ms.length ≤ movesLeft st := by
    intro ms
    induction ms with
    | nil => intro st st' hr; cases hr; simp
    | cons m ms ih =>
      intro st st' hr
      simp only [run] at hr
      cases hm : step limit cap st m with
      | none => rw [hm] at hr; cases hr
      | some s =>
        rw [hm] at hr
        have h1 := ih s st' hr
        have h2 := movesLeft_step m hm
        simp only [List.length_cons]
        omega
  have := key ms _ st h
  have h0 : movesLeft (Refreshing.start sources) =
      (sources.map (fun s => 3 + s.2.lines.length + 2 * s.2.lines.flatten.length)).sum := by
    unfold movesLeft Refreshing.start
    simp only [List.map_map, List.length_nil, Nat.add_zero]
    rfl
  omega

/-! ### What comes out -/

/-- All producers have ended and all values have been taken. -/
def LoadDone (st : State α) : Prop := (∀ t ∈ st.threads, ∃ err, t.phase = .ended err) ∧ st.chan = []

theorem allDone_iff (st : State α) : st.done = true ↔ LoadDone st := by
  unfold State.done LoadDone
  rw [Bool.and_eq_true, List.all_eq_true, List.isEmpty_iff]
  refine and_congr ?_ Iff.rfl
  refine forall_congr' fun t => forall_congr' fun _ => ?_
  cases t.phase <;> simp

/-- **C117** However far a load has come, and however it came there, it can be brought to its end: every producer ended,
every value taken. (With C117_ends: every way of going on leads there.) -/
theorem C117_completes (limit cap : Nat) (hl : 0 < limit) (hc : 0 < cap) (sources : List (Str × Src α)) (ms : List Move) (st : State α)
    (h : run limit cap (Refreshing.start sources) ms = some st) :
    ∃ rest st', run limit cap (Refreshing.start sources) (ms ++ rest) = some st' ∧ st'.done = true := by
  have append : ∀ (ms rest : List Move) (s t : State α), run limit cap s ms = some t → run limit cap s (ms ++ rest) = run limit cap t rest := by
    intro ms
    induction ms with
    | nil => intro rest s t hr; cases hr; rfl
    | cons m ms ih =>
      intro rest s t hr
      simp only [run, List.cons_append] at hr ⊢
      cases hm : step limit cap s m with
      | none => rw [hm] at hr; cases hr
      | some s' => rw [hm] at hr; exact ih rest s' t hr
  have unfinished : ∀ s : State α, ¬ s.done = true → (∃ t ∈ s.threads, ∀ err, t.phase ≠ .ended err) ∨ s.chan ≠ [] := fun s hd =>
    Classical.byContradiction fun hn => hd ((allDone_iff s).2 ⟨fun t ht => Classical.byContradiction fun hne =>
      hn (.inl ⟨t, ht, fun err he => hne ⟨err, he⟩⟩), Classical.byContradiction fun hne => hn (.inr hne)⟩)
  have goOn : ∀ (n : Nat) (s : State α), movesLeft s ≤ n → ∃ rest s', run limit cap s rest = some s' ∧ s'.done = true := by
    intro n
    induction n with
    | zero =>
      intro s hs
      by_cases hd : s.done = true
      · exact ⟨[], s, rfl, hd⟩
      · obtain ⟨m, s', hm⟩ := C117_never_stuck limit cap hl hc s (unfinished s hd)
        have := movesLeft_step m hm
        omega
    | succ n ih =>
      intro s hs
      by_cases hd : s.done = true
      · exact ⟨[], s, rfl, hd⟩
      · obtain ⟨m, s', hm⟩ := C117_never_stuck limit cap hl hc s (unfinished s hd)
        have := movesLeft_step m hm
        obtain ⟨rest, s'', h1, h2⟩ := ih s' (by omega)
        refine ⟨m :: rest, s'', ?_, h2⟩
        simp only [run, hm]
        exact h1
  obtain ⟨rest, st', h1, h2⟩ := goOn _ st (Nat.le_refl _)
  exact ⟨rest, st', (append ms rest _ st h).trans h1, h2⟩

-- in the middle of a load: one source opened and one line of it read, another waiting for its turn
example : ∃ rest st', run 1 2 (Refreshing.start (α := Nat) [([], { lines := [[1, 2], [3]] }), ([], { lines := [[4]] })])
    ([.start 0, .openSource 0, .next 0] ++ rest) = some st' ∧ st'.done = true :=
  C117_completes 1 2 (by decide) (by decide) _ _ _ rfl

/-- What a source that is read undisturbed gives. -/
theorem natural_sent {s : Src α} {sent : List α} {err : Option SrcErr} (hf : ¬ SourceFails s) (h : Natural s sent err) :
    sent = s.lines.flatten ∧ err = none := by
  rcases h with ⟨e, h1, h2, h3⟩ | ⟨h1, h2, h3⟩
  · exact absurd ⟨sent, e, .inl ⟨e, h1, h2, rfl⟩⟩ hf
  · refine ⟨h2, ?_⟩
    cases err with
    | none => rfl
    | some e => exact absurd ⟨sent, e, .inr ⟨h1, h2, h3⟩⟩ hf

theorem received_perm {limit cap : Nat} {sources : List (Str × Src α)} {st : State α} (h : LoadInv limit cap sources st)
    (hd : st.chan = []) (g : Str) :
    (st.received g).Perm ((st.threads.filter (fun t => t.group = g)).flatMap (·.sent)) := by
  have hv := h.values
  rw [hd, List.append_nil] at hv
  unfold State.received
  refine ((hv.filter _).map _).trans ?_
  clear hv
  apply List.Perm.of_eq
  generalize st.threads = l
  induction l with
  | nil => rfl
  | cons t l ih =>
    rw [List.flatMap_cons, List.filter_append, List.map_append, ih, List.filter_cons]
    by_cases hg : t.group = g
    · rw [if_pos (by simpa using hg), List.flatMap_cons]
      congr 1
      generalize t.sent = m
      induction m with
      | nil => rfl
      | cons x m ihm =>
        rw [List.map_cons, List.filter_cons, if_pos (by simpa using hg), List.map_cons, ihm]
    · rw [if_neg (by simpa using hg)]
      have : List.filter (fun p : Str × α => decide (p.1 = g)) (t.sent.map (fun x => (t.group, x))) = [] := by
        rw [List.filter_eq_nil_iff]
        intro p hp
        obtain ⟨x, _, rfl⟩ := List.mem_map.1 hp
        simpa using hg
      rw [this]
      rfl

/-- **C117** If no source fails, every schedule gives each group exactly the entries of all its sources, each as often
as it is there, and no error. -/
theorem C117_complete (limit cap : Nat) (sources : List (Str × Src α)) (ms : List Move) (st : State α)
    (h : run limit cap (Refreshing.start sources) ms = some st) (hd : st.done = true)
    (hf : ∀ s ∈ sources, ¬ SourceFails s.2) (g : Str) :
    st.err g = none ∧
    (st.received g).Perm ((sources.filter (fun s => s.1 = g)).flatMap (fun s => s.2.lines.flatten)) := by
  have hi := inv_run ms (inv_start limit cap sources) h
  obtain ⟨hd1, hd2⟩ := (allDone_iff st).1 hd
  have hmem : ∀ t ∈ st.threads, ¬ SourceFails t.src := by
    intro t ht
    refine hf (t.group, t.src) ?_
    rw [← hi.sources]
    exact List.mem_map.2 ⟨t, ht, rfl⟩
  have herr : st.errs = [] := by
    cases he : st.errs with
    | nil => rfl
    | cons p ps =>
      obtain ⟨t, ht, _, hn, _⟩ := hi.first p (by rw [he]; rfl)
      exact absurd ⟨_, _, hn⟩ (hmem t ht)
  refine ⟨by simp [State.err, herr], (received_perm hi hd2 g).trans (List.Perm.of_eq ?_)⟩
  have hsent : ∀ t ∈ st.threads, t.sent = t.src.lines.flatten := by
    intro t ht
    obtain ⟨err, hp⟩ := hd1 t ht
    exact (natural_sent (hmem t ht) (hi.calm herr t ht err hp)).1
  rw [← hi.sources]
  generalize st.threads = l at hsent
  clear hi hd1 hmem hf h hd
  induction l with
  | nil => rfl
  | cons t l ih =>
    have ih := ih (fun u hu => hsent u (List.mem_cons_of_mem _ hu))
    simp only [List.map_cons, List.filter_cons]
    by_cases hg : t.group = g
    · simp only [hg, decide_true, if_true, List.flatMap_cons]
      rw [ih, hsent t (List.mem_cons_self ..)]
    · simp only [hg, decide_false, Bool.false_eq_true, if_false]
      exact ih

/-- **C117** If a source of a group fails, the group gets an error in every schedule; an error of a group is that of
one of its sources, or that of the context after some source failed. -/
theorem C117_error (limit cap : Nat) (sources : List (Str × Src α)) (ms : List Move) (st : State α)
    (h : run limit cap (Refreshing.start sources) ms = some st) (hd : st.done = true) (g : Str) :
    ((∃ s ∈ sources, s.1 = g ∧ SourceFails s.2) → st.err g ≠ none) ∧
    (∀ e, st.err g = some e → (∃ s ∈ sources, s.1 = g ∧ ∃ sent, Natural s.2 sent (some e)) ∨
      (e = .other ∧ ∃ s ∈ sources, SourceFails s.2)) := by
  have hi := inv_run ms (inv_start limit cap sources) h
  obtain ⟨hd1, hd2⟩ := (allDone_iff st).1 hd
  have herr : ∀ e, (g, e) ∈ st.errs ↔ ∃ t ∈ st.threads, t.group = g ∧ t.phase = .ended (some e) := by
    intro e
    rw [hi.errs.mem_iff, List.mem_filterMap]
    refine exists_congr fun t => and_congr_right fun _ => ?_
    unfold failureOf
    cases hp : t.phase with
    | ended err => cases err <;> simp
    | _ => simp
  have hsrc : ∀ t ∈ st.threads, (t.group, t.src) ∈ sources := fun t ht => by
    rw [← hi.sources]; exact List.mem_map.2 ⟨t, ht, rfl⟩
  constructor
  · rintro ⟨s, hs, rfl, hfs⟩ hn
    rw [← hi.sources] at hs
    obtain ⟨t, ht, rfl⟩ := List.mem_map.1 hs
    simp only at hfs herr hn
    obtain ⟨err, hp⟩ := hd1 t ht
    have hne : err ≠ none := by
      have hs := hi.sound t ht
      unfold Sound at hs
      rw [hp] at hs
      obtain ⟨sent, e, hfe⟩ := hfs
      rintro rfl
      rcases hfe with ⟨e', o1, _, _⟩ | ⟨o1, o2, o3⟩
      · rcases hs with (⟨_, _, _, s3⟩ | ⟨s1, _, _⟩) | (⟨_, s2⟩ | ⟨s1, _, _⟩)
        · cases s3
        · rw [s1] at o1; cases o1
        · cases s2
        · rw [s1] at o1; cases o1
      · have hcond : ¬ (t.src.lenient = true ∧ t.src.lines.flatten ≠ []) := by
          intro hc
          rw [if_pos hc] at o3
          cases o3
        rw [if_neg hcond] at o3
        rcases hs with (⟨_, s1, _, _⟩ | ⟨_, s2, s3⟩) | (⟨_, s2⟩ | ⟨_, ⟨k, s2⟩, s3⟩)
        · rw [o1] at s1; cases s1
        · rw [if_neg hcond, ← o3] at s3; cases s3
        · cases s2
        · have : ¬ (t.src.lenient = true ∧ t.sent ≠ []) := by
            intro hc
            refine hcond ⟨hc.1, ?_⟩
            intro hnil
            apply hc.2
            rw [s2]
            have hall := List.flatten_eq_nil_iff.1 hnil
            exact List.flatten_eq_nil_iff.2 (fun l hl => hall l (List.mem_of_mem_take hl))
          rw [if_neg this] at s3
          cases s3
    cases err with
    | none => exact hne rfl
    | some e =>
      have hm := (herr e).2 ⟨t, ht, rfl, hp⟩
      unfold State.err at hn
      rw [List.head?_eq_none_iff, List.map_eq_nil_iff, List.filter_eq_nil_iff] at hn
      exact hn _ hm (by simp)
  · intro e he
    have hm : (g, e) ∈ st.errs := by
      unfold State.err at he
      have := List.mem_of_head? he
      obtain ⟨p, hp, rfl⟩ := List.mem_map.1 this
      obtain ⟨h1, h2⟩ := List.mem_filter.1 hp
      have h2 : p.1 = g := by simpa using h2
      rw [← h2]
      exact h1
    obtain ⟨t, ht, hg, hp⟩ := (herr e).1 hm
    have hs := hi.sound t ht
    unfold Sound at hs
    rw [hp] at hs
    rcases hs with hs | hs
    · exact .inl ⟨_, hsrc t ht, hg, _, hs⟩
    · refine .inr ⟨?_, ?_⟩
      · rcases hs with ⟨_, s2⟩ | ⟨_, _, s3⟩
        · exact Option.some.inj s2
        · split at s3
          · cases s3
          · exact Option.some.inj s3
      · cases hes : st.errs with
        | nil => rw [hes] at hm; cases hm
        | cons p ps =>
          obtain ⟨u, hu, _, hn, _⟩ := hi.first p (by rw [hes]; rfl)
          exact ⟨_, hsrc u hu, _, _, hn⟩

/-! ### Lists -/

theorem fails_of_natural {s : Src α} {sent : List α} {e : SrcErr} (h : Natural s sent (some e)) : SourceFails s := ⟨_, _, h⟩

theorem ofList_lines (env : Parsers.Env) (limit : Option Nat) (s : Parsers.Source) (k : Nat) :
    ((ofList env limit (.opened s)).lines.take k).flatten =
      (((Parsers.parseSource (Parsers.unmarshalHosts env) limit s).1.take k).flatMap id).map (canonHost env) := by
  simp only [ofList]
  rw [← List.map_take, List.flatMap_id, List.map_flatten]

/-- A producer that was not disturbed did what `parseFile` says. -/
theorem natural_parseFile {env : Parsers.Env} {limit : Option Nat} {s : SourceState} {sent : List Str} {err : Option SrcErr}
    (h : Natural (ofList env limit s) sent err) : parseFile env limit none s = ⟨sent, err⟩ := by
  cases s with
  | openFails e =>
    rcases h with ⟨e', h1, h2, h3⟩ | ⟨h1, _⟩
    · cases h1; rw [h2, h3]; rfl
    · cases h1
  | opened s =>
    rcases h with ⟨e', h1, _⟩ | ⟨_, h2, h3⟩
    · cases h1
    · have hl : (ofList env limit (.opened s)).lines.flatten =
          ((Parsers.parseSource (Parsers.unmarshalHosts env) limit s).1.flatMap id).map (canonHost env) := by
        simp only [ofList]
        rw [List.flatMap_id, List.map_flatten]
      rw [hl] at h2 h3
      rw [h2, h3]
      simp only [parseFile, ofList, true_and]
      congr 1
      generalize List.map (canonHost env) _ = hosts
      by_cases hh : hosts = []
      · simp [hh]
      · simp [hh]

/-- A producer that was stopped did what `parseFile` says for some number of lines, apart from the kind of error of
a source that cannot be opened. -/
theorem cutOff_parseFile {env : Parsers.Env} {limit : Option Nat} {s : SourceState} {sent : List Str} {err : Option SrcErr}
    (h : CutOff (ofList env limit s) sent err) :
    ∃ k, (parseFile env limit (some k) s).hosts = sent ∧ ((parseFile env limit (some k) s).err = none ↔ err = none) := by
  cases s with
  | openFails e =>
    rcases h with ⟨h1, h2⟩ | ⟨h1, _⟩
    · exact ⟨0, by rw [h1]; rfl, by rw [h2]; simp [parseFile]⟩
    · cases h1
  | opened s =>
    have key : ∀ k, sent = (((Parsers.parseSource (Parsers.unmarshalHosts env) limit s).1.take k).flatMap id).map (canonHost env) →
        err = (if sent = [] then some .other else none) →
        ∃ k, (parseFile env limit (some k) (.opened s)).hosts = sent ∧
          ((parseFile env limit (some k) (.opened s)).err = none ↔ err = none) := by
      intro k h1 h2
      refine ⟨k, by rw [h1]; rfl, ?_⟩
      rw [h2, h1]
      rfl
    rcases h with ⟨h1, h2⟩ | ⟨_, ⟨k, h2⟩, h3⟩
    · exact key 0 (by rw [h1]; simp) (by rw [h2, h1]; simp)
    · refine key k (by rw [h2, ofList_lines]) ?_
      rw [h3]
      by_cases hs : sent = []
      · simp [hs]
      · simp [hs, ofList]

/-- **C117** What C04 says of the outcomes that are possible holds for every schedule: if only sources of the group
fail, what the group gets is the entries of its sources, of some of them only the first lines if one failed, and the
error of one that failed. -/
theorem C117_possible (env : Parsers.Env) (maxErrors : Option Nat) (limit cap : Nat) (sources : List (Str × SourceState))
    (ms : List Move) (st : State Str) (g : Str)
    (h : run limit cap (Refreshing.start (sources.map (fun s => (s.1, ofList env maxErrors s.2)))) ms = some st)
    (hd : st.done = true)
    (hf : ∀ s ∈ sources, s.1 ≠ g → ¬ SourceFails (ofList env maxErrors s.2)) :
    ∃ cuts : List (SourceState × Option Nat),
      cuts.map (·.1) = (sources.filter (fun s => s.1 = g)).map (·.2) ∧
      Possible env maxErrors cuts ⟨g, st.received g, st.err g⟩ := by
  have hi := inv_run ms (inv_start limit cap _) h
  obtain ⟨hd1, hd2⟩ := (allDone_iff st).1 hd
  have hrec := received_perm hi hd2 g
  have hlist := hi.sources
  -- the first error, if any, is one of the group's sources, undisturbed
  have hfirst : st.errs = [] ∨ ∃ e t, t ∈ st.threads ∧ t.group = g ∧ st.err g = some e ∧ Natural t.src t.sent (some e) ∧
      t.phase = .ended (some e) := by
    cases he : st.errs with
    | nil => exact .inl rfl
    | cons p ps =>
      obtain ⟨t, ht, h1, h2, h3⟩ := hi.first p (by rw [he]; rfl)
      have hg : t.group = g := by
        apply Classical.byContradiction
        intro hne
        have hm : (t.group, t.src) ∈ sources.map (fun s => (s.1, ofList env maxErrors s.2)) := by
          rw [← hlist]; exact List.mem_map.2 ⟨t, ht, rfl⟩
        obtain ⟨s, hs, hse⟩ := List.mem_map.1 hm
        have h4 : s.1 = t.group := congrArg Prod.fst hse
        have h5 : ofList env maxErrors s.2 = t.src := congrArg Prod.snd hse
        refine hf s hs (by rw [h4]; exact hne) ?_
        rw [h5]
        exact fails_of_natural h2
      refine .inr ⟨p.2, t, ht, hg, ?_, h2, h3⟩
      unfold State.err
      rw [he, List.filter_cons, if_pos (by rw [← h1, hg]; simp)]
      rfl
  -- the error of the group
  have herr : st.err g = none ↔ ∀ t ∈ st.threads, t.group = g → t.phase = .ended none := by
    constructor
    · intro hn t ht hg
      obtain ⟨err, hp⟩ := hd1 t ht
      cases err with
      | none => exact hp
      | some e =>
        have : (g, e) ∈ st.errs := by
          rw [hi.errs.mem_iff, List.mem_filterMap]
          exact ⟨t, ht, by simp [failureOf, hp, hg]⟩
        unfold State.err at hn
        rw [List.head?_eq_none_iff, List.map_eq_nil_iff, List.filter_eq_nil_iff] at hn
        exact absurd (by simp) (hn _ this)
    · intro hall
      rcases hfirst with he | ⟨e, t, ht, hg, _, _, hp⟩
      · simp [State.err, he]
      · rw [hall t ht hg] at hp; cases hp
  -- the points at which the sources were cut
  have main : ∀ (l : List (Thread Str)) (ss : List (Str × SourceState)),
      l.map (fun t => (t.group, t.src)) = ss.map (fun s => (s.1, ofList env maxErrors s.2)) →
      (∀ t ∈ l, Sound t) → (∀ t ∈ l, ∃ err, t.phase = .ended err) →
      ∃ cuts : List (SourceState × Option Nat),
        cuts.map (·.1) = (ss.filter (fun s => s.1 = g)).map (·.2) ∧
        (l.filter (fun t => t.group = g)).flatMap (·.sent) = cuts.flatMap (fun s => (parseFile env maxErrors s.2 s.1).hosts) ∧
        ((∀ t ∈ l, t.group = g → t.phase = .ended none) ↔ ∀ s ∈ cuts, (parseFile env maxErrors s.2 s.1).err = none) ∧
        (∀ t ∈ l, ∀ e, t.group = g → Natural t.src t.sent (some e) → t.phase = .ended (some e) →
          ∃ s ∈ cuts, (parseFile env maxErrors s.2 s.1).err = some e) := by
    intro l
    induction l with
    | nil =>
      intro ss hss _ _
      cases ss with
      | nil => exact ⟨[], rfl, rfl, by simp, by simp⟩
      | cons s ss => cases hss
    | cons t l ih =>
      intro ss hss hs he
      cases ss with
      | nil => cases hss
      | cons s ss =>
        rw [List.map_cons, List.map_cons] at hss
        obtain ⟨h0, hss⟩ := List.cons.inj hss
        have hg : t.group = s.1 := congrArg Prod.fst h0
        have hsrc : t.src = ofList env maxErrors s.2 := congrArg Prod.snd h0
        obtain ⟨cuts, c1, c2, c3, c4⟩ := ih ss hss (fun u hu => hs u (List.mem_cons_of_mem _ hu))
          (fun u hu => he u (List.mem_cons_of_mem _ hu))
        by_cases hgg : t.group = g
        · have hst := hs t (List.mem_cons_self ..)
          obtain ⟨err, hp⟩ := he t (List.mem_cons_self ..)
          unfold Sound at hst
          rw [hp, hsrc] at hst
          have hcut : ∃ cut, (parseFile env maxErrors cut s.2).hosts = t.sent ∧
              ((parseFile env maxErrors cut s.2).err = none ↔ err = none) ∧
              (∀ e, Natural (ofList env maxErrors s.2) t.sent (some e) → err = some e →
                (parseFile env maxErrors cut s.2).err = some e) := by
            by_cases hn : Natural (ofList env maxErrors s.2) t.sent err
            · have := natural_parseFile hn
              exact ⟨none, by rw [this], by rw [this], fun e _ h2 => by rw [this, h2]⟩
            · rcases hst with hst | hst
              · exact absurd hst hn
              · obtain ⟨k, k1, k2⟩ := cutOff_parseFile hst
                exact ⟨some k, k1, k2, fun e h1 h2 => absurd (h2 ▸ h1) hn⟩
          obtain ⟨cut, k1, k2, k3⟩ := hcut
          refine ⟨(s.2, cut) :: cuts, ?_, ?_, ?_, ?_⟩
          · rw [List.filter_cons, if_pos (by rw [← hg]; simpa using hgg), List.map_cons, List.map_cons, c1]
          · rw [List.filter_cons, if_pos (by simpa using hgg), List.flatMap_cons, List.flatMap_cons, c2, k1]
          · rw [List.forall_mem_cons, List.forall_mem_cons, ← c3, hp, k2]
            refine and_congr ⟨fun h => ?_, fun h _ => by rw [h]⟩ Iff.rfl
            have := h hgg
            cases this
            rfl
          · intro u hu e hug hun hup
            rcases List.mem_cons.1 hu with rfl | hu
            · refine ⟨_, List.mem_cons_self .., k3 e (hsrc ▸ hun) ?_⟩
              rw [hp] at hup
              cases hup
              rfl
            · obtain ⟨x, hx, hxe⟩ := c4 u hu e hug hun hup
              exact ⟨x, List.mem_cons_of_mem _ hx, hxe⟩
        · refine ⟨cuts, ?_, ?_, ?_, ?_⟩
          · rw [List.filter_cons, if_neg (by rw [← hg]; simpa using hgg)]
            exact c1
          · rw [List.filter_cons, if_neg (by simpa using hgg)]
            exact c2
          · rw [List.forall_mem_cons, ← c3]
            exact ⟨fun h => h.2, fun h => ⟨fun hh => absurd hh hgg, h⟩⟩
          · intro u hu e hug hun hup
            rcases List.mem_cons.1 hu with rfl | hu
            · exact absurd hug hgg
            · exact c4 u hu e hug hun hup
  obtain ⟨cuts, c1, c2, c3, c4⟩ := main st.threads sources hlist hi.sound hd1
  refine ⟨cuts, c1, ?_, ?_, ?_⟩
  · rw [← c2]; exact hrec
  · rw [← c3]; exact herr
  · intro e he
    rcases hfirst with h0 | ⟨e', t, ht, hg, h1, h2, h3⟩
    · rw [show (⟨g, st.received g, st.err g⟩ : Refresh).err = st.err g from rfl] at he
      simp [State.err, h0] at he
    · have he : st.err g = some e := he
      rw [h1] at he
      cases he
      exact c4 t ht e hg h2 h3

/-- **C117** Which lists blocky ends up with does not depend on the schedule: if no source fails, two loads of the same
sources - in whatever order the goroutines run, with whatever `concurrency` - lead to the same matches; a crash
because of an entry occurs in all schedules or in none. -/
theorem C117_same_lists (E : StringCache.RegexEngine) (c : StringCache.Caches E) (env : Parsers.Env) (maxErrors : Option Nat)
    (limit1 cap1 limit2 cap2 : Nat) (sources : List (Str × SourceState)) (ms1 ms2 : List Move) (st1 st2 : State Str)
    (h1 : run limit1 cap1 (Refreshing.start (sources.map (fun s => (s.1, ofList env maxErrors s.2)))) ms1 = some st1)
    (h2 : run limit2 cap2 (Refreshing.start (sources.map (fun s => (s.1, ofList env maxErrors s.2)))) ms2 = some st2)
    (hd1 : st1.done = true) (hd2 : st2.done = true)
    (hf : ∀ s ∈ sources, ¬ SourceFails (ofList env maxErrors s.2)) (g : Str) :
    (accept E c st1 g = none ↔ accept E c st2 g = none) ∧
    ∀ c1 c2, accept E c st1 g = some c1 → accept E c st2 g = some c2 →
      ∀ s groups g', g' ∈ c1.contains E s groups ↔ g' ∈ c2.contains E s groups := by
  have hf' : ∀ s ∈ sources.map (fun s => (s.1, ofList env maxErrors s.2)), ¬ SourceFails s.2 := by
    intro s hs
    obtain ⟨x, hx, rfl⟩ := List.mem_map.1 hs
    exact hf x hx
  obtain ⟨e1, p1⟩ := C117_complete _ _ _ _ _ h1 hd1 hf' g
  obtain ⟨e2, p2⟩ := C117_complete _ _ _ _ _ h2 hd2 hf' g
  have hp : (st1.received g).Perm (st2.received g) := p1.trans p2.symm
  constructor
  · unfold accept
    rw [createCacheForGroup_none_iff, createCacheForGroup_none_iff, hp.mem_iff]
  · intro c1 c2 ha1 ha2 s groups g'
    rw [(contains_iff c1 s groups).2, (contains_iff c2 s groups).2]
    have key : ∀ (st : State Str) (c' : StringCache.Caches E), st.err g = none → accept E c st g = some c' →
        (matchGroup c' g' s = true ↔ if g' = g then ∃ e ∈ st.received g, Spec.EntryMatches E e s else matchGroup c g' s = true) := by
      intro st c' he ha
      have ha : createCacheForGroup E c (⟨g, st.received g, st.err g⟩ : Refresh).group
        (⟨g, st.received g, st.err g⟩ : Refresh).delivered (⟨g, st.received g, st.err g⟩ : Refresh).err = some c' := ha
      rcases createCacheForGroup_cases ha with ⟨hn, _⟩ | ⟨_, f, hfa, hc⟩
      · exact absurd (.inl he) hn
      · rw [hc]
        by_cases hg : g' = g
        · subst hg
          rw [if_pos rfl]
          exact matchGroup_finish_self c (by simpa using CInv.init.addAll hfa) g' s
        · rw [if_neg hg, matchGroup_finish_ne _ _ _ (Ne.symm hg)]
    rw [key st1 c1 e1 ha1, key st2 c2 e2 ha2]
    by_cases hg : g' = g
    · rw [if_pos hg, if_pos hg]
      refine and_congr Iff.rfl ?_
      constructor
      · rintro ⟨e, he, hm⟩; exact ⟨e, hp.mem_iff.1 he, hm⟩
      · rintro ⟨e, he, hm⟩; exact ⟨e, hp.mem_iff.2 he, hm⟩
    · rw [if_neg hg, if_neg hg]

/-- **C117** Hosts files: if a file fails, in every schedule the hosts stay as they were; otherwise the new ones are
made of exactly the entries of all files. -/
theorem C117_hosts (limit cap : Nat) (files : List (Src HostsFile.Entry)) (ms : List Move) (st : State HostsFile.Entry)
    (h : run limit cap (Refreshing.start (files.map (fun s => (([] : Str), s)))) ms = some st) (hd : st.done = true)
    (old : HostsFile.Hosts) :
    ((∃ s ∈ files, SourceFails s) → acceptHosts st old = old) ∧
    ((∀ s ∈ files, ¬ SourceFails s) → ∃ es : List HostsFile.Entry, es.Perm (files.flatMap (fun s => s.lines.flatten)) ∧
      acceptHosts st old = HostsFile.addAll es {}) := by
  constructor
  · rintro ⟨s, hs, hf⟩
    have := (C117_error limit cap _ ms st h hd []).1 ⟨([], s), List.mem_map.2 ⟨s, hs, rfl⟩, rfl, hf⟩
    unfold acceptHosts HostsFile.load
    rw [if_pos]
    cases he : st.err [] with
    | none => exact absurd he this
    | some e => rfl
  · intro hf
    obtain ⟨h1, h2⟩ := C117_complete limit cap _ ms st h hd (by
      intro s hs
      obtain ⟨x, hx, rfl⟩ := List.mem_map.1 hs
      exact hf x hx) []
    refine ⟨st.received [], h2.trans (List.Perm.of_eq ?_), ?_⟩
    · rw [List.filter_eq_self.2 (by
        intro s hs
        obtain ⟨x, _, rfl⟩ := List.mem_map.1 hs
        simp), List.flatMap_map]
    · unfold acceptHosts HostsFile.load
      rw [h1, if_neg (by simp)]

/-! ### Where it is false -/

/-- Example: three sources of two groups. -/
def threeSources : List (Str × Src Str) :=
  [(str! "ads", { lines := [[str! "a.com"], [str! "b.com", str! "c.com"]] }),
   (str! "ads", { lines := [[str! "d.com"]] }),
   (str! "work", { lines := [[str! "e.com"]] })]

/-- Example: a schedule of it, two sources at a time. -/
def threeMoves : List Move :=
  [.start 2, .start 1, .openSource 1, .next 1, .openSource 2, .next 2, .send 2, .next 2, .start 0, .openSource 0, .next 0,
   .send 0, .next 0, .send 1, .take (str! "ads"), .send 0, .next 1, .take (str! "work"), .take (str! "ads"),
   .send 0, .next 0, .take (str! "ads"), .take (str! "ads")]

example : (run 2 1000 (Refreshing.start threeSources) threeMoves).map (fun st =>
      (st.done, st.received (str! "ads"), st.err (str! "ads"), st.received (str! "work"))) =
    some (true, [str! "a.com", str! "d.com", str! "b.com", str! "c.com"], none, [str! "e.com"]) := by
  decide

/-- The third source has to wait for one of the others. -/
example : (run 2 1000 (Refreshing.start threeSources) [.start 2, .start 1, .start 0]).isNone = true := by decide

theorem sourceFails_iff (s : Src α) : SourceFails s ↔ s.openErr ≠ none ∨ (s.endErr ≠ none ∧ ¬ (s.lenient = true ∧ s.lines.flatten ≠ [])) := by
  constructor
  · rintro ⟨sent, e, ⟨e', h1, _⟩ | ⟨h1, h2, h3⟩⟩
    · left; rw [h1]; simp
    · right
      by_cases hc : s.lenient = true ∧ s.lines.flatten ≠ []
      · rw [if_pos hc] at h3; cases h3
      · rw [if_neg hc] at h3; exact ⟨by rw [← h3]; simp, hc⟩
  · intro h
    cases ho : s.openErr with
    | some e => exact ⟨[], e, .inl ⟨e, ho, rfl, rfl⟩⟩
    | none =>
      rcases h with h | ⟨h1, h2⟩
      · exact absurd ho h
      · cases he : s.endErr with
        | none => exact absurd he h1
        | some e => exact ⟨_, e, .inr ⟨ho, rfl, by rw [if_neg h2, he]⟩⟩

/-- No source of the example fails. -/
example : ∀ s ∈ threeSources, ¬ SourceFails s.2 := by
  intro s hs
  rw [sourceFails_iff]
  simp only [threeSources, List.mem_cons, List.not_mem_nil, or_false] at hs
  rcases hs with rfl | rfl | rfl <;> simp

/-- A list with an invalid line, as its producer sees it: it does not fail. -/
example : ¬ SourceFails (ofList demoEnv (some 1) (.opened ⟨str! "!bad\nx.com\n", false⟩)) := by
  rw [sourceFails_iff]
  simp only [ofList]
  rw [C35_parse_all _ _ _ (by intro n hn; cases hn; decide)]
  decide

/-- A source that cannot be opened: the other one of the group is stopped after its first line, which is all the group
gets. -/
example : (run 4 1000 (Refreshing.start
      [(str! "ads", { openErr := some .other, lines := [] }), (str! "ads", { lines := [[str! "a.com"], [str! "b.com"]] })])
      [.start 0, .start 1, .openSource 1, .next 1, .send 1, .openSource 0, .stop 1, .take (str! "ads")]).map
        (fun (st : State Str) => (st.done, st.received (str! "ads"), st.err (str! "ads"))) =
    some (true, [str! "a.com"], some .other) := by
  decide

/-- **C117** is false for the whole of blocking: denylists and allowlists each have their own limit. With the default
`concurrency: 4`, eight sources are read at a time. (docs/configuration.md says that the limit applies "to the blocking and
hosts file resolvers separately".) -/
theorem C117_together_false :
    ∃ (deny allow : List (Str × Src Str)) (ms1 ms2 : List Move) (st1 st2 : State Str),
      run 4 1000 (Refreshing.start deny) ms1 = some st1 ∧ run 4 1000 (Refreshing.start allow) ms2 = some st2 ∧
      (st1.threads.filter busy).length + (st2.threads.filter busy).length = 8 := by
  refine ⟨List.replicate 4 (str! "ads", { lines := [] }), List.replicate 4 (str! "ads", { lines := [] }),
    [.start 0, .start 1, .start 2, .start 3], [.start 0, .start 1, .start 2, .start 3], _, _, rfl, rfl, rfl⟩

/-- Example: two hosts files with the same name. -/
def twoHostsFiles : List (Str × Src HostsFile.Entry) :=
  [([], { lines := [[{ ip := .v4 167772161, name := str! "nas" }]], lenient := false }),
   ([], { lines := [[{ ip := .v4 167772162, name := str! "nas" }]], lenient := false })]

/-- **C117** is false for hosts files: which of two files is asked for a name that is in both depends on the schedule, even if
one file is read at a time. -/
theorem C117_hosts_false :
    ∃ (ms1 ms2 : List Move) (st1 st2 : State HostsFile.Entry),
      run 1 1000 (Refreshing.start twoHostsFiles) ms1 = some st1 ∧ run 1 1000 (Refreshing.start twoHostsFiles) ms2 = some st2 ∧
      st1.done = true ∧ st2.done = true ∧
      (acceptHosts st1 {}).getIP 1 (str! "nas") = some (.v4 167772161) ∧
      (acceptHosts st2 {}).getIP 1 (str! "nas") = some (.v4 167772162) := by
  refine ⟨[.start 1, .openSource 1, .next 1, .send 1, .next 1, .start 0, .openSource 0, .next 0, .send 0, .next 0, .take [], .take []],
    [.start 0, .openSource 0, .next 0, .send 0, .next 0, .start 1, .openSource 1, .next 1, .send 1, .next 1, .take [], .take []],
    _, _, rfl, rfl, rfl, rfl, rfl, rfl⟩

end Verif.Props
