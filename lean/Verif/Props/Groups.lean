/-
C22 – C25, C51: upstream groups.
-/
import Verif.Model.Groups
import Verif.Base.ListLemmas

namespace Verif.Props
open Dns Groups

/-! ### C51 -/

/-- Calls of an upstream that returned: time and result. -/
abbrev Calls := List (Int × Result)

/-- The status after some calls. -/
def afterCalls (u : Upstream) (calls : Calls) : Upstream :=
  calls.foldl (fun u c => u.after c.1 c.2) u

/-- A failure that is not a cancellation. -/
def RealFailure (r : Result) : Prop := ∃ e, r = .err false e

/-- **C51.** After any history of calls the error time is that of the last real failure, and the
initial one if there was none; successes and cancellations do not matter. -/
theorem C51_error_time (u : Upstream) (calls : Calls) :
    ((∀ c ∈ calls, ¬ RealFailure c.2) → afterCalls u calls = u) ∧
    (∀ pre t r post, calls = pre ++ (t, r) :: post → RealFailure r →
      (∀ c ∈ post, ¬ RealFailure c.2) → afterCalls u calls = { u with lastErrorTime := t }) := by
  have h1 : ∀ (calls : Calls) (u : Upstream), (∀ c ∈ calls, ¬ RealFailure c.2) → afterCalls u calls = u := by
    intro calls
    induction calls with
    | nil => intro u _; rfl
    | cons c cs ih =>
      intro u h
      have hc : u.after c.1 c.2 = u := by
        cases hr : c.2 with
        | ok r => rfl
        | err canceled e =>
          cases canceled with
          | true => rfl
          | false => exact absurd ⟨e, hr⟩ (h c (by simp))
      show afterCalls (u.after c.1 c.2) cs = u
      rw [hc]
      exact ih u (fun c hc => h c (by simp [hc]))
  refine ⟨h1 calls u, ?_⟩
  have hid : ∀ (calls : Calls) (u : Upstream), (afterCalls u calls).id = u.id := by
    intro calls
    induction calls with
    | nil => intro u; rfl
    | cons c cs ih =>
      intro u
      show (afterCalls (u.after c.1 c.2) cs).id = u.id
      rw [ih]
      cases c.2 with
      | ok r => rfl
      | err canceled e => cases canceled <;> rfl
  rintro pre t r post rfl ⟨e, rfl⟩ hpost
  have : afterCalls u (pre ++ (t, .err false e) :: post) =
      afterCalls ((afterCalls u pre).after t (.err false e)) post := by
    simp [afterCalls]
  rw [this, h1 post _ hpost]
  simp [Upstream.after, hid pre u]

/-! ### C23 -/

/-- Every weight is between 1 and 60. -/
theorem C23_weight_bounds (now : Int) (u : Upstream) : 1 ≤ weight now u ∧ weight now u ≤ 60 := by
  unfold weight hour minute
  split
  · rename_i h
    have : (now - u.lastErrorTime) / 60000000000 < 60 := by omega
    omega
  · omega

/-- The weight is the number of whole minutes since the last error, but at least 1 and at most 60. -/
theorem C23_weight_exact (now : Int) (u : Upstream) (k : Nat) (h1 : k * 60000000000 ≤ now - u.lastErrorTime)
    (h2 : now - u.lastErrorTime < (k + 1) * 60000000000) : weight now u = min 60 (max 1 k) := by
  unfold weight hour minute
  have h3 : (now - u.lastErrorTime) / 60000000000 = k := by omega
  rw [h3]
  split <;> omega

/-- An upstream that has not failed yet has the full weight (from an hour after 1970 on). -/
theorem C23_new_upstream (id : Nat) (now : Int) (h : 3600000000000 ≤ now) : weight now (newStatus id) = 60 := by
  unfold weight newStatus hour
  rw [if_neg]
  simp only
  omega

example : weight 4000000000000 ⟨1, 3700000000000⟩ = 5 := by decide

/-- The longer ago the last error, the larger the weight; it is full after an hour. -/
theorem C23_weight_recovers (now now' : Int) (u : Upstream) (h : now ≤ now') :
    weight now u ≤ weight now' u ∧ (u.lastErrorTime + hour ≤ now' → weight now' u = 60) := by
  unfold weight hour minute
  refine ⟨?_, fun h' => by rw [if_neg (by omega)]⟩
  split <;> split <;> omega

theorem totals_length (acc : Nat) (ws : List Nat) : (totals acc ws).length = ws.length := by
  induction ws generalizing acc with
  | nil => rfl
  | cons w ws ih => simp [totals, ih]

/-- The i-th running total is the sum of the first i+1 weights. -/
theorem totals_get (acc : Nat) (ws : List Nat) (i : Nat) (h : i < ws.length) :
    (totals acc ws)[i]? = some (acc + (ws.take (i + 1)).sum) := by
  induction ws generalizing acc i with
  | nil => simp at h
  | cons w ws ih =>
    cases i with
    | zero => simp [totals]
    | succ i =>
      simp only [totals, List.getElem?_cons_succ, List.take_succ_cons, List.sum_cons]
      rw [ih (acc + w) i (by simpa using h)]
      congr 1
      omega

theorem take_sum_mono (ws : List Nat) {i j : Nat} (h : i ≤ j) : (ws.take i).sum ≤ (ws.take j).sum := by
  obtain ⟨k, rfl⟩ := Nat.exists_eq_add_of_le h
  rw [List.take_add, List.sum_append_nat]
  omega

theorem take_sum_le (ws : List Nat) (i : Nat) : (ws.take i).sum ≤ ws.sum := by
  have h2 := List.sum_append_nat (l₁ := ws.take i) (l₂ := ws.drop i)
  rw [List.take_append_drop] at h2
  omega

/-- The draw decides: item `i` is picked exactly for the draws above the sum of the weights before it
and up to that including its own. So among the `total` equally likely draws it has as many as its
weight. -/
theorem pick_iff (sorted : List (Upstream × Nat)) (draw i : Nat)
    (hi : i < sorted.length) :
    ((((sorted.map Prod.snd).take i).sum < draw ∧ draw ≤ ((sorted.map Prod.snd).take (i + 1)).sum) →
      pick sorted draw = some (sorted[i]).1) := by
  rintro ⟨hlo, hhi⟩
  unfold pick
  have hlen : (totals 0 (sorted.map Prod.snd)).length = sorted.length := by
    rw [totals_length, List.length_map]
  have hget : ∀ k, k < sorted.length →
      (totals 0 (sorted.map Prod.snd))[k]? = some (((sorted.map Prod.snd).take (k + 1)).sum) := by
    intro k hk
    rw [totals_get 0 _ k (by simpa using hk)]
    simp
  have hs := sortSearch_spec (totals 0 (sorted.map Prod.snd)).length
    (fun i => match (totals 0 (sorted.map Prod.snd))[i]? with | some t => decide (draw ≤ t) | none => true) (by
      intro a b hab hb ha
      rw [hlen] at hb
      simp only [hget a (by omega), hget b hb, decide_eq_true_eq] at ha ⊢
      exact Nat.le_trans ha (take_sum_mono _ (by omega)))
  generalize sortSearch (totals 0 (sorted.map Prod.snd)).length
    (fun i => match (totals 0 (sorted.map Prod.snd))[i]? with | some t => decide (draw ≤ t) | none => true) = idx at hs ⊢
  obtain ⟨g1, g2, g3⟩ := hs
  rw [hlen] at g1 g3
  have hle : idx ≤ i := by
    rcases Nat.lt_or_ge i idx with hlt | hge
    · have := g2 i hlt
      simp only [hget i hi, decide_eq_false_iff_not] at this
      exact absurd hhi this
    · exact hge
  have hge : i ≤ idx := by
    rcases Nat.lt_or_ge idx i with hlt | hge
    · have := g3 idx (Nat.le_refl _) (by omega)
      simp only [hget idx (by omega), decide_eq_true_eq] at this
      have := take_sum_mono (sorted.map Prod.snd) (i := idx + 1) (j := i) (by omega)
      omega
    · exact hge
  have : idx = i := by omega
  subst this
  rw [List.getElem?_eq_getElem hi]
  rfl

/-- The weight of the item at a position as difference of two sums. -/
theorem take_succ_sum (sorted : List (Upstream × Nat)) (i : Nat) (hi : i < sorted.length) :
    ((sorted.map Prod.snd).take (i + 1)).sum = ((sorted.map Prod.snd).take i).sum + (sorted[i]).2 := by
  have : i < (sorted.map Prod.snd).length := by simpa using hi
  rw [List.take_add_one, List.getElem?_eq_getElem this, List.sum_append_nat]
  simp

/-- For a draw in range there is a position. -/
theorem exists_position (ws : List Nat) (draw : Nat) (h1 : 1 ≤ draw) (h2 : draw ≤ ws.sum) :
    ∃ i, i < ws.length ∧ (ws.take i).sum < draw ∧ draw ≤ (ws.take (i + 1)).sum := by
  induction ws generalizing draw with
  | nil => simp at h2; omega
  | cons w ws ih =>
    by_cases h : draw ≤ w
    · exact ⟨0, by simp, by simp; omega, by simpa using h⟩
    · obtain ⟨i, g1, g2, g3⟩ := ih (draw - w) (by omega) (by simp at h2; omega)
      refine ⟨i + 1, by simpa using g1, ?_, ?_⟩
      · simp only [List.take_succ_cons, List.sum_cons]; omega
      · simp only [List.take_succ_cons, List.sum_cons]; omega

theorem mem_choices {now : Int} {all excluded : List Upstream} {u : Upstream} {w : Nat} :
    (u, w) ∈ choices now all excluded ↔
      u ∈ all ∧ (∀ x ∈ excluded, x.id ≠ u.id) ∧ w = weight now u := by
  unfold choices
  simp only [List.mem_map, List.mem_filter, Bool.not_eq_true', List.any_eq_false, beq_iff_eq,
    Prod.mk.injEq]
  constructor
  · rintro ⟨u', ⟨h1, h2⟩, rfl, rfl⟩; exact ⟨h1, h2, rfl⟩
  · rintro ⟨h1, h2, rfl⟩; exact ⟨u, ⟨h1, h2⟩, rfl, rfl⟩

/-- **C23, what can be drawn.** An upstream can be drawn if and only if it belongs to the group and is
not excluded: nothing else is ever drawn, and no upstream is ever starved, whatever its errors and
whatever the clock. -/
theorem C23_drawn_iff (now : Int) (all excluded : List Upstream) (u : Upstream) :
    Drawn now all excluded u ↔ u ∈ all ∧ ∀ x ∈ excluded, x.id ≠ u.id := by
  constructor
  · rintro ⟨sorted, draw, hperm, h1, h2, hp⟩
    obtain ⟨i, g1, g2, g3⟩ := exists_position (sorted.map Prod.snd) draw h1 h2
    have hi : i < sorted.length := by simpa using g1
    rw [pick_iff sorted draw i hi ⟨g2, g3⟩] at hp
    have hmem : sorted[i] ∈ choices now all excluded := hperm.mem_iff.1 (List.getElem_mem hi)
    generalize sorted[i] = x at hmem hp
    obtain ⟨u', w⟩ := x
    simp only [Option.some.injEq] at hp
    subst hp
    exact ⟨(mem_choices.1 hmem).1, (mem_choices.1 hmem).2.1⟩
  · rintro ⟨h1, h2⟩
    have hmem : (u, weight now u) ∈ choices now all excluded := mem_choices.2 ⟨h1, h2, rfl⟩
    obtain ⟨i, hi, hget⟩ := List.getElem_of_mem hmem
    refine ⟨choices now all excluded,
      (((choices now all excluded).map Prod.snd).take (i + 1)).sum, .refl _, ?_, ?_, ?_⟩
    · rw [take_succ_sum _ i hi, hget]
      have := (C23_weight_bounds now u).1
      simp only
      omega
    · exact take_sum_le _ _
    · have hpos := (C23_weight_bounds now u).1
      have hsum := take_succ_sum _ i hi
      rw [hget] at hsum
      simp only at hsum
      have := pick_iff (choices now all excluded) (((choices now all excluded).map Prod.snd).take (i + 1)).sum i
        hi ⟨by omega, Nat.le_refl _⟩
      rw [this, hget]

/-- **C23, the probability.** Whatever order the library puts the candidates in, an upstream is picked
for exactly as many of the equally likely draws as its weight, counted from the sum of the weights
before it. -/
theorem C23_share (sorted : List (Upstream × Nat)) (i : Nat) (hi : i < sorted.length)
    (hnodup : (sorted.map Prod.fst).Nodup) (draw : Nat) (h1 : 1 ≤ draw) (h2 : draw ≤ total sorted) :
    pick sorted draw = some (sorted[i]).1 ↔
      ((sorted.map Prod.snd).take i).sum < draw ∧
        draw ≤ ((sorted.map Prod.snd).take i).sum + (sorted[i]).2 := by
  rw [← take_succ_sum sorted i hi]
  refine ⟨fun hp => ?_, pick_iff sorted draw i hi⟩
  obtain ⟨j, g1, g2, g3⟩ := exists_position (sorted.map Prod.snd) draw h1 h2
  have hj : j < sorted.length := by simpa using g1
  rw [pick_iff sorted draw j hj ⟨g2, g3⟩] at hp
  have hij : j = i := by
    have e : (sorted.map Prod.fst)[j]? = (sorted.map Prod.fst)[i]? := by
      rw [List.getElem?_map, List.getElem?_map, List.getElem?_eq_getElem hi, List.getElem?_eq_getElem hj]
      simpa using hp
    exact (List.getElem?_inj (by simpa using hj) hnodup).1 e
  subst hij
  exact ⟨g2, g3⟩

/-- **C23, choosing works.** From a group of at least `n` upstreams, `n` upstreams can be chosen (the
choice never fails or panics), and every choice consists of `n` different members of the group. -/
theorem C23_pick_distinct (now : Int) (all : List Upstream) (hids : (all.map Upstream.id).Nodup) (n : Nat) :
    (n ≤ all.length → ∃ chosen, Picked now all n chosen) ∧
    (∀ chosen, Picked now all n chosen → chosen.length = n ∧
      (chosen.map Upstream.id).Nodup ∧ ∀ u ∈ chosen, u ∈ all) := by
  induction n with
  | zero =>
    refine ⟨fun _ => ⟨[], .zero⟩, ?_⟩
    intro chosen h
    cases h
    simp
  | succ n ih =>
    obtain ⟨ih1, ih2⟩ := ih
    refine ⟨fun hn => ?_, ?_⟩
    · obtain ⟨chosen, hc⟩ := ih1 (by omega)
      obtain ⟨hlen, hnd, hsub⟩ := ih2 chosen hc
      -- some member is not excluded
      have : ∃ u ∈ all, ∀ x ∈ chosen, x.id ≠ u.id := by
        rcases Classical.em (∃ u ∈ all, ∀ x ∈ chosen, x.id ≠ u.id) with h | h
        · exact h
        · exfalso
          have hall : ∀ i ∈ all.map Upstream.id, i ∈ chosen.map Upstream.id := by
            intro i hi
            obtain ⟨u, hu, rfl⟩ := List.mem_map.1 hi
            rcases Classical.em (u.id ∈ chosen.map Upstream.id) with h' | h'
            · exact h'
            · exact absurd ⟨u, hu, fun x hx hxu => h' (List.mem_map.2 ⟨x, hx, hxu⟩)⟩ h
          have := nodup_length_le hids hall
          simp only [List.length_map] at this
          omega
      obtain ⟨u, hu, hx⟩ := this
      exact ⟨chosen ++ [u], .succ hc ((C23_drawn_iff now all chosen u).2 ⟨hu, hx⟩)⟩
    · intro chosen h
      cases h with
      | succ hc hd =>
        obtain ⟨hlen, hnd, hsub⟩ := ih2 _ hc
        obtain ⟨h1, h2⟩ := (C23_drawn_iff now all _ _).1 hd
        refine ⟨by simp [hlen], ?_, ?_⟩
        · rw [List.map_append, List.nodup_append]
          refine ⟨hnd, by simp, ?_⟩
          intro a ha b hb
          obtain ⟨x, hx, rfl⟩ := List.mem_map.1 ha
          simp only [List.map_cons, List.map_nil, List.mem_singleton] at hb
          rw [hb]
          exact h2 x hx
        · intro v hv
          rcases List.mem_append.1 hv with hv | hv
          · exact hsub v hv
          · rw [List.mem_singleton.1 hv]; exact h1

-- Concrete: an upstream that failed a minute ago and one that never failed.
example : weight (100 * hour) ⟨1, 100 * hour - minute⟩ = 1 ∧ weight (100 * hour) ⟨2, 0⟩ = 60 ∧
    weight (100 * hour) ⟨1, 100 * hour - 30 * minute - 5⟩ = 30 := by decide

example : ([newStatus 1, newStatus 2, newStatus 7].map Upstream.id).Nodup := by decide

/-! ### C22 -/

theorem evaluate_answer_iff (n : Nat) (errs : List Str) (as : List Result) (r : Response) :
    evaluate n errs as = .answer r ↔
      ∃ pre post, as = pre ++ .ok r :: post ∧ (∀ a ∈ pre, a.failed = true) ∧ errs.length + pre.length < n := by
  induction as generalizing errs with
  | nil =>
    unfold evaluate
    split <;> simp
  | cons a as ih =>
    unfold evaluate
    by_cases hl : errs.length < n
    · rw [if_pos hl]
      cases a with
      | ok r' =>
        simp only [Eval.answer.injEq]
        constructor
        · rintro rfl; exact ⟨[], as, rfl, by simp, by simpa using hl⟩
        · rintro ⟨pre, post, h1, h2, _⟩
          cases pre with
          | nil => simpa using (List.cons.inj h1).1
          | cons b pre =>
            have : b = .ok r' := (List.cons.inj h1).1.symm
            have := h2 b (by simp)
            simp_all [Result.failed]
      | err c e =>
        simp only
        rw [ih]
        constructor
        · rintro ⟨pre, post, h1, h2, h3⟩
          refine ⟨.err c e :: pre, post, by rw [h1]; rfl, ?_, by simp at h3 ⊢; omega⟩
          intro a ha
          rcases List.mem_cons.1 ha with rfl | ha
          · rfl
          · exact h2 a ha
        · rintro ⟨pre, post, h1, h2, h3⟩
          cases pre with
          | nil => cases (List.cons.inj h1).1
          | cons b pre =>
            exact ⟨pre, post, (List.cons.inj h1).2, fun a ha => h2 a (by simp [ha]), by simp at h3 ⊢; omega⟩
    · rw [if_neg hl]
      simp only [reduceCtorEq, false_iff, not_exists, not_and, Nat.not_lt]
      intros
      omega

theorem evaluate_failed (n : Nat) (errs : List Str) (as : List Result) (es : List Str)
    (h : evaluate n errs as = .failed es) :
    ∀ a ∈ as.take (n - errs.length), a.failed = true := by
  induction as generalizing errs with
  | nil => simp
  | cons a as ih =>
    unfold evaluate at h
    by_cases hl : errs.length < n
    · rw [if_pos hl] at h
      cases a with
      | ok r => simp at h
      | err c e =>
        have hi := ih _ h
        obtain ⟨m, hm⟩ : ∃ m, n - errs.length = m + 1 := ⟨n - errs.length - 1, by omega⟩
        rw [hm, List.take_succ_cons]
        intro a ha
        rcases List.mem_cons.1 ha with rfl | ha
        · rfl
        · exact hi a (by
            rw [show n - (errs ++ [e]).length = m by simp; omega]
            exact ha)
    · rw [show n - errs.length = 0 by omega]; simp

/-- **C22, the channel loop.** Of the results in order of arrival the first success is returned, as soon
as it arrives, whatever arrives later; the loop waits only while fewer than `n` results have arrived,
all errors; it fails only if all `n` results are errors. -/
theorem C22_first_success (n : Nat) (arrived : List Result) (hn : arrived.length ≤ n) :
    (∀ r, evaluate n [] arrived = .answer r ↔
      ∃ pre post, arrived = pre ++ .ok r :: post ∧ ∀ a ∈ pre, a.failed = true) ∧
    (evaluate n [] arrived = .waiting ↔ arrived.length < n ∧ ∀ a ∈ arrived, a.failed = true) ∧
    ((∃ es, evaluate n [] arrived = .failed es) ↔ arrived.length = n ∧ ∀ a ∈ arrived, a.failed = true) := by
  have hA : ∀ r, evaluate n [] arrived = .answer r ↔
      ∃ pre post, arrived = pre ++ .ok r :: post ∧ ∀ a ∈ pre, a.failed = true := by
    intro r
    rw [evaluate_answer_iff]
    constructor
    · rintro ⟨pre, post, h1, h2, _⟩; exact ⟨pre, post, h1, h2⟩
    · rintro ⟨pre, post, h1, h2⟩
      refine ⟨pre, post, h1, h2, ?_⟩
      rw [h1] at hn
      simp at hn ⊢
      omega
  have hnoerr : (∀ r, evaluate n [] arrived ≠ .answer r) ↔ ∀ a ∈ arrived, a.failed = true := by
    constructor
    · intro h a ha
      rcases Classical.em (a.failed = true) with hf | hf
      · exact hf
      · exfalso
        -- the first success
        have : ∃ pre r post, arrived = pre ++ Result.ok r :: post ∧ ∀ x ∈ pre, x.failed = true := by
          clear hA hn h
          induction arrived with
          | nil => simp at ha
          | cons b bs ih =>
            cases b with
            | ok r => exact ⟨[], r, bs, rfl, by simp⟩
            | err c e =>
              rcases List.mem_cons.1 ha with rfl | ha
              · simp [Result.failed] at hf
              · obtain ⟨pre, r, post, h1, h2⟩ := ih ha
                refine ⟨.err c e :: pre, r, post, by rw [h1]; rfl, ?_⟩
                intro x hx
                rcases List.mem_cons.1 hx with rfl | hx
                · rfl
                · exact h2 x hx
        obtain ⟨pre, r, post, h1, h2⟩ := this
        exact h r ((hA r).2 ⟨pre, post, h1, h2⟩)
    · intro h r hr
      obtain ⟨pre, post, h1, _⟩ := (hA r).1 hr
      have := h (.ok r) (by rw [h1]; simp)
      simp [Result.failed] at this
  -- with errors only: waiting or failed according to the number
  have hlen : ∀ (as : List Result) (errs : List Str), (∀ a ∈ as, a.failed = true) → errs.length + as.length ≤ n →
      (errs.length + as.length < n → evaluate n errs as = .waiting) ∧
      (errs.length + as.length = n → ∃ es, evaluate n errs as = .failed es) := by
    intro as
    induction as with
    | nil =>
      intro errs _ _
      refine ⟨fun h => ?_, fun h => ?_⟩
      · simp only [List.length_nil, Nat.add_zero] at h; simp [evaluate, h]
      · simp only [List.length_nil, Nat.add_zero] at h
        exact ⟨errs, by unfold evaluate; rw [if_neg (by omega)]⟩
    | cons a as ih =>
      intro errs hf hle
      simp only [List.length_cons] at hle
      cases a with
      | ok r => have := hf (.ok r) (by simp); simp [Result.failed] at this
      | err c e =>
        have := ih (errs ++ [e]) (fun a ha => hf a (by simp [ha])) (by simp; omega)
        unfold evaluate
        rw [if_pos (by omega)]
        simp only [List.length_append, List.length_cons, List.length_nil] at this ⊢
        exact ⟨fun h => this.1 (by omega), fun h => this.2 (by omega)⟩
  refine ⟨hA, ?_, ?_⟩
  · constructor
    · intro h
      have hf := hnoerr.1 (fun r hr => by rw [h] at hr; cases hr)
      refine ⟨?_, hf⟩
      rcases Nat.lt_or_ge arrived.length n with hlt | hge
      · exact hlt
      · obtain ⟨es, he⟩ := (hlen arrived [] hf (by simpa using hn)).2 (by simp; omega)
        rw [h] at he; cases he
    · rintro ⟨h1, h2⟩
      exact (hlen arrived [] h2 (by simpa using hn)).1 (by simpa using h1)
  · constructor
    · rintro ⟨es, h⟩
      have hf := hnoerr.1 (fun r hr => by rw [h] at hr; cases hr)
      refine ⟨?_, hf⟩
      rcases Nat.lt_or_ge arrived.length n with hlt | hge
      · have := (hlen arrived [] hf (by simpa using hn)).1 (by simpa using hlt)
        rw [h] at this; cases this
      · omega
    · rintro ⟨h1, h2⟩
      exact (hlen arrived [] h2 (by simpa using hn)).2 (by simpa using h1)

/-- How many upstreams are asked: the only one of a group of one; two under parallel-best; under random one, and a second one if
and only if the first failed. -/
theorem C22_asked (now : Int) (all : List Upstream) (hids : (all.map Upstream.id).Nodup) (st : Strategy)
    (asked : List (Upstream × Result)) (o : Option Response) (h : GroupRun now all st asked o) :
    (all.length = 1 → asked.length = 1) ∧
    (all.length ≠ 1 → st = .parallelBest → asked.length = 2) ∧
    (all.length ≠ 1 → st = .random → ∃ first, asked[0]? = some first ∧ asked.length = if first.2.failed then 2 else 1) := by
  have picked : ∀ {n : Nat} {chosen : List Upstream} {results : List (Upstream × Result)},
      Picked now all n chosen → (results.map Prod.fst).Perm chosen → results.length = n ∧ chosen.length = n := by
    intro n chosen results hp hperm
    obtain ⟨h1, _, _⟩ := (C23_pick_distinct now all hids n).2 chosen hp
    exact ⟨by rw [← h1, ← hperm.length_eq, List.length_map], h1⟩
  cases h with
  | single hall => simp [hall]
  | singleErr hall => simp [hall]
  | first hne hp hperm harr hev =>
    rename_i chosen arrived r
    obtain ⟨h3, h4⟩ := picked hp hperm
    refine ⟨fun h => absurd h hne, ?_, ?_⟩
    · rintro _ rfl; exact h3
    · rintro _ rfl
      have h3' : asked.length = 1 := h3
      obtain ⟨x, rfl⟩ := List.length_eq_one_iff.1 h3'
      refine ⟨x, rfl, ?_⟩
      obtain ⟨pre, post, g1, _⟩ := (evaluate_answer_iff _ _ _ _).1 hev
      have : Result.ok r ∈ arrived.map Prod.snd := by rw [g1]; simp
      obtain ⟨y, hy, hyr⟩ := List.mem_map.1 this
      have hyx : y = x := List.mem_singleton.1 (harr.subset hy)
      rw [← hyx, hyr]
      rfl
  | allFailed hne hp hperm hev =>
    obtain ⟨h3, h4⟩ := picked hp hperm
    exact ⟨fun h => absurd h hne, fun _ _ => h3, fun _ h => nomatch h⟩
  | retry hne hp hperm hev hd =>
    rename_i chosen results errs u res
    obtain ⟨h3, h4⟩ := picked hp hperm
    refine ⟨fun h => absurd h hne, (fun _ h => nomatch h), fun _ _ => ?_⟩
    obtain ⟨x, rfl⟩ := List.length_eq_one_iff.1 h3
    refine ⟨x, rfl, ?_⟩
    have := evaluate_failed _ _ _ _ hev
    rw [this x.2 (by rw [h4]; simp)]
    rfl

/-- **C22, the whole query.** Of every finished query in a group of distinct upstreams, under both
strategies and for every choice and order of arrival: the upstreams asked are different members of
the group (one if the group has one; two under parallel-best; one or two under random); if the client
gets an answer it was given by one of them; and if the client gets an error, every one of them failed.
-/
theorem C22_error_only_if_all_fail (now : Int) (all : List Upstream) (hids : (all.map Upstream.id).Nodup)
    (st : Strategy) (asked : List (Upstream × Result)) (o : Option Response)
    (h : GroupRun now all st asked o) :
    ((asked.map (fun x => x.1.id)).Nodup ∧ (∀ x ∈ asked, x.1 ∈ all) ∧ 0 < asked.length) ∧
    (∀ r, o = some r → ∃ u, (u, .ok r) ∈ asked) ∧
    (o = none → ∀ x ∈ asked, x.2.failed = true) ∧
    (∀ x ∈ asked, x.2.failed = false → o ≠ none) := by
  suffices ((asked.map (fun x => x.1.id)).Nodup ∧ (∀ x ∈ asked, x.1 ∈ all) ∧ 0 < asked.length) ∧
      (∀ r, o = some r → ∃ u, (u, .ok r) ∈ asked) ∧ (o = none → ∀ x ∈ asked, x.2.failed = true) by
    refine ⟨this.1, this.2.1, this.2.2, fun x hx hf ho => ?_⟩
    rw [this.2.2 ho x hx] at hf; cases hf
  have picked : ∀ {n : Nat} {chosen : List Upstream} {results : List (Upstream × Result)},
      Picked now all n chosen → (results.map Prod.fst).Perm chosen →
      (results.map (fun x => x.1.id)).Nodup ∧ (∀ x ∈ results, x.1 ∈ all) ∧ results.length = n ∧
        chosen.length = n := by
    intro n chosen results hp hperm
    obtain ⟨h1, h2, h3⟩ := (C23_pick_distinct now all hids n).2 chosen hp
    refine ⟨?_, ?_, ?_, h1⟩
    · have : (results.map (fun x => x.1.id)) = (results.map Prod.fst).map Upstream.id := by simp
      rw [this]
      exact (hperm.map Upstream.id).nodup_iff.2 h2
    · intro x hx
      exact h3 x.1 (hperm.mem_iff.1 (List.mem_map.2 ⟨x, hx, rfl⟩))
    · rw [← h1, ← hperm.length_eq, List.length_map]
  cases h with
  | single hall => subst hall; simp
  | singleErr hall => subst hall; simp [Result.failed]
  | first hne hp hperm harr hev =>
    obtain ⟨h1, h2, h3, h4⟩ := picked hp hperm
    refine ⟨⟨h1, h2, by rw [h3]; cases st <;> decide⟩, ?_, by simp⟩
    rintro r ⟨⟩
    obtain ⟨pre, post, g1, _⟩ := (evaluate_answer_iff _ _ _ _).1 hev
    have : Result.ok _ ∈ _ := g1 ▸ (List.mem_append.2 (.inr (List.mem_cons_self)) : _ ∈ pre ++ Result.ok _ :: post)
    obtain ⟨x, hx, hxr⟩ := List.mem_map.1 this
    exact ⟨x.1, by rw [← hxr]; exact harr.subset hx⟩
  | allFailed hne hp hperm hev =>
    obtain ⟨h1, h2, h3, h4⟩ := picked hp hperm
    refine ⟨⟨h1, h2, by omega⟩, by simp, ?_⟩
    intro _ x hx
    have := evaluate_failed _ _ _ _ hev
    apply this
    rw [List.take_of_length_le (by simp; omega)]
    exact List.mem_map.2 ⟨x, hx, rfl⟩
  | retry hne hp hperm hev hd =>
    rename_i chosen results errs u res
    obtain ⟨h1, h2, h3, h4⟩ := picked hp hperm
    obtain ⟨d1, d2⟩ := (C23_drawn_iff now all chosen u).1 hd
    have hfail : ∀ x ∈ results, x.2.failed = true := by
      intro x hx
      have := evaluate_failed _ _ _ _ hev
      apply this
      rw [List.take_of_length_le (by simp; omega)]
      exact List.mem_map.2 ⟨x, hx, rfl⟩
    refine ⟨⟨?_, ?_, by simp⟩, ?_, ?_⟩
    · rw [List.map_append, List.nodup_append]
      refine ⟨h1, by simp, ?_⟩
      intro a ha b hb
      obtain ⟨x, hx, rfl⟩ := List.mem_map.1 ha
      simp only [List.map_cons, List.map_nil, List.mem_singleton] at hb
      rw [hb]
      exact d2 x.1 (hperm.mem_iff.1 (List.mem_map.2 ⟨x, hx, rfl⟩))
    · intro x hx
      rcases List.mem_append.1 hx with hx | hx
      · exact h2 x hx
      · rw [List.mem_singleton.1 hx]; exact d1
    · intro r hr
      cases res with
      | ok r' => simp only [Option.some.injEq] at hr; subst hr; exact ⟨u, by simp⟩
      | err c e => simp at hr
    · intro hr x hx
      cases res with
      | ok r' => simp at hr
      | err c e =>
        rcases List.mem_append.1 hx with hx | hx
        · exact hfail x hx
        · rw [List.mem_singleton.1 hx]; rfl

/-- **C22, the first one to arrive.** Under parallel-best, the answer is the first success among the
arrivals: everything that arrived before it is an error. -/
theorem C22_answer_is_first (n : Nat) (results arrived : List (Upstream × Result)) (r : Response)
    (h : arrived <+: results) (hev : evaluate n [] (arrived.map Prod.snd) = .answer r) :
    ∃ pre post, results.map Prod.snd = pre ++ .ok r :: post ∧ ∀ a ∈ pre, a.failed = true := by
  obtain ⟨pre, post, h1, h2, _⟩ := (evaluate_answer_iff _ _ _ _).1 hev
  obtain ⟨t, ht⟩ := h
  refine ⟨pre, post ++ t.map Prod.snd, ?_, h2⟩
  rw [← ht, List.map_append, h1]
  simp

/-- A run exists for every group of at least two: an upstream that fails and one that answers. -/
example : ∃ asked, GroupRun 5 [newStatus 1, newStatus 2] .random asked (some { res := {} }) ∧
    asked.map (fun x => x.1.id) = [1, 2] := by
  refine ⟨[(newStatus 1, .err false (str! "timeout"))] ++ [(newStatus 2, .ok { res := {} })],
    .retry (res := .ok { res := {} }) (chosen := [newStatus 1]) (errs := [str! "timeout"]) (by decide) ?_ (.refl _) rfl ?_, rfl⟩
  · exact Picked.succ .zero ((C23_drawn_iff 5 _ _ _).2 ⟨by decide, by simp⟩)
  · exact (C23_drawn_iff 5 _ _ _).2 ⟨by decide, by decide⟩

/-! ### C24 -/

/-- **C24.** With the strict strategy: there is a point in the configured order such that all
upstreams before it were asked in order and failed, and either the list ends there (then the client
gets an error), or the next one was asked, answered, its answer is returned and nobody else is asked.
The world is threaded through exactly the calls made. -/
theorem C24_strict_order {W : Type} (call : Upstream → W → Result × W) (us : List Upstream) (w : W) :
    ∃ pre post ws, us = pre ++ post ∧ ws = pre.foldl (fun w u => (call u w).2) w ∧
      (∀ p u s, pre = p ++ u :: s → (call u (p.foldl (fun w u => (call u w).2) w)).1.failed = true) ∧
      ((post = [] ∧ strictResolve call us w = (none, pre, ws)) ∨
       ∃ u rest r, post = u :: rest ∧ (call u ws).1 = .ok r ∧
         strictResolve call us w = (some r, pre ++ [u], (call u ws).2)) := by
  induction us generalizing w with
  | nil => exact ⟨[], [], w, rfl, rfl, by simp, .inl ⟨rfl, rfl⟩⟩
  | cons u us ih =>
    cases hc : call u w with
    | mk res w1 =>
      cases res with
      | ok r =>
        refine ⟨[], u :: us, w, rfl, rfl, by simp, .inr ⟨u, us, r, rfl, by rw [hc], ?_⟩⟩
        simp [strictResolve, hc]
      | err c e =>
        obtain ⟨pre, post, ws, h1, h2, h3, h4⟩ := ih w1
        refine ⟨u :: pre, post, ws, by rw [h1]; rfl, by simp [hc, h2], ?_, ?_⟩
        · intro p v s hp
          cases p with
          | nil =>
            have : u = v := (List.cons.inj hp).1
            subst this
            simp [hc, Result.failed]
          | cons a p =>
            obtain ⟨ha, hp'⟩ := List.cons.inj hp
            subst ha
            simpa [hc] using h3 p v s hp'
        · rcases h4 with ⟨hp, hr⟩ | ⟨v, rest, r, hp, hv, hr⟩
          · exact .inl ⟨hp, by simp [strictResolve, hc, hr]⟩
          · exact .inr ⟨v, rest, r, hp, hv, by simp [strictResolve, hc, hr]⟩

-- Concrete: first fails, second answers, third is not asked.
example : strictResolve (W := List Nat) (fun u w => (if u.id = 1 then .err false [] else .ok { res := {} }, w ++ [u.id]))
    [newStatus 1, newStatus 2, newStatus 3] [] = (some { res := {} }, [newStatus 1, newStatus 2], [1, 2]) := by
  decide

/-! ### C25 -/

theorem groupsByName_mem (env : Blocking.Env) (branches : List Str) (order : Nat → List Str)
    (horder : ∀ i, (order i).Perm branches) (i : Nat) (names : List Str) (g : Str) :
    g ∈ groupsByName env order i names ↔ g ∈ branches ∧ ∃ n ∈ names, env.nameMatches g n = true := by
  induction names generalizing i with
  | nil => simp [groupsByName]
  | cons n ns ih =>
    simp only [groupsByName, List.mem_append, List.mem_filter, ih, (horder i).mem_iff, List.mem_cons]
    constructor
    · rintro (⟨h1, h2⟩ | ⟨h1, m, hm, h2⟩)
      · exact ⟨h1, n, .inl rfl, h2⟩
      · exact ⟨h1, m, .inr hm, h2⟩
    · rintro ⟨h1, m, rfl | hm, h2⟩
      · exact .inl ⟨h1, h2⟩
      · exact .inr ⟨h1, m, hm, h2⟩

/-- **C25.** The group of a client: the one named by its address if there is one; otherwise one with a
name pattern matching one of the client's names, if any; otherwise one with a subnet containing the
address, if any; otherwise the default. In every map iteration order. It is always a configured group
(so the lookup at line 115 never panics), since the default group is always configured. -/
theorem C25_group_precedence (env : Blocking.Env) (branches : List Str) (order : Nat → List Str)
    (horder : ∀ i, (order i).Perm branches) (hdef : str! "default" ∈ branches) (request : Request) :
    let g := groupByClient env branches order request
    let byIP (x : Str) := x = env.ipString request.clientIP
    let byName (x : Str) := ∃ n ∈ request.clientNames, env.globMatch (lower x) (lower n) = true
    let byNet (x : Str) := env.cidrContains x request.clientIP = true
    g ∈ branches ∧
    (byIP g ∨
     ((¬ ∃ x ∈ branches, byIP x) ∧ byName g) ∨
     ((¬ ∃ x ∈ branches, byIP x) ∧ (¬ ∃ x ∈ branches, byName x) ∧ byNet g) ∨
     ((¬ ∃ x ∈ branches, byIP x) ∧ (¬ ∃ x ∈ branches, byName x) ∧ (¬ ∃ x ∈ branches, byNet x) ∧
       g = str! "default")) := by
  simp only
  unfold groupByClient
  by_cases hip : branches.contains (env.ipString request.clientIP) = true
  · rw [if_pos hip]
    have : env.ipString request.clientIP ∈ branches := by simpa using hip
    exact ⟨this, .inl rfl⟩
  · rw [if_neg hip]
    have hip' : ¬ ∃ x ∈ branches, x = env.ipString request.clientIP := by
      rintro ⟨x, hx, rfl⟩
      exact hip (by simpa using hx)
    have hmem := groupsByName_mem env branches order horder 0 request.clientNames
    by_cases hbn : (groupsByName env order 0 request.clientNames).length = 0
    · simp only [if_pos hbn]
      have hnone : ¬ ∃ x ∈ branches, ∃ n ∈ request.clientNames, env.nameMatches x n = true := by
        rintro ⟨x, hx, hn⟩
        have := (hmem x).2 ⟨hx, hn⟩
        rw [List.length_eq_zero_iff.1 hbn] at this
        simp at this
      have hnet : ∀ x, x ∈ (order request.clientNames.length).filter (fun g => env.cidrContains g request.clientIP) ↔
          x ∈ branches ∧ env.cidrContains x request.clientIP = true := by
        intro x
        rw [List.mem_filter, (horder _).mem_iff]
      generalize (order request.clientNames.length).filter (fun g => env.cidrContains g request.clientIP) = l at hnet
      cases l with
      | nil =>
        refine ⟨hdef, .inr (.inr (.inr ⟨hip', hnone, ?_, rfl⟩))⟩
        rintro ⟨x, hx⟩
        have := (hnet x).2 hx
        simp at this
      | cons g gs =>
        have := (hnet g).1 (by simp)
        exact ⟨this.1, .inr (.inr (.inl ⟨hip', hnone, this.2⟩))⟩
    · simp only [if_neg hbn]
      generalize groupsByName env order 0 request.clientNames = l at hmem hbn
      cases l with
      | nil => simp at hbn
      | cons g gs =>
        have := (hmem g).1 (by simp)
        exact ⟨this.1, .inr (.inl ⟨hip', this.2⟩)⟩

/-- With several matching patterns the group depends on the order in which Go iterates the map: the
same client may be served by different groups from query to query. -/
theorem C25_several_patterns_depend_on_map_order :
    let env : Blocking.Env := ⟨fun _ => str! "ip", fun _ _ => false, fun p s => p == s || p == str! "lap*"⟩
    let req : Request := { clientNames := [str! "laptop"], req := {} }
    let b := [str! "laptop", str! "lap*", str! "default"]
    groupByClient env b (fun _ => b) req = str! "laptop" ∧
    groupByClient env b (fun _ => b.reverse) req = str! "lap*" ∧ b.reverse.Perm b := by
  refine ⟨by decide, by decide, List.reverse_perm _⟩

end Verif.Props
