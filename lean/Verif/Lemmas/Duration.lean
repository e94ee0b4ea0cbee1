/-
Facts about durations as text: what each part of `time.ParseDuration` makes of its input.
-/
import Verif.Model.Duration
import Verif.Base.ListLemmas

namespace Verif.Duration

/-- The value of a string of digits, continuing from `x`. -/
def valFrom (x : Nat) (ds : Str) : Nat := ds.foldl (fun a c => a * 10 + digit c) x

theorem valFrom_cons (x : Nat) (c : Char) (ds : Str) :
    valFrom x (c :: ds) = valFrom (x * 10 + digit c) ds := by simp only [valFrom, List.foldl_cons]

theorem valFrom_eq (x : Nat) (ds : Str) : valFrom x ds = x * 10 ^ ds.length + valFrom 0 ds := by
  induction ds generalizing x with
  | nil => simp [valFrom]
  | cons c cs ih =>
    rw [valFrom_cons, valFrom_cons, ih (x * 10 + digit c), ih (0 * 10 + digit c)]
    rw [List.length_cons, Nat.pow_succ]
    have : (x * 10 + digit c) * 10 ^ cs.length =
        x * (10 ^ cs.length * 10) + (0 * 10 + digit c) * 10 ^ cs.length := by
      rw [Nat.add_mul, Nat.zero_mul, Nat.zero_add, Nat.mul_assoc, Nat.mul_comm 10]
    omega

theorem digit_le {c : Char} (h : isDigit c = true) : digit c ≤ 9 := by
  unfold isDigit at h
  simp only [decide_eq_true_eq] at h
  unfold digit
  have h9 : ('9' : Char).toNat = 57 := rfl
  have h0 : ('0' : Char).toNat = 48 := rfl
  omega

theorem valFrom_lt (ds : Str) (h : ds.all isDigit = true) : valFrom 0 ds < 10 ^ ds.length := by
  induction ds with
  | nil => simp [valFrom]
  | cons c cs ih =>
    rw [List.all_cons, Bool.and_eq_true] at h
    rw [valFrom_cons, valFrom_eq, List.length_cons, Nat.pow_succ]
    have h1 := ih h.2
    have h2 := digit_le h.1
    have h3 : (0 * 10 + digit c) * 10 ^ cs.length ≤ 9 * 10 ^ cs.length :=
      Nat.mul_le_mul_right _ (by omega)
    omega

theorem le_valFrom (x : Nat) (ds : Str) : x ≤ valFrom x ds := by
  rw [valFrom_eq]
  have : x * 1 ≤ x * 10 ^ ds.length := Nat.mul_le_mul_left _ (Nat.pow_pos (by omega))
  omega

/-- Text that does not start with a digit. -/
def NoDigit : Str → Prop
  | [] => True
  | c :: _ => isDigit c = false

theorem leadingInt_digits (x : Nat) (ds rest : Str) (hd : ds.all isDigit = true)
    (hr : NoDigit rest) (hv : valFrom x ds ≤ 2 ^ 63) :
    leadingInt x (ds ++ rest) = some (valFrom x ds, rest) := by
  induction ds generalizing x with
  | nil =>
    cases rest with
    | nil => rfl
    | cons c cs =>
      have hr' : isDigit c = false := hr
      simp [leadingInt, hr', valFrom]
  | cons c cs ih =>
    rw [List.all_cons, Bool.and_eq_true] at hd
    rw [valFrom_cons] at hv
    have h1 := le_valFrom (x * 10 + digit c) cs
    rw [List.cons_append, leadingInt, if_pos hd.1, if_neg (by omega), if_neg (by omega),
      ih _ hd.2 hv, valFrom_cons]

theorem leadingInt_some (x : Nat) (s : Str) {v : Nat} {rest : Str}
    (h : leadingInt x s = some (v, rest)) :
    ∃ ds, ds.all isDigit = true ∧ s = ds ++ rest ∧ NoDigit rest ∧ v = valFrom x ds := by
  induction s generalizing x with
  | nil =>
    simp only [leadingInt, Option.some.injEq, Prod.mk.injEq] at h
    exact ⟨[], rfl, by simp [h.2], by rw [← h.2]; trivial, by simp [valFrom, h.1]⟩
  | cons c cs ih =>
    rw [leadingInt] at h
    by_cases hc : isDigit c = true
    · rw [if_pos hc] at h
      split at h
      · exact absurd h (by simp)
      · split at h
        · exact absurd h (by simp)
        · obtain ⟨ds, h1, h2, h3, h4⟩ := ih _ h
          exact ⟨c :: ds, by simp [hc, h1], by simp [h2], h3, by rw [valFrom_cons, h4]⟩
    · rw [if_neg hc] at h
      simp only [Option.some.injEq, Prod.mk.injEq] at h
      exact ⟨[], rfl, by simp [h.2], by rw [← h.2]; simpa [NoDigit] using hc, by simp [valFrom, h.1]⟩

theorem leadingFraction_digits (x sc : Nat) (ds rest : Str) (hd : ds.all isDigit = true)
    (hr : NoDigit rest) (hv : (x + 1) * 10 ^ ds.length ≤ 10 ^ 18) :
    leadingFraction false x sc (ds ++ rest) = (valFrom x ds, sc * 10 ^ ds.length, rest) := by
  induction ds generalizing x sc with
  | nil =>
    cases rest with
    | nil => simp [leadingFraction, valFrom]
    | cons c cs =>
      have hr' : isDigit c = false := hr
      simp [leadingFraction, hr', valFrom]
  | cons c cs ih =>
    rw [List.all_cons, Bool.and_eq_true] at hd
    have h9 := digit_le hd.1
    rw [List.length_cons, Nat.pow_succ, Nat.mul_comm (10 ^ cs.length), ← Nat.mul_assoc] at hv
    have hp : 1 ≤ 10 ^ cs.length := Nat.pow_pos (by omega)
    have h2 : (x * 10 + digit c + 1) * 10 ^ cs.length ≤ 10 ^ 18 :=
      Nat.le_trans (Nat.mul_le_mul_right _ (by omega)) hv
    have h3 : (x + 1) * 10 * 1 ≤ (x + 1) * 10 * 10 ^ cs.length := Nat.mul_le_mul_left _ hp
    rw [List.cons_append, leadingFraction, if_pos hd.1, if_neg (by simp), if_neg (by omega),
      if_neg (by omega), ih _ _ hd.2 h2, valFrom_cons, List.length_cons, Nat.pow_succ]
    rw [Nat.mul_assoc, Nat.mul_comm 10]

theorem leadingFraction_shape (o : Bool) (x sc : Nat) (s : Str) :
    ∃ ds, ds.all isDigit = true ∧ s = ds ++ (leadingFraction o x sc s).2.2 ∧
      NoDigit (leadingFraction o x sc s).2.2 := by
  induction s generalizing o x sc with
  | nil => exact ⟨[], rfl, rfl, trivial⟩
  | cons c cs ih =>
    rw [leadingFraction]
    by_cases hc : isDigit c = true
    · rw [if_pos hc]
      have key : ∀ o x sc, ∃ ds, ds.all isDigit = true ∧
          c :: cs = ds ++ (leadingFraction o x sc cs).2.2 ∧
          NoDigit (leadingFraction o x sc cs).2.2 := by
        intro o x sc
        obtain ⟨ds, h1, h2, h3⟩ := ih o x sc
        exact ⟨c :: ds, by simp [hc, h1], by rw [List.cons_append, ← h2], h3⟩
      split
      · exact key _ _ _
      · split
        · exact key _ _ _
        · split
          · exact key _ _ _
          · exact key _ _ _
    · rw [if_neg hc]
      exact ⟨[], rfl, rfl, by simpa [NoDigit] using hc⟩

/-- The text of the part after the decimal point. -/
def fracText : Option Str → Str
  | none => []
  | some f => '.' :: f

/-- The digits after the decimal point. -/
def fracDigits : Option Str → Str
  | none => []
  | some f => f

/-- Text that cannot continue a unit. -/
def NoUnit : Str → Prop
  | [] => True
  | c :: _ => isUnitChar c = false

theorem fraction_other {s : Str} (h : ∀ cs, s ≠ '.' :: cs) : fraction s = (0, 1, false, s) := by
  unfold fraction
  split
  · exact absurd rfl (h _)
  · rfl

theorem fraction_text (frac : Option Str) (tail : Str) (hd : (fracDigits frac).all isDigit = true)
    (hl : (fracDigits frac).length ≤ 18) (ht : NoDigit tail) (hp : ∀ cs, tail ≠ '.' :: cs) :
    fraction (fracText frac ++ tail) =
      (valFrom 0 (fracDigits frac), 10 ^ (fracDigits frac).length,
        decide (fracDigits frac ≠ []), tail) := by
  cases frac with
  | none =>
    rw [show fracText none ++ tail = tail from rfl, fraction_other hp]
    simp [fracDigits, valFrom]
  | some f =>
    have h := leadingFraction_digits 0 1 f tail hd ht
      (by rw [Nat.zero_add, Nat.one_mul]; exact Nat.pow_le_pow_right (by omega) hl)
    rw [show fracText (some f) ++ tail = '.' :: (f ++ tail) from rfl]
    simp only [fraction, h, fracDigits, Nat.one_mul, List.length_append]
    congr 3
    cases f <;> simp

theorem NoUnit.takeWhile {u rest : Str} (hu : u.all isUnitChar = true) (hr : NoUnit rest) :
    (u ++ rest).takeWhile isUnitChar = u ∧ (u ++ rest).dropWhile isUnitChar = rest := by
  have ha : ∀ a ∈ u, isUnitChar a = true := by simpa [List.all_eq_true] using hu
  rw [List.takeWhile_append_of_pos ha, List.dropWhile_append_of_pos ha]
  cases rest with
  | nil => simp
  | cons c cs =>
    have hc : isUnitChar c = false := hr
    simp [List.takeWhile, List.dropWhile, hc]

theorem isUnitChar_iff (c : Char) : isUnitChar c = true ↔ c ≠ '.' ∧ isDigit c = false := by
  unfold isUnitChar; simp

/-- The value of a number with a unit. -/
def partValue (whole : Str) (frac : Option Str) (unit : Nat) : Nat :=
  valFrom 0 whole * unit +
    valFrom 0 (fracDigits frac) * unit / 10 ^ (fracDigits frac).length

theorem unitOf_pos {u : Str} {unit : Nat} (h : unitOf u = some unit) : 0 < unit := by
  unfold unitOf at h
  repeat' split at h
  all_goals first
    | (simp only [Option.some.injEq] at h; omega)
    | exact absurd h (by simp)

theorem component_part (whole : Str) (frac : Option Str) (u rest : Str) (unit : Nat)
    (hw : whole.all isDigit = true) (hf : (fracDigits frac).all isDigit = true)
    (hl : (fracDigits frac).length ≤ 18) (hne : whole ≠ [] ∨ fracDigits frac ≠ [])
    (hu : u.all isUnitChar = true) (hune : u ≠ []) (hunit : unitOf u = some unit)
    (hr : NoUnit rest) (hv : partValue whole frac unit ≤ 2 ^ 63) :
    component (whole ++ (fracText frac ++ (u ++ rest))) = some (partValue whole frac unit, rest) := by
  have hpos := unitOf_pos hunit
  obtain ⟨c0, u0, rfl⟩ : ∃ c0 u0, u = c0 :: u0 := by
    cases u with
    | nil => exact absurd rfl hune
    | cons a b => exact ⟨a, b, rfl⟩
  have hc0 : c0 ≠ '.' ∧ isDigit c0 = false := by
    rw [List.all_cons, Bool.and_eq_true] at hu
    exact (isUnitChar_iff c0).1 hu.1
  have htail : NoDigit ((c0 :: u0) ++ rest) := hc0.2
  have htp : ∀ cs, (c0 :: u0) ++ rest ≠ '.' :: cs := by
    intro cs h
    rw [List.cons_append, List.cons.injEq] at h
    exact hc0.1 h.1
  have hfn : NoDigit (fracText frac ++ ((c0 :: u0) ++ rest)) := by
    cases frac with
    | none => exact htail
    | some f => exact (by decide : isDigit '.' = false)
  have hvw : valFrom 0 whole * unit ≤ 2 ^ 63 :=
    Nat.le_trans (Nat.le_add_right _ _) hv
  have hvw1 : valFrom 0 whole ≤ 2 ^ 63 / unit := (Nat.le_div_iff_mul_le hpos).2 hvw
  have hvw2 : valFrom 0 whole ≤ 2 ^ 63 := Nat.le_trans hvw1 (Nat.div_le_self _ _)
  have hli := leadingInt_digits 0 whole (fracText frac ++ ((c0 :: u0) ++ rest)) hw hfn hvw2
  have hft := fraction_text frac ((c0 :: u0) ++ rest) hf hl htail htp
  obtain ⟨htw, hdw⟩ := NoUnit.takeWhile hu hr
  have hfirst : ∃ c s, whole ++ (fracText frac ++ ((c0 :: u0) ++ rest)) = c :: s ∧
      (c = '.' || isDigit c) = true := by
    cases whole with
    | nil =>
      cases frac with
      | none => rcases hne with h | h <;> exact absurd rfl h
      | some f => exact ⟨'.', _, rfl, rfl⟩
    | cons a b =>
      rw [List.all_cons, Bool.and_eq_true] at hw
      exact ⟨a, _, rfl, by simp [hw.1]⟩
  obtain ⟨c, s, hs, hc⟩ := hfirst
  have hlen : decide ((fracText frac ++ ((c0 :: u0) ++ rest)).length ≠ (c :: s).length) =
      decide (whole ≠ []) := by
    rw [← hs]
    cases whole with
    | nil => simp
    | cons a b => simp; omega
  rw [hs] at hli ⊢
  have hguard : (!decide (whole ≠ []) && !decide (fracDigits frac ≠ [])) = false := by
    rcases hne with h | h <;> simp [h]
  unfold component
  simp only [hli, hft, hlen]
  rw [if_pos hc, if_neg (by rw [hguard]; simp)]
  rw [htw, if_neg hune]
  simp only [hunit]
  rw [if_neg (by omega), hdw]
  have hval : valFrom 0 whole * unit +
      (if valFrom 0 (fracDigits frac) > 0 then
        valFrom 0 (fracDigits frac) * unit / 10 ^ (fracDigits frac).length else 0) =
      partValue whole frac unit := by
    unfold partValue
    split
    · rfl
    · rename_i h
      have h0 : valFrom 0 (fracDigits frac) = 0 := by omega
      rw [h0]
      simp
  rw [hval, if_neg (by omega)]

theorem fraction_shape (s : Str) (hs : NoDigit s) : ∃ frac, (fracDigits frac).all isDigit = true ∧
    s = fracText frac ++ (fraction s).2.2.2 ∧ NoDigit (fraction s).2.2.2 ∧
    ((fraction s).2.2.1 = true → fracDigits frac ≠ []) := by
  by_cases hp : ∃ cs, s = '.' :: cs
  · obtain ⟨cs, rfl⟩ := hp
    obtain ⟨ds, h1, h2, h3⟩ := leadingFraction_shape false 0 1 cs
    refine ⟨some ds, h1, ?_, h3, ?_⟩
    · show '.' :: cs = '.' :: (ds ++ _)
      rw [List.cons.injEq]
      exact ⟨rfl, h2⟩
    · intro hpost hnil
      have hnil' : ds = [] := hnil
      subst hnil'
      simp only [fraction, decide_eq_true_eq] at hpost
      rw [List.nil_append] at h2
      exact hpost (congrArg List.length h2.symm)
  · have hp' : ∀ cs, s ≠ '.' :: cs := fun cs h => hp ⟨cs, h⟩
    rw [fraction_other hp']
    exact ⟨none, rfl, rfl, hs, by simp⟩

theorem component_some (s : Str) {v : Nat} {rest : Str} (h : component s = some (v, rest)) :
    ∃ whole frac u unit, whole.all isDigit = true ∧ (fracDigits frac).all isDigit = true ∧
      (whole ≠ [] ∨ fracDigits frac ≠ []) ∧ u.all isUnitChar = true ∧ u ≠ [] ∧
      unitOf u = some unit ∧ NoUnit rest ∧ s = whole ++ (fracText frac ++ (u ++ rest)) ∧
      v ≤ 2 ^ 63 ∧ ((fracDigits frac).length ≤ 18 → v = partValue whole frac unit) := by
  cases s with
  | nil => exact absurd h (by simp [component])
  | cons c cs =>
    unfold component at h
    by_cases hc : (c = '.' || isDigit c) = true
    · simp only [if_pos hc] at h
      cases hli : leadingInt 0 (c :: cs) with
      | none => rw [hli] at h; exact absurd h (by simp)
      | some p =>
        obtain ⟨w, s1⟩ := p
        rw [hli] at h
        simp only at h
        obtain ⟨whole, hw1, hw2, hw3, hw4⟩ := leadingInt_some 0 _ hli
        obtain ⟨frac, hf1, hf2, hf3, hf4⟩ := fraction_shape s1 hw3
        have hft := fun hl hp => fraction_text frac (fraction s1).2.2.2 hf1 hl hf3 hp
        rw [← hf2] at hft
        generalize fraction s1 = fr at h hf2 hf3 hf4 hft
        obtain ⟨f, scale, post, s2⟩ := fr
        simp only at h hf2 hf3 hf4 hft
        split at h
        · exact absurd h (by simp)
        rename_i hguard
        split at h
        · exact absurd h (by simp)
        rename_i hune
        split at h
        · exact absurd h (by simp)
        rename_i unit hunit
        split at h
        · exact absurd h (by simp)
        generalize hW : w * unit + (if f > 0 then f * unit / scale else 0) = W at h
        by_cases hle : W > 2 ^ 63
        · rw [if_pos hle] at h; exact absurd h (by simp)
        rw [if_neg hle] at h
        rw [Option.some.injEq, Prod.mk.injEq] at h
        refine ⟨whole, frac, s2.takeWhile isUnitChar, unit, hw1, hf1, ?_, ?_, hune, hunit, ?_, ?_, ?_, ?_⟩
        · by_cases hwn : whole = []
          · refine Or.inr (hf4 ?_)
            subst hwn
            rw [List.nil_append] at hw2
            rw [hw2] at hguard
            cases post with
            | true => rfl
            | false => exact absurd (by simp) hguard
          · exact Or.inl hwn
        · rw [List.all_eq_true]
          intro a ha
          exact List.all_eq_true.1 (List.all_takeWhile) a ha
        · rw [← h.2]
          cases hdw : s2.dropWhile isUnitChar with
          | nil => trivial
          | cons a b =>
            have := List.head_dropWhile_not isUnitChar (l := s2) (by rw [hdw]; simp)
            simpa [NoUnit, hdw] using this
        · rw [hw2, hf2, ← h.2, List.takeWhile_append_dropWhile]
        · rw [← h.1]; omega
        · intro hl
          have hp : ∀ cs, s2 ≠ '.' :: cs := by
            intro cs he
            rw [he] at hune
            exact hune (by simp [List.takeWhile, isUnitChar])
          have hft := hft hl hp
          simp only [Prod.mk.injEq] at hft
          rw [← h.1, ← hW, hw4, hft.1, hft.2.1]
          unfold partValue
          split
          · rfl
          · rename_i h0
            have h0 : valFrom 0 (fracDigits frac) = 0 := by omega
            rw [h0]; simp
    · simp only [if_neg hc] at h
      exact absurd h (by simp)

theorem digitChar_ok {d : Nat} (h : d < 10) : isDigit (digitChar d) = true ∧ digit (digitChar d) = d := by
  have : d = 0 ∨ d = 1 ∨ d = 2 ∨ d = 3 ∨ d = 4 ∨ d = 5 ∨ d = 6 ∨ d = 7 ∨ d = 8 ∨ d = 9 := by omega
  rcases this with h | h | h | h | h | h | h | h | h | h <;> subst h <;> decide

theorem valFrom_append (x : Nat) (a b : Str) : valFrom x (a ++ b) = valFrom (valFrom x a) b := by
  simp only [valFrom, List.foldl_append]

theorem fmtIntLoop_spec (n v : Nat) (acc : Str) (h : v < n) :
    ∃ ds, ds.all isDigit = true ∧ fmtIntLoop n v acc = ds ++ acc ∧ valFrom 0 ds = v ∧
      (0 < v → ds ≠ []) := by
  induction n generalizing v acc with
  | zero => omega
  | succ n ih =>
    rw [fmtIntLoop]
    by_cases hv : v = 0
    · rw [if_pos hv]
      exact ⟨[], rfl, rfl, by simp [valFrom, hv], by omega⟩
    · rw [if_neg hv]
      obtain ⟨ds, h1, h2, h3, _⟩ := ih (v / 10) (digitChar (v % 10) :: acc) (by omega)
      have hd := digitChar_ok (d := v % 10) (by omega)
      refine ⟨ds ++ [digitChar (v % 10)], by simp [h1, hd.1], by simp [h2], ?_, by simp⟩
      rw [valFrom_append, h3, valFrom_cons, hd.2]
      simp only [valFrom, List.foldl_nil]
      omega

theorem fmtInt_spec (v : Nat) (acc : Str) :
    ∃ ds, ds.all isDigit = true ∧ fmtInt v acc = ds ++ acc ∧ valFrom 0 ds = v ∧ ds ≠ [] := by
  unfold fmtInt
  by_cases hv : v = 0
  · rw [if_pos hv]
    exact ⟨['0'], by decide, rfl, by rw [hv]; decide, by simp⟩
  · rw [if_neg hv]
    obtain ⟨ds, h1, h2, h3, h4⟩ := fmtIntLoop_spec (v + 1) v acc (by omega)
    exact ⟨ds, h1, h2, h3, h4 (by omega)⟩

theorem mod_pow_step (v n : Nat) : v / 10 % 10 ^ n * 10 + v % 10 = v % 10 ^ (n + 1) := by
  rw [Nat.pow_succ, Nat.mul_comm (10 ^ n) 10, Nat.mod_mul]
  omega

theorem fmtFracLoop_true (n v : Nat) (acc : Str) :
    ∃ ds, ds.all isDigit = true ∧ ds.length = n ∧ valFrom 0 ds = v % 10 ^ n ∧
      fmtFracLoop n v true acc = (true, ds ++ acc, v / 10 ^ n) := by
  induction n generalizing v acc with
  | zero => exact ⟨[], rfl, rfl, by simp [valFrom, Nat.mod_one], by simp [fmtFracLoop]⟩
  | succ n ih =>
    obtain ⟨ds, h1, h2, h3, h4⟩ := ih (v / 10) (digitChar (v % 10) :: acc)
    have hd := digitChar_ok (d := v % 10) (by omega)
    refine ⟨ds ++ [digitChar (v % 10)], by simp [h1, hd.1], by simp [h2], ?_, ?_⟩
    · rw [valFrom_append, h3, valFrom_cons, hd.2, ← mod_pow_step]
      simp only [valFrom, List.foldl_nil]
    · rw [fmtFracLoop]
      simp only [Bool.true_or, if_true]
      rw [h4, Nat.div_div_eq_div_mul, Nat.pow_succ, Nat.mul_comm 10]
      simp

theorem fmtFracLoop_false (n v : Nat) (acc : Str) :
    ∃ ds, ds.all isDigit = true ∧ ds.length ≤ n ∧
      valFrom 0 ds * 10 ^ (n - ds.length) = v % 10 ^ n ∧
      fmtFracLoop n v false acc = (decide (ds ≠ []), ds ++ acc, v / 10 ^ n) := by
  induction n generalizing v acc with
  | zero => exact ⟨[], rfl, by simp, by simp [valFrom, Nat.mod_one], by simp [fmtFracLoop]⟩
  | succ n ih =>
    by_cases hz : v % 10 = 0
    · obtain ⟨ds, h1, h2, h3, h4⟩ := ih (v / 10) acc
      refine ⟨ds, h1, by omega, ?_, ?_⟩
      · rw [← mod_pow_step, ← h3, hz, Nat.add_zero,
          show n + 1 - ds.length = (n - ds.length) + 1 from by omega, Nat.pow_succ, Nat.mul_assoc, Nat.add_zero]
      · rw [fmtFracLoop]
        simp only [hz, ne_eq, not_true_eq_false, decide_false, Bool.or_false, Bool.false_eq_true, if_false]
        rw [h4, Nat.div_div_eq_div_mul, Nat.pow_succ, Nat.mul_comm 10]
    · obtain ⟨ds, h1, h2, h3, h4⟩ := fmtFracLoop_true n (v / 10) (digitChar (v % 10) :: acc)
      have hd := digitChar_ok (d := v % 10) (by omega)
      refine ⟨ds ++ [digitChar (v % 10)], by simp [h1, hd.1], by simp [h2], ?_, ?_⟩
      · rw [List.length_append, h2, List.length_singleton, Nat.sub_self, Nat.pow_zero, Nat.mul_one,
          valFrom_append, h3, valFrom_cons, hd.2, ← mod_pow_step]
        simp only [valFrom, List.foldl_nil]
      · rw [fmtFracLoop]
        simp only [hz, ne_eq, not_false_eq_true, decide_true, Bool.or_true, if_true]
        rw [h4, Nat.div_div_eq_div_mul, Nat.pow_succ, Nat.mul_comm 10]
        simp

theorem fmtFrac_spec (v prec : Nat) (acc : Str) :
    ∃ frac, (fracDigits frac).all isDigit = true ∧ (fracDigits frac).length ≤ prec ∧
      fmtFrac v prec acc = (fracText frac ++ acc, v / 10 ^ prec) ∧
      valFrom 0 (fracDigits frac) * 10 ^ prec / 10 ^ (fracDigits frac).length = v % 10 ^ prec := by
  obtain ⟨ds, h1, h2, h3, h4⟩ := fmtFracLoop_false prec v acc
  have hval : valFrom 0 ds * 10 ^ prec / 10 ^ ds.length = v % 10 ^ prec := by
    have : 10 ^ prec = 10 ^ (prec - ds.length) * 10 ^ ds.length := by
      rw [← Nat.pow_add]; congr 1; omega
    rw [this, ← Nat.mul_assoc, Nat.mul_div_cancel _ (Nat.pow_pos (by omega)), h3, ← this]
  unfold fmtFrac
  rw [h4]
  by_cases hn : ds = []
  · subst hn
    exact ⟨none, rfl, by simp [fracDigits], by simp [fracText], hval⟩
  · exact ⟨some ds, h1, h2, by simp [fracText, hn], hval⟩

end Verif.Duration
