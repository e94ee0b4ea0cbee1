import Verif.Spec.Domain
import Verif.Lemmas.Trie

namespace Verif.Spec
open Trie (splitChar_append_sep')

theorem labels_of_plain {s : Str} (h : Plain s) : labels s = splitChar '.' s := by
  unfold labels
  rw [List.filter_eq_self]
  intro l hl
  simpa using h l hl

theorem joinChar_append {sep : Char} (as bs : List Str) (ha : as ≠ []) (hb : bs ≠ []) :
    joinChar sep (as ++ bs) = joinChar sep as ++ sep :: joinChar sep bs := by
  induction as with
  | nil => exact absurd rfl ha
  | cons a as ih =>
    cases as with
    | nil =>
      cases bs with
      | nil => exact absurd rfl hb
      | cons b bs => simp [joinChar]
    | cons a' as =>
      simp only [List.cons_append, joinChar, List.append_assoc]
      simp only [List.cons_append] at ih
      rw [ih (by simp)]

/-- For plainly written names, "within" means: equal, or ending in `"." ++ dom`. -/
theorem isWithin_plain {q k : Str} (hq : Plain q) (hk : Plain k) :
    IsWithin q k ↔ q = k ∨ ∃ p, q = p ++ '.' :: k := by
  unfold IsWithin
  rw [labels_of_plain hq, labels_of_plain hk]
  constructor
  · rintro ⟨ps, hps⟩
    have hj := congrArg (joinChar '.') hps
    rw [joinChar_splitChar] at hj
    cases ps with
    | nil =>
      left
      rw [List.nil_append, joinChar_splitChar] at hj
      exact hj.symm
    | cons p ps =>
      right
      rw [joinChar_append _ _ (by simp) (splitChar_ne_nil _ _), joinChar_splitChar] at hj
      exact ⟨_, hj.symm⟩
  · rintro (h | ⟨p, h⟩)
    · rw [h]; exact List.suffix_refl _
    · rw [h, splitChar_append_sep']; exact List.suffix_append _ _

end Verif.Spec
