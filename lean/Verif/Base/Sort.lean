/-
Go's `sort.Strings` / `slices.Sort` on strings and `sort.SearchStrings`.
-/
import Verif.Base.Search

namespace Verif

/-- Insert before the first string that is not smaller. -/
def insertStr (x : Str) : List Str → List Str
  | [] => [x]
  | y :: ys => if strLt y x then y :: insertStr x ys else x :: y :: ys

/-- Go `sort.Strings` (the sorted list is unique, so the algorithm does not matter). -/
def sortStr : List Str → List Str
  | [] => []
  | x :: xs => insertStr x (sortStr xs)

/-- Go `sort.SearchStrings(a, x)` followed by the usual test `i < len(a) && a[i] == x`. -/
def searchStrings (a : List Str) (x : Str) : Bool :=
  a[sortSearch a.length (fun i => match a[i]? with | some b => !strLt b x | none => true)]? == some x

theorem mem_insertStr {x y : Str} {l : List Str} : y ∈ insertStr x l ↔ y = x ∨ y ∈ l := by
  induction l with
  | nil => simp [insertStr]
  | cons a l ih =>
    unfold insertStr
    split
    · simp only [List.mem_cons, ih]
      constructor
      · rintro (h | h | h) <;> simp [h]
      · rintro (h | h | h) <;> simp [h]
    · simp

@[simp] theorem mem_sortStr {y : Str} {l : List Str} : y ∈ sortStr l ↔ y ∈ l := by
  induction l with
  | nil => simp [sortStr]
  | cons a l ih => simp [sortStr, mem_insertStr, ih]

theorem insertStr_perm (x : Str) (l : List Str) : (insertStr x l).Perm (x :: l) := by
  induction l with
  | nil => exact .refl _
  | cons a l ih =>
    unfold insertStr
    split
    · exact (ih.cons a).trans (.swap x a l)
    · exact .refl _

theorem sortStr_perm (l : List Str) : (sortStr l).Perm l := by
  induction l with
  | nil => exact .refl _
  | cons a l ih => exact (insertStr_perm a _).trans (ih.cons a)

/-- Weakly sorted. -/
def WSorted (l : List Str) : Prop := l.Pairwise (fun a b => strLt b a = false)

theorem insertStr_sorted {x : Str} {l : List Str} (h : WSorted l) : WSorted (insertStr x l) := by
  induction l with
  | nil => simp [insertStr, WSorted]
  | cons a l ih =>
    obtain ⟨h1, h2⟩ := List.pairwise_cons.1 h
    unfold insertStr
    split
    · rename_i hlt
      refine List.pairwise_cons.2 ⟨fun b hb => ?_, ih h2⟩
      rcases mem_insertStr.1 hb with rfl | hb
      · exact strLt_asymm hlt
      · exact h1 b hb
    · rename_i hlt
      have hax : strLt a x = false := by simpa using hlt
      refine List.pairwise_cons.2 ⟨fun b hb => ?_, h⟩
      rcases List.mem_cons.1 hb with rfl | hb
      · exact hax
      · cases hbx : strLt b x with
        | false => rfl
        | true =>
          -- b < x and a ≤ b give a < x
          have hba := h1 b hb
          cases hab : strLt a b with
          | true => rw [strLt_trans hab hbx] at hax; cases hax
          | false => rw [strLt_total hab hba, hbx] at hax; cases hax

theorem sortStr_sorted (l : List Str) : WSorted (sortStr l) := by
  induction l with
  | nil => exact List.Pairwise.nil
  | cons a l ih => exact insertStr_sorted ih

/-- Permutations of each other that are sorted are equal. -/
theorem WSorted.eq_of_perm {l m : List Str} (hl : WSorted l) (hm : WSorted m) (h : l.Perm m) :
    l = m := by
  induction l generalizing m with
  | nil => exact (List.Perm.nil_eq h)
  | cons a l ih =>
    cases m with
    | nil => exact absurd h.length_eq (by simp)
    | cons b m =>
      obtain ⟨ha1, ha2⟩ := List.pairwise_cons.1 hl
      obtain ⟨hb1, hb2⟩ := List.pairwise_cons.1 hm
      have hab : a = b := by
        rcases List.mem_cons.1 (h.mem_iff.1 (List.mem_cons_self (a := a))) with h1 | h1
        · exact h1
        · rcases List.mem_cons.1 (h.mem_iff.2 (List.mem_cons_self (a := b))) with h2 | h2
          · exact h2.symm
          · exact strLt_total (hb1 a h1) (ha1 b h2)
      subst hab
      rw [ih ha2 hb2 (List.perm_cons a |>.1 h)]

/-- The order of the input does not matter. -/
theorem sortStr_congr {l m : List Str} (h : l.Perm m) : sortStr l = sortStr m :=
  (sortStr_sorted l).eq_of_perm (sortStr_sorted m)
    ((sortStr_perm l).trans (h.trans (sortStr_perm m).symm))

theorem searchStrings_iff {a : List Str} (h : WSorted a) (x : Str) :
    searchStrings a x = true ↔ x ∈ a := by
  unfold searchStrings
  rw [beq_iff_eq]
  constructor
  · intro hx; exact List.mem_of_getElem? hx
  · intro hx
    have hs := sortSearch_spec a.length
      (fun i => match a[i]? with | some b => !strLt b x | none => true) (by
        intro i j hij hj hi
        have hi' : i < a.length := by omega
        simp only [List.getElem?_eq_getElem hi', List.getElem?_eq_getElem hj, Bool.not_eq_true'] at hi ⊢
        rcases Nat.lt_or_eq_of_le hij with hlt | rfl
        · have hord := List.pairwise_iff_getElem.1 h i j hi' hj hlt
          cases hjx : strLt a[j] x with
          | false => rfl
          | true =>
            cases hab : strLt a[i] a[j] with
            | true => rw [strLt_trans hab hjx] at hi; cases hi
            | false => rw [strLt_total hab hord, hjx] at hi; cases hi
        · exact hi)
    obtain ⟨h1, h2, h3⟩ := hs
    generalize sortSearch a.length
      (fun i => match a[i]? with | some b => !strLt b x | none => true) = idx at h1 h2 h3 ⊢
    obtain ⟨j, hj, rfl⟩ := List.getElem_of_mem hx
    -- idx ≤ j, since the predicate holds at j
    have hle : idx ≤ j := by
      rcases Nat.lt_or_ge j idx with hlt | hge
      · have := h2 j hlt
        simp [List.getElem?_eq_getElem hj, strLt_irrefl] at this
      · exact hge
    have hidx : idx < a.length := by omega
    have := h3 idx (Nat.le_refl _) hidx
    simp only [List.getElem?_eq_getElem hidx, Bool.not_eq_true'] at this
    rw [List.getElem?_eq_getElem hidx]
    congr 1
    rcases Nat.lt_or_eq_of_le hle with hlt | rfl
    · exact strLt_total this (List.pairwise_iff_getElem.1 h idx j hidx hj hlt)
    · rfl

end Verif
