/-
Go's `sort.Search` and byte-wise string comparison.
-/
import Verif.Base.Str

namespace Verif

/-- Go string comparison `a < b` (byte-wise, lexicographic). -/
def strLt : Str → Str → Bool
  | _, [] => false
  | [], _ :: _ => true
  | a :: as, b :: bs => a.toNat < b.toNat || (a.toNat == b.toNat && strLt as bs)

/-- The loop of Go's `sort.Search` (package sort, Search): invariant `f(i-1) = false, f(j) = true`. -/
def searchLoop (f : Nat → Bool) (i j : Nat) : Nat :=
  if i < j then
    if f ((i + j) / 2) then searchLoop f i ((i + j) / 2) else searchLoop f ((i + j) / 2 + 1) j
  else i
termination_by j - i

/-- Go's `sort.Search(n, f)`: smallest index in `[0, n)` at which `f` is true (binary search). -/
def sortSearch (n : Nat) (f : Nat → Bool) : Nat := searchLoop f 0 n

theorem searchLoop_spec (f : Nat → Bool) (n : Nat)
    (hmono : ∀ a b, a ≤ b → b < n → f a = true → f b = true) (i j : Nat) (hij : i ≤ j) (hj : j ≤ n)
    (hlo : ∀ a, a < i → f a = false) (hhi : ∀ a, j ≤ a → a < n → f a = true) :
    searchLoop f i j ≤ n ∧ (∀ a, a < searchLoop f i j → f a = false) ∧
      (∀ a, searchLoop f i j ≤ a → a < n → f a = true) := by
  fun_induction searchLoop f i j with
  | case1 i j h hf ih =>
    apply ih (by omega) (by omega) hlo
    intro a ha han
    exact hmono _ _ ha han hf
  | case2 i j h hf ih =>
    apply ih (by omega) hj ?_ hhi
    intro a ha
    cases hfa : f a with
    | false => rfl
    | true => exact absurd (hmono a _ (by omega) (by omega) hfa) hf
  | case3 i j h =>
    have : i = j := by omega
    subst this
    exact ⟨hj, hlo, hhi⟩

theorem sortSearch_spec (n : Nat) (f : Nat → Bool)
    (hmono : ∀ a b, a ≤ b → b < n → f a = true → f b = true) :
    sortSearch n f ≤ n ∧ (∀ a, a < sortSearch n f → f a = false) ∧
      (∀ a, sortSearch n f ≤ a → a < n → f a = true) :=
  searchLoop_spec f n hmono 0 n (Nat.zero_le _) (Nat.le_refl _) (by omega) (by omega)

theorem strLt_irrefl (a : Str) : strLt a a = false := by
  induction a with
  | nil => rfl
  | cons c cs ih => simp [strLt, ih]

theorem strLt_trans {a b c : Str} (h1 : strLt a b = true) (h2 : strLt b c = true) :
    strLt a c = true := by
  induction a generalizing b c with
  | nil =>
    cases b with
    | nil => simp [strLt] at h1
    | cons y ys => cases c with
      | nil => simp [strLt] at h2
      | cons z zs => rfl
  | cons x xs ih =>
    cases b with
    | nil => simp [strLt] at h1
    | cons y ys => cases c with
      | nil => simp [strLt] at h2
      | cons z zs =>
        simp only [strLt, Bool.or_eq_true, decide_eq_true_eq, Bool.and_eq_true, beq_iff_eq] at *
        rcases h1 with h1 | ⟨h1, h1'⟩ <;> rcases h2 with h2 | ⟨h2, h2'⟩
        · left; omega
        · left; omega
        · left; omega
        · right; exact ⟨by omega, ih h1' h2'⟩

theorem char_toNat_inj {a b : Char} (h : a.toNat = b.toNat) : a = b := by
  apply Char.ext
  exact UInt32.toNat_inj.1 h

theorem strLt_total {a b : Str} (h1 : strLt a b = false) (h2 : strLt b a = false) : a = b := by
  induction a generalizing b with
  | nil => cases b with
    | nil => rfl
    | cons y ys => simp [strLt] at h1
  | cons x xs ih =>
    cases b with
    | nil => simp [strLt] at h2
    | cons y ys =>
      simp only [strLt, Bool.or_eq_false_iff, decide_eq_false_iff_not, Bool.and_eq_false_imp,
        beq_iff_eq] at h1 h2
      have hxy : x.toNat = y.toNat := by omega
      rw [char_toNat_inj hxy, ih (h1.2 hxy) (h2.2 hxy.symm)]

theorem strLt_asymm {a b : Str} (h : strLt a b = true) : strLt b a = false := by
  cases hba : strLt b a with
  | false => rfl
  | true => rw [← strLt_irrefl a, strLt_trans h hba]

/-- Strictly ascending list of strings. -/
def SortedStr (xs : List Str) : Prop := xs.Pairwise (fun a b => strLt a b = true)

theorem SortedStr.getElem_lt {xs : List Str} (h : SortedStr xs) {i j : Nat} (hij : i < j)
    (hj : j < xs.length) : strLt (xs[i]'(by omega)) xs[j] = true :=
  List.pairwise_iff_getElem.1 h i j (by omega) hj hij

end Verif
