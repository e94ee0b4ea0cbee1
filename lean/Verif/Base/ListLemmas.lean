/-
Small facts about lists used in several places.
-/
namespace Verif

/-- A duplicate-free list contained in another one is not longer. -/
theorem nodup_length_le {α : Type} [DecidableEq α] {l m : List α} (hl : l.Nodup)
    (hs : ∀ x ∈ l, x ∈ m) : l.length ≤ m.length := by
  induction l generalizing m with
  | nil => simp
  | cons a l ih =>
    have ha : a ∈ m := hs a (by simp)
    rw [List.nodup_cons] at hl
    have := ih (m := m.erase a) hl.2 (by
      intro x hx
      have hne : x ≠ a := by rintro rfl; exact hl.1 hx
      rw [List.mem_erase_of_ne hne]
      exact hs x (by simp [hx]))
    rw [List.length_erase_of_mem ha] at this
    have hpos : 0 < m.length := List.length_pos_of_mem ha
    simp only [List.length_cons]
    omega

/-- The lists have the same length and their elements are related position by position. -/
inductive Pointwise {α β : Type} (R : α → β → Prop) : List α → List β → Prop where
  | nil : Pointwise R [] []
  | cons {a b l m} : R a b → Pointwise R l m → Pointwise R (a :: l) (b :: m)

theorem Pointwise.length {α β : Type} {R : α → β → Prop} {l : List α} {m : List β}
    (h : Pointwise R l m) : l.length = m.length := by
  induction h with
  | nil => rfl
  | cons _ _ ih => simp [ih]

theorem Pointwise.map {α β : Type} {R : α → β → Prop} (f : α → β) (l : List α)
    (h : ∀ a ∈ l, R a (f a)) : Pointwise R l (l.map f) := by
  induction l with
  | nil => exact .nil
  | cons a l ih => exact .cons (h a (by simp)) (ih (fun x hx => h x (by simp [hx])))

theorem Pointwise.imp {α β : Type} {R S : α → β → Prop} {l : List α} {m : List β}
    (h : Pointwise R l m) (hi : ∀ a b, R a b → S a b) : Pointwise S l m := by
  induction h with
  | nil => exact .nil
  | cons h1 _ ih => exact .cons (hi _ _ h1) ih

theorem Pointwise.comp {α β γ : Type} {R : α → β → Prop} {S : β → γ → Prop} {T : α → γ → Prop}
    {l : List α} {m : List β} {n : List γ} (h : Pointwise R l m) (h' : Pointwise S m n)
    (hi : ∀ a b c, R a b → S b c → T a c) : Pointwise T l n := by
  induction h generalizing n with
  | nil => cases h'; exact .nil
  | cons h1 _ ih => cases h' with
    | cons h2 h3 => exact .cons (hi _ _ _ h1 h2) (ih h3)

end Verif
