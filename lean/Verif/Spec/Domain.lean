/-
Specification vocabulary for domain names, independent of any model code.
-/
import Verif.Base.Str

namespace Verif.Spec

/-- The labels of a name, left to right; empty labels (leading, trailing, doubled dots) dropped. -/
def labels (name : Str) : List Str := (splitChar '.' name).filter (· ≠ [])

/-- `sub` is `dom` itself or lies below it: the labels of `dom` are the last labels of `sub`. -/
def IsWithin (sub dom : Str) : Prop := labels dom <:+ labels sub

instance (sub dom : Str) : Decidable (IsWithin sub dom) := by unfold IsWithin; infer_instance

/-- A plainly written name: no empty labels (so no leading, trailing or doubled dots, and not ""). -/
def Plain (name : Str) : Prop := ∀ l ∈ splitChar '.' name, l ≠ []

instance (name : Str) : Decidable (Plain name) := by unfold Plain; infer_instance

end Verif.Spec
