/-
Specification of an expiring cache with least-recently-used replacement, over histories.
-/
import Verif.Model.ExpCache

namespace Verif.Spec
open ExpCache

variable {V : Type}

/-- The clock after a history. -/
def clockAfter (t0 : Int) : List (Op V) → Int
  | [] => t0
  | .tick d :: ops => clockAfter (t0 + d) ops
  | _ :: ops => clockAfter t0 ops

/-- The operation drops what was stored under `k`, or replaces it. -/
def Overrides (k : Str) : Op V → Prop
  | .put k' _ ttl => k' = k ∧ ttl > 0
  | .get _ => False
  | .remove k' => k' = k
  | .clear => True
  | .tick _ => False

/-- `v` is the value most recently stored under `k`: it was stored at time `t` with the positive
lifetime `ttl` (ns), and neither replaced nor dropped on purpose since. -/
def LastStored (t0 : Int) (ops : List (Op V)) (k : Str) (v : V) (t ttl : Int) : Prop :=
  ∃ pre post, ops = pre ++ .put k v ttl :: post ∧ ttl > 0 ∧ t = clockAfter t0 pre ∧
    ∀ o ∈ post, ¬ Overrides k o

/-- The operation uses (stores or looks up) `k`. -/
def Uses (k : Str) : Op V → Prop
  | .put k' _ ttl => k' = k ∧ ttl > 0
  | .get k' => k' = k
  | _ => False

/-- `k1` was used more recently than `k2`. -/
def UsedAfter (ops : List (Op V)) (k1 k2 : Str) : Prop :=
  ∃ pre o post, ops = pre ++ o :: post ∧ Uses k1 o ∧ ∀ o' ∈ o :: post, ¬ Uses k2 o'

/-- The keys stored in a history. -/
def storedKeys (ops : List (Op V)) : List Str :=
  ops.filterMap (fun | .put k _ _ => some k | _ => none)

end Verif.Spec
