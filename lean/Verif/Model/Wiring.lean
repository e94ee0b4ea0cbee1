/-
Model of the linking of resolvers: /repo/resolver/resolver.go `Chain`, `GetFromChainWithType`, `ForEach`.
Resolvers are objects, here identified by numbers; `chained` tells which implement `ChainedResolver`.
-/
namespace Verif.Wiring

/-- The `next` fields of the resolver objects. -/
abbrev Links := Nat → Option Nat

/-- resolver.go 86-88 `NextResolver.Next`. -/
def setNext (l : Links) (r n : Nat) : Links := fun x => if x = r then some n else l x

/-- resolver.go 105-113: the loop of `Chain`. -/
def chain (chained : Nat → Bool) : List Nat → Links → Links
  | [], l => l
  | [_], l => l
  | r :: n :: rest, l => chain chained (n :: rest) (if chained r then setNext l r n else l)

/-- resolver.go 117-131 `GetFromChainWithType`; `isT` tells which objects have the type. The first argument
bounds the number of rounds; `none` inside is the error. -/
def getFromChain (chained isT : Nat → Bool) (l : Links) : Nat → Nat → Option Nat
  | 0, _ => none
  | fuel + 1, r =>
    if isT r then some r
    else
      match l r with
      | none => none
      | some n => if chained n then getFromChain chained isT l fuel n else none

/-- resolver.go 146-156 `ForEach`: the resolvers the callback gets, in order. -/
def forEach (chained : Nat → Bool) (l : Links) : Nat → Nat → List Nat
  | 0, _ => []
  | fuel + 1, r =>
    r :: (if chained r then
      match l r with
      | none => []
      | some n => forEach chained l fuel n
    else [])

end Verif.Wiring
