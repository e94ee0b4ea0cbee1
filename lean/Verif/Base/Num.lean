/-
Number parsing: Go `strconv.ParseUint` with an explicit base.
-/
import Verif.Base.Str

namespace Verif

/-- The value of a digit or letter, as in Go's `strconv` (letters of either case count from 10). -/
def digitVal (c : Char) : Option Nat :=
  if '0'.toNat ≤ c.toNat ∧ c.toNat ≤ '9'.toNat then some (c.toNat - '0'.toNat)
  else if 'a'.toNat ≤ c.toNat ∧ c.toNat ≤ 'z'.toNat then some (c.toNat - 'a'.toNat + 10)
  else if 'A'.toNat ≤ c.toNat ∧ c.toNat ≤ 'Z'.toNat then some (c.toNat - 'A'.toNat + 10)
  else none

/-- The value of a string of digits in a base, continuing from `acc`. -/
def digitsValue (base : Nat) : Nat → Str → Option Nat
  | acc, [] => some acc
  | acc, c :: cs =>
    match digitVal c with
    | some d => if d < base then digitsValue base (acc * base + d) cs else none
    | none => none

/-- Go `strconv.ParseUint(s, base, bits)` for `base` 10 or 16: `none` is an error (no digits, another
character, or a value that needs more bits). Go stops at the first overflow; which error it returns
is not modelled. -/
def parseUint (base bits : Nat) (s : Str) : Option Nat :=
  if s = [] then none
  else match digitsValue base 0 s with
    | some v => if v < 2 ^ bits then some v else none
    | none => none

end Verif
