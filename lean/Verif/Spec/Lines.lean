/-
What a line of a list file says (specification).
-/
import Verif.Base.Str

namespace Verif.Spec

/-- Specification of a line's text: everything before the first `#`, without surrounding white
space; `none` when nothing is left. -/
def lineText (raw : Str) : Option Str :=
  if trimSpace (raw.takeWhile (· ≠ '#')) = [] then none
  else some (trimSpace (raw.takeWhile (· ≠ '#')))

end Verif.Spec
