/-
Specification vocabulary: a name lies in a zone (string level, on label boundaries).
-/
import Verif.Base.Str

namespace Verif.Spec

/-- The name is the zone's own name or ends with a dot and the zone's name. -/
def InZone (name zone : Str) : Prop := name = zone ∨ ∃ p, name = p ++ '.' :: zone

/-- The zone, among those satisfying `P`, with the longest name the given name lies in. -/
def Longest (P : Str → Prop) (name zone : Str) : Prop :=
  InZone name zone ∧ P zone ∧ ∀ z, InZone name z → P z → z.length ≤ zone.length

end Verif.Spec
