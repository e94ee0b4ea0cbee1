/-
Specification vocabulary: special-use domain names (RFC 6761, 6762, 7686, 8375), written down from the
RFCs.
-/
import Verif.Spec.Zone

namespace Verif.Spec

/-- Zones that must not be looked up: the reverse zones of 10/8, 172.16/12, 192.168/16, 169.254/16 and
fe80::/10, and test, invalid, local, onion. -/
def Reserved (z : Str) : Prop :=
  z ∈ [str! "test.", str! "invalid.", str! "local.", str! "onion.", str! "10.in-addr.arpa.",
    str! "168.192.in-addr.arpa.", str! "254.169.in-addr.arpa."] ∨
  (∃ i ∈ List.range 16, z = Nat.toDigits 10 (16 + i) ++ str! ".172.in-addr.arpa.") ∨
  (∃ c ∈ ['8', '9', 'a', 'b'], z = c :: str! ".e.f.ip6.arpa.")

instance (z : Str) : Decidable (Reserved z) := by unfold Reserved; infer_instance

/-- RFC 6762 appendix G. -/
def AppendixG (z : Str) : Prop :=
  z ∈ [str! "intranet.", str! "internal.", str! "private.", str! "corp.", str! "home.", str! "lan."]

instance (z : Str) : Decidable (AppendixG z) := by unfold AppendixG; infer_instance

/-- Must a query for this name (fully qualified, any letter case) and type be answered locally?
`g`: the names of appendix G too. DS queries for home.arpa are to be forwarded (RFC 8375, 4). -/
def SpecialUse (g : Bool) (name : Str) (isDS : Bool) : Prop :=
  ∃ z, InZone (lower name) z ∧
    (Reserved z ∨ z = str! "localhost." ∨ (g = true ∧ AppendixG z) ∨ (z = str! "home.arpa." ∧ isDS = false))

end Verif.Spec
