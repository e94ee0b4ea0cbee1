/-
Model of /repo/util/arpa.go.
-/
import Verif.Base.Num
import Verif.Model.Dns

namespace Verif.Arpa

/-- Go `strings.HasSuffix` and `strings.TrimSuffix`. -/
def cutSuffix (s suffix : Str) : Option Str :=
  if suffix.isSuffixOf s then some (s.take (s.length - suffix.length)) else none

/-- A 16-byte `net.IP`; an IPv4-mapped one is (to `To4`, `Equal`, `String`) the IPv4 address. -/
def ofBits128 (n : Nat) : IP :=
  if n / 2 ^ 32 = 0xffff then .v4 (BitVec.ofNat 32 n) else .v6 (BitVec.ofNat 128 n)

/-- arpa.go 46-53: the loop over the four parts, last part first. -/
def bytes4 : List Str → Option (List Nat)
  | [] => some []
  | p :: ps =>
    match parseUint 10 8 p with
    | none => none
    | some b => match bytes4 ps with
      | none => none
      | some bs => some (b :: bs)

/-- The bytes of an address as a number. -/
def bytesValue (bs : List Nat) : Nat := bs.foldl (fun acc b => acc * 256 + b) 0

/-- arpa.go 33-56 `parseIPv4FromArpaAddr`; `none` is an error. -/
def parse4 (revAddr : Str) : Option IP :=
  let parts := splitChar '.' revAddr
  if parts.length ≠ 4 then none
  else (bytes4 parts.reverse).map (fun bs => .v4 (BitVec.ofNat 32 (bytesValue bs)))

/-- arpa.go 74-89: the loop over the parts, last part first, two at a time;
`byte(msNibble<<4 | lsNibble)`. -/
def bytes6 : List Str → Option (List Nat)
  | ms :: ls :: ps =>
    match parseUint 16 8 ms with
    | none => none
    | some m => match parseUint 16 8 ls with
      | none => none
      | some l => match bytes6 ps with
        | none => none
        | some bs => some ((m * 16 ||| l) % 256 :: bs)
  | _ => some []

/-- arpa.go 58-92 `parseIPv6FromArpaAddr`. -/
def parse6 (revAddr : Str) : Option IP :=
  let parts := splitChar '.' revAddr
  if parts.length ≠ 32 then none
  else (bytes6 parts.reverse).map (fun bs => ofBits128 (bytesValue bs))

/-- arpa.go 20-31 `ParseIPFromArpaAddr`. -/
def parse (arpa : Str) : Option IP :=
  match cutSuffix arpa (str! ".in-addr.arpa.") with
  | some rev => parse4 rev
  | none => match cutSuffix arpa (str! ".ip6.arpa.") with
    | some rev => parse6 rev
    | none => none

end Verif.Arpa
