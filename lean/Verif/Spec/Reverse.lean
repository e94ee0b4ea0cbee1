/-
Reverse-lookup names (specification; RFC 1035 section 3.5 and RFC 3596 section 2.5).
-/
import Verif.Model.Dns

namespace Verif.Spec

/-- The reverse name of an IPv4 address: its four bytes in decimal, last byte first. -/
def reverseName4 (a : BitVec 32) : Str :=
  joinChar '.' ([0, 1, 2, 3].map (fun i => Nat.toDigits 10 (a.toNat / 256 ^ i % 256))) ++ str! ".in-addr.arpa."

/-- The reverse name of a 128-bit address: its 32 hexadecimal digits, last digit first. -/
def reverseName6 (a : BitVec 128) : Str :=
  joinChar '.' ((List.range 32).map (fun i => [Nat.digitChar (a.toNat / 16 ^ i % 16)])) ++ str! ".ip6.arpa."

/-- The address that 128 bits stand for: an IPv4 address if they begin with the prefix of IPv4-mapped
addresses (RFC 4291 section 2.5.5.2, `::ffff:0:0/96`), else themselves. -/
inductive Denotes : BitVec 128 → IP → Prop
  | mapped (v : BitVec 32) : Denotes (0xffff#96 ++ v) (.v4 v)
  | plain (a : BitVec 128) : (∀ v : BitVec 32, a ≠ 0xffff#96 ++ v) → Denotes a (.v6 a)

example : reverseName4 0x0a000201#32 = str! "1.2.0.10.in-addr.arpa." := by decide

end Verif.Spec
