/-
Model of the making of a cache of a configured size: /repo/cache/expirationcache/expiration_cache.go 55-94 and
/repo/resolver/caching_resolver.go 90, prefetching_cache.go 47, with the uses of the list when there is none.
-/
import Verif.Model.ExpCache

namespace Verif.ExpCache

variable {V : Type}

/-- Go's conversion of an `int` to `uint`, both of 64 bits. -/
def toUint (n : Int) : Nat := (n % 18446744073709551616).toNat

/-- Go's conversion of a `uint` to `int`, both of 64 bits. -/
def toInt (n : Nat) : Int := if n < 9223372036854775808 then n else n - 18446744073709551616

/-- golang-lru `New`: an error, and no list, for sizes that are not positive. -/
def lruNew (size : Int) : Option (Cache V) := if size ≤ 0 then none else some ⟨size.toNat, []⟩

/-- caching_resolver.go 90 with expiration_cache.go 58, 76-79: the error is not looked at. -/
def makeCache (maxItems : Int) : Option (Cache V) :=
  let maxSize := toUint maxItems
  if maxSize > 0 then lruNew (toInt maxSize) else lruNew 10000

/-- expiration_cache.go 162-174 `Get`; `none`: without a list it panics (163). -/
def madeGet (c : Option (Cache V)) (now : Int) (k : Str) : Option (Option (V × Int)) := c.map (fun c => (c.get now k).1)

/-- expiration_cache.go 113-122, the beginning of `cleanUp`, which runs every five seconds (caching_resolver.go 22, expiration_cache.go 96-108) in a
goroutine of its own; `none`: without a list it panics (117), and the process ends. -/
def madeExpired (c : Option (Cache V)) (now : Int) : Option (List Str) := c.map (fun c => c.expiredKeys now)

end Verif.ExpCache
