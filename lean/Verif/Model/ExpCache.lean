/-
Model of /repo/cache/expirationcache (expiring LRU cache, prefetching cache) and of the parts of
hashicorp/golang-lru it uses. Callbacks for metrics are left out.

Concurrency: every call on the LRU list is atomic (it holds its own lock); a concurrent execution is
therefore an interleaving of the primitive operations `Op` below, and clean-up is a sequence of
them (`cleanUpOps`).
-/
import Verif.Base.AMap
import Verif.Base.Str

namespace Verif.ExpCache

/-- expiration_cache.go 15-18 `element`: value and expiry instant (milliseconds since the epoch). -/
structure Element (V : Type) where
  val : V
  expires : Int
  deriving DecidableEq, Repr

/-- hashicorp/golang-lru `Cache`: entries, most recently used first, and the capacity. -/
structure Cache (V : Type) where
  cap : Nat
  items : List (Str × Element V)

variable {V : Type}

/-- expiration_cache.go 58, 76-79: the capacity is `MaxSize` if positive, otherwise 10000. -/
def newCache (maxSize : Nat) : Cache V := ⟨if maxSize > 0 then maxSize else 10000, []⟩

/-- golang-lru `Add`: an existing key is updated and becomes the most recent; a new key is put in
front and, if the list has become longer than the capacity, the oldest entry is dropped. -/
def Cache.add (c : Cache V) (k : Str) (el : Element V) : Cache V :=
  if k ∈ c.items.map Prod.fst then
    { c with items := (k, el) :: c.items.filter (fun e => e.1 ≠ k) }
  else if c.items.length + 1 > c.cap then { c with items := ((k, el) :: c.items).dropLast }
  else { c with items := (k, el) :: c.items }

/-- The entry of a key. -/
def Cache.peek (c : Cache V) (k : Str) : Option (Element V) := AMap.get c.items k

/-- golang-lru `Get`: the entry becomes the most recent one. -/
def Cache.touch (c : Cache V) (k : Str) : Cache V :=
  match c.peek k with
  | none => c
  | some el => { c with items := (k, el) :: c.items.filter (fun e => e.1 ≠ k) }

/-- golang-lru `Remove`. -/
def Cache.remove (c : Cache V) (k : Str) : Cache V :=
  { c with items := c.items.filter (fun e => e.1 ≠ k) }

/-- expiration_cache.go 143-160 `Put` at time `now` (ms), lifetime in nanoseconds. -/
def Cache.put (c : Cache V) (now : Int) (k : Str) (v : V) (ttl : Int) : Cache V :=
  if ttl ≤ 0 then c else c.add k ⟨v, now + ttl / 1000000⟩

/-- expiration_cache.go 180-186 `calculateRemainTTL`, in milliseconds. -/
def remainTTL (now expires : Int) : Int := if now < expires then expires - now else 0

/-- expiration_cache.go 162-174 `Get`: value and remaining lifetime (ms), and the new state. -/
def Cache.get (c : Cache V) (now : Int) (k : Str) : Option (V × Int) × Cache V :=
  match c.peek k with
  | some el => (some (el.val, remainTTL now el.expires), c.touch k)
  | none => (none, c)

/-- expiration_cache.go 176-178 `isExpired`. -/
def isExpired (now : Int) (el : Element V) : Bool := decide (el.expires > 0) && decide (now > el.expires)

/-- expiration_cache.go 188-190 `TotalCount`. -/
def Cache.totalCount (c : Cache V) : Nat := c.items.length

/-- Primitive operations and the passing of time. -/
inductive Op (V : Type) where
  | put (k : Str) (v : V) (ttl : Int)
  | get (k : Str)
  | remove (k : Str)
  | clear
  | tick (ms : Nat)

/-- A cache and the clock. -/
structure St (V : Type) where
  cache : Cache V
  now : Int

/-- Effect of one operation (expiration_cache.go 143-174, 192-194). -/
def step (s : St V) : Op V → St V
  | .put k v ttl => { s with cache := s.cache.put s.now k v ttl }
  | .get k => { s with cache := (s.cache.get s.now k).2 }
  | .remove k => { s with cache := s.cache.remove k }
  | .clear => { s with cache := { s.cache with items := [] } }
  | .tick d => { s with now := s.now + d }

/-- A history of operations. -/
def run (s : St V) (ops : List (Op V)) : St V := ops.foldl step s

/-- expiration_cache.go 113-122: keys of the expired entries, oldest first. -/
def Cache.expiredKeys (c : Cache V) (now : Int) : List Str :=
  (c.items.reverse.filter (fun e => isExpired now e.2)).map Prod.fst

/-- expiration_cache.go 113-141 `cleanUp` as the sequence of operations it performs, given what the
callback returns for each expired key: first the puts of the reloaded entries, then the removals. -/
def cleanUpOps (keys : List Str) (pre : Str → Option (V × Int)) : List (Op V) :=
  (keys.filterMap (fun k => (pre k).map (fun r => Op.put k r.1 r.2))) ++
  (keys.filter (fun k => (pre k).isNone)).map Op.remove

/-- expiration_cache.go 113-141 `cleanUp` without interference. -/
def cleanUp (s : St V) (pre : Str → Option (V × Int)) : St V :=
  run s (cleanUpOps (s.cache.expiredKeys s.now) pre)

end Verif.ExpCache
