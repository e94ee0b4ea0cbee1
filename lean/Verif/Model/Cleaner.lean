/-
Model of /repo/cache/expirationcache/expiration_cache.go 98-141: the background clean-up of an expiring cache, interleaved
with its use. `Model/ExpCache.cleanUp` is the same clean-up without interference.

The clean-up goroutine takes one step at a time: reading the keys, looking at one entry, calling the reload function for
one key and storing what it returned, deleting one entry. Between two steps any number of uses of the cache by other
goroutines happen, and any time passes. Each of these is atomic because the LRU list has a lock. The reload function
(prefetching_cache.go 73-88, a query to the upstreams that may take seconds) may return anything at each call. Only one
clean-up runs at a time: the goroutine waits for the ticker between two of them (lines 103-110).
-/
import Verif.Model.ExpCache

namespace Verif.ExpCache

variable {V : Type}

/-- Where the clean-up goroutine is. -/
inductive Pc where
  /-- line 104: waiting for the ticker -/
  | idle
  /-- lines 117-123: keys still to be looked at, and the expired ones found so far -/
  | scan (left expired : List Str)
  /-- lines 128-135: keys still to be reloaded, and those to be deleted -/
  | reload (left doomed : List Str)
  /-- lines 137-139: keys still to be deleted -/
  | delete (left : List Str)
  deriving DecidableEq

/-- The cache with its clean-up goroutine. -/
structure CleanSt (V : Type) where
  st : St V
  pc : Pc

/-- What happens next: a use of the cache, time passing, or a step of the clean-up; with the last comes what the reload
function would return now. -/
inductive Act (V : Type) where
  | put (k : Str) (v : V) (ttl : Int)
  | get (k : Str)
  | clear
  | tick (ms : Nat)
  | clean (reload : Str → Option (V × Int))

/-- golang-lru `Keys`: from the oldest to the newest. -/
def Cache.keys (c : Cache V) : List Str := c.items.reverse.map Prod.fst

/-- expiration_cache.go 119-121: is the entry there and expired? -/
def looksExpired (s : St V) (k : Str) : Bool :=
  match s.cache.peek k with
  | some el => isExpired s.now el
  | none => false

/-- expiration_cache.go 113-141: the next step of the clean-up. The test of line 126 needs no step of its own: without
expired keys the loops do nothing. -/
def cleanStep (s : CleanSt V) (pre : Str → Option (V × Int)) : CleanSt V :=
  match s.pc with
  | .idle => { s with pc := .scan s.st.cache.keys [] }
  | .scan [] expired => { s with pc := .reload expired [] }
  | .scan (k :: left) expired => { s with pc := .scan left (if looksExpired s.st k then expired ++ [k] else expired) }
  | .reload [] doomed => { s with pc := .delete doomed }
  | .reload (k :: left) doomed =>
    match pre k with
    | some (v, ttl) => ⟨step s.st (.put k v ttl), .reload left doomed⟩
    | none => { s with pc := .reload left (doomed ++ [k]) }
  | .delete [] => { s with pc := .idle }
  | .delete (k :: left) => ⟨step s.st (.remove k), .delete left⟩

/-- One action (expiration_cache.go 113-174, 192-194). -/
def act (s : CleanSt V) : Act V → CleanSt V
  | .put k v ttl => { s with st := step s.st (.put k v ttl) }
  | .get k => { s with st := step s.st (.get k) }
  | .clear => { s with st := step s.st .clear }
  | .tick d => { s with st := step s.st (.tick d) }
  | .clean pre => cleanStep s pre

/-- An interleaved execution. -/
def runActs (s : CleanSt V) (as : List (Act V)) : CleanSt V := as.foldl act s

end Verif.ExpCache
