/-
Model of concurrent queries in /repo/resolver/caching_resolver.go 178-221, 223-239, 272-299 and 340-345: any number of queries are between
their lookup in the cache and the storing of their answer, while others are served and the cache is flushed.

`Model/Caching.resolve` is the same code for one query at a time. Here a query for a key not found in the cache ("flight") waits for
the next resolver, gets its answer, and stores it, with anything happening between these steps. Background reloads
(126-151) and answers received from redis (153-170) are flights, too: they also store an answer some time after it was obtained. Nothing in the code
stops two flights for the same key. To tell answers apart, each gets the number of answers obtained before it; the number is
kept with the cached message and is not in the code. Requests with several questions are several flights.
-/
import Verif.Model.Caching

namespace Verif.Flights
open Caching ExpCache Dns

/-- A query past its unsuccessful lookup (caching_resolver.go 211-217). -/
structure Flight where
  key : Str
  /-- what the next resolver answered, and the number of that answer -/
  answer : Option (Response × Nat) := none

/-- The cache, the queries under way and the number of answers obtained so far. -/
structure St where
  cache : ExpCache.St (Msg × Nat)
  flights : List Flight := []
  obtained : Nat := 0

/-- What can happen next. -/
inductive Ev where
  /-- a query looks its question up in the cache (lines 194, 223-239); without success it asks the next resolver (212) -/
  | query (k : Str)
  /-- the next resolver answers the i-th query under way -/
  | answer (i : Nat) (r : Response)
  /-- the i-th query under way stores its answer (214-217, 272-293) and is done -/
  | store (i : Nat)
  /-- the i-th query under way ends with an error (212-218) -/
  | fail (i : Nat)
  /-- the cache's clean-up drops an entry (expiration_cache.go 137-139) -/
  | drop (k : Str)
  /-- the API empties the cache (340-345) -/
  | flush
  | tick (ms : Nat)

/-- The operation on the tagged cache. -/
def tag (n : Nat) : Op Msg → Op (Msg × Nat)
  | .put k m ttl => .put k (m, n) ttl
  | .get k => .get k
  | .remove k => .remove k
  | .clear => .clear
  | .tick d => .tick d

/-- What a query finds in the cache now: the message and the number of the answer it is from. -/
def found (s : St) (k : Str) : Option (Msg × Nat) := ((s.cache.cache.get s.cache.now k).1).map Prod.fst

/-- One event. Events that do not apply change nothing. -/
def step (env : Env) (c : Cfg) (s : St) : Ev → St
  | .query k =>
    let s1 := { s with cache := ExpCache.step s.cache (.get k) }
    if (found s k).isSome then s1 else { s1 with flights := s1.flights ++ [{ key := k }] }
  | .answer i r =>
    match s.flights[i]? with
    | some f =>
      if f.answer.isSome then s
      else { s with flights := s.flights.set i { f with answer := some (r, s.obtained) }, obtained := s.obtained + 1 }
    | none => s
  | .store i =>
    match s.flights[i]? with
    | some f =>
      match f.answer with
      | some (r, n) =>
        { s with cache := run s.cache ((putOps env c f.key (adjusted c r).res (adjustTTLs c r.res.answer).2).map (tag n))
                 flights := s.flights.eraseIdx i }
      | none => s
    | none => s
  | .fail i =>
    match s.flights[i]? with
    | some f => if f.answer.isSome then s else { s with flights := s.flights.eraseIdx i }
    | none => s
  | .drop k => { s with cache := ExpCache.step s.cache (.remove k) }
  | .flush => { s with cache := ExpCache.step s.cache .clear }
  | .tick d => { s with cache := ExpCache.step s.cache (.tick d) }

/-- A concurrent execution. -/
def run (env : Env) (c : Cfg) (s : St) (es : List Ev) : St := es.foldl (step env c) s

/-- The server just started. -/
def start (maxSize : Nat) (now : Int) : St := { cache := ⟨newCache maxSize, now⟩ }

end Verif.Flights
