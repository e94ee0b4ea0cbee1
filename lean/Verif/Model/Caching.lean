/-
Model of /repo/resolver/caching_resolver.go, /repo/cache/expirationcache/prefetching_cache.go and
the cache-key functions of /repo/util/common.go.

Cached messages are stored packed in the code; the model stores the message itself: unpacking what
was packed is taken to give back the message (miekg/dns), and whether packing succeeds is a
parameter. Logging and metrics are left out.
-/
import Verif.Model.Edns
import Verif.Model.ExpCache

namespace Verif.Caching
open Dns ExpCache

/-- common.go 186-194 `GenerateCacheKey`: two bytes (big endian) of type, then the name in lower
case. -/
def cacheKey (qtype : Nat) (name : Str) : Str :=
  Char.ofNat (qtype / 256 % 256) :: Char.ofNat (qtype % 256) :: lower name

/-- common.go 197-204 `ExtractCacheKey`; reading the type of a key of fewer than two bytes panics
(`none`). -/
def extractKey : Str → Option (Nat × Str)
  | a :: b :: name => some (a.toNat * 256 + b.toNat, name)
  | _ => none

/-- The key of a question, caching_resolver.go 190-191. -/
def questionKey (q : Question) : Str := cacheKey q.qtype (extractDomain q.name)

/-- config/caching.go 10-19 `Caching`; durations in nanoseconds. -/
structure Cfg where
  minTime : Int := 0
  maxTime : Int := 0
  negTime : Int := 1800000000000
  prefetching : Bool := false
  prefetchExpires : Int := 7200000000000
  prefetchThreshold : Nat := 5

/-- config/caching.go 22-24 `IsEnabled`. -/
def Cfg.enabled (c : Cfg) : Bool := decide (c.maxTime ≥ 0)

/-- config/duration.go 35-37 `SecondsU32` for non-negative durations (the float arithmetic is
exact for durations of whole microseconds below 2^32 s, larger ones are not modelled faithfully). -/
def secondsU32 (ns : Int) : UInt32 := UInt32.ofNat (ns / 1000000000).toNat

/-- caching_resolver.go 313-323: clamping of one TTL. -/
def clampTTL (c : Cfg) (t : UInt32) : UInt32 :=
  let t1 := if c.minTime > 0 then (if t < secondsU32 c.minTime then secondsU32 c.minTime else t) else t
  if c.maxTime > 0 then (if t1 > secondsU32 c.maxTime then secondsU32 c.maxTime else t1) else t1

/-- caching_resolver.go 242-246, 305, 325-328: the smallest TTL, starting from `math.MaxInt32`. -/
def minTTL (answer : List RR) : UInt32 := answer.foldl (fun m r => min m r.ttl) 2147483647

/-- caching_resolver.go 304-332 `adjustTTLs`: the changed records and the lifetime (ns). -/
def adjustTTLs (c : Cfg) (answer : List RR) : List RR × Int :=
  if answer.isEmpty then (answer, c.negTime)
  else
    let answer' := answer.map (fun r => { r with ttl := clampTTL c r.ttl })
    (answer', (minTTL answer').toNat * 1000000000)

/-- caching_resolver.go 241-251 `setTTLInCachedResponse`; remaining lifetime in milliseconds. -/
def setTTLs (answer : List RR) (remainMs : Int) : List RR :=
  answer.map (fun r => { r with ttl := r.ttl - minTTL answer + UInt32.ofNat (remainMs / 1000).toNat })

/-- caching_resolver.go 254-264 `isRequestCacheable` (ecs_resolver.go 18-24: IPv4 is family 1 with
32 bits, IPv6 family 2 with 128). -/
def isRequestCacheable (m : Msg) : Bool :=
  match getEdns0Option m 8 with
  | some (.subnet family netmask _ _) =>
    !((family == 1 && netmask != 32) || (family == 2 && netmask != 128))
  | _ => true

/-- caching_resolver.go 267-270 `isResponseCacheable`. -/
def isResponseCacheable (m : Msg) : Bool := !m.truncated && !m.checkingDisabled

/-- External behaviour: does packing the message succeed (miekg/dns), and the random id of own
queries. -/
structure Env where
  packs : Msg → Bool
  newId : Nat

/-- caching_resolver.go 272-293 `putInCache`: the cache operations it performs for a response whose
TTLs have been adjusted. (Publishing to redis, 295-298, is modelled separately.) -/
def putOps (env : Env) (c : Cfg) (key : Str) (res : Msg) (ttl : Int) : List (Op Msg) :=
  let copy := removeEdns0Record res
  if env.packs copy then
    if res.rcode == rcodeSuccess && isResponseCacheable res then [.put key copy ttl]
    else if res.rcode == rcodeNXDomain then
      (if c.negTime > 0 then [.put key copy c.negTime] else [])
    else []
  else []

/-- The result cache: the entries and clock, and the query counters (prefetching only). -/
structure CState where
  main : St Msg
  names : Cache Nat

/-- prefetching_cache.go 90-98 `trackCacheKeyQueryCount`. The counter object is shared between old
and new entry in the code; putting it anew makes that unobservable, except that a counter whose
`Put` has no effect (`prefetchExpires` ≤ 0) is still incremented in place if present. -/
def track (c : Cfg) (s : CState) (key : Str) : CState :=
  let (found, names1) := s.names.get s.main.now key
  let n := match found with
    | some (n, _) => n + 1
    | none => 1
  { s with names := names1.put s.main.now key n c.prefetchExpires }

/-- prefetching_cache.go 105-120 and expiration_cache.go 162-174 `Get`; caching_resolver.go 223-239
`getFromCache`. -/
def cacheGet (c : Cfg) (s : CState) (key : Str) : Option (Msg × Int) × CState :=
  let s1 := if c.prefetching then track c s key else s
  let (r, m) := s1.main.cache.get s1.main.now key
  (r, { s1 with main := { s1.main with cache := m } })

/-- caching_resolver.go 196-209: the response made from a cached message. -/
def hitResponse (req : Msg) (m : Msg) (remainMs : Int) : Response :=
  { res := { m.setRcode req m.rcode with answer := setTTLs m.answer remainMs }
    rtype := .cached
    reason := if m.rcode == rcodeSuccess then str! "CACHED" else str! "CACHED NEGATIVE" }

/-- caching_resolver.go 215: the response with adjusted TTLs. -/
def adjusted (c : Cfg) (r : Response) : Response :=
  { r with res := { r.res with answer := (adjustTTLs c r.res.answer).1 } }

/-- caching_resolver.go 215-216: adjust and store. -/
def store (env : Env) (c : Cfg) (s : CState) (key : Str) (r : Response) : CState :=
  { s with main := run s.main (putOps env c key (adjusted c r).res (adjustTTLs c r.res.answer).2) }

/-- caching_resolver.go 189-220: the loop over the questions. `last` is the current value of the
result variables (initially a nil response and no error, here `noResponse`). -/
def resolveLoop {W : Type} (env : Env) (c : Cfg) (next : Resolver W) (req : Request) :
    List Question → Outcome → CState → W → Outcome × CState × W
  | [], last, s, w => (last, s, w)
  | q :: qs, _, s, w =>
    match cacheGet c s (questionKey q) with
    | (some (m, ttl), s1) => (.ok (hitResponse req.req m ttl), s1, w)
    | (none, s1) =>
      match next req w with
      | (.ok r, w1) => resolveLoop env c next req qs (.ok (adjusted c r)) (store env c s1 (questionKey q) r) w1
      | (.err e, w1) => resolveLoop env c next req qs (.err e) s1 w1
      | (.noResponse, w1) => (.panic, s1, w1)
      | (.panic, w1) => (.panic, s1, w1)

/-- caching_resolver.go 180-221 `Resolve`. -/
def resolve {W : Type} (env : Env) (c : Cfg) (next : Resolver W) (req : Request) (s : CState) (w : W) :
    Outcome × CState × W :=
  if !c.enabled || !isRequestCacheable req.req then
    let (o, w1) := next req w
    (o, s, w1)
  else resolveLoop env c next req req.req.question .noResponse s w

/-- resolver.go 18-23 `newRequest` as used by caching_resolver.go 132. -/
def reloadRequest (env : Env) (qtype : Nat) (name : Str) : Request :=
  { req := newMsgWithQuestion env.newId (fqdn name) qtype, protocol := .udp }

/-- caching_resolver.go 126-151 `reloadCacheEntry`: the message stored is the one obtained, before
TTLs are adjusted. `none` in the outer option is a panic. -/
def reload {W : Type} (env : Env) (c : Cfg) (next : Resolver W) (key : Str) (w : W) :
    Option (Option (Msg × Int)) × W :=
  match extractKey key with
  | none => (none, w)
  | some (t, name) =>
    match next (reloadRequest env t name) w with
    | (.ok r, w1) =>
      if r.res.rcode == rcodeSuccess then
        if env.packs r.res then (some (some (r.res, (adjustTTLs c r.res.answer).2)), w1)
        else (some none, w1)
      else (some none, w1)
    | (.err _, w1) => (some none, w1)
    | (.noResponse, w1) => (none, w1)
    | (.panic, w1) => (none, w1)

/-- prefetching_cache.go 63-71 `shouldPrefetch` (and the cache state after reading the counter). -/
def shouldPrefetch (c : Cfg) (s : CState) (key : Str) : Bool × CState :=
  if c.prefetchThreshold = 0 then (true, s)
  else
    let (found, names1) := s.names.get s.main.now key
    (match found with
      | some (n, _) => decide (n > c.prefetchThreshold)
      | none => false, { s with names := names1 })

/-- prefetching_cache.go 73-88 `onExpired`; without prefetching the callback returns nothing
(expiration_cache.go 61-63). -/
def onExpired {W : Type} (env : Env) (c : Cfg) (next : Resolver W) (s : CState) (w : W) (key : Str) :
    Option (Option (Msg × Int)) × CState × W :=
  if c.prefetching then
    if (shouldPrefetch c s key).1 then
      let (r, w1) := reload env c next key w
      (r, (shouldPrefetch c s key).2, w1)
    else (some none, (shouldPrefetch c s key).2, w)
  else (some none, s, w)

/-- expiration_cache.go 128-135: reloading of the expired keys; collects the keys to delete. -/
def reloadLoop {W : Type} (env : Env) (c : Cfg) (next : Resolver W) :
    List Str → List Str → CState → W → Option (List Str × CState) × W
  | [], del, s, w => (some (del, s), w)
  | k :: ks, del, s, w =>
    match onExpired env c next s w k with
    | (none, _, w1) => (none, w1)
    | (some none, s1, w1) => reloadLoop env c next ks (del ++ [k]) s1 w1
    | (some (some (m, ttl)), s1, w1) =>
      reloadLoop env c next ks del { s1 with main := step s1.main (.put k m ttl) } w1

/-- expiration_cache.go 113-141 `cleanUp` of the result cache; `none`: panic. -/
def cleanUpCache {W : Type} (env : Env) (c : Cfg) (next : Resolver W) (s : CState) (w : W) :
    Option CState × W :=
  match reloadLoop env c next (s.main.cache.expiredKeys s.main.now) [] s w with
  | (some (del, s1), w1) => (some { s1 with main := run s1.main (del.map Op.remove) }, w1)
  | (none, w1) => (none, w1)

/-- caching_resolver.go 340-345 `FlushCaches` (prefetching_cache.go 128-131). -/
def flush (s : CState) : CState :=
  { main := step s.main .clear, names := { s.names with items := [] } }

end Verif.Caching
