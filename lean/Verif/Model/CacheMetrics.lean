/-
Model of the metrics of the answer caches: the callbacks of /repo/cache/expirationcache as set up in
/repo/resolver/caching_resolver.go 82-123, and the counters and gauges they change.

There are two answer caches, the server's (server.go 326) and that of the bootstrap (bootstrap.go 105), which
emits no events; the counters of hits and misses are global variables. Every operation is one step.
-/
import Verif.Model.Caching

namespace Verif.CacheMetrics
open ExpCache

variable {V : Type}

/-- prefetching_cache.go 19-22 `cacheValue`. Without prefetching the values are stored bare; the mark is then
`false` throughout. -/
structure Value (V : Type) where
  element : V
  prefetch : Bool

/-- The metrics: the counters `blocky_cache_hits_total`, `blocky_cache_misses_total`, `blocky_prefetches_total`,
`blocky_prefetch_hits_total`. -/
structure Counts where
  hits : Nat := 0
  misses : Nat := 0
  prefetches : Nat := 0
  prefetchHits : Nat := 0
  deriving DecidableEq

/-- An answer cache with the counters of queries for prefetching. -/
structure State (V : Type) where
  main : St (Value V)
  names : Cache Nat

/-- caching_resolver.go 334-338 `publishMetricsIfEnabled` with metrics_event_publisher.go 134-140. -/
def publish (emit : Bool) (f : Counts → Counts) (m : Counts) : Counts := if emit then f m else m

/-- prefetching_cache.go 90-98 `trackCacheKeyQueryCount` (see `Caching.track`). -/
def track (c : Caching.Cfg) (s : State V) (key : Str) : State V :=
  let (found, names1) := s.names.get s.main.now key
  let n := match found with
    | some (n, _) => n + 1
    | none => 1
  { s with names := names1.put s.main.now key n c.prefetchExpires }

/-- expiration_cache.go 162-174 `Get` with caching_resolver.go 86-91 (hit or miss, whether or not events are emitted), and
prefetching_cache.go 105-120 with 116-118. -/
def lookup (emit : Bool) (c : Caching.Cfg) (s : State V) (m : Counts) (key : Str) : Option (V × Int) × State V × Counts :=
  let s1 := if c.prefetching then track c s key else s
  match s1.main.cache.get s1.main.now key with
  | (some (v, ttl), cache) =>
    let m1 := { m with hits := m.hits + 1 }
    (some (v.element, ttl), { s1 with main := { s1.main with cache := cache } },
      if v.prefetch then publish emit (fun m => { m with prefetchHits := m.prefetchHits + 1 }) m1 else m1)
  | (none, cache) => (none, { s1 with main := { s1.main with cache := cache } }, { m with misses := m.misses + 1 })

/-- prefetching_cache.go 100-102 `Put`. -/
def store (s : State V) (key : Str) (v : V) (ttl : Int) : State V :=
  { s with main := step s.main (.put key ⟨v, false⟩ ttl) }

/-- prefetching_cache.go 63-71 `shouldPrefetch` (see `Caching.shouldPrefetch`). -/
def shouldPrefetch (c : Caching.Cfg) (s : State V) (key : Str) : Bool × State V :=
  if c.prefetchThreshold = 0 then (true, s)
  else
    let (found, names1) := s.names.get s.main.now key
    (match found with
      | some (n, _) => decide (n > c.prefetchThreshold)
      | none => false, { s with names := names1 })

/-- expiration_cache.go 124-135 for one expired key, with prefetching_cache.go 73-88 `onExpired`; `reload` is what `reloadCacheEntry` returns. The
key is to be deleted (`true`) if nothing was loaded. -/
def expire (emit : Bool) (c : Caching.Cfg) (reload : Str → Option (V × Int)) (s : State V) (m : Counts) (key : Str) : Bool × State V × Counts :=
  if c.prefetching then
    let (should, s1) := shouldPrefetch c s key
    if should then
      match reload key with
      | some (v, ttl) => (false, { s1 with main := step s1.main (.put key ⟨v, true⟩ ttl) },
          publish emit (fun m => { m with prefetches := m.prefetches + 1 }) m)
      | none => (true, s1, m)
    else (true, s1, m)
  else (true, s, m)

/-- expiration_cache.go 124-135: the loop over the expired keys. -/
def expireAll (emit : Bool) (c : Caching.Cfg) (reload : Str → Option (V × Int)) : List Str → List Str → State V → Counts → List Str × State V × Counts
  | [], del, s, m => (del, s, m)
  | k :: ks, del, s, m =>
    match expire emit c reload s m k with
    | (true, s, m) => expireAll emit c reload ks (del ++ [k]) s m
    | (false, s, m) => expireAll emit c reload ks del s m

/-- expiration_cache.go 113-141 `cleanUp`. -/
def cleanUp (emit : Bool) (c : Caching.Cfg) (reload : Str → Option (V × Int)) (s : State V) (m : Counts) : State V × Counts :=
  match expireAll emit c reload (s.main.cache.expiredKeys s.main.now) [] s m with
  | (del, s, m) => ({ s with main := run s.main (del.map Op.remove) }, m)

/-- What happens to an answer cache. -/
inductive Act (V : Type) where
  | lookup (key : Str)
  | store (key : Str) (v : V) (ttl : Int)
  | cleanUp (reload : Str → Option (V × Int))
  | clear
  | tick (ms : Nat)

/-- One step of a cache. -/
def act (emit : Bool) (c : Caching.Cfg) (s : State V) (m : Counts) : Act V → State V × Counts
  | .lookup key => (lookup emit c s m key).2
  | .store key v ttl => (store s key v ttl, m)
  | .cleanUp reload => cleanUp emit c reload s m
  | .clear => ({ main := step s.main .clear, names := { s.names with items := [] } }, m)
  | .tick ms => ({ s with main := step s.main (.tick ms) }, m)

/-- Both caches and the metrics. -/
structure Both (V : Type) where
  server : State V
  bootstrap : State V
  counts : Counts := {}

/-- One step of one of the caches: the server's, which emits events, or the bootstrap's, which does not (bootstrap.go 105). -/
def bothAct (c cb : Caching.Cfg) (b : Both V) : Bool × Act V → Both V
  | (true, a) => match act true c b.server b.counts a with
    | (s, m) => { b with server := s, counts := m }
  | (false, a) => match act false cb b.bootstrap b.counts a with
    | (s, m) => { b with bootstrap := s, counts := m }

/-! ### Names -/

/-- The names given to the metrics: metrics_event_publisher.go 30-192, metrics_resolver.go 89-126, caching_resolver.go 27-40. -/
def metricNames : List Str :=
  [str! "blocky_build_info", str! "blocky_blocking_enabled", str! "blocky_denylist_cache_entries", str! "blocky_allowlist_cache_entries",
   str! "blocky_last_list_group_refresh_timestamp_seconds", str! "blocky_failed_downloads_total", str! "blocky_prefetches_total",
   str! "blocky_prefetch_hits_total", str! "blocky_cache_entries", str! "blocky_prefetch_domain_name_cache_entries", str! "blocky_query_total",
   str! "blocky_error_total", str! "blocky_request_duration_seconds", str! "blocky_response_total", str! "blocky_cache_hits_total",
   str! "blocky_cache_misses_total"]

end Verif.CacheMetrics
