/-
Model of the whole server handling many queries at the same time (/repo/server/server.go 498-522: every query has a goroutine of its own;
/repo/cache/expirationcache/expiration_cache.go 98-141: another one cleans up the cache).

The resolvers are those of `Model/Chain`. What goroutines share are the cache of client names, the queue of the query log and the answer
cache: each access to one of them, and each question to an upstream, is one step (the caches are guarded by the locks of
hashicorp/golang-lru, expiration_cache.go 26; the queue is a Go channel). Between two steps of a query anything may happen: steps of other
queries, time passing, cleaning up, refreshing of expired entries, flushing.

A query under way is given by what it was started with and by the steps it has made, with their results: running the resolvers again
with these results (`Replay.todo`) leads to the step that comes next (`Replay.wish`). From there the run is continued with results that do
not matter (nothing found; the answer to be expected from the upstream), just to have a result of some kind.
-/
import Verif.Model.Chain

namespace Verif.Threads
open Verif.Dns Verif.ExpCache Verif.StringCache

/-- A step of a query. -/
inductive Op where
  /-- looks a key up in the answer cache (caching_resolver.go 194, 223-239) -/
  | find (key : Str)
  /-- stores a message in the answer cache (caching_resolver.go 272-293, expiration_cache.go 128-135) -/
  | keep (key : Str) (m : Msg) (ttl : Int)
  /-- looks an address up in the cache of client names (client_names_resolver.go 82) -/
  | findNames (key : Str)
  /-- stores names of a client (client_names_resolver.go 93) -/
  | keepNames (key : Str) (names : List Str)
  /-- gives an entry to the writer of the query log (query_logging_resolver.go 157-161) -/
  | log (entry : QueryLogFile.LogEntry)
  /-- asks the upstreams, of a conditional zone or the usual ones -/
  | ask (zone : Option Str) (r : Request)
  /-- asks the upstream for client names (client_names_resolver.go 127-131) -/
  | askNames (ip : IP)

/-- What comes of it. -/
inductive Res where
  | found (x : Option (Msg × Int))
  | names (x : Option (List Str))
  | answer (o : Outcome)
  | records (x : Option (List RR))
  | done

/-- A run repeated with the results of earlier steps. -/
structure Replay where
  todo : List (Op × Res)
  wish : Option Op := none

/-- The run gets to a step not made yet. -/
def Replay.wait (v : Replay) (op : Op) : Replay := { v with wish := match v.wish with | some x => some x | none => some op }

/-- caching_resolver.go 223-239. -/
def find (key : Str) (v : Replay) : Option (Msg × Int) × Replay :=
  match v.todo with
  | (.find k, .found x) :: rest => if k = key then (x, { v with todo := rest }) else (none, v.wait (.find key))
  | _ => (none, v.wait (.find key))

/-- caching_resolver.go 272-293. -/
def keep (key : Str) (m : Msg) (ttl : Int) (v : Replay) : Replay :=
  match v.todo with
  | (.keep _ _ _, .done) :: rest => { v with todo := rest }
  | _ => v.wait (.keep key m ttl)

/-- client_names_resolver.go 82. -/
def findNames (key : Str) (v : Replay) : Option (List Str) × Replay :=
  match v.todo with
  | (.findNames k, .names x) :: rest => if k = key then (x, { v with todo := rest }) else (none, v.wait (.findNames key))
  | _ => (none, v.wait (.findNames key))

/-- client_names_resolver.go 93. -/
def keepNames (key : Str) (names : List Str) (v : Replay) : Replay :=
  match v.todo with
  | (.keepNames _ _, .done) :: rest => { v with todo := rest }
  | _ => v.wait (.keepNames key names)

/-- query_logging_resolver.go 157-161. -/
def log (entry : QueryLogFile.LogEntry) (v : Replay) : Replay :=
  match v.todo with
  | (.log _, .done) :: rest => { v with todo := rest }
  | _ => v.wait (.log entry)

/-- A question to upstreams; `expected` is what they can be expected to answer, it only serves to go on. -/
def ask (expected : Resolver Unit) (zone : Option Str) : Resolver Replay := fun r v =>
  match v.todo with
  | (.ask z r', .answer o) :: rest => if z = zone ∧ r' = r then (o, { v with todo := rest }) else ((expected r ()).1, v.wait (.ask zone r))
  | _ => ((expected r ()).1, v.wait (.ask zone r))

/-- An empty cache, for lookups of client names, which do not use it. -/
def noCache : Caching.CState := { main := ⟨newCache 0, 0⟩, names := newCache 0 }

/-- client_names_resolver.go 127-131. -/
def askNames (expected : ClientNames.Lookup (Caching.CState × Unit)) : ClientNames.Lookup Replay := fun ip v =>
  match v.todo with
  | (.askNames ip', .records x) :: rest =>
    if ip' = ip then (x, { v with todo := rest }) else ((expected ip (noCache, ())).1, v.wait (.askNames ip))
  | _ => ((expected ip (noCache, ())).1, v.wait (.askNames ip))

/-- caching_resolver.go 215-216 (`Caching.store`): one step if the answer is stored at all. -/
def keepAll (ops : List (ExpCache.Op Msg)) (v : Replay) : Replay :=
  ops.foldl (fun v op => match op with | .put k m ttl => keep k m ttl v | _ => v) v

/-- caching_resolver.go 189-220 (`Caching.resolveLoop`). -/
def cachingLoop (env : Caching.Env) (c : Caching.Cfg) (next : Chain.MR Replay) (req : Request) :
    List Question → Outcome → Msg × Replay → Outcome × (Msg × Replay)
  | [], last, w => (last, w)
  | q :: qs, _, w =>
    match find (Caching.questionKey q) w.2 with
    | (some (m, ttl), v) => (.ok (Caching.hitResponse req.req m ttl), (w.1, v))
    | (none, v) =>
      match next req (w.1, v) with
      | (.ok r, (m1, v1)) =>
        cachingLoop env c next req qs (.ok (Caching.adjusted c r))
          (m1, keepAll (Caching.putOps env c (Caching.questionKey q) (Caching.adjusted c r).res (Caching.adjustTTLs c r.res.answer).2) v1)
      | (.err e, w1) => cachingLoop env c next req qs (.err e) w1
      | (.noResponse, w1) => (.panic, w1)
      | (.panic, w1) => (.panic, w1)

/-- caching_resolver.go 180-221 (`Caching.resolve`). -/
def caching (env : Caching.Env) (c : Caching.Cfg) (next : Chain.MR Replay) : Chain.MR Replay := fun req w =>
  if !c.enabled || !Caching.isRequestCacheable req.req then next req w
  else cachingLoop env c next req req.req.question .noResponse w

/-- query_logging_resolver.go 137-165 (`QueryLog.resolve`). -/
def queryLog (cfg : QueryLog.Cfg) (env : QueryLog.Env) (start durationMs : Int) (next : Cond.MResolver Replay) : Cond.MResolver Replay :=
  fun request v =>
    match next request v with
    | (.err e, msg, v) => (.err e, msg, v)
    | (.panic, msg, v) => (.panic, msg, v)
    | (.noResponse, msg, v) => (.panic, msg, v)
    | (.ok response, msg, v) =>
      match QueryLog.createLogEntry cfg env request msg response start durationMs with
      | none => (.panic, msg, v)
      | some entry =>
        if QueryLog.ignore cfg response then (.ok response, msg, v)
        else (.ok response, msg, log entry v)

/-- client_names_resolver.go 72-95 (`ClientNames.getClientNames`). -/
def getNames (cfg : ClientNames.Cfg) (lookup : Option (ClientNames.Lookup Replay)) (request : Request) (v : Replay) : List Str × Replay :=
  if request.requestClientID ≠ [] then ([request.requestClientID], v)
  else
    match request.clientIP with
    | none => ([], v)
    | some ip =>
      match findNames (cfg.ipString ip) v with
      | (some names, v) => (names, v)
      | (none, v) =>
        let (names, v) := ClientNames.resolveClientNames cfg lookup ip v
        (names, keepNames (cfg.ipString ip) names v)

/-- client_names_resolver.go 62-69. -/
def clientNames (cfg : ClientNames.Cfg) (lookup : Option (ClientNames.Lookup Replay)) (next : Chain.MR Replay) : Chain.MR Replay :=
  fun request w => next { request with clientNames := (getNames cfg lookup request w.2).1 } (w.1, (getNames cfg lookup request w.2).2)

variable {E : RegexEngine}

/-- conditional_upstream_resolver.go 61-84: the upstreams of the zones. -/
def zones (mapping : AMap Str (Resolver Unit)) : AMap Str (Resolver Replay) := mapping.map (fun e => (e.1, ask e.2 (some e.1)))

/-- server.go 327-329 (`Chain.tail`). -/
def tail (c : Chain.Config E Unit) (up : Resolver Unit) : Chain.MR Replay := Small.sudn c.sudn (Chain.liftUp (ask up none))

/-- server.go 327 (`Chain.cond`). -/
def cond (c : Chain.Config E Unit) (up : Resolver Unit) : Chain.MR Replay :=
  Chain.ofM (Cond.newRewriter c.condRewrite c.condOrder (Cond.conditional (zones c.condMapping)) (Chain.toM (tail c up)))

/-- server.go 325-327 (`Chain.block`). -/
def block (c : Chain.Config E Unit) (up : Resolver Unit) : Chain.MR Replay :=
  Blocking.resolve c.blockEnv c.blockState (caching c.cacheEnv c.cache (cond c up))

/-- server.go 323-324 (`Chain.local`). -/
def locally (c : Chain.Config E Unit) (up : Resolver Unit) : Chain.MR Replay :=
  Chain.ofM (Cond.newRewriter c.customRewrite c.customOrder
    (fun next => Chain.toM (Chain.customDns c.customEnv c.customMapping c.customReverse c.customDepth (Chain.ofM next)))
    (Chain.toM (HostsFile.resolve c.hostsEnabled c.hostsCfg c.hosts c.hostsOrder4 c.hostsOrder6 (block c up))))

/-- server.go 320-322 (`Chain.observed`). -/
def observed (c : Chain.Config E Unit) (up : Resolver Unit) : Chain.MR Replay :=
  Small.ede c.ede
    (Chain.ofM (queryLog c.log c.logEnv c.logStart c.logDuration (Chain.toM (Chain.metrics c.metrics (locally c up)))))

/-- server.go 315-330 (`Chain.whole`). -/
def whole (c : Chain.Config E Unit) (up : Resolver Unit) : Chain.MR Replay :=
  Small.filtering c.filterTypes
    (Small.fqdnOnly c.fqdnOnly
      (Chain.ecs c.ecs
        (clientNames c.names (c.namesLookup.map askNames) (observed c up))))

/-- server.go 498-522 (`Chain.serve`). -/
def serve (senv : Server.Env) (c : Chain.Config E Unit) (up : Resolver Unit) (remote : Server.Addr) (sni : Option Str) (msg : Msg)
    (v : Replay) : List Msg × Replay := Server.onRequest senv (Chain.toM (whole c up)) remote sni msg v

/-- caching_resolver.go 126-151 and expiration_cache.go 128-135: an expired entry is asked for again and stored (`Caching.reload`). -/
def refresh (c : Chain.Config E Unit) (up : Resolver Unit) (key : Str) (v : Replay) : Replay :=
  match Caching.reload c.cacheEnv c.cache (cond c up) key ({}, v) with
  | (some (some (m, ttl)), (_, v)) => keep key m ttl v
  | (_, (_, v)) => v

/-- What a goroutine is for; with lists, custom DNS, … as they are when it is started. -/
inductive Job (E : RegexEngine) where
  | query (c : Chain.Config E Unit) (remote : Server.Addr) (sni : Option Str) (msg : Msg)
  | refresh (c : Chain.Config E Unit) (key : Str)

/-- The settings it is started with. -/
def Job.config : Job E → Chain.Config E Unit
  | .query c _ _ _ => c
  | .refresh c _ => c

/-- A goroutine: its job and the steps it has made. -/
structure Thread (E : RegexEngine) where
  job : Job E
  made : List (Op × Res) := []

/-- The run with the steps made so far. -/
def Thread.run (senv : Server.Env) (up : Resolver Unit) (t : Thread E) : List Msg × Replay :=
  match t.job with
  | .query c remote sni msg => serve senv c up remote sni msg { todo := t.made }
  | .refresh c key => ([], refresh c up key { todo := t.made })

/-- The step to be made next; none if the goroutine is done. -/
def Thread.next (senv : Server.Env) (up : Resolver Unit) (t : Thread E) : Option Op := (t.run senv up).2.wish

/-- The messages written to the client, once the goroutine is done. -/
def Thread.reply (senv : Server.Env) (up : Resolver Unit) (t : Thread E) : Option (List Msg) :=
  match t.next senv up with
  | some _ => none
  | none => some (t.run senv up).1

/-- What all goroutines share, and those started so far. -/
structure Sys (E : RegexEngine) where
  names : St (List Str)
  queue : QueryLog.Queue
  cache : Caching.CState
  threads : List (Thread E) := []

/-- A step is made; `o` and `x` are what upstreams answer, should the step be a question to them. -/
def perform (c : Chain.Config E Unit) (s : Sys E) (o : Outcome) (x : Option (List RR)) : Op → Res × Sys E
  | .find key =>
    match Caching.cacheGet c.cache s.cache key with
    | (found, cache) => (.found found, { s with cache := cache })
  | .keep key m ttl => (.done, { s with cache := { s.cache with main := step s.cache.main (.put key m ttl) } })
  | .findNames key =>
    match s.names.cache.get s.names.now key with
    | (found, cache) => (.names (found.map Prod.fst), { s with names := { s.names with cache := cache } })
  | .keepNames key names => (.done, { s with names := step s.names (.put key names ClientNames.hour) })
  | .log entry => (.done, { s with queue := QueryLog.offer s.queue entry })
  | .ask _ _ => (.answer o, s)
  | .askNames _ => (.records x, s)

/-- What happens next. -/
inductive Ev (E : RegexEngine) where
  /-- a query arrives -/
  | query (c : Chain.Config E Unit) (remote : Server.Addr) (sni : Option Str) (msg : Msg)
  /-- the cleaner asks for an entry again; it takes its keys from the cache (expiration_cache.go 113-126) -/
  | refresh (c : Chain.Config E Unit) (key : Str)
  /-- the i-th goroutine makes its next step -/
  | move (i : Nat) (o : Outcome) (x : Option (List RR))
  /-- time passes -/
  | pass (d : Nat)
  /-- the cleaner drops an entry (expiration_cache.go 137-139), of the answer cache or of client names -/
  | drop (key : Str)
  | dropNames (key : Str)
  /-- the API empties the answer cache (caching_resolver.go 340-345) -/
  | flush
  /-- the writer of the query log takes an entry, or is done with one (query_logging_resolver.go 226-229) -/
  | take
  | written

/-- One event. Events that do not apply change nothing. -/
def advance (senv : Server.Env) (up : Resolver Unit) (s : Sys E) : Ev E → Sys E
  | .query c remote sni msg => { s with threads := s.threads ++ [{ job := .query c remote sni msg }] }
  | .refresh c key =>
    if (s.cache.main.cache.items.map Prod.fst).contains key then { s with threads := s.threads ++ [{ job := .refresh c key }] } else s
  | .move i o x =>
    match s.threads[i]? with
    | some t =>
      match t.next senv up with
      | some op =>
        match perform t.job.config s o x op with
        | (res, s') => { s' with threads := s.threads.set i { t with made := t.made ++ [(op, res)] } }
      | none => s
    | none => s
  | .pass d =>
    { s with names := step s.names (.tick d), cache := { s.cache with main := step s.cache.main (.tick d) } }
  | .drop key => { s with cache := { s.cache with main := step s.cache.main (.remove key) } }
  | .dropNames key => { s with names := step s.names (.remove key) }
  | .flush => { s with cache := Caching.flush s.cache }
  | .take => { s with queue := QueryLog.take s.queue }
  | .written => { s with queue := QueryLog.finish s.queue }

/-- A concurrent execution. -/
def execute (senv : Server.Env) (up : Resolver Unit) (s : Sys E) (es : List (Ev E)) : Sys E := es.foldl (advance senv up) s

end Verif.Threads
