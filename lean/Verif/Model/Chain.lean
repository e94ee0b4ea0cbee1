/-
The whole chain of resolvers: /repo/server/server.go 315-330, with the models of the single resolvers.

The world of a resolver here is a pair: the present content of the message `request.Req` points to (the
server, the query log and the rewriter look at it again after the call) and the rest.
-/
import Verif.Model.Small
import Verif.Model.Conditional
import Verif.Model.CustomDns
import Verif.Model.HostsFile
import Verif.Model.Ecs
import Verif.Model.Blocking
import Verif.Model.Caching
import Verif.Model.ClientNames
import Verif.Model.QueryLog
import Verif.Model.Server

namespace Verif.Chain
open Dns ExpCache StringCache

/-- A resolver that keeps the content of the message in its world. -/
abbrev MR (W : Type) := Resolver (Msg × W)

/-- The message afterwards as a result. -/
def toM {W : Type} (r : MR W) : Cond.MResolver W := fun request w =>
  ((r request (request.req, w)).1, (r request (request.req, w)).2.1, (r request (request.req, w)).2.2)

/-- The message afterwards in the world. -/
def ofM {W : Type} (r : Cond.MResolver W) : MR W := fun request w =>
  ((r request w.2).1, (r request w.2).2.1, (r request w.2).2.2)

/-- The upstreams do not write into the message. -/
def liftUp {W : Type} (r : Resolver W) : MR W := fun request w =>
  ((r request w.2).1, w.1, (r request w.2).2)

/-- ecs_resolver.go 51-77: works on the message in place. -/
def ecs {W : Type} (cfg : Ecs.Cfg) (next : MR W) : MR W := fun request w =>
  match Ecs.transform cfg request with
  | some r => next r (r.req, w.2)
  | none => (.panic, w)

/-- caching_resolver.go 180-221. -/
def caching {W : Type} (env : Caching.Env) (cfg : Caching.Cfg) (next : MR W) : MR (Caching.CState × W) :=
  fun request w =>
    match Caching.resolve env cfg next request w.2.1 (w.1, w.2.2) with
    | (o, s, (m, w')) => (o, (m, (s, w')))

/-- custom_dns_resolver.go 188-198. The targets of aliases are asked for with messages of their own. The
bound on the recursion is the one of theorem `C31_terminates`, so the last case does not occur. -/
def customDns {W : Type} (env : CustomDns.Env) (mapping : CustomDns.Mapping) (reverse : AMap Str (List Str)) (depth : Nat)
    (next : MR W) : MR W := fun request w =>
  match CustomDns.resolve env mapping reverse
      (fun r w => if r.internal then ((next r (r.req, w.2)).1, (w.1, (next r (r.req, w.2)).2.2)) else next r w)
      depth request w with
  | some x => x
  | none => (.panic, w)

/-- client_names_resolver.go 62-69; the cache of names and the lookups are in the world. -/
def clientNames {W : Type} (cfg : ClientNames.Cfg) (lookup : Option (ClientNames.Lookup W)) (next : MR W) :
    MR (St (List Str) × W) := fun request w =>
  match ClientNames.withNames cfg lookup request w.2.1 w.2.2 with
  | (request, c, w') =>
    match next request (w.1, w') with
    | (o, (m, w')) => (o, (m, (c, w')))

/-- query_logging_resolver.go 137-165. -/
def queryLog {W : Type} (cfg : QueryLog.Cfg) (env : QueryLog.Env) (start durationMs : Int) (next : MR W) :
    MR (QueryLog.Queue × W) := ofM (QueryLog.resolve cfg env start durationMs (toM next))

/-- metrics_resolver.go 33-63: the response is handed on unchanged; the counters are not modelled. A
response without message or a message without questions makes it panic if metrics are enabled. (So does a
client id that is no UTF-8, see `Metrics.updates` and `C77_label_false`; here ids are taken to be UTF-8.) -/
def metrics {W : Type} (enable : Bool) (next : MR W) : MR W := fun request w =>
  match next request w with
  | (.panic, w) => (.panic, w)
  | (o, w) =>
    if enable then
      match w.1.question, o with
      | [], _ => (.panic, w)
      | _ :: _, .noResponse => (.panic, w)
      | _ :: _, o => (o, w)
    else (o, w)

/-- Everything the chain is configured with; `E` is the engine for regular expressions of the lists. The
content of lists, hosts files and states is that at the time of the query. -/
structure Config (E : RegexEngine) (W : Type) where
  filterTypes : List Nat
  fqdnOnly : Bool
  ecs : Ecs.Cfg
  names : ClientNames.Cfg
  namesLookup : Option (ClientNames.Lookup (Caching.CState × W))
  ede : Bool
  log : QueryLog.Cfg
  logEnv : QueryLog.Env
  logStart : Int
  logDuration : Int
  metrics : Bool
  customRewrite : Cond.RewriteCfg
  customOrder : Nat → List (Str × Str)
  customEnv : CustomDns.Env
  customMapping : CustomDns.Mapping
  customReverse : AMap Str (List Str)
  customDepth : Nat
  hostsEnabled : Bool
  hostsCfg : HostsFile.Cfg
  hosts : HostsFile.Hosts
  hostsOrder4 : List (Str × (IP × List Str))
  hostsOrder6 : List (Str × (IP × List Str))
  blockEnv : Blocking.Env
  blockState : Blocking.BState E
  cacheEnv : Caching.Env
  cache : Caching.Cfg
  condRewrite : Cond.RewriteCfg
  condOrder : Nat → List (Str × Str)
  condMapping : AMap Str (Resolver W)
  sudn : Small.SudnCfg

variable {E : RegexEngine} {W : Type}

/-- server.go 327-329: special-use names and upstreams, behind them nothing. -/
def tail (c : Config E W) (up : Resolver W) : MR W := Small.sudn c.sudn (liftUp up)

/-- server.go 327: conditional upstreams (with rewriting). -/
def cond (c : Config E W) (up : Resolver W) : MR W :=
  ofM (Cond.newRewriter c.condRewrite c.condOrder (Cond.conditional c.condMapping) (toM (tail c up)))

/-- server.go 325-327: blocking and caching. -/
def block (c : Config E W) (up : Resolver W) : MR (Caching.CState × W) :=
  Blocking.resolve c.blockEnv c.blockState (caching c.cacheEnv c.cache (cond c up))

/-- server.go 323-324: custom DNS (with rewriting) and hosts files. -/
def «local» (c : Config E W) (up : Resolver W) : MR (Caching.CState × W) :=
  ofM (Cond.newRewriter c.customRewrite c.customOrder
    (fun next => toM (customDns c.customEnv c.customMapping c.customReverse c.customDepth (ofM next)))
    (toM (HostsFile.resolve c.hostsEnabled c.hostsCfg c.hosts c.hostsOrder4 c.hostsOrder6 (block c up))))

/-- server.go 320-322: extended errors, query log, metrics. -/
def observed (c : Config E W) (up : Resolver W) : MR (QueryLog.Queue × Caching.CState × W) :=
  Small.ede c.ede (queryLog c.log c.logEnv c.logStart c.logDuration (metrics c.metrics («local» c up)))

/-- The lookup of client names does not touch the queue of the query log. -/
def liftLookup {Q W : Type} (l : ClientNames.Lookup W) : ClientNames.Lookup (Q × W) := fun ip w =>
  ((l ip w.2).1, (w.1, (l ip w.2).2))

/-- The world of the whole chain: cache of client names, queue of the query log, answer cache, rest. -/
abbrev World (W : Type) := St (List Str) × QueryLog.Queue × Caching.CState × W

/-- server.go 315-330: the whole chain. -/
def whole (c : Config E W) (up : Resolver W) : MR (World W) :=
  Small.filtering c.filterTypes
    (Small.fqdnOnly c.fqdnOnly
      (ecs c.ecs
        (clientNames c.names (c.namesLookup.map liftLookup) (observed c up))))

/-- server.go 498-522: a query from a client, through the whole server. -/
def serve (senv : Server.Env) (c : Config E W) (up : Resolver W) (remote : Server.Addr) (sni : Option Str) (msg : Msg)
    (w : World W) : List Msg × World W :=
  Server.onRequest senv (toM (whole c up)) remote sni msg w

end Verif.Chain
