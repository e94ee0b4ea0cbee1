/-
Model of the rest of /repo/resolver/bootstrap.go: the bootstrap's own chain of resolvers and the connections made for
downloads. Logging is left out; calls are taken one after the other (the cache's operations are atomic, see
Model/ExpCache).
-/
import Verif.Model.Caching
import Verif.Model.Small
import Verif.Model.Upstream
import Verif.Model.ConfigText
import Verif.Model.ConfigFiles

namespace Verif.Dial
open Dns

/-- config/caching.go 42-52 `EnablePrefetch`. -/
def enablePrefetch (c : Caching.Cfg) : Caching.Cfg :=
  let c := if c.enabled then c else { c with maxTime := 86400000000000 }
  { c with prefetching := true, prefetchThreshold := 0 }

/-- bootstrap.go 83-93: the caching of the bootstrap's resolver. -/
def bootCaching (c : Caching.Cfg) : Caching.Cfg :=
  let c := enablePrefetch c
  if c.minTime > 0 then c else { c with minTime := 3600000000000 }

/-- The bootstrap servers, bootstrap.go 101 `newParallelBestResolver`: a response or an error (Props/Parallel; they
return nothing else). -/
abbrev Servers (W : Type) := Request → W → (Response ⊕ Str) × W

/-- The servers as a resolver. -/
def Servers.resolver {W : Type} (servers : Servers W) : Resolver W := fun request w =>
  match servers request w with
  | (.inl r, w) => (.ok r, w)
  | (.inr e, w) => (.err e, w)

/-- What of the configuration the bootstrap uses: `filtering.queryTypes`, `caching`, `connectIPVersion`. -/
structure Cfg where
  filtered : List Nat := []
  caching : Caching.Cfg := {}
  version : Upstream.IPVersion := .dual

/-- bootstrap.go 97-102: the chain. -/
def chain {W : Type} (env : Caching.Env) (cfg : Cfg) (servers : Servers W) : Resolver (Caching.CState × W) :=
  Small.filtering cfg.filtered (fun request w =>
    let (o, s, w) := Caching.resolve env (bootCaching cfg.caching) servers.resolver request w.1 w.2
    (o, (s, w)))

/-- bootstrap.go 238-245: the chain asked for a host. (`rsp` is never nil: the last case does not occur.) -/
def ask {W : Type} (env : Caching.Env) (cfg : Cfg) (servers : Servers W) (host : Str) (qtype : Nat)
    (w : Caching.CState × W) : (Msg ⊕ Upstream.UErr) × (Caching.CState × W) :=
  match chain env cfg servers { req := newMsgWithQuestion env.newId host qtype } w with
  | (.ok r, w) => (.inl r.res, w)
  | (.err e, w) => (.inr { text := e }, w)
  | (_, w) => (.inr { text := str! "panic" }, w)

/-- Go `strings.HasSuffix` for one byte. -/
def endsWith (c : Char) (s : Str) : Bool := s.getLast? == some c

/-- bootstrap.go 179-190: the types asked for. -/
def dialTypes (v : Upstream.IPVersion) (network : Str) : List Nat :=
  match v with
  | .v4 => Upstream.IPVersion.qtypes .v4
  | .v6 => Upstream.IPVersion.qtypes .v6
  | .dual =>
    if endsWith '4' network then Upstream.IPVersion.qtypes .v4
    else if endsWith '6' network then Upstream.IPVersion.qtypes .v6
    else Upstream.IPVersion.qtypes .dual

/-- What comes of dialing: the address handed to the standard dialer, or an error. -/
inductive Dialed where
  | connect (network addr : Str)
  | err
  | panic
  deriving DecidableEq, Repr

/-- bootstrap.go 165-208 `dialContext`. `servers = none`: no bootstrap servers are configured. `rnd` is the random number
(line 200), `ipText` is `net.IP.String`. -/
def dial {W : Type} (parseIP : Str → Option IP) (ipText : IP → Str) (env : Caching.Env) (cfg : Cfg)
    (servers : Option (Servers W)) (rnd : Nat) (network addr : Str) (w : Caching.CState × W) :
    Dialed × (Caching.CState × W) :=
  match servers with
  | none => (.connect network addr, w)
  | some servers =>
    match UpstreamUrl.splitHostPort addr with
    | none => (.err, w)
    | some (host, port) =>
      match Upstream.bootstrapResolve parseIP (ask env cfg servers) host (dialTypes cfg.version network) w with
      | (.inr _, w) => (.err, w)
      | (.inl ips, w) =>
        match ips[rnd % ips.length]? with
        | none => (.panic, w)
        | some ip => (.connect network (ConfigFiles.joinHostPort (ipText ip) port), w)

/-- bootstrap.go 62-110 `NewBootstrap`: the bootstrap servers with their addresses, `none` without any; or the errors.
`mk` makes the resolver asking the servers. -/
def newBootstrap {W : Type} (parseIP : Str → Option IP) (mk : List (UpstreamUrl.Upstream × List IP) → Servers W)
    (items : List ConfigText.BootItem) : Option (Servers W) ⊕ List ConfigText.BootErr :=
  match ConfigText.bootstraped parseIP items with
  | .inr errs => .inr errs
  | .inl [] => .inl none
  | .inl (u :: us) => .inl (some (mk (u :: us)))

end Verif.Dial
