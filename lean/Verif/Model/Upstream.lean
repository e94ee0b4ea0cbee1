/-
Models of /repo/resolver/upstream_resolver.go and of the address lookup in /repo/resolver/bootstrap.go.

Left out: logging, the TLS configuration, the duration of calls.
-/
import Verif.Model.Dns

namespace Verif.Upstream
open Dns

/-- An error value, as far as the code distinguishes: is it a `net.Error` with `Timeout()`
(upstream_resolver.go 396-400 `isTimeout`), is it (wrapping) an `UpstreamServerError` and with which
message (32-38). -/
structure UErr where
  text : Str
  timeout : Bool := false
  upstream : Option Msg := none
  deriving DecidableEq, Repr

/-- What an exchange with a server gives. -/
inductive Reply where
  | msg (m : Msg)
  | err (e : UErr)
  deriving DecidableEq, Repr

/-- upstream_resolver.go 206-211 `exchangeResult` (without the duration). With an error of its own the
message is kept, but nobody uses it. -/
structure ExchangeResult where
  proto : Proto
  reply : Reply

/-- upstream_resolver.go 222-230: a SERVFAIL is turned into an error. -/
def exchange (proto : Proto) : Reply → ExchangeResult
  | .msg m =>
    if m.rcode = rcodeServFail then
      ⟨proto, .err { text := str! "upstream server failed", upstream := some m }⟩
    else ⟨proto, .msg m⟩
  | .err e => ⟨proto, .err e⟩

/-- Is the result a message that is not truncated? -/
def untruncated : Reply → Bool
  | .msg m => !m.truncated
  | .err _ => false

/-- Is the result an error? -/
def isErr : Reply → Bool
  | .msg _ => false
  | .err _ => true

/-- upstream_resolver.go 238-267: the part of `raceClients` after starting the exchanges; `res1` arrives
before `res2`. -/
def race (protocol : Proto) (res1 res2 : ExchangeResult) : Reply :=
  if untruncated res1.reply then res1.reply
  else if untruncated res2.reply then res2.reply
  else if isErr res1.reply && isErr res2.reply then
    (if res1.proto = protocol then res1 else res2).reply
  else (if isErr res1.reply then res2 else res1).reply

/-- upstream_resolver.go 213-268 `raceClients`: what the two exchanges give and which comes first. -/
def raceClients (protocol : Proto) (tcp udp : Reply) (tcpFirst : Bool) : Reply :=
  if tcpFirst then race protocol (exchange .tcp tcp) (exchange .udp udp)
  else race protocol (exchange .udp udp) (exchange .tcp tcp)

/-- config/upstream.go, the protocols (config.go 42-48). -/
inductive Net where
  | tcpUdp | tcpTls | https
  deriving DecidableEq, Repr

/-- How the outside behaves: a DNS exchange over TLS or HTTPS, or one over TCP and one over UDP with
the order of arrival. Connections, HTTP status, content type and unpacking (upstream_resolver.go
139-187) are part of the exchange. -/
structure Exchanges (W : Type) where
  single : IP → Msg → W → Reply × W
  both : IP → Msg → W → Reply × Reply × Bool × W

/-- upstream_resolver.go 139-187, 196-204 `callExternal` of the two clients. -/
def callExternal {W : Type} (x : Exchanges W) (net : Net) (ip : IP) (req : Msg) (protocol : Proto) (w : W) :
    Reply × W :=
  match net with
  | .tcpTls => x.single ip req w
  | .https => x.single ip req w
  | .tcpUdp =>
    let (tcp, udp, tcpFirst, w) := x.both ip req w
    (raceClients protocol tcp udp tcpFirst, w)

/-! ### The addresses of an upstream -/

/-- bootstrap.go 326-329 `IPSet` (`index` is a `uint32`). -/
structure IPSet where
  values : List IP
  index : Nat := 0

/-- bootstrap.go 335-339 `Current`; `none` is an index out of range (a panic). -/
def IPSet.current (s : IPSet) : Option IP := s.values[s.index]?

/-- bootstrap.go 341-348 `Next`, run alone: the index of the next address; `none` is a division by zero
(a panic). -/
def IPSet.next (s : IPSet) : Option IPSet :=
  if s.values.length = 0 then none
  else some { s with index := ((s.index + 1) % 4294967296) % s.values.length }

/-! ### Retries -/

/-- What calling `Resolve` of an upstream gives. -/
inductive UResult where
  | ok (m : Msg)
  | err (e : UErr)
  | panic
  deriving DecidableEq, Repr

/-- upstream_resolver.go 343-374: `retry.Do` of avast/retry-go v4 with the options used: after an error that is a
time-out the function `OnRetry` is called (advancing the address), and unless that was the last attempt the
next follows after a short wait, during which the context may end (`ctxErr` then is its error).
`left` counts the remaining attempts. -/
def retryDo {W : Type} (call : IP → W → Reply × W) (ctxErr : W → Option UErr) :
    Nat → IPSet → W → UResult × W
  | 0, _, w => (.panic, w)
  | left + 1, ips, w =>
    match ips.current with
    | none => (.panic, w)
    | some ip =>
      match call ip w with
      | (.msg m, w) => (.ok m, w)
      | (.err e, w) =>
        if !e.timeout then (.err e, w)
        else
          match ips.next with
          | none => (.panic, w)
          | some ips =>
            if left = 0 then (.err e, w)
            else
              match ctxErr w with
              | some ce => (.err ce, w)
              | none => retryDo call ctxErr left ips w

/-- upstream_resolver.go 28: `retryAttempts`. -/
def retryAttempts : Nat := 3

/-- upstream_resolver.go 328-380 `Resolve`. `lookup` is `bootstrap.UpstreamIPs` (bootstrap.go 125-138): every
call makes a new `IPSet`. -/
def resolve {W : Type} (x : Exchanges W) (net : Net) (lookup : W → (List IP ⊕ UErr) × W) (ctxErr : W → Option UErr)
    (request : Request) (w : W) : UResult × W :=
  match lookup w with
  | (.inr e, w) => (.err e, w)
  | (.inl ips, w) =>
    retryDo (fun ip w => callExternal x net ip request.req request.protocol w) ctxErr retryAttempts
      { values := ips } w

/-! ### Looking up the addresses of an upstream's host -/

/-- bootstrap.go 252-260: the addresses in an answer. -/
def addresses (answer : List RR) : List IP :=
  answer.filterMap (fun r => match r.data with | .a ip => some ip | .aaaa ip => some ip | _ => none)

/-- bootstrap.go 231-263 `resolveType`: `ask` is the bootstrap's resolver asked for the host. -/
def resolveType {W : Type} (parseIP : Str → Option IP) (ask : Str → Nat → W → (Msg ⊕ UErr) × W) (host : Str)
    (qtype : Nat) (w : W) : (List IP ⊕ UErr) × W :=
  match parseIP host with
  | some ip => (.inl [ip], w)
  | none =>
    match ask host qtype w with
    | (.inr e, w) => (.inr e, w)
    | (.inl m, w) => if m.rcode ≠ rcodeSuccess then (.inl [], w) else (.inl (addresses m.answer), w)

/-- bootstrap.go 213-222: the loop over the types; returns the addresses and the last error (the code
collects all of them). -/
def resolveTypes {W : Type} (parseIP : Str → Option IP) (ask : Str → Nat → W → (Msg ⊕ UErr) × W) (host : Str) :
    List Nat → List IP → Option UErr → W → List IP × Option UErr × W
  | [], ips, err, w => (ips, err, w)
  | t :: ts, ips, err, w =>
    match resolveType parseIP ask host t w with
    | (.inr e, w) => resolveTypes parseIP ask host ts ips (some e) w
    | (.inl is, w) => resolveTypes parseIP ask host ts (ips ++ is) err w

/-- bootstrap.go 210-229 `resolve`: what the callers see (both look at the error first). -/
def bootstrapResolve {W : Type} (parseIP : Str → Option IP) (ask : Str → Nat → W → (Msg ⊕ UErr) × W) (host : Str)
    (qtypes : List Nat) (w : W) : (List IP ⊕ UErr) × W :=
  match resolveTypes parseIP ask host qtypes [] none w with
  | (_, some e, w) => (.inr e, w)
  | ([], none, w) => (.inr { text := str! "no such host" }, w)
  | (ip :: ips, none, w) => (.inl (ip :: ips), w)

/-- config.go 50-55, 71-82 `IPVersion.QTypes`. -/
inductive IPVersion where
  | dual | v4 | v6

def IPVersion.qtypes : IPVersion → List Nat
  | .dual => [typeA, typeAAAA]
  | .v4 => [typeA]
  | .v6 => [typeAAAA]

/-- bootstrap.go 125-155 `UpstreamIPs`, `resolveUpstream`. `bootstraped`: the addresses if the upstream is itself a
bootstrap upstream; `system`: the system's resolver, used without bootstrap configuration (`ask = none`). -/
def upstreamIPs {W : Type} (parseIP : Str → Option IP) (bootstraped : Option (List IP))
    (system : Str → W → (List IP ⊕ UErr) × W) (ask : Option (Str → Nat → W → (Msg ⊕ UErr) × W)) (v : IPVersion)
    (host : Str) (w : W) : (List IP ⊕ UErr) × W :=
  match parseIP host with
  | some ip => (.inl [ip], w)
  | none =>
    match bootstraped with
    | some ips => (.inl ips, w)
    | none =>
      match ask with
      | none => system host w
      | some ask => bootstrapResolve parseIP ask host v.qtypes w

/-! ### The index under concurrent use -/

/-- Where a goroutine is in `Next` (bootstrap.go 341-348). The two reads of the index in lines 342 and 343
are separate; the swap is atomic. -/
inductive NPc where
  | idle
  | read (old : Nat)
  | computed (old new : Nat)

/-- A set shared by goroutines. -/
structure Shared where
  values : List IP
  index : Nat
  pcs : Nat → NPc

/-- Set one goroutine's position. -/
def Shared.at (s : Shared) (t : Nat) (pc : NPc) : Shared := { s with pcs := fun u => if u = t then pc else s.pcs u }

/-- One step of goroutine `t`. -/
inductive Shared.Step : Shared → Shared → Prop where
  | read (s : Shared) (t : Nat) (h : s.pcs t = .idle) : Step s (s.at t (.read s.index))
  | compute (s : Shared) (t old : Nat) (h : s.pcs t = .read old) :
    Step s (s.at t (.computed old (((s.index + 1) % 4294967296) % s.values.length)))
  | swap (s : Shared) (t old new : Nat) (h : s.pcs t = .computed old new) (heq : s.index = old) :
    Step s { s.at t .idle with index := new }
  | swapFails (s : Shared) (t old new : Nat) (h : s.pcs t = .computed old new) (hne : s.index ≠ old) :
    Step s (s.at t .idle)

/-- Reachability. -/
inductive Shared.Steps : Shared → Shared → Prop where
  | refl (s : Shared) : Steps s s
  | tail {a b c : Shared} : Steps a b → Step b c → Steps a c

/-- bootstrap.go 331-333 `newIPSet`, before anybody uses it. -/
def Shared.new (ips : List IP) : Shared := { values := ips, index := 0, pcs := fun _ => .idle }

end Verif.Upstream
