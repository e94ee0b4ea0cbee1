/-
How long queries to upstreams take: /repo/resolver/upstream_resolver.go, parallel_best_resolver.go and
strict_resolver.go with a clock. The results themselves are those of `Verif.Model.Upstream`.

Times are nanoseconds. Only waiting for others takes time, computing does not. What happens at the very end of
a limit is too late. The query's context ends at a moment given (`ctxEnd`); apart from that only losers of a race are
cancelled, for which nobody waits.
-/
import Verif.Model.Upstream

namespace Verif.Waiting
open Dns Upstream

/-- Milliseconds and seconds. -/
def ms : Nat := 1000000
def sec : Nat := 1000 * ms

/-- How contact with a server goes that is tried at some moment: a connection is there after a while, or is
refused with an error, or neither ever happens (`none`); with UDP and with a connection that is still open this
takes no time. Then a reply comes some time after the question was sent, or never. -/
structure Contact where
  connect : Option (Nat × Option UErr)
  answer : Option (Nat × Reply)

/-- A limit was reached (a `net.Error` with `Timeout()`). -/
def timedOut : UErr := { text := str! "i/o timeout", timeout := true }

/-- miekg/dns v1.1.64 client.go `dnsTimeout`: the limit of a `dns.Client` without limits of its own for connecting
and once more for reading. upstream_resolver.go 112-128 sets none. -/
def clientLimit : Nat := 2 * sec

/-- Something that happens after a while, or a limit that is reached: what happened and when. -/
def within {α : Type} (limit start : Nat) : Option (Nat × α) → Option α × Nat
  | some (t, a) => if t < limit then (some a, start + t) else (none, start + limit)
  | none => (none, start + limit)

/-- Connecting and then waiting for the reply; the limit of each depends on the moment it begins. -/
def contactServer (limit : Nat → Nat) (start : Nat) (c : Contact) : Reply × Nat :=
  match within (limit start) start c.connect with
  | (none, t) => (.err timedOut, t)
  | (some (some e), t) => (.err e, t)
  | (some none, t) =>
    match within (limit t) t c.answer with
    | (none, t) => (.err timedOut, t)
    | (some r, t) => (r, t)

/-- miekg/dns `Client.ExchangeContext` with a context ending at `ctxEnd`: connecting and reading each have
the client's limit, and both end with the context. -/
def dnsExchange (ctxEnd start : Nat) (c : Contact) : Reply × Nat :=
  contactServer (fun t => min clientLimit (ctxEnd - t)) start c

/-- upstream_resolver.go 139-187: a request over HTTPS ends with its context only. (The limits of Go's transport,
30 s for connecting and 10 s for the TLS handshake, are left out.) -/
def httpsExchange (ctxEnd start : Nat) (c : Contact) : Reply × Nat :=
  contactServer (fun t => ctxEnd - t) start c

/-- How the servers behave: contact with an address over a protocol from a moment on; for results at the same
moment, whether that of TCP arrives first. -/
structure Wire where
  contact : IP → Proto → Nat → Contact
  tcpFirst : Nat → Bool

/-- upstream_resolver.go 238-267: the first result is returned as soon as it is there if it is an untruncated
message, all else needs both. -/
def raceEnd (first second : Reply × Nat) (proto : Proto) : Nat :=
  if untruncated (exchange proto first.1).reply then first.2 else max first.2 second.2

/-- upstream_resolver.go 213-268 `raceClients`: the reply and its time. -/
def raceTimed (protocol : Proto) (tieTcp : Bool) (tcp udp : Reply × Nat) : Reply × Nat :=
  let tcpFirst := decide (tcp.2 < udp.2) || (decide (tcp.2 = udp.2) && tieTcp)
  (raceClients protocol tcp.1 udp.1 tcpFirst,
    if tcpFirst then raceEnd tcp udp .tcp else raceEnd udp tcp .udp)

/-- upstream_resolver.go 344-356: one attempt, with a limit of its own (346). -/
def attempt (net : Net) (timeout : Nat) (w : Wire) (protocol : Proto) (ctxEnd : Nat) (ip : IP) (start : Nat) :
    Reply × Nat :=
  match net with
  | .https => httpsExchange (min ctxEnd (start + timeout)) start (w.contact ip .tcp start)
  | .tcpTls => dnsExchange (min ctxEnd (start + timeout)) start (w.contact ip .tcp start)
  | .tcpUdp =>
    raceTimed protocol (w.tcpFirst start)
      (dnsExchange (min ctxEnd (start + timeout)) start (w.contact ip .tcp start))
      (dnsExchange (min ctxEnd (start + timeout)) start (w.contact ip .udp start))

/-- upstream_resolver.go 362: `retry.Delay`. -/
def pause : Nat := 1 * ms

/-- The context has ended (`context.DeadlineExceeded`, a `net.Error` with `Timeout()`). -/
def ctxDone : UErr := { text := str! "context deadline exceeded", timeout := true }

/-- upstream_resolver.go 343-374: the attempts (`Upstream.retryDo` with a clock); between attempts the end of the context
ends it all. -/
def retryTimed (ctxEnd : Nat) (call : IP → Nat → Reply × Nat) : Nat → IPSet → Nat → UResult × Nat
  | 0, _, t => (.panic, t)
  | left + 1, ips, t =>
    match ips.current with
    | none => (.panic, t)
    | some ip =>
      match call ip t with
      | (.msg m, t) => (.ok m, t)
      | (.err e, t) =>
        if !e.timeout then (.err e, t)
        else
          match ips.next with
          | none => (.panic, t)
          | some ips =>
            if left = 0 then (.err e, t)
            else if ctxEnd ≤ t + pause then (.err ctxDone, max t ctxEnd)
            else retryTimed ctxEnd call left ips (t + pause)

/-- The addresses of an upstream: known without asking (bootstrap.go 128-130, 141-144), or to be looked up: the addresses
or an error after a while, or nothing. -/
inductive Host where
  | known (ips : List IP)
  | asked (found : Nat → Option (Nat × (List IP ⊕ UErr)))

/-- bootstrap.go 125-155 `UpstreamIPs`, `resolveUpstream`: a lookup has the limit `upstreams.timeout` (lines 39, 146)
as a whole. -/
def lookup (timeout ctxEnd : Nat) : Host → Nat → (List IP ⊕ UErr) × Nat
  | .known ips, t => (.inl ips, t)
  | .asked found, t =>
    match within (min timeout (ctxEnd - t)) t (found t) with
    | (some r, t) => (r, t)
    | (none, t) => (.inr timedOut, t)

/-- An upstream and its surroundings. -/
structure Up where
  net : Net
  host : Host
  wire : Wire

/-- upstream_resolver.go 328-380 `Resolve`: the result and its time; `timeout` is `upstreams.timeout`. `retry.Do` makes
no attempt when the context has ended before. -/
def Up.resolve (u : Up) (timeout : Nat) (protocol : Proto) (ctxEnd start : Nat) : UResult × Nat :=
  match lookup timeout ctxEnd u.host start with
  | (.inr e, t) => (.err e, t)
  | (.inl ips, t) =>
    if ctxEnd ≤ t then (.err ctxDone, t)
    else retryTimed ctxEnd (attempt u.net timeout u.wire protocol ctxEnd) retryAttempts { values := ips } t

/-- The message of a result. (A panic, which ends the program, counts as no message; C45 proves there is none.) -/
def message : UResult → Option Msg
  | .ok m => some m
  | .err _ => none
  | .panic => none

/-- strict_resolver.go 75-99 `Resolve`. -/
def strict (timeout : Nat) (protocol : Proto) (ctxEnd : Nat) : List Up → Nat → Option Msg × Nat
  | [], t => (none, t)
  | u :: us, t =>
    match u.resolve timeout protocol ctxEnd t with
    | (.ok m, t) => (some m, t)
    | (_, t) => strict timeout protocol ctxEnd us t

/-- parallel_best_resolver.go 166-182, 187-209: two upstreams asked at once; the first message wins, only if both fail
both have to be waited for. `tie`: whether the first one's result arrives first if both come at the same moment. -/
def parallel (timeout : Nat) (protocol : Proto) (ctxEnd : Nat) (a b : Up) (tie : Bool) (t : Nat) :
    Option Msg × Nat :=
  let ra := a.resolve timeout protocol ctxEnd t
  let rb := b.resolve timeout protocol ctxEnd t
  let (first, second) := if ra.2 < rb.2 ∨ (ra.2 = rb.2 ∧ tie = true) then (ra, rb) else (rb, ra)
  match message first.1 with
  | some m => (some m, first.2)
  | none => (message second.1, second.2)

/-- parallel_best_resolver.go 166-184, 211-229 with the strategy `random`: one upstream, after a failure another. -/
def random (timeout : Nat) (protocol : Proto) (ctxEnd : Nat) (a b : Up) (t : Nat) : Option Msg × Nat :=
  match a.resolve timeout protocol ctxEnd t with
  | (.ok m, t) => (some m, t)
  | (_, t) =>
    (message (b.resolve timeout protocol ctxEnd t).1, (b.resolve timeout protocol ctxEnd t).2)

/-- config.go 154-156 `UpstreamStrategy`. -/
inductive Strategy where
  | parallelBest | strict | random
  deriving DecidableEq, Repr

/-- `Resolve` of a group: parallel_best_resolver.go 151-185 (with one upstream no choice is made, 156-161), strict_resolver.go
75-99. `a` and `b` are the upstreams drawn. -/
def group (st : Strategy) (timeout : Nat) (protocol : Proto) (ctxEnd : Nat) (ups : List Up) (a b : Up) (tie : Bool)
    (t : Nat) : Option Msg × Nat :=
  match st, ups with
  | .strict, ups => strict timeout protocol ctxEnd ups t
  | _, [u] => (message (u.resolve timeout protocol ctxEnd t).1, (u.resolve timeout protocol ctxEnd t).2)
  | .parallelBest, _ => parallel timeout protocol ctxEnd a b tie t
  | .random, _ => random timeout protocol ctxEnd a b t

/-- server/server.go 531-534: the context of a query ends after 100 times `upstreams.timeout`, a product of `int64`s;
a negative duration has passed already. -/
def queryEnd (timeout start : Nat) : Nat := start + (BitVec.ofNat 64 (100 * timeout)).toInt.toNat

/-- A query that goes straight to its group of upstreams. -/
def query (st : Strategy) (timeout : Nat) (protocol : Proto) (ups : List Up) (a b : Up) (tie : Bool) (start : Nat) :
    Option Msg × Nat :=
  group st timeout protocol (queryEnd timeout start) ups a b tie start

end Verif.Waiting
