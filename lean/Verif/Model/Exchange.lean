/-
Which messages an upstream client takes for the reply: the reading half of `ExchangeContext` of github.com/miekg/dns
(v1.1.64, go.mod 25) as called in /repo/resolver/upstream_resolver.go 193-204 and 222, and the HTTPS client of
/repo/resolver/upstream_resolver.go 138-187.

Left out: deadlines other than that waiting for UDP messages ends with a time-out; what the sockets do.
-/
import Verif.Model.Transport

namespace Verif.Exchange
open Dns Upstream Transport

/-- miekg/dns client.go `exchangeWithConnContext`, UDP: messages are read until one has the query's id or cannot be
read (`err`); "Ignore replies with mismatched IDs because they might be responses to earlier queries that timed out".
The argument is what arrives at the socket before the deadline; then reading fails with a time-out. -/
def readUdp (id : Nat) : List Reply → Reply
  | [] => .err { text := str! "i/o timeout", timeout := true }
  | .err e :: _ => .err e
  | .msg m :: rest => if m.id = id then .msg m else readUdp id rest

/-- miekg/dns client.go `exchangeWithConnContext`, TCP and TLS: the first message is taken, another id is the error
`ErrId`. -/
def readTcp (id : Nat) : Reply → Reply
  | .err e => .err e
  | .msg m => if m.id = id then .msg m else .err { text := str! "dns: id mismatch" }

/-- What the network brings for a query sent to an address: over TLS the first message; over TCP the first message, over
UDP all datagrams from the address (forged ones included) and whether the TCP exchange ends first; and the web for DNS
over HTTPS. -/
structure Network (W : Type) where
  tls : IP → Msg → W → Reply × W
  both : IP → Msg → W → Reply × List Reply × Bool × W
  codec : Codec
  web : HttpRequest → W → HttpResult × W
  ipText : IP → Str

/-- upstream_resolver.go 138-187, 193-204, 222: the exchanges of the clients for the upstream `u`. -/
def exchanges {W : Type} (n : Network W) (net : Net) (u : UpstreamUrl.Upstream) (c : TlsConfig) : Exchanges W where
  single ip req w :=
    match net with
    | .https =>
      (callHttps n.codec n.web c u.host ⟨true, authority n.ipText ip u.port, u.path⟩ req w).2
    | _ =>
      let (r, w) := n.tls ip req w
      (readTcp req.id r, w)
  both ip req w :=
    let (tcp, udp, tcpFirst, w) := n.both ip req w
    (readTcp req.id tcp, readUdp req.id udp, tcpFirst, w)

/-- The upstream resolver as seen by the resolvers before it: upstream_resolver.go 328-380. An error is given by its
text. -/
def upstream {W : Type} (n : Network W) (net : Net) (u : UpstreamUrl.Upstream) (c : TlsConfig) (ips : List IP) :
    Resolver W := fun request w =>
  match Upstream.resolve (exchanges n net u c) net (fun w => (.inl ips, w)) (fun _ => none) request w with
  | (.ok m, w) => (.ok { res := m }, w)
  | (.err e, w) => (.err e.text, w)
  | (.panic, w) => (.panic, w)

end Verif.Exchange
