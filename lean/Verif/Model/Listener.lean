/-
Model of what happens to a message on a DNS port before the server's handlers: miekg/dns `Server.serveDNS`,
`DefaultMsgAcceptFunc` and `ServeMux`, as set up by /repo/server/server.go (`createUDPServer`, `createTCPServer`,
`createTLSServer` 249-287 with default settings, `registerDNSHandlers` 345-355).

miekg/dns is a dependency outside /repo; modelled from its documented behaviour. Left out: connections, TSIG, buffers.
-/
import Verif.Model.Server

namespace Verif.Listener
open Dns Cond

variable {W : Type}

/-- A received message: header (as a message without records), the counts of the header's section fields and what
unpacking the rest gives: a message, or the questions unpacked before an error. -/
structure Packet where
  header : Msg
  qd : Nat
  an : Nat
  ns : Nat
  ar : Nat
  body : Msg ⊕ List Question

/-- What unpacking guarantees: the header's values, no records in `header`, and no more questions than counted (fewer
if the message ends early). -/
structure Packet.Unpacked (p : Packet) : Prop where
  bare : p.header.question = [] ∧ p.header.answer = [] ∧ p.header.ns = [] ∧ p.header.extra = []
  header : ∀ m, p.body = .inl m → { m with question := [], answer := [], ns := [], extra := [] } = p.header
  count : ∀ m, p.body = .inl m → m.question.length ≤ p.qd
  partly : ∀ qs, p.body = .inr qs → qs.length ≤ p.qd

/-- miekg/dns `MsgAcceptAction`. -/
inductive Action where
  | accept | reject | rejectNotImplemented | ignore
  deriving DecidableEq, Repr

/-- miekg/dns `defaultMsgAcceptFunc`. Opcode 0 is a query, 4 a notification. -/
def accept (p : Packet) : Action :=
  if p.header.response then .ignore
  else if p.header.opcode ≠ 0 && p.header.opcode ≠ 4 then .rejectNotImplemented
  else if p.qd ≠ 1 then .reject
  else if p.an > 1 then .reject
  else if p.ns > 1 then .reject
  else if p.ar > 2 then .reject
  else .accept

/-- miekg/dns `serveDNS`: the reply to a message that is not handed on; `SetRcodeFormatError` on the request itself. -/
def rejection (p : Packet) (qs : List Question) : Msg :=
  { p.header with rcode := rcodeFormErr, opcode := 0, response := true, authoritative := false, question := qs }

/-- miekg/dns `serveDNS`: the reply to an opcode that is not implemented (response code 4). -/
def notImplemented (p : Packet) : Msg :=
  { p.header with rcode := 4, response := true, authoritative := false, question := [] }

/-- miekg/dns `NextLabel`, all of them: the texts behind the dots that separate labels, the last one excepted. A dot
after an odd number of backslashes belongs to a label; `esc` tells whether there is one. -/
def suffixes : Bool → Str → List Str
  | _, [] => []
  | esc, c :: cs =>
    if c = '.' ∧ esc = false ∧ cs ≠ [] then cs :: suffixes false cs
    else suffixes (c == '\\' && !esc) cs

/-- server.go 351: the zone of the health check, as `ServeMux` keeps it. -/
def healthZone : Str := str! "healthcheck.blocky."

/-- miekg/dns `ServeMux.match` with the two zones of server.go 345-355: does the health-check handler get the question?
Types DS (43) go to the parent zone, here the root. Names from the wire are fully qualified. -/
def isHealth (q : Question) : Bool := q.qtype != 43 && (lower q.name :: suffixes false (lower q.name)).contains healthZone

/-- miekg/dns `Server.serveDNS` and `ServeMux.ServeDNS` with the handlers of server.go: replies and state. -/
def receive (env : Server.Env) (chain : MResolver W) (remote : Server.Addr) (serverName : Option Str) (p : Packet) (w : W) :
    List Msg × W :=
  match accept p with
  | .ignore => ([], w)
  | .rejectNotImplemented => ([notImplemented p], w)
  | .reject => ([rejection p []], w)
  | .accept =>
    match p.body with
    | .inr qs => ([rejection p qs], w)
    | .inl m =>
      match m.question with
      | [] => ([({} : Msg).setRcode m rcodeRefused], w)
      | q :: _ => if isHealth q then (Server.onHealthCheck m, w) else Server.onRequest env chain remote serverName m w

end Verif.Listener
