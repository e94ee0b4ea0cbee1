/-
Model of the request handling of /repo/server/server.go and /repo/server/server_endpoints.go.

Left out: the listeners, contexts and time-outs, logging. The chain of resolvers is an arbitrary
function; it may write into the request's message (`Cond.MResolver`).
-/
import Verif.Model.Conditional
import Verif.Model.Ecs

namespace Verif.Server
open Dns Cond

variable {W : Type}

/-- What the server needs to know about errors and miekg/dns: `asUpstream` is `errors.As` for
`*resolver.UpstreamServerError` (the message such an error carries), `trunc` is `Msg.Truncate`. -/
structure Env where
  asUpstream : Str → Option Msg
  trunc : Nat → Msg → Msg

/-- miekg/dns `OPT.UDPSize` of the last OPT record (its class field). -/
def lastOptSize : List RR → Option Nat
  | [] => none
  | r :: rs =>
    match lastOptSize rs with
    | some n => some n
    | none => if r.isOpt then some r.cls else none

/-- server.go 572-584 `getMaxResponseSize`; miekg/dns `MaxMsgSize` is 65535, `MinMsgSize` 512. -/
def getMaxResponseSize (req : Msg) (proto : Proto) : Nat :=
  match lastOptSize req.extra with
  | some n => if n > 0 then n else match proto with | .tcp => 65535 | .udp => 512
  | none => match proto with | .tcp => 65535 | .udp => 512

/-- server.go 561-567: the end of `resolve`; `req` is the request's message by then. (`Compress` only
concerns the encoding.) -/
def finish (env : Env) (req : Msg) (proto : Proto) (res : Msg) : Msg :=
  env.trunc (getMaxResponseSize req proto) { res with recursionAvailable := req.recursionDesired }

/-- server.go 524-570 `resolve`: the message, `none` is an error (among them recovered panics; the
missing message of `NoResponse` is a nil dereference), and the request's message afterwards. -/
def resolve (env : Env) (chain : MResolver W) (request : Request) (w : W) : Option Msg × Msg × W :=
  match request.req.question with
  | [] => (some (finish env request.req request.protocol (({} : Msg).setRcode request.req rcodeFormErr)), request.req, w)
  | _ :: _ =>
    match chain request w with
    | (.ok r, req, w) => (some (finish env req request.protocol r.res), req, w)
    | (.err e, req, w) =>
      (match env.asUpstream e with
       | some m => some (finish env req request.protocol m)
       | none => none, req, w)
    | (.noResponse, req, w) => (none, req, w)
    | (.panic, req, w) => (none, req, w)

/-- server.go 509-522 `handleReq`: the messages given to `WriteMsg`, in order. -/
def handleReq (env : Env) (chain : MResolver W) (request : Request) (w : W) : List Msg × W :=
  match resolve env chain request w with
  | (some m, _, w) => ([m], w)
  | (none, req, w) => ([({} : Msg).setRcode req rcodeServFail], w)

/-- server.go 586-594 `OnHealthCheck`. -/
def onHealthCheck (req : Msg) : List Msg := [{ ({} : Msg).setReply req with rcode := rcodeSuccess }]

/-- server.go 431-438 `extractClientIDFromHost`. -/
def extractClientIDFromHost (host : Str) : Str :=
  if (str! "id-").isPrefixOf host && host.contains '.' then (host.takeWhile (fun c => c ≠ '.')).drop 3 else []

/-- A client's address (`net.Addr`). -/
inductive Addr where
  | udp (ip : Option IP)
  | tcp (ip : Option IP)
  | other

/-- server.go 596-605 `resolveClientIPAndProtocol`. -/
def resolveClientIPAndProtocol : Addr → Option IP × Proto
  | .udp ip => (ip, .udp)
  | .tcp ip => (ip, .tcp)
  | .other => (none, .udp)

/-- server.go 467-484 `newRequestFromDNS`; `serverName` is the TLS server name, if the connection is
encrypted. -/
def newRequestFromDNS (remote : Addr) (serverName : Option Str) (msg : Msg) : Request :=
  { clientIP := (resolveClientIPAndProtocol remote).1
    requestClientID := match serverName with | some h => extractClientIDFromHost h | none => []
    protocol := (resolveClientIPAndProtocol remote).2
    req := msg }

/-- server.go 498-503 `OnRequest`. -/
def onRequest (env : Env) (chain : MResolver W) (remote : Addr) (serverName : Option Str) (msg : Msg) (w : W) :
    List Msg × W :=
  handleReq env chain (newRequestFromDNS remote serverName msg) w

/-! ### DNS over HTTPS -/

/-- server_endpoints.go 153-162 `getSmallestTTLFromAnswer`: one step of the loop. -/
def smallestStep (ttl : UInt32) (a : RR) : UInt32 := if a.ttl < ttl || ttl == 0 then a.ttl else ttl

/-- server_endpoints.go 153-162 `getSmallestTTLFromAnswer`. -/
def getSmallestTTL (m : Msg) : UInt32 := m.answer.foldl smallestStep 0

/-- An HTTP request to the DoH endpoint. `dns`: the values of the parameter of that name (`none`:
missing); `readFails`: reading the body fails. -/
inductive DohRequest where
  | get (dns : Option (List Str))
  | post (contentType : Str) (readFails : Bool) (body : Str)

/-- What the DoH endpoint answers. `empty` is what net/http makes of a handler that wrote nothing:
status 200 and no body. -/
inductive DohReply where
  | error (status : Nat)
  | message (maxAge : UInt32) (m : Msg)
  | empty
  deriving DecidableEq

/-- Coding functions of the endpoint: unpadded base64url decoding, DNS message unpacking, and whether
a message can be packed. -/
structure DohEnv where
  base64 : Str → Option Str
  unpack : Str → Option Msg
  packs : Msg → Bool

/-- server_endpoints.go 129-151 `WriteMsg`. -/
def dohWrite (d : DohEnv) (m : Msg) : DohReply := if d.packs m then .message (getSmallestTTL m) m else .empty

/-- server_endpoints.go 110-123 `processDohMessage`; server.go 486-496 `newRequestFromHTTP`. -/
def processDoh (d : DohEnv) (env : Env) (chain : MResolver W) (clientIP : Option IP) (clientID : Str)
    (raw : Str) (w : W) : List DohReply × W :=
  match d.unpack raw with
  | none => ([.error 400], w)
  | some msg =>
    let (ms, w) := handleReq env chain
      { clientIP := clientIP, requestClientID := clientID, protocol := .tcp, req := msg } w
    (ms.map (dohWrite d), w)

/-- server_endpoints.go 29 `dohMessageLimit`. -/
def dohMessageLimit : Nat := 512

/-- server.go 489-493: the client id of a DoH request: from the path, else from the host. -/
def dohClientID (pathID host : Str) : Str := if pathID = [] then extractClientIDFromHost host else pathID

/-- server_endpoints.go 66-108 `dohGetRequestHandler`, `dohPostRequestHandler`. (`dnsParam[0]` of an
empty list cannot occur: Go's query parser only makes non-empty lists.) -/
def doh (d : DohEnv) (env : Env) (chain : MResolver W) (clientIP : Option IP) (clientID : Str)
    (r : DohRequest) (w : W) : List DohReply × W :=
  match r with
  | .get none => ([.error 400], w)
  | .get (some []) => ([.error 400], w)
  | .get (some (p :: _)) =>
    if p.length < 1 then ([.error 400], w)
    else match d.base64 p with
      | none => ([.error 400], w)
      | some raw => if raw.length > dohMessageLimit then ([.error 414], w) else processDoh d env chain clientIP clientID raw w
  | .post contentType readFails body =>
    if contentType ≠ str! "application/dns-message" then ([.error 415], w)
    else if readFails then ([.error 400], w)
    else if body.length > dohMessageLimit then ([.error 413], w)
    else processDoh d env chain clientIP clientID body w

end Verif.Server
