/-
Model of what the server does with HTTP requests besides DNS over HTTPS itself: who the client is
(/repo/util/http.go 52-64), and the query endpoint of the API (/repo/api/api_interface_impl.go 155-183,
/repo/server/server_endpoints.go 164-173).

Left out: the HTTP layer (routing, JSON, contexts). The API result's reason and response type are not
modelled (`Server.resolve` keeps only the message).
-/
import Verif.Model.Server
import Verif.Model.UpstreamUrl
import Verif.Model.QueryLogFile

namespace Verif.Http
open Dns Cond

variable {W : Type}

/-- What the code looks at of a request: the first `X-Forwarded-For` header (empty if there is none), the
peer's address as net/http writes it, the host, and the client identifier of the path (DoH only). -/
structure HttpRequest where
  forwardedFor : Str := []
  remoteAddr : Str
  host : Str := []
  pathID : Str := []

/-- util/http.go 52-64 `HTTPClientIP`; `parseIP` is Go's `net.ParseIP`. -/
def clientIP (parseIP : Str → Option IP) (r : HttpRequest) : Option IP :=
  let addr := if r.forwardedFor = [] then r.remoteAddr else r.forwardedFor
  match UpstreamUrl.splitHostPort addr with
  | none => parseIP addr
  | some (ip, _) => parseIP ip

/-- server_endpoints.go 66-123 with server.go 486-496 `newRequestFromHTTP`: a DoH request as it comes from
net/http. -/
def doh (parseIP : Str → Option IP) (d : Server.DohEnv) (env : Server.Env) (chain : MResolver W) (r : HttpRequest)
    (body : Server.DohRequest) (w : W) : List Server.DohReply × W :=
  Server.doh d env chain (clientIP parseIP r) (Server.dohClientID r.pathID r.host) body w

/-- How addresses and other records are written (`net.IP.String`, miekg/dns `RR.String`). -/
structure Printer where
  ip : IP → Str
  rr : RR → Str
  /-- `UpstreamServerError.Error` (upstream_resolver.go), for the errors that carry an upstream's answer. -/
  err : Str → Str := id

/-- util/common.go 46-58: one record of `AnswerToString`. -/
def recordText (p : Printer) (r : RR) : Str :=
  match r.data with
  | .a ip => str! "A (" ++ p.ip ip ++ str! ")"
  | .aaaa ip => str! "AAAA (" ++ p.ip ip ++ str! ")"
  | .cname t => str! "CNAME (" ++ t ++ str! ")"
  | .ptr t => str! "PTR (" ++ t ++ str! ")"
  | .opt _ => p.rr r
  | .other _ => p.rr r

/-- Go `strings.Join(…, ", ")`. -/
def joinComma : List Str → Str
  | [] => []
  | [s] => s
  | s :: t :: ss => s ++ str! ", " ++ joinComma (t :: ss)

/-- util/common.go 43-62 `AnswerToString`. -/
def answerToString (privacy : Bool) (p : Printer) (answer : List RR) : Str :=
  QueryLogFile.obfuscate privacy (joinComma (answer.map (recordText p)))

/-- What the API answers: 400, 500 (the handler returned an error), or the result: return code, answer,
reason and response type (the code and the type stand for their names, api_interface_impl.go 177-182). -/
inductive ApiReply where
  | badRequest
  | serverError
  | result (rcode : Nat) (response : Str) (reason : Str) (rtype : RType)
  deriving DecidableEq

/-- server_endpoints.go 164-173 `Query`: the request; `id` is the random message id. -/
def queryRequest (id : Nat) (host : Str) (ip : Option IP) (question : Str) (qtype : Nat) : Request :=
  { clientIP := ip, requestClientID := Server.extractClientIDFromHost host, protocol := .tcp,
    req := newMsgWithQuestion id question qtype }

/-- server.go 542-561: reason and type of the response that `Server.resolve` makes from what the chain returns. -/
def responseInfo (p : Printer) : Outcome → Str × RType
  | .ok r => (r.reason, r.rtype)
  | .err e => (p.err e, .resolved)
  | _ => ([], .resolved)

/-- api_interface_impl.go 155-183 `Query`; `typeOf` is miekg/dns `StringToType`, 0 for names it lacks. -/
def apiQuery (parseIP : Str → Option IP) (typeOf : Str → Nat) (privacy : Bool) (p : Printer) (env : Server.Env)
    (chain : MResolver W) (id : Nat) (r : HttpRequest) (query type : Str) (w : W) : ApiReply × W :=
  if typeOf type = 0 then (.badRequest, w)
  else
    let request := queryRequest id r.host (clientIP parseIP r) (fqdn query) (typeOf type)
    match Server.resolve env chain request w with
    | (none, _, w') => (.serverError, w')
    | (some m, _, w') =>
      (.result m.rcode (answerToString privacy p m.answer) (responseInfo p (chain request w).1).1
        (responseInfo p (chain request w).1).2, w')

end Verif.Http
