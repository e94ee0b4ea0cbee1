/-
DNS messages, requests and responses (miekg/dns `Msg`, /repo/model/models.go) and the small message
helpers of miekg/dns and /repo/util the resolvers use.
-/
import Verif.Base.Str

namespace Verif

/-- `net.IP`: an IPv4 (also IPv4-mapped) or IPv6 address. `nil` is `Option.none` where it can
occur. -/
inductive IP where
  | v4 (a : BitVec 32)
  | v6 (a : BitVec 128)
  deriving DecidableEq, Repr

namespace Dns

/-- An EDNS0 option (miekg/dns `EDNS0`). Options other than client subnet (8) and extended error
(15) carry opaque data; decoding a wire message picks the Go type by the code, hence the proof
field. -/
inductive EOption where
  | subnet (family netmask scope : Nat) (addr : Option IP)
  | ede (infoCode : Nat) (text : Str)
  | other (code : Nat) (data : Str) (h : code ≠ 8 ∧ code ≠ 15)
  deriving DecidableEq, Repr

/-- miekg/dns `EDNS0.Option()`. -/
def EOption.code : EOption → Nat
  | .subnet .. => 8
  | .ede .. => 15
  | .other c _ _ => c

/-- Record data; types the resolvers do not look into are opaque. -/
inductive RData where
  | a (ip : IP)
  | aaaa (ip : IP)
  | cname (target : Str)
  | ptr (target : Str)
  | opt (options : List EOption)
  | other (raw : Str)
  deriving DecidableEq, Repr

/-- miekg/dns `RR` with its header. -/
structure RR where
  name : Str
  rtype : Nat
  cls : Nat := 1
  ttl : UInt32
  data : RData
  deriving DecidableEq, Repr

/-- Is the record an OPT record (header type 41 and data of type `*dns.OPT` go together)? -/
def RR.isOpt (r : RR) : Bool := match r.data with | .opt _ => true | _ => false

/-- miekg/dns `Question`. -/
structure Question where
  name : Str
  qtype : Nat
  qclass : Nat := 1
  deriving DecidableEq, Repr

/-- miekg/dns `Msg`. -/
structure Msg where
  id : Nat := 0
  response : Bool := false
  opcode : Nat := 0
  authoritative : Bool := false
  truncated : Bool := false
  recursionDesired : Bool := false
  recursionAvailable : Bool := false
  authenticatedData : Bool := false
  checkingDisabled : Bool := false
  rcode : Nat := 0
  question : List Question := []
  answer : List RR := []
  ns : List RR := []
  extra : List RR := []
  deriving DecidableEq, Repr

/-- Response codes. -/
def rcodeSuccess : Nat := 0
def rcodeFormErr : Nat := 1
def rcodeServFail : Nat := 2
def rcodeNXDomain : Nat := 3
def rcodeRefused : Nat := 5

/-- Record types. -/
def typeA : Nat := 1
def typeCNAME : Nat := 5
def typePTR : Nat := 12
def typeTXT : Nat := 16
def typeAAAA : Nat := 28
def typeSRV : Nat := 33
def typeOPT : Nat := 41

/-- miekg/dns `Msg.SetReply`: id, reply bit, opcode, for ordinary queries the RD and CD bits,
success, and (only) the first question of the request. Everything else is kept. -/
def Msg.setReply (m req : Msg) : Msg :=
  { m with
    id := req.id
    response := true
    opcode := req.opcode
    recursionDesired := if req.opcode = 0 then req.recursionDesired else m.recursionDesired
    checkingDisabled := if req.opcode = 0 then req.checkingDisabled else m.checkingDisabled
    rcode := rcodeSuccess
    question := match req.question with
      | [] => m.question
      | q :: _ => [q] }

/-- miekg/dns `Msg.SetRcode`. -/
def Msg.setRcode (m req : Msg) (rcode : Nat) : Msg := { m.setReply req with rcode := rcode }

/-- miekg/dns `Fqdn`: append the final dot unless present. (An escaped final dot, `\.`, is not
treated.) -/
def fqdn (s : Str) : Str := if s.getLast? = some '.' then s else s ++ ['.']

/-- common.go 110-112 `ExtractDomainOnly` (and 105-107 `ExtractDomain`). -/
def extractDomain (name : Str) : Str := trimSuffixDot (lower name)

/-- model/models.go 13-25 `ResponseType`. -/
inductive RType where
  | resolved | cached | blocked | conditional | customdns | hostsfile | filtered | notfqdn | special
  deriving DecidableEq, Repr

/-- model/models.go 57-61 `RequestProtocol`. -/
inductive Proto where
  | tcp | udp
  deriving DecidableEq, Repr

/-- model/models.go 64-71 `Request` (without the time stamp). `internal` is no field of the Go type: it
stands for the identity of the message object and tells whether it is one made by blocky itself for the
target of an alias (custom_dns_resolver.go 262) rather than the client's. -/
structure Request where
  clientIP : Option IP := none
  requestClientID : Str := []
  protocol : Proto := .udp
  clientNames : List Str := []
  req : Msg
  internal : Bool := false
  deriving DecidableEq, Repr

/-- model/models.go 51-55 `Response` with a message. -/
structure Response where
  res : Msg
  reason : Str := []
  rtype : RType := .resolved
  deriving DecidableEq, Repr

/-- What calling a resolver's `Resolve` can lead to: a response, the `NoResponse` value (noop
resolver: a response without message), an error, or a panic. -/
inductive Outcome where
  | ok (r : Response)
  | noResponse
  | err (e : Str)
  | panic
  deriving DecidableEq, Repr

/-- A resolver: it may depend on and change a world `W` (sockets, caches, clocks, …). -/
abbrev Resolver (W : Type) := Request → W → Outcome × W

/-- resolver.go 36-46 `newResponse`. -/
def newResponse (request : Request) (rcode : Nat) (rtype : RType) (reason : Str) : Response :=
  { res := { ({} : Msg).setReply request.req with rcode := rcode }, reason := reason, rtype := rtype }

/-- common.go 115-120 `NewMsgWithQuestion` (miekg `SetQuestion`: recursion desired, one question of
class IN, a random id, here a parameter). -/
def newMsgWithQuestion (id : Nat) (name : Str) (qtype : Nat) : Msg :=
  { id := id, recursionDesired := true, question := [{ name := fqdn name, qtype := qtype }] }

end Dns
end Verif
