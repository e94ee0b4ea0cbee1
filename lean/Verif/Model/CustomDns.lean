/-
Model of /repo/resolver/custom_dns_resolver.go.

The context is never cancelled (lines 120-122).  `newRequestWithClientID` prints and parses the client
address again, which gives the same address.
-/
import Verif.Base.AMap
import Verif.Model.Dns
import Verif.Model.Walk

namespace Verif.CustomDns
open Dns

variable {W : Type}

/-- config/custom_dns.go 14-20 and the library functions: miekg/dns `ReverseAddr` of a printed
address; the ids of new messages (random in Go; here any function of the aliases followed). -/
structure Env where
  filterUnmappedTypes : Bool
  customTTL : UInt32
  reverseAddr : IP → Str
  newId : List Str → Nat

/-- config/custom_dns.go 23-24 `CustomDNSMapping`: the records of each name, in configuration order. -/
abbrev Mapping := AMap Str (List RR)

/-- custom_dns_resolver.go 36-43: the entries of the simple mapping get the configured TTL. -/
def addMapping (ttl : UInt32) : List (Str × List RR) → Mapping → Mapping
  | [], m => m
  | (url, entries) :: rest, m =>
    addMapping ttl rest (m.put (extractDomain url) (entries.map (fun e => { e with ttl := ttl })))

/-- custom_dns_resolver.go 45-48: the entries of the zone replace those of the simple mapping. -/
def addZone : List (Str × List RR) → Mapping → Mapping
  | [], m => m
  | (url, entries) :: rest, m => addZone rest (m.put (extractDomain url) entries)

/-- custom_dns_resolver.go 33-48: the records of the resolver; the lists are the configured maps in the
order Go iterates them. -/
def dnsRecords (ttl : UInt32) (mapping zone : List (Str × List RR)) : Mapping :=
  addZone zone (addMapping ttl mapping [])

/-- The address of an A or AAAA record. -/
def addressOf (e : RR) : Option IP :=
  match e.data with
  | .a ip => some ip
  | .aaaa ip => some ip
  | _ => none

/-- custom_dns_resolver.go 53-68: the reverse names of the addresses of one name's records. -/
def addReverse (env : Env) (url : Str) : List RR → AMap Str (List Str) → AMap Str (List Str)
  | [], m => m
  | e :: es, m =>
    match addressOf e with
    | some ip =>
      addReverse env url es
        (m.put (env.reverseAddr ip) (((AMap.get m (env.reverseAddr ip)).getD []) ++ [url]))
    | none => addReverse env url es m

/-- custom_dns_resolver.go 50-68: the map of reverse names; the list is the map of records in the order
Go iterates it. -/
def reverseAddresses (env : Env) : List (Str × List RR) → AMap Str (List Str) → AMap Str (List Str)
  | [], m => m
  | (url, entries) :: rest, m => reverseAddresses env rest (addReverse env url entries m)

/-- custom_dns_resolver.go 80-83 `isSupportedType`. -/
def isSupportedType (ip : IP) (q : Question) : Bool :=
  match ip with
  | .v4 _ => q.qtype == typeA
  | .v6 _ => q.qtype == typeAAAA

/-- common.go 75-97 `CreateAnswerFromQuestion`, for the two types it is used with here. -/
def createAnswer (q : Question) (ip : IP) (ttl : UInt32) : RR :=
  { name := q.name, rtype := q.qtype, ttl := ttl, data := if q.qtype = typeA then .a ip else .aaaa ip }

/-- What processing an entry or a list of entries gives. -/
inductive Entry where
  | ok (rrs : List RR)
  | err (e : Str)
  | panic
  deriving DecidableEq

/-- custom_dns_resolver.go 200-213 `processIP`. -/
def processIP (ip : IP) (q : Question) (ttl : UInt32) : List RR :=
  if isSupportedType ip q then [createAnswer q ip ttl] else []

/-- custom_dns_resolver.go 215-241 `processTXT`, `processSRV`. -/
def processPlain (e : RR) (q : Question) : List RR :=
  if q.qtype = e.rtype then [{ name := q.name, rtype := e.rtype, ttl := e.ttl, data := e.data }] else []

/-- The request for an alias's target (resolver.go 48-56 `newRequestWithClientID`). -/
def targetRequest (env : Env) (request : Request) (target : Str) (qtype : Nat) (cnames : List Str) : Request :=
  { clientIP := request.clientIP, requestClientID := request.requestClientID, protocol := .udp,
    clientNames := [], req := newMsgWithQuestion (env.newId cnames) target qtype, internal := true }

/-- custom_dns_resolver.go 268: the error of a loop, with the names `fmt` prints for `%v`. -/
def loopError (names : List Str) : Str := str! "CNAME loop detected: [" ++ joinChar ' ' names ++ str! "]"

/-- custom_dns_resolver.go 243-283 `processCNAME`; `recur` is `processRequest`. -/
def processCNAME (env : Env) (recur : Request → List Str → W → Option (Outcome × W)) (request : Request)
    (target : Str) (ttl : UInt32) (resolved : List Str) (q : Question) (w : W) : Option (Entry × W) :=
  let cname : RR := { name := q.name, rtype := typeCNAME, ttl := ttl, data := .cname (fqdn target) }
  if q.qtype = typeCNAME then some (.ok [cname], w)
  else if resolved.contains (trimSuffixDot target) then
    some (.err (loopError (resolved ++ [trimSuffixDot target])), w)
  else
    match recur (targetRequest env request (trimSuffixDot target) q.qtype (resolved ++ [trimSuffixDot target]))
        (resolved ++ [trimSuffixDot target]) w with
    | none => none
    | some (.err e, w) => some (.err e, w)
    | some (.panic, w) => some (.panic, w)
    -- `targetResp.Res` is nil
    | some (.noResponse, w) => some (.panic, w)
    | some (.ok r, w) => some (.ok (cname :: r.res.answer), w)

/-- custom_dns_resolver.go 164-185 `processDNSEntry`. -/
def processEntry (env : Env) (recur : Request → List Str → W → Option (Outcome × W)) (request : Request)
    (resolved : List Str) (q : Question) (e : RR) (w : W) : Option (Entry × W) :=
  match e.data with
  | .a ip => some (.ok (processIP ip q e.ttl), w)
  | .aaaa ip => some (.ok (processIP ip q e.ttl), w)
  | .cname target => processCNAME env recur request target e.ttl resolved q w
  | _ =>
    if e.rtype = typeTXT ∨ e.rtype = typeSRV then some (.ok (processPlain e q), w)
    else some (.err (str! "unsupported customDNS RR type"), w)

/-- custom_dns_resolver.go 126-133: the loop over the entries. -/
def processEntries (env : Env) (recur : Request → List Str → W → Option (Outcome × W)) (request : Request)
    (resolved : List Str) (q : Question) : List RR → List RR → W → Option (Entry × W)
  | [], acc, w => some (.ok acc, w)
  | e :: es, acc, w =>
    match processEntry env recur request resolved q e w with
    | none => none
    | some (.ok rrs, w) => processEntries env recur request resolved q es (acc ++ rrs) w
    | some (x, w) => some (x, w)

/-- The response of the custom DNS resolver. -/
def respond (request : Request) (rrs : List RR) : Response :=
  { res := { ({} : Msg).setReply request.req with answer := rrs }, reason := str! "CUSTOM DNS", rtype := .customdns }

/-- custom_dns_resolver.go 108-162 `processRequest`. The first argument bounds the depth of the
recursion; `none` means that it was not enough (theorem `C31_terminates`: the number of aliases plus
one always is). -/
def processRequest (env : Env) (mapping : Mapping) (next : Resolver W) :
    Nat → Request → List Str → W → Option (Outcome × W)
  | 0, _, _, _ => none
  | depth + 1, request, resolved, w =>
    match request.req.question with
    | [] => some (.panic, w)
    | q :: _ =>
      match walk (AMap.get mapping) ((extractDomain q.name).length + 1) (extractDomain q.name) with
      | none => some (next request w)
      | some (_, entries) =>
        match processEntries env (processRequest env mapping next depth) request resolved q entries [] w with
        | none => none
        | some (.err e, w) => some (.err e, w)
        | some (.panic, w) => some (.panic, w)
        | some (.ok rrs, w) =>
          if rrs.length > 0 then some (.ok (respond request rrs), w)
          else if !env.filterUnmappedTypes then some (next request w)
          else some (.ok (respond request []), w)

/-- custom_dns_resolver.go 85-106 `handleReverseDNS`. -/
def handleReverse (env : Env) (reverse : AMap Str (List Str)) (request : Request) (q : Question) :
    Option Response :=
  if q.qtype = typePTR then
    match AMap.get reverse q.name with
    | some urls =>
      some (respond request (urls.map (fun url =>
        { name := q.name, rtype := q.qtype, ttl := env.customTTL, data := .ptr (fqdn url) })))
    | none => none
  else none

/-- custom_dns_resolver.go 188-198 `Resolve`. -/
def resolve (env : Env) (mapping : Mapping) (reverse : AMap Str (List Str)) (next : Resolver W) (depth : Nat)
    (request : Request) (w : W) : Option (Outcome × W) :=
  match request.req.question with
  | [] => some (.panic, w)
  | q :: _ =>
    match handleReverse env reverse request q with
    | some r => some (.ok r, w)
    | none => processRequest env mapping next depth request [] w

end Verif.CustomDns
