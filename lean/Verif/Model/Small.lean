/-
Models of the small resolvers: filtering, FQDN only, no-op, extended DNS errors, special-use domain
names.

A message without questions makes `Question[0]` panic; this is modelled.
-/
import Verif.Base.AMap
import Verif.Model.Edns
import Verif.Model.Walk

namespace Verif.Small
open Dns

variable {W : Type}

/-- filtering_resolver.go 26-36 `Resolve`; `queryTypes` is `cfg.QueryTypes`. -/
def filtering (queryTypes : List Nat) (next : Resolver W) : Resolver W := fun request w =>
  match request.req.question with
  | [] => (.panic, w)
  | q :: _ =>
    if queryTypes.contains q.qtype then
      (.ok { res := ({} : Msg).setRcode request.req rcodeSuccess, rtype := .filtered }, w)
    else next request w

/-- fqdn_only_resolver.go 26-38 `Resolve`. The response is made without `SetReply`: it has id 0, no
question and no reply bit. -/
def fqdnOnly (enable : Bool) (next : Resolver W) : Resolver W := fun request w =>
  if enable then
    match request.req.question with
    | [] => (.panic, w)
    | q :: _ =>
      if !(extractDomain q.name).contains '.' then
        (.ok { res := { rcode := rcodeNXDomain }, reason := str! "NOTFQDN", rtype := .notfqdn }, w)
      else next request w
  else next request w

/-- noop_resolver.go 35-37 `Resolve`. -/
def noop : Resolver W := fun _ w => (.noResponse, w)

/-- model/models.go 24-48 `ToExtendedErrorCode`, as the number of the code in the registry (miekg/dns
`ExtendedErrorCode…`): 0 other, 4 forged answer, 13 cached error, 15 blocked, 17 filtered. -/
def toExtendedErrorCode : RType → Nat
  | .resolved => 0
  | .cached => 13
  | .conditional => 4
  | .customdns => 4
  | .hostsfile => 4
  | .notfqdn => 15
  | .blocked => 15
  | .filtered => 17
  | .special => 17

/-- ede_resolver.go 46-59 `addExtraReasoning`. -/
def addExtraReasoning (r : Response) : Response :=
  if toExtendedErrorCode r.rtype = 0 then r
  else { r with res := setEdns0Option r.res (.ede (toExtendedErrorCode r.rtype) r.reason) }

/-- ede_resolver.go 29-44 `Resolve`. (`NoResponse` has response type RESOLVED, hence is not
touched.) -/
def ede (enable : Bool) (next : Resolver W) : Resolver W := fun request w =>
  if !enable then next request w
  else
    match next request w with
    | (.ok r, w) => (.ok (addExtraReasoning r), w)
    | (o, w) => (o, w)

/-- The handlers of sudn_resolver.go 21-92; `pass` is a `nil` handler. -/
inductive SudnHandler where
  | nxdomain | localhost | pass | appendixG | homeArpa
  deriving DecidableEq, Repr

/-- sudn_resolver.go 21-92 `sudnHandlers`. -/
def sudnHandlers : AMap Str SudnHandler := [
  (str! "10.in-addr.arpa.", .nxdomain),
  (str! "21.172.in-addr.arpa.", .nxdomain),
  (str! "26.172.in-addr.arpa.", .nxdomain),
  (str! "16.172.in-addr.arpa.", .nxdomain),
  (str! "22.172.in-addr.arpa.", .nxdomain),
  (str! "27.172.in-addr.arpa.", .nxdomain),
  (str! "17.172.in-addr.arpa.", .nxdomain),
  (str! "30.172.in-addr.arpa.", .nxdomain),
  (str! "28.172.in-addr.arpa.", .nxdomain),
  (str! "18.172.in-addr.arpa.", .nxdomain),
  (str! "23.172.in-addr.arpa.", .nxdomain),
  (str! "29.172.in-addr.arpa.", .nxdomain),
  (str! "19.172.in-addr.arpa.", .nxdomain),
  (str! "24.172.in-addr.arpa.", .nxdomain),
  (str! "31.172.in-addr.arpa.", .nxdomain),
  (str! "20.172.in-addr.arpa.", .nxdomain),
  (str! "25.172.in-addr.arpa.", .nxdomain),
  (str! "168.192.in-addr.arpa.", .nxdomain),
  (str! "test.", .nxdomain),
  (str! "localhost.", .localhost),
  (str! "invalid.", .nxdomain),
  (str! "example.", .pass),
  (str! "example.com.", .pass),
  (str! "example.net.", .pass),
  (str! "example.org.", .pass),
  (str! "local.", .nxdomain),
  (str! "254.169.in-addr.arpa.", .nxdomain),
  (str! "8.e.f.ip6.arpa.", .nxdomain),
  (str! "9.e.f.ip6.arpa.", .nxdomain),
  (str! "a.e.f.ip6.arpa.", .nxdomain),
  (str! "b.e.f.ip6.arpa.", .nxdomain),
  (str! "intranet.", .appendixG),
  (str! "internal.", .appendixG),
  (str! "private.", .appendixG),
  (str! "corp.", .appendixG),
  (str! "home.", .appendixG),
  (str! "lan.", .appendixG),
  (str! "onion.", .nxdomain),
  (str! "home.arpa.", .homeArpa)]

/-- sudn_resolver.go 124-143 `handler`. (The loop has no test for the empty name; the table has no
empty key, so stopping there is the same.) -/
def sudnHandler (name : Str) : Option SudnHandler :=
  (walk (AMap.get sudnHandlers) (name.length + 1) name).map Prod.snd

/-- sudn_resolver.go 145-147 `newSUDNResponse`. -/
def newSudnResponse (request : Request) (rcode : Nat) : Response :=
  newResponse request rcode .special (str! "Special-Use Domain Name")

/-- sudn_resolver.go 153-180 `sudnLocalhost`. -/
def sudnLocalhost (request : Request) (q : Question) : Response :=
  if q.qtype = typeA then
    { newSudnResponse request rcodeSuccess with
      res := { (newSudnResponse request rcodeSuccess).res with
        answer := [{ name := q.name, rtype := q.qtype, ttl := 0, data := .a (.v4 0x7f000001#32) }] } }
  else if q.qtype = typeAAAA then
    { newSudnResponse request rcodeSuccess with
      res := { (newSudnResponse request rcodeSuccess).res with
        answer := [{ name := q.name, rtype := q.qtype, ttl := 0, data := .aaaa (.v6 1#128) }] } }
  else newSudnResponse request rcodeNXDomain

/-- Query type DS. -/
def typeDS : Nat := 43

/-- config/sudn.go 8-15. -/
structure SudnCfg where
  appendixG : Bool
  enable : Bool

/-- sudn_resolver.go 149-199: call a handler; `none` is a `nil` response. -/
def callSudn (cfg : SudnCfg) (request : Request) (q : Question) : SudnHandler → Option Response
  | .nxdomain => some (newSudnResponse request rcodeNXDomain)
  | .localhost => some (sudnLocalhost request q)
  | .pass => none
  | .appendixG => if !cfg.appendixG then none else some (newSudnResponse request rcodeNXDomain)
  | .homeArpa => if q.qtype = typeDS then none else some (newSudnResponse request rcodeNXDomain)

/-- sudn_resolver.go 107-122 `Resolve`. -/
def sudn (cfg : SudnCfg) (next : Resolver W) : Resolver W := fun request w =>
  if !cfg.enable then next request w
  else
    match request.req.question with
    | [] => (.panic, w)
    | q :: _ =>
      match (sudnHandler q.name).bind (callSudn cfg request q) with
      | some resp => (.ok resp, w)
      | none => next request w

end Verif.Small
