/-
Model of /repo/resolver/hosts_file_resolver.go. Logging and map capacities are left out. Parsing a
file into entries is `Verif.Parsers.hostsFileEntry` / `parseSource`; here entries carry the address
itself (`net.IP`) instead of its printed form.
-/
import Verif.Base.AMap
import Verif.Model.Arpa

namespace Verif.HostsFile
open Dns

/-- lists/parsers/hosts.go 127-133 `HostsFileEntry`. -/
structure Entry where
  ip : IP
  interface : Str := []
  name : Str
  aliases : List Str := []
  deriving DecidableEq

/-- `net.IP.IsLoopback`: 127.0.0.0/8 and ::1. -/
def isLoopback : IP → Bool
  | .v4 a => a.toNat / 2 ^ 24 == 127
  | .v6 a => a == 1

/-- hosts_file_resolver.go 235-250: is the entry kept? -/
def admitted (filterLoopback : Bool) (e : Entry) : Bool :=
  if e.interface.length ≠ 0 then false
  else if filterLoopback && (isLoopback e.ip || e.name == str! "localhost") then false
  else true

/-- hosts_file_resolver.go 294-302 `hostsFileData`, `hostData`. -/
structure Data where
  hosts : AMap Str (IP × List Str) := []
  aliases : AMap Str IP := []

/-- hosts_file_resolver.go 331-333: every alias gets the entry's address. -/
def addAliases (ip : IP) : List Str → AMap Str IP → AMap Str IP
  | [], m => m
  | a :: as, m => addAliases ip as (m.put a ip)

/-- hosts_file_resolver.go 328-334 `add`. -/
def Data.add (d : Data) (e : Entry) : Data :=
  { hosts := d.hosts.put e.name (e.ip, e.aliases), aliases := addAliases e.ip e.aliases d.aliases }

/-- hosts_file_resolver.go 316-326 `getIP`. -/
def Data.getIP (d : Data) (hostname : Str) : Option IP :=
  match d.hosts.get hostname with
  | some (ip, _) => some ip
  | none => d.aliases.get hostname

/-- hosts_file_resolver.go 253-261 `splitHostsFileData`. -/
structure Hosts where
  v4 : Data := {}
  v6 : Data := {}

/-- hosts_file_resolver.go 286-292 `add`. -/
def Hosts.add (h : Hosts) (e : Entry) : Hosts :=
  match e.ip with
  | .v4 _ => { h with v4 := h.v4.add e }
  | .v6 _ => { h with v6 := h.v6.add e }

/-- hosts_file_resolver.go 275-284 `getIP`. -/
def Hosts.getIP (h : Hosts) (qtype : Nat) (domain : Str) : Option IP :=
  if qtype = typeA then h.v4.getIP domain
  else if qtype = typeAAAA then h.v6.getIP domain
  else none

/-- hosts_file_resolver.go 200-206: the consumer. -/
def addAll (es : List Entry) (h : Hosts) : Hosts := es.foldl Hosts.add h

/-- hosts_file_resolver.go 161-216 `loadSources`. `failed`: some source could not be opened or parsed
(`producers.Wait` returns an error and the old data stay); `received`: the kept entries of all sources
in the order in which the consumer receives them. -/
def load (failed : Bool) (received : List Entry) (old : Hosts) : Hosts :=
  if failed then old else addAll received {}

/-- Which of the four map pointers of `r.hosts` a query finds already replaced by a reload. -/
structure Seen where
  hosts4 : Bool
  aliases4 : Bool
  hosts6 : Bool
  aliases6 : Bool

/-- hosts_file_resolver.go 214 `r.hosts = newHosts`, with 141 and 82-85: the assignment of four pointers and the
copying of them by a query are not synchronised, so each of the pointers may be the old or the new one. -/
def torn (old new : Hosts) (s : Seen) : Hosts where
  v4 := { hosts := if s.hosts4 then new.v4.hosts else old.v4.hosts
          aliases := if s.aliases4 then new.v4.aliases else old.v4.aliases }
  v6 := { hosts := if s.hosts6 then new.v6.hosts else old.v6.hosts
          aliases := if s.aliases6 then new.v6.aliases else old.v6.aliases }

/-- The two configuration values. -/
structure Cfg where
  ttl : UInt32
  filterLoopback : Bool

/-- hosts_file_resolver.go 87-104: the first host, in iteration order, with the address. -/
def findHost (ip : IP) : List (Str × (IP × List Str)) → Option (Str × List Str)
  | [] => none
  | (host, (ip', aliases)) :: rest => if ip' = ip then some (host, aliases) else findHost ip rest

/-- hosts_file_resolver.go 66-107 `handleReverseDNS`; `order4`, `order6`: the orders in which Go
iterates over the two maps. -/
def handleReverse (cfg : Cfg) (order4 order6 : List (Str × (IP × List Str))) (request : Request) (q : Question) :
    Option Response :=
  if q.qtype ≠ typePTR then none
  else match Arpa.parse q.name with
    | none => none
    | some ip =>
      if cfg.filterLoopback && isLoopback ip then none
      else
        match findHost ip (match ip with | .v4 _ => order4 | .v6 _ => order6) with
        | none => none
        | some (host, aliases) =>
          some { res := { ({} : Msg).setReply request.req with
                          answer := (host :: aliases).map (fun n =>
                            { name := q.name, rtype := q.qtype, ttl := cfg.ttl, data := .ptr (fqdn n) }) },
                 reason := str! "HOSTS FILE", rtype := .hostsfile }

/-- common.go 75-97 `CreateAnswerFromQuestion` for the types A and AAAA. -/
def createAnswer (q : Question) (ip : IP) (ttl : UInt32) : RR :=
  { name := q.name, rtype := q.qtype, ttl := ttl, data := if q.qtype = typeA then .a ip else .aaaa ip }

/-- hosts_file_resolver.go 109-138 `Resolve`, 140-153 `resolve`. -/
def resolve {W : Type} (enabled : Bool) (cfg : Cfg) (h : Hosts) (order4 order6 : List (Str × (IP × List Str)))
    (next : Resolver W) : Resolver W := fun request w =>
  if !enabled then next request w
  else match request.req.question with
    | [] => (.panic, w)
    | q :: _ =>
      match handleReverse cfg order4 order6 request q with
      | some r => (.ok r, w)
      | none =>
        match h.getIP q.qtype (extractDomain q.name) with
        | some ip =>
          (.ok { res := { ({} : Msg).setReply request.req with answer := [createAnswer q ip cfg.ttl] },
                 reason := str! "HOSTS FILE", rtype := .hostsfile }, w)
        | none => next request w

end Verif.HostsFile
