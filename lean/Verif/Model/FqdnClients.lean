/-
Model of the client identifiers that are domain names: /repo/resolver/blocking_resolver.go 155-169, 485-494,
580-633. The cache is `Model/ExpCache`, the use of its content in the choice of groups is `Model/Blocking`.
-/
import Verif.Model.Blocking
import Verif.Model.ExpCache

namespace Verif.FqdnClients
open Dns ExpCache

/-- What the rest of the chain answers to a question for a name and a type; `none` is an error. -/
abbrev Ask := Str → Nat → Option Msg

/-- blocking_resolver.go 595-606: the loop over the records of one successful answer; the lifetime (ns) is
that of the last record seen. -/
def collect : List RR → List IP × Int → List IP × Int
  | [], acc => acc
  | r :: rs, (ips, _) =>
    let ttl : Int := r.ttl.toNat * 1000000000
    match r.data with
    | .a ip => collect rs (ips ++ [ip], ttl)
    | .aaaa ip => collect rs (ips ++ [ip], ttl)
    | _ => collect rs (ips, ttl)

/-- blocking_resolver.go 589-608: the loop over the two types. -/
def collectTypes (ask : Ask) (name : Str) : List Nat → List IP × Int → List IP × Int
  | [], acc => acc
  | t :: ts, acc =>
    match ask name t with
    | some m => collectTypes ask name ts (if m.rcode = rcodeSuccess then collect m.answer acc else acc)
    | none => collectTypes ask name ts acc

/-- blocking_resolver.go 580-616 `queryForFQIdentifierIPs` (`util.NewMsgWithQuestion` makes the name fully
qualified). The result is never `nil`. -/
def queryForFQIdentifierIPs (ask : Ask) (identifier : Str) : List IP × Int :=
  collectTypes ask (fqdn identifier) [typeA, typeAAAA] ([], 0)

/-- blocking_resolver.go 618-627 `initFQDNIPCache`; `identifiers` are the keys of the configuration in the
order of Go's map. Simplification: the look-ups take no time. -/
def initFQDNIPCache (ask : Ask) (identifiers : List Str) (s : St (List IP)) : St (List IP) :=
  (identifiers.filter Blocking.isFQDN).foldl (fun s i =>
    step s (.put i (queryForFQIdentifierIPs ask i).1 (queryForFQIdentifierIPs ask i).2)) s

/-- blocking_resolver.go 155-159: the cache's clean-up with the look-up as callback (expiration_cache.go
113-141; atomic here, the other accesses only read). -/
def cleanUpFQDN (ask : Ask) (s : St (List IP)) : St (List IP) :=
  cleanUp s (fun k => some (queryForFQIdentifierIPs ask k))

/-- What happens to the cache after the start: clean-ups (every five seconds; the answers may be different every
time), look-ups by queries, time passing. -/
inductive Event where
  | cleanUp (ask : Ask)
  | get (identifier : Str)
  | tick (ms : Nat)

/-- One event. -/
def next (s : St (List IP)) : Event → St (List IP)
  | .cleanUp ask => cleanUpFQDN ask s
  | .get i => step s (.get i)
  | .tick d => step s (.tick d)

/-- The cache after the start (when every look-up was answered as `ask` says) and the events that followed.
(expiration_cache.go 58, 76-79: capacity 10000.) -/
def after (identifiers : List Str) (t0 : Int) (ask : Ask) (es : List Event) : St (List IP) :=
  es.foldl next (initFQDNIPCache ask identifiers ⟨newCache 0, t0⟩)

/-- blocking_resolver.go 487: what a query reads. -/
def known (s : St (List IP)) (identifier : Str) : Option (List IP) :=
  (s.cache.peek identifier).map Element.val

end Verif.FqdnClients
