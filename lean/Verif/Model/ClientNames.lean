/-
Model of /repo/resolver/client_names_resolver.go. Logging and contexts are left out.
-/
import Verif.Model.Dns
import Verif.Model.ExpCache

namespace Verif.ClientNames
open Dns ExpCache

/-- config/client_lookup.go as far as used, and the resolver's surroundings. `mapping` is the configured
map in the order Go iterates it; `order` is `SingleNameOrder`; `ipString` is `net.IP.String`. -/
structure Cfg where
  mapping : List (Str × List IP)
  order : List Nat
  ipString : IP → Str

/-- The external resolver asked for an address's reverse name: the answer section, or `none` for an
error. -/
abbrev Lookup (W : Type) := IP → W → Option (List RR) × W

/-- client_names_resolver.go 148-158 `getNameFromIPMapping`. -/
def fromMapping (cfg : Cfg) (ip : IP) : List Str :=
  cfg.mapping.flatMap (fun e => (e.2.filter (fun i => cfg.ipString ip == cfg.ipString i)).map (fun _ => e.1))

/-- client_names_resolver.go 97-110 `extractClientNamesFromAnswer`. -/
def fromAnswer (cfg : Cfg) (answer : List RR) (ip : IP) : List Str :=
  let names := answer.filterMap (fun r => match r.data with | .ptr t => some (trimSuffixDot t) | _ => none)
  if names.length = 0 then [cfg.ipString ip] else names

/-- client_names_resolver.go 133-142: the first usable position of `SingleNameOrder`; no names if there is
none. -/
def pickName (names : List Str) : List Nat → List Str
  | [] => []
  | i :: rest =>
    if i > 0 then
      match names[i - 1]? with
      | some n => [n]
      | none => pickName names rest
    else pickName names rest

/-- client_names_resolver.go 112-146 `resolveClientNames`; `lookup` is `none` without a configured
upstream. -/
def resolveClientNames {W : Type} (cfg : Cfg) (lookup : Option (Lookup W)) (ip : IP) (w : W) : List Str × W :=
  if (fromMapping cfg ip).length > 0 then (fromMapping cfg ip, w)
  else
    match lookup with
    | none => ([cfg.ipString ip], w)
    | some ask =>
      match ask ip w with
      | (none, w) => ([cfg.ipString ip], w)
      | (some answer, w) =>
        if cfg.order.length > 0 then (pickName (fromAnswer cfg answer ip) cfg.order, w)
        else (fromAnswer cfg answer ip, w)

/-- One hour in nanoseconds. -/
def hour : Int := 3600000000000

/-- client_names_resolver.go 72-95 `getClientNames`; the cache and the clock are the state. (The cached
slice is given out by the first call and copied by the later ones; nobody writes to it.) -/
def getClientNames {W : Type} (cfg : Cfg) (lookup : Option (Lookup W)) (request : Request) (c : St (List Str)) (w : W) :
    List Str × St (List Str) × W :=
  if request.requestClientID ≠ [] then ([request.requestClientID], c, w)
  else
    match request.clientIP with
    | none => ([], c, w)
    | some ip =>
      match c.cache.get c.now (cfg.ipString ip) with
      | (some (names, _), cache) => (names, { c with cache := cache }, w)
      | (none, cache) =>
        let (names, w) := resolveClientNames cfg lookup ip w
        (names, step { c with cache := cache } (.put (cfg.ipString ip) names hour), w)

/-- client_names_resolver.go 62-69 `Resolve`: the request the next resolver gets. -/
def withNames {W : Type} (cfg : Cfg) (lookup : Option (Lookup W)) (request : Request) (c : St (List Str)) (w : W) :
    Request × St (List Str) × W :=
  let (names, c, w) := getClientNames cfg lookup request c w
  ({ request with clientNames := names }, c, w)

end Verif.ClientNames
