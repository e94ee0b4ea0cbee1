/-
Model of reading `bootstrapDns` from the configuration file: /repo/config/config.go 183-221 (`UnmarshalYAML` of `BootstrapDNS` and
`BootstrappedUpstream`), on parsed YAML.

Contract of gopkg.in/yaml.v2 (its code is not in the repository), as used by `UnmarshalStrict` (config.go 554): a scalar is given to the
`UnmarshalText` of the type and is an error for types without; a sequence is read into slices element by element, a mapping into structs key by
key, where unknown and repeated keys are errors; any other combination is an error. Nodes without a value (`null`) are left out here.
-/
import Verif.Model.ConfigText

namespace Verif.BootForms
open Dns

/-- A parsed YAML node. -/
inductive Node where
  | scalar (text : Str)
  | seq (items : List Node)
  | map (fields : List (Str × Node))

/-- What is read by other code: `isIP` is `net.ParseIP(host) != nil`, `readIP` is `net.IP.UnmarshalText`; `direct` reads
a mapping into the fields of an `Upstream` (config/upstream.go 14-20: net, host, port, path, commonname). -/
structure Env where
  isIP : Str → Bool
  readIP : Str → Option IP
  direct : List (Str × Node) → Option UpstreamUrl.Upstream

/-- config.go 207 `unmarshal(&b.Upstream)`, with upstream.go 64-75 `UnmarshalText` for scalars. -/
def upstream (env : Env) : Node → Option UpstreamUrl.Upstream
  | .scalar s => UpstreamUrl.parse env.isIP s
  | .map fields => env.direct fields
  | .seq _ => none

/-- A `[]net.IP`, the type of the field `ips` (config.go 299-302). -/
def addresses (env : Env) : Node → Option (List IP)
  | .seq items => items.mapM (fun n => match n with | .scalar s => env.readIP s | _ => none)
  | _ => none

/-- config.go 213-214 `unmarshal(&c)`: the keys of a mapping one after the other, `u` and `ips` are what has been read so far. -/
def fields (env : Env) : List (Str × Node) → Option UpstreamUrl.Upstream → Option (List IP) → Option ConfigText.BootItem
  | [], u, ips => some ⟨u.getD {}, ips.getD []⟩
  | (k, n) :: rest, u, ips =>
    if k = str! "upstream" then
      match u, upstream env n with
      | none, some x => fields env rest (some x) ips
      | _, _ => none
    else if k = str! "ips" then
      match ips, addresses env n with
      | none, some x => fields env rest u (some x)
      | _, _ => none
    else none

/-- config.go 206-221 `BootstrappedUpstream.UnmarshalYAML`. -/
def item (env : Env) (n : Node) : Option ConfigText.BootItem :=
  match upstream env n with
  | some u => some ⟨u, []⟩
  | none =>
    match n with
    | .map fs => fields env fs none none
    | _ => none

/-- config.go 184-203 `BootstrapDNS.UnmarshalYAML`. -/
def read (env : Env) (n : Node) : Option (List ConfigText.BootItem) :=
  match item env n with
  | some x => some [x]
  | none =>
    match n with
    | .seq items => items.mapM (item env)
    | _ => none

end Verif.BootForms
