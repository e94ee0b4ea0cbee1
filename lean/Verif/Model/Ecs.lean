/-
Model of /repo/resolver/ecs_resolver.go and of /repo/config/ecs.go `IsEnabled`. Logging is left out.
-/
import Verif.Model.Edns

namespace Verif.Ecs
open Dns

/-- config/ecs.go 47-52 `ECS`. The masks are `uint8`; `UnmarshalText` (ecs.go 19-44, 70-83) accepts at
most 32 and 128. -/
structure Cfg where
  useAsClient : Bool := false
  forward : Bool := false
  ipv4Mask : Nat := 0
  ipv6Mask : Nat := 0

/-- config/ecs.go 55-57. -/
def Cfg.isEnabled (c : Cfg) : Bool := c.useAsClient || c.forward || c.ipv4Mask > 0 || c.ipv6Mask > 0

/-- `net.ParseCIDR` of "address/bits": the network's address; `none` is an error (more bits than the
address has). An IPv4-mapped address is printed as an IPv4 address. -/
def networkOf : IP → Nat → Option IP
  | .v4 a, n => if n ≤ 32 then some (.v4 (a &&& (BitVec.allOnes 32 <<< (32 - n)))) else none
  | .v6 a, n => if n ≤ 128 then some (.v6 (a &&& (BitVec.allOnes 128 <<< (128 - n)))) else none

/-- ecs_resolver.go 107-111 `maskIP`: on an error `mip` is nil, and `mip.IP` panics (`none`). -/
def maskIP (ip : IP) (mask : Nat) : Option IP := networkOf ip mask

/-- ecs_resolver.go 82-88: the address the option is made from. -/
def subnetSource (cfg : Cfg) (so : Option (Option IP)) (clientIP : Option IP) : Option IP :=
  match so with
  | some (some addr) => if cfg.forward then some addr else clientIP
  | _ => clientIP

/-- ecs_resolver.go 90-100: the new option, if any; outer `none` is a panic. `To4` is non-nil exactly
for IPv4 addresses, `To16` for all addresses. -/
def newOption (cfg : Cfg) : Option IP → Option (Option EOption)
  | none => some none
  | some (.v4 a) =>
    if cfg.ipv4Mask > 0 then
      match maskIP (.v4 a) cfg.ipv4Mask with
      | some m => some (some (.subnet 1 cfg.ipv4Mask 0 (some m)))
      | none => none
    else if cfg.ipv6Mask > 0 then
      match maskIP (.v4 a) cfg.ipv6Mask with
      | some m => some (some (.subnet 2 cfg.ipv6Mask 0 (some m)))
      | none => none
    else some none
  | some (.v6 a) =>
    if cfg.ipv6Mask > 0 then
      match maskIP (.v6 a) cfg.ipv6Mask with
      | some m => some (some (.subnet 2 cfg.ipv6Mask 0 (some m)))
      | none => none
    else some none

/-- ecs_resolver.go 58-63: the client address for the rest of the chain. -/
def effectiveClient (cfg : Cfg) (so : Option EOption) (clientIP : Option IP) : Option IP :=
  match so with
  | some (.subnet family netmask _ addr) =>
    if cfg.useAsClient && ((family == 1 && netmask == 32) || (family == 2 && netmask == 128)) then addr
    else clientIP
  | _ => clientIP

/-- The address of a subnet option. -/
def optionAddress : Option EOption → Option (Option IP)
  | some (.subnet _ _ _ addr) => some addr
  | _ => none

/-- ecs_resolver.go 51-77: the request given to the next resolver; `none` is a panic. -/
def transform (cfg : Cfg) (request : Request) : Option Request :=
  if cfg.isEnabled then
    let so := getEdns0Option request.req 8
    let request := { request with clientIP := effectiveClient cfg so request.clientIP }
    if cfg.ipv4Mask > 0 || cfg.ipv6Mask > 0 then
      match newOption cfg (subnetSource cfg (optionAddress so) request.clientIP) with
      | none => none
      | some none => some request
      | some (some o) => some { request with req := setEdns0Option request.req o }
    else if so.isSome && !cfg.forward then some { request with req := removeEdns0Option request.req 8 }
    else some request
  else some request

/-- ecs_resolver.go 51-77 `Resolve`. -/
def ecs {W : Type} (cfg : Cfg) (next : Resolver W) : Resolver W := fun request w =>
  match transform cfg request with
  | some r => next r w
  | none => (.panic, w)

end Verif.Ecs
