/-
What the blocking configuration means (specification).
-/
import Verif.Spec.ListEntry
import Verif.Model.Blocking

namespace Verif.Spec
open Dns Blocking
open StringCache (RegexEngine)

/-- The configuration has an entry for the identifier (entries may name several identifiers,
separated by commas; case does not matter) with the groups `gs`. -/
def HasEntry (c : BCfg) (ident : Str) (gs : List Str) : Prop :=
  ∃ e ∈ c.clientGroupsBlock, ident ∈ splitChar ',' (lower e.1) ∧ gs = e.2

/-- An identifier stands for a client: as name pattern (case does not matter), as address, as subnet or as a host name that
resolves to the client's address. -/
def StandsFor (env : Blocking.Env) (fqdnIPs : Str → Option (List IP)) (request : Request) (ident : Str) : Prop :=
  (∃ n ∈ request.clientNames, env.globMatch (lower ident) (lower n) = true) ∨
  ident = env.ipString request.clientIP ∨
  env.cidrContains ident request.clientIP = true ∨
  (isFQDN ident = true ∧ ∃ ips ip, fqdnIPs ident = some ips ∧ ip ∈ ips ∧ request.clientIP = some ip)

/-- A group is assigned to the client by some entry. -/
def Assigned (env : Blocking.Env) (c : BCfg) (fqdnIPs : Str → Option (List IP)) (request : Request) (g : Str) :
    Prop :=
  ∃ ident gs, HasEntry c ident gs ∧ StandsFor env fqdnIPs request ident ∧ g ∈ gs

/-- The groups in effect for a client: those assigned to it, or else the default ones; without the
disabled groups. -/
def Active (env : Blocking.Env) (c : BCfg) (fqdnIPs : Str → Option (List IP)) (disabled : List Str)
    (request : Request) (g : Str) : Prop :=
  g ∉ disabled ∧
  (Assigned env c fqdnIPs request g ∨
    (¬ ∃ g', Assigned env c fqdnIPs request g') ∧ ∃ gs, HasEntry c (str! "default") gs ∧ g ∈ gs)

/-- A group with allowlists but without denylists. -/
def AllowOnly (c : BCfg) (g : Str) : Prop :=
  (∃ n, (g, n) ∈ c.allowGroups ∧ n > 0) ∧ g ∉ c.denyGroups

end Verif.Spec
