/-
Model of /repo/resolver/blocking_resolver.go.

Left out: logging, metrics events, publishing to redis (its own model), construction.
-/
import Verif.Base.Sort
import Verif.Model.ListCache
import Verif.Model.Caching

namespace Verif.Blocking
open Dns StringCache

/-- The Go library functions the resolver relies on: `net.IP.String`, `util.CidrContainsIP`
(common.go 207-214), `filepath.Match` on lower-cased arguments (common.go 217-221). -/
structure Env where
  ipString : Option IP → Str
  cidrContains : Str → Option IP → Bool
  globMatch : Str → Str → Bool

/-- common.go 217-221 `ClientNameMatchesGroupName`. -/
def Env.nameMatches (env : Env) (group clientName : Str) : Bool :=
  env.globMatch (lower group) (lower clientName)

/-- blocking_resolver.go 526-540, the block handlers. -/
inductive Handler where
  | zeroIP (ttl : UInt32)
  | nxDomain
  | ips (destinations : List IP) (ttl : UInt32)
  deriving DecidableEq, Repr

/-- config/blocking.go 11-17 as far as the resolver uses it; Go maps as lists of pairs in the order in
which the map happens to be iterated. -/
structure BCfg where
  /-- groups with denylists -/
  denyGroups : List Str := []
  /-- groups with allowlists and the number of sources -/
  allowGroups : List (Str × Nat) := []
  clientGroupsBlock : List (Str × List Str) := []
  blockType : Str := str! "ZEROIP"
  /-- nanoseconds -/
  blockTTL : Int := 21600000000000

/-- Go `strings.EqualFold` (ASCII). -/
def equalFold (a b : Str) : Bool := lower a == lower b

/-- blocking_resolver.go 34-70 `createBlockHandler`; `parseIP` is `net.ParseIP`. -/
def createBlockHandler (parseIP : Str → Option IP) (c : BCfg) : Option Handler :=
  if equalFold c.blockType (str! "NXDOMAIN") then some .nxDomain
  else
    let ttl := Caching.secondsU32 c.blockTTL
    if equalFold c.blockType (str! "ZEROIP") then some (.zeroIP ttl)
    else
      let ips := (splitChar ',' c.blockType).filterMap (fun part => parseIP (trimSpace part))
      if ips.length > 0 then some (.ips ips ttl) else none

/-- Go map update `m[k] = append(m[k], v...)` when present, `m[k] = v` otherwise
(blocking_resolver.go 103-108). -/
def appendGroups (m : AMap Str (List Str)) (k : Str) (gs : List Str) : AMap Str (List Str) :=
  match m.get k with
  | some old => m.put k (old ++ gs)
  | none => m.put k gs

/-- blocking_resolver.go 98-113 `clientGroupsBlock`. -/
def clientGroupsBlock (c : BCfg) : AMap Str (List Str) :=
  c.clientGroupsBlock.foldl (fun m e =>
    (splitChar ',' (lower e.1)).foldl (fun m part => appendGroups m part e.2) m) []

/-- blocking_resolver.go 315-327 `determineAllowlistOnlyGroups`. -/
def allowlistOnlyGroups (c : BCfg) : List Str :=
  (c.allowGroups.filter (fun e => decide (e.2 > 0) && !c.denyGroups.contains e.1)).map Prod.fst

/-- blocking_resolver.go 210-217 `retrieveAllBlockingGroups`. -/
def retrieveAllBlockingGroups (c : BCfg) : List Str := sortStr (c.denyGroups ++ [str! "default"])

/-! ### Answers -/

/-- `net.IPv4zero`, `net.IPv6zero`. -/
def zero4 : IP := .v4 0
def zero6 : IP := .v6 0

/-- common.go 75-97 `CreateAnswerFromQuestion` for A and AAAA questions. -/
def createAnswer (q : Question) (ip : IP) (ttl : UInt32) : RR :=
  { name := q.name, rtype := q.qtype, cls := 1, ttl := ttl,
    data := if q.qtype = typeA then .a ip else .aaaa ip }

/-- blocking_resolver.go 542-559 `zeroIPBlockHandler.handleBlock`. -/
def handleZeroIP (ttl : UInt32) (q : Question) (m : Msg) : Msg :=
  if q.qtype = typeAAAA then { m with answer := m.answer ++ [createAnswer q zero6 ttl] }
  else if q.qtype = typeA then { m with answer := m.answer ++ [createAnswer q zero4 ttl] }
  else { m with rcode := rcodeNXDomain }

/-- `net.IP.To4() != nil`. -/
def isV4 : IP → Bool
  | .v4 _ => true
  | .v6 _ => false

/-- blocking_resolver.go 566-572: the configured addresses of the family asked for. -/
def destinationsFor (dest : List IP) (q : Question) : List IP :=
  dest.filter (fun ip =>
    (decide (q.qtype = typeAAAA) && !isV4 ip) || (decide (q.qtype = typeA) && isV4 ip))

/-- blocking_resolver.go 542-578 `handleBlock` of the three handlers. -/
def Handler.handleBlock : Handler → Question → Msg → Msg
  | .zeroIP ttl, q, m => handleZeroIP ttl q m
  | .nxDomain, _, m => { m with rcode := rcodeNXDomain }
  | .ips dest ttl, q, m =>
    let answers := (destinationsFor dest q).map (fun ip => createAnswer q ip ttl)
    let m1 := { m with answer := m.answer ++ answers }
    if m1.answer.length = 0 then handleZeroIP ttl q m1 else m1

/-- blocking_resolver.go 330-341 `handleBlocked`. -/
def handleBlocked (h : Handler) (request : Request) (q : Question) (reason : Str) : Outcome :=
  .ok { res := h.handleBlock q (({} : Msg).setReply request.req), rtype := .blocked, reason := reason }

/-! ### Groups of a client -/

/-- blocking_resolver.go 72-80 `status` (without the timer, see `Model/BlockingStatus`). -/
structure Status where
  enabled : Bool := true
  disabledGroups : List Str := []

/-- blocking_resolver.go 447-458 `isGroupDisabled`. -/
def isGroupDisabled (s : Status) (g : Str) : Bool := s.disabledGroups.any (fun d => d == g)

/-- blocking_resolver.go 629-633 `isFQDN`. -/
def isFQDN (s : Str) : Bool := (trimDots s).contains '.'

/-- Go `net.IP.Equal` with the client's address (nil equals nothing that is stored). -/
def ipEqual (ip : IP) (client : Option IP) : Bool := client == some ip

/-- Reading a Go map of slices: `nil` when absent. -/
def orEmpty : Option (List Str) → List Str
  | some gs => gs
  | none => []

/-- blocking_resolver.go 465-496: all groups of the matching identifiers. `cgb` is
`clientGroupsBlock`, `fqdnIPs` the content of the cache of resolved identifiers. -/
def matchedGroups (env : Env) (cgb : AMap Str (List Str)) (fqdnIPs : Str → Option (List IP))
    (request : Request) : List Str :=
  (request.clientNames.flatMap (fun n => cgb.flatMap (fun e =>
    if env.nameMatches e.1 n then e.2 else []))) ++
  orEmpty (cgb.get (env.ipString request.clientIP)) ++
  (cgb.flatMap (fun e =>
    if env.cidrContains e.1 request.clientIP then e.2
    else if isFQDN e.1 then
      match fqdnIPs e.1 with
      | some ips => (ips.filter (fun ip => ipEqual ip request.clientIP)).flatMap (fun _ => e.2)
      | none => []
    else []))

/-- blocking_resolver.go 461-514 `groupsToCheckForClient`. -/
def groupsToCheck (env : Env) (cgb : AMap Str (List Str)) (fqdnIPs : Str → Option (List IP))
    (s : Status) (request : Request) : List Str :=
  let matched := matchedGroups env cgb fqdnIPs request
  let groups := if matched.length = 0 then orEmpty (cgb.get (str! "default")) else matched
  sortStr (groups.filter (fun g => !isGroupDisabled s g))

/-! ### The decision -/

/-- Everything `Resolve` reads. -/
structure BState (E : RegexEngine) where
  handler : Handler
  deny : Caches E
  allow : Caches E
  allowOnly : List Str
  cgb : AMap Str (List Str)
  status : Status := {}
  fqdnIPs : Str → Option (List IP) := fun _ => none

variable {E : RegexEngine}

/-- blocking_resolver.go 516-524 `matches` (list_cache.go `Match`). -/
def «matches» (groups : List Str) (m : Caches E) (domain : Str) : List Str :=
  if groups.length > 0 then m.contains E domain groups else []

/-- blocking_resolver.go 354-362 `hasAllowlistOnlyAllowed`. -/
def hasAllowlistOnlyAllowed (b : BState E) (groups : List Str) : Bool :=
  groups.any (fun g => b.allowOnly.contains g)

/-- Result of `handleDenylist`: pass on to the next resolver at once, blocked, or not handled. -/
inductive Handled where
  | allowed
  | blocked (o : Outcome)
  | no

/-- blocking_resolver.go 364-396 `handleDenylist`, the loop over the questions. -/
def handleDenylist (b : BState E) (groups : List Str) (request : Request) : List Question → Handled
  | [] => .no
  | q :: qs =>
    if («matches» groups b.allow (extractDomain q.name)).length > 0 then .allowed
    else if hasAllowlistOnlyAllowed b groups then
      .blocked (handleBlocked b.handler request q (str! "BLOCKED (ALLOWLIST ONLY)"))
    else if («matches» groups b.deny (extractDomain q.name)).length > 0 then
      .blocked (handleBlocked b.handler request q (str! "BLOCKED (" ++
        joinChar ',' («matches» groups b.deny (extractDomain q.name)) ++ str! ")"))
    else handleDenylist b groups request qs

/-- blocking_resolver.go 431-445 `extractEntryToCheckFromResponse`: entry and kind. -/
def extractEntry (env : Env) (rr : RR) : Str × Str :=
  match rr.data with
  | .a ip => (env.ipString (some ip), str! "IP")
  | .aaaa ip => (lower (env.ipString (some ip)), str! "IP")
  | .cname t => (extractDomain t, str! "CNAME")
  | _ => ([], [])

/-- blocking_resolver.go 413-425: the loop over the answer; `none`: nothing blocked. -/
def checkAnswer (env : Env) (b : BState E) (groups : List Str) (request : Request) :
    List RR → Option Outcome
  | [] => none
  | rr :: rrs =>
    let (entry, tName) := extractEntry env rr
    if entry.length > 0 then
      if («matches» groups b.allow entry).length > 0 then checkAnswer env b groups request rrs
      else if («matches» groups b.deny entry).length > 0 then
        match request.req.question with
        | [] => some .panic
        | q :: _ => some (handleBlocked b.handler request q (str! "BLOCKED " ++ tName ++ str! " (" ++
            joinChar ',' («matches» groups b.deny entry) ++ str! ")"))
      else checkAnswer env b groups request rrs
    else checkAnswer env b groups request rrs

/-- blocking_resolver.go 410-428: ask the next resolver and check its answer. -/
def askNext {W : Type} (env : Env) (b : BState E) (groups : List Str) (next : Resolver W)
    (request : Request) (w : W) : Outcome × W :=
  match next request w with
  | (.ok r, w1) =>
    if groups.length > 0 then
      match checkAnswer env b groups request r.res.answer with
      | some o => (o, w1)
      | none => (.ok r, w1)
    else (.ok r, w1)
  | (o, w1) => (o, w1)

/-- blocking_resolver.go 399-429 `Resolve`. -/
def resolve {W : Type} (env : Env) (b : BState E) (next : Resolver W) (request : Request) (w : W) :
    Outcome × W :=
  let groups := groupsToCheck env b.cgb b.fqdnIPs b.status request
  if groups.length > 0 then
    match handleDenylist b groups request request.req.question with
    | .allowed => next request w
    | .blocked o => (o, w)
    | .no => askNext env b groups next request w
  else askNext env b groups next request w

end Verif.Blocking
