/-
Model of blocking (/repo/resolver/blocking_resolver.go 343-524) while lists are refreshed and groups are disabled or enabled
at the same time.

A lookup in a list (/repo/cache/stringcache/chained_grouped_cache.go 28-42, in_memory_grouped_cache.go 46-60) takes the lock of one of the
three caches of one kind of entries for each group separately, and a refresh replaces the three caches of a group one after the other
(chained_grouped_cache.go 78-82, in_memory_grouped_cache.go 62-77). So between any two of these steps anything may change. The groups of
the client are determined under the lock of the status (blocking_resolver.go 461-514), in one step.
-/
import Verif.Model.Blocking

namespace Verif.Live
open Dns StringCache Blocking

variable {E : RegexEngine}

/-- list_cache.go 79-83: the three kinds of caches. -/
inductive Kind where
  | regex
  | wildcard
  | string
  deriving DecidableEq, Repr

/-- What may change while a query is handled: denylists, allowlists and the disabled groups. -/
structure Shared (E : RegexEngine) where
  deny : Caches E := {}
  allow : Caches E := {}
  status : Status := {}

/-- The lists of one type. -/
def Shared.lists (s : Shared E) (allow : Bool) : Caches E := if allow then s.allow else s.deny

/-- in_memory_grouped_cache.go 62-77, 91-94: `Finish` of one of the three factories of a group. -/
def replace (c : Caches E) (kind : Kind) (group : Str) (f : Factory E) : Caches E :=
  match kind with
  | .regex => { c with regex := setOrDelete c.regex group (if f.regex = [] then none else some f.regex) }
  | .wildcard => { c with wildcard := setOrDelete c.wildcard group f.wildcard.create }
  | .string => { c with string := setOrDelete c.string group f.string.create }

/-- A change. -/
inductive Change where
  /-- one kind of entries of a group is replaced by those of a new version of the list -/
  | replace (allow : Bool) (kind : Kind) (group : Str) (entries : List Str)
  /-- blocking is disabled for some groups, or enabled again (blocking_resolver.go 228-294) -/
  | status (s : Status)

/-- The change is made. (The factory of `entries`, list_cache.go 186-196; entries that crash the process, C05, change nothing.) -/
def Shared.after (s : Shared E) : Change → Shared E
  | .replace allow kind group entries =>
    match Factory.addAll E {} entries with
    | none => s
    | some f => if allow then { s with allow := Live.replace s.allow kind group f } else { s with deny := Live.replace s.deny kind group f }
  | .status st => { s with status := st }

/-- chained_grouped_cache.go 78-82: the changes a refresh of a group makes, in this order. -/
def refreshed (allow : Bool) (group : Str) (entries : List Str) : List Change :=
  [.replace allow .regex group entries, .replace allow .wildcard group entries, .replace allow .string group entries]

/-- The state as a query begins, and what changes before each of the steps in which it looks at it. -/
structure Live (E : RegexEngine) where
  now : Shared E
  later : List (List Change) := []

/-- A step: first the changes due, then the query sees the state. -/
def Live.look (l : Live E) : Shared E × Live E :=
  match l.later with
  | [] => (l.now, l)
  | cs :: rest => (cs.foldl Shared.after l.now, ⟨cs.foldl Shared.after l.now, rest⟩)

/-- in_memory_grouped_cache.go 50-56: does the cache of one kind have the name in the group? -/
def has (c : Caches E) (kind : Kind) (group x : Str) : Bool :=
  match kind with
  | .regex => foundContains (regexContains E) x (c.regex.get group)
  | .wildcard => foundContains WildcardFactory.contains x (c.wildcard.get group)
  | .string => foundContains StringMap.contains x (c.string.get group)

/-- in_memory_grouped_cache.go 46-60 `Contains`. -/
def lookKind (allow : Bool) (kind : Kind) (x : Str) : List Str → Live E → List Str × Live E
  | [], l => ([], l)
  | g :: gs, l =>
    match l.look with
    | (s, l) =>
      match lookKind allow kind x gs l with
      | (rest, l) => (if has (s.lists allow) kind g x then g :: rest else rest, l)

/-- chained_grouped_cache.go 28-42 `Contains`, blocking_resolver.go 516-524 `matches`. -/
def look (groups : List Str) (allow : Bool) (x : Str) (l : Live E) : List Str × Live E :=
  match lookKind allow .regex x groups l with
  | (a, l) =>
    match lookKind allow .wildcard x groups l with
    | (b, l) =>
      match lookKind allow .string x groups l with
      | (c, l) => ((a ++ b ++ c).foldl (fun acc g => insertSorted g acc) [], l)

/-- blocking_resolver.go 364-396 `handleDenylist`. The lists and the status of `b` are not used. -/
def handleDenylist (b : BState E) (groups : List Str) (request : Request) : List Question → Live E → Handled × Live E
  | [], l => (.no, l)
  | q :: qs, l =>
    match look groups true (extractDomain q.name) l with
    | (found, l) =>
      if found.length > 0 then (.allowed, l)
      else if hasAllowlistOnlyAllowed b groups then
        (.blocked (handleBlocked b.handler request q (str! "BLOCKED (ALLOWLIST ONLY)")), l)
      else
        match look groups false (extractDomain q.name) l with
        | (found, l) =>
          if found.length > 0 then
            (.blocked (handleBlocked b.handler request q (str! "BLOCKED (" ++ joinChar ',' found ++ str! ")")), l)
          else handleDenylist b groups request qs l

/-- blocking_resolver.go 413-425: the loop over the answer; `none`: nothing blocked. -/
def checkAnswer (env : Env) (b : BState E) (groups : List Str) (request : Request) : List RR → Live E → Option Outcome × Live E
  | [], l => (none, l)
  | rr :: rrs, l =>
    match extractEntry env rr with
    | (entry, tName) =>
      if entry.length > 0 then
        match look groups true entry l with
        | (found, l) =>
          if found.length > 0 then checkAnswer env b groups request rrs l
          else
            match look groups false entry l with
            | (found, l) =>
              if found.length > 0 then
                match request.req.question with
                | [] => (some .panic, l)
                | q :: _ => (some (handleBlocked b.handler request q (str! "BLOCKED " ++ tName ++ str! " (" ++ joinChar ',' found ++ str! ")")), l)
              else checkAnswer env b groups request rrs l
      else checkAnswer env b groups request rrs l

/-- blocking_resolver.go 410-428: ask the next resolver and check its answer. -/
def askNext {W : Type} (env : Env) (b : BState E) (groups : List Str) (next : Resolver W) (request : Request) (w : W) (l : Live E) :
    Outcome × W × Live E :=
  match next request w with
  | (.ok r, w1) =>
    if groups.length > 0 then
      match checkAnswer env b groups request r.res.answer l with
      | (some o, l) => (o, w1, l)
      | (none, l) => (.ok r, w1, l)
    else (.ok r, w1, l)
  | (o, w1) => (o, w1, l)

/-- blocking_resolver.go 399-429 `Resolve`. -/
def resolve {W : Type} (env : Env) (b : BState E) (next : Resolver W) (request : Request) (w : W) (l : Live E) : Outcome × W × Live E :=
  match l.look with
  | (s, l) =>
    let groups := groupsToCheck env b.cgb b.fqdnIPs s.status request
    if groups.length > 0 then
      match handleDenylist b groups request request.req.question l with
      | (.allowed, l) => ((next request w).1, (next request w).2, l)
      | (.blocked o, l) => (o, w, l)
      | (.no, l) => askNext env b groups next request w l
    else askNext env b groups next request w l

end Verif.Live
