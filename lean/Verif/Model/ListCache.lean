/-
Model of /repo/lists/list_cache.go: loading sources into groups.
Logging, metrics events and the worker-pool limits are left out.  The order in which the entries of
the concurrently read sources arrive, and which of several errors is reported, are not determined
by the code: they are parameters (`delivered`, `err`).
-/
import Verif.Model.Parsers
import Verif.Model.StringCache

namespace Verif.Lists
open Parsers StringCache

/-- An error of a source: `TransientError` (downloader.go 77-80, a timeout) or another one. -/
inductive SrcErr where
  | transient
  | other
  deriving DecidableEq, Repr

/-- What opening and reading a source gives (sourcereader.go, downloader.go 56-112). -/
inductive SourceState where
  | openFails (e : SrcErr)
  | opened (s : Source)

/-- Result of one producer: the hosts it put on the channel and the error it returned. -/
structure Run where
  hosts : List Str
  err : Option SrcErr
  deriving DecidableEq

/-- list_cache.go 247-255: addresses are rewritten to the printed form. -/
def canonHost (env : Env) (host : Str) : Str :=
  match env.parseIP host with
  | some s => s
  | none => host

/-- list_cache.go 219-279 `parseFile`; `stopAfter = some k`: the context is cancelled after `k`
parsed lines (another producer failed). An error after at least one host is swallowed (266-272). -/
def parseFile (env : Env) (limit : Option Nat) (stopAfter : Option Nat) : SourceState → Run
  | .openFails e => ⟨[], some e⟩
  | .opened s =>
    let r := parseSource (unmarshalHosts env) limit s
    match stopAfter with
    | none =>
      let hosts := (r.1.flatMap id).map (canonHost env)
      ⟨hosts, if r.2.isSome ∧ hosts = [] then some .other else none⟩
    | some k =>
      let hosts := ((r.1.take k).flatMap id).map (canonHost env)
      ⟨hosts, if hosts = [] then some .other else none⟩

variable (E : RegexEngine)

/-- list_cache.go 186-196: the consumer; `none` when an entry panics. The Boolean is
`hasEntries`. -/
def consume : Factory E → Bool → List Str → Option (Factory E × Bool)
  | f, has, [] => some (f, has)
  | f, has, e :: es => match f.addEntry E e with
    | .panic => none
    | .ok f' b => consume f' (has || b) es

/-- list_cache.go 161-216 `createCacheForGroup` after all producers and the consumer ended with
error `err` (`none`: no error): does the group keep its old content? `none` is a crash. -/
def createCacheForGroup (c : Caches E) (group : Str) (delivered : List Str)
    (err : Option SrcErr) : Option (Caches E) :=
  match consume E {} false delivered with
  | none => none
  | some (f, hasEntries) =>
    match err with
    | none => some (c.finish E group f)
    | some e =>
      if ¬ hasEntries then some c
      else if e = .transient then some c
      else some (c.finish E group f)

/-- One refresh of one group (list_cache.go 116-159 runs this for every group): what arrived and the
error reported. -/
structure Refresh where
  group : Str
  delivered : List Str
  err : Option SrcErr

/-- A history of group refreshes; `none` after a crash. -/
def refreshAll : Caches E → List Refresh → Option (Caches E)
  | c, [] => some c
  | c, r :: rs => match createCacheForGroup E c r.group r.delivered r.err with
    | none => none
    | some c' => refreshAll c' rs

end Verif.Lists
