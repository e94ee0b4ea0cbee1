/-
Model of the goroutines that load lists and hosts files: /repo/lists/list_cache.go 116-216 (`refresh`,
`createCacheForGroup`) and /repo/resolver/hosts_file_resolver.go 158-210 (`loadSources`), with the parts of
`parseFile` (list_cache.go 219-279, hosts_file_resolver.go 212-245) and `parsers.ForEach` (parser.go 33-57) that
they run.

Contract of github.com/ThinkChaos/parcour (its code is not in the repository): a job given to `Go` runs in its own
goroutine; a job of a group with a limit waits there until fewer than `limit` of the group's jobs run; a group's
context is cancelled after the first error of one of its jobs; a producer that still waits, or opens its source,
may then end with the error of the context; the channel holds up to `cap` values; it is closed when all producers
have ended; `Wait` returns after producers and consumer, with the first error. Whether the failure of one group's
source is seen by the other groups is left open: it may be.
-/
import Verif.Model.ListCache
import Verif.Model.HostsFile

namespace Verif.Refreshing
open Lists

/-- A source as one producer sees it: the error of opening it, what the parser gives line by line, the error at
its end; `lenient` for lists, where an error after the first entry is forgotten (list_cache.go 266-272; hosts files
return it, hosts_file_resolver.go 187-190). -/
structure Src (α : Type) where
  openErr : Option SrcErr := none
  lines : List (List α)
  endErr : Option SrcErr := none
  lenient : Bool := true

/-- list_cache.go 260-276, parser.go 38-44: what a producer returns after `count` entries, if the parser or the
context gave `err`. -/
def outcome {α : Type} (s : Src α) (count : Nat) (err : Option SrcErr) : Option SrcErr :=
  if s.lenient ∧ count ≠ 0 then none else err

/-- Where a producer is: waiting for its turn, in `opener.Open`, with `line` (the rest of a parsed line) on its way
to the channel and `lines` not parsed, or at its end. -/
inductive Phase (α : Type) where
  | waiting
  | opening
  | reading (line : List α) (lines : List (List α))
  | ended (err : Option SrcErr)

/-- A producer (list_cache.go 169-182, hosts_file_resolver.go 177-194); `sent` is what it has put on the channel. -/
structure Thread (α : Type) where
  group : Str
  src : Src α
  phase : Phase α := .waiting
  sent : List α := []

/-- A producer that has its turn. -/
def Thread.running {α : Type} (t : Thread α) : Bool :=
  match t.phase with
  | .opening => true
  | .reading _ _ => true
  | _ => false

/-- A producer that returned an error. -/
def Thread.failed {α : Type} (t : Thread α) : Bool :=
  match t.phase with
  | .ended (some _) => true
  | _ => false

/-- All producers; the values in the groups' channels, and those the groups' consumers took, both with the group
they belong to and in order; the errors in the order in which they came. -/
structure State (α : Type) where
  threads : List (Thread α)
  chan : List (Str × α) := []
  taken : List (Str × α) := []
  errs : List (Str × SrcErr) := []

/-- What happens next: producer `i` gets its turn, opens its source, has the parser parse a line (or meet the end),
sends a value, sees that the context is cancelled; the consumer of group `g` takes a value. -/
inductive Move where
  | start (i : Nat)
  | openSource (i : Nat)
  | next (i : Nat)
  | send (i : Nat)
  | stop (i : Nat)
  | take (g : Str)

/-- Producer `i` becomes `t`. -/
def State.put {α : Type} (st : State α) (i : Nat) (t : Thread α) : State α :=
  { st with threads := st.threads.set i t }

/-- Producer `i`, which was `t`, returns. -/
def State.finish {α : Type} (st : State α) (i : Nat) (t : Thread α) (err : Option SrcErr) : State α :=
  { st with
    threads := st.threads.set i { t with phase := .ended err }
    errs := st.errs ++ (err.map (fun e => (t.group, e))).toList }

/-- One move; `none`: it cannot happen now. `limit` is `loading.concurrency`, `cap` the size of the channels (1000:
list_cache.go 22, hosts_file_resolver.go 23). -/
def step {α : Type} (limit cap : Nat) (st : State α) : Move → Option (State α)
  | .start i =>
    match st.threads[i]? with
    | some t =>
      match t.phase with
      | .waiting => if st.threads.countP Thread.running < limit then some (st.put i { t with phase := .opening }) else none
      | _ => none
    | none => none
  | .openSource i =>
    match st.threads[i]? with
    | some t =>
      match t.phase with
      | .opening =>
        match t.src.openErr with
        | some e => some (st.finish i t (some e))
        | none => some (st.put i { t with phase := .reading [] t.src.lines })
      | _ => none
    | none => none
  | .next i =>
    match st.threads[i]? with
    | some t =>
      match t.phase with
      | .reading [] (l :: ls) => some (st.put i { t with phase := .reading l ls })
      | .reading [] [] => some (st.finish i t (outcome t.src t.sent.length t.src.endErr))
      | _ => none
    | none => none
  | .send i =>
    match st.threads[i]? with
    | some t =>
      match t.phase with
      | .reading (x :: l) ls =>
        if st.chan.countP (fun p => p.1 = t.group) < cap then
          some { st.put i { t with phase := .reading l ls, sent := t.sent ++ [x] } with chan := st.chan ++ [(t.group, x)] }
        else none
      | _ => none
    | none => none
  | .stop i =>
    if st.threads.any Thread.failed then
      match st.threads[i]? with
      | some t =>
        match t.phase with
        | .waiting => some (st.finish i t (some .other))
        | .opening => some (st.finish i t (some .other))
        | .reading [] _ => some (st.finish i t (outcome t.src t.sent.length (some .other)))
        | _ => none
      | none => none
    else none
  | .take g =>
    match st.chan.find? (fun p => p.1 = g) with
    | some p => some { st with chan := st.chan.eraseP (fun p => p.1 = g), taken := st.taken ++ [p] }
    | none => none

/-- Moves one after the other; `none` if one of them could not happen. -/
def run {α : Type} (limit cap : Nat) (st : State α) : List Move → Option (State α)
  | [] => some st
  | m :: ms => match step limit cap st m with
    | some st' => run limit cap st' ms
    | none => none

/-- The beginning: each source of each group has its producer. -/
def start {α : Type} (sources : List (Str × Src α)) : State α :=
  { threads := sources.map (fun s => { group := s.1, src := s.2 }) }

/-- `Wait` returns: all producers have ended, the channels are empty. -/
def State.done {α : Type} (st : State α) : Bool :=
  st.threads.all (fun t => match t.phase with | .ended _ => true | _ => false) && st.chan.isEmpty

/-- What the consumer of a group got, in order. -/
def State.received {α : Type} (st : State α) (g : Str) : List α :=
  (st.taken.filter (fun p => p.1 = g)).map (·.2)

/-- What `Wait` returns for a group: the first error. -/
def State.err {α : Type} (st : State α) (g : Str) : Option SrcErr :=
  ((st.errs.filter (fun p => p.1 = g)).map (·.2)).head?

/-- A source of a list as its producer sees it (list_cache.go 219-279). -/
def ofList (env : Parsers.Env) (limit : Option Nat) : SourceState → Src Str
  | .openFails e => { openErr := some e, lines := [] }
  | .opened s =>
    let r := Parsers.parseSource (Parsers.unmarshalHosts env) limit s
    { lines := r.1.map (·.map (canonHost env)), endErr := if r.2.isSome then some .other else none }

/-- list_cache.go 184-216: what becomes of a group when its producers and its consumer have ended. -/
def accept (E : StringCache.RegexEngine) (c : StringCache.Caches E) (st : State Str) (g : Str) : Option (StringCache.Caches E) :=
  createCacheForGroup E c g (st.received g) (st.err g)

/-- hosts_file_resolver.go 196-209: what becomes of the hosts. -/
def acceptHosts (st : State HostsFile.Entry) (old : HostsFile.Hosts) : HostsFile.Hosts :=
  HostsFile.load (st.err []).isSome (st.received []) old

end Verif.Refreshing
