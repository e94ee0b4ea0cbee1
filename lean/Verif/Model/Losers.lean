/-
Model of the goroutines of one query: resolver/parallel_best_resolver.go 67-87, 150-215 (the goroutines that ask upstreams and the
channel that they answer to), resolver/strict_resolver.go 75-99, resolver/upstream_resolver.go 193-262 (the two exchanges of one
attempt) and 327-381 (the attempts), together with the one part of the request that changes meanwhile: `request.Req`, which
resolver/rewriter_resolver.go 59-134 replaces for the resolver that it wraps and then puts back.

The query goes through a rewriter with conditional forwarding in it (the inner group of upstreams) and perhaps on to the
next resolver (the next group). Every step of a goroutine is one step of the model. Messages are any type `M`: they are not changed
after the goroutines are started (the change of the name in conditional_upstream_resolver.go 105 comes before).

Of the libraries: net.Dialer and net/http start nothing for a context that is done; miekg/dns `ExchangeContext` looks at the
context while connecting only, so a query that has a connection is written whatever happens; avast/retry-go makes at most the
given number of attempts and another one only after a timeout. The context of the query itself does not end.

Simplifications: for a group with one upstream the code calls it directly, without a channel and without cancelling; here it is a
goroutine too. Retries when the context is done are allowed here (the code does not make them). Which upstreams are chosen
is arbitrary (C22, C23), also what they answer.
-/

namespace Verif.Losers

/-- Where an exchange (one goroutine of `raceClients`, or the only exchange of an encrypted upstream) is: before the connection,
with a connection, with the query written, at its end with or without a complete answer (upstream_resolver.go 222-230). -/
inductive XPos where
  | toDial
  | toSend
  | waiting
  | over (good : Bool)
  deriving DecidableEq, Repr

/-- An exchange: the group and the goroutine it belongs to, its message, whether its attempt is over (the context of
lines 215-216 and 350-351 is done). -/
structure Exchange (M : Type) where
  group : Bool
  asker : Nat
  msg : M
  pos : XPos
  dead : Bool
  deriving DecidableEq, Repr

/-- Where a goroutine that asks an upstream (parallel_best_resolver.go 79-87) is: looking up addresses, about to make an attempt
(with the number of attempts left), waiting for the exchanges of an attempt, about to send its result to the channel, ended. -/
inductive TPos where
  | looking
  | ready (left : Nat)
  | racing (left : Nat) (exchanges : List Nat)
  | done (ok : Bool)
  | ended
  deriving DecidableEq, Repr

/-- A goroutine that asks an upstream; `udp`: the upstream is asked over UDP and TCP. -/
structure Asker where
  group : Bool
  udp : Bool
  pos : TPos
  deriving DecidableEq, Repr

/-- Where the goroutine of the query is: before the rewriter, in a group (`false`: the inner one), returning from it, with the
request as it was, at the end. -/
inductive Phase where
  | fresh
  | inGroup (g : Bool)
  | left (g : Bool)
  | reverted
  | answered
  deriving DecidableEq, Repr

/-- The state: `request.Req`, the contexts of the groups, the goroutines, the channel of each group, whether a result taken from it
was an answer and how many were errors, and what upstreams have been sent (group, goroutine, message). -/
structure State (M : Type) where
  req : M
  phase : Phase
  cancelled : Bool → Bool
  askers : List Asker
  exchanges : List (Exchange M)
  chan : Bool → List Bool
  winner : Bool → Bool
  errors : Bool → Nat
  sent : List (Bool × Nat × M)

/-- Change the entry of a group. -/
def update {A : Type} (f : Bool → A) (g : Bool) (a : A) : Bool → A := fun x => if x = g then a else f x

/-- What an attempt comes to when no exchange has got a complete answer (upstream_resolver.go 249-262, 383-387): a timeout, another
error, a truncated answer. -/
inductive Ending where
  | timeout
  | error
  | truncated
  deriving DecidableEq, Repr

/-- What can happen next. -/
inductive Event where
  | rewrite
  | spawn (udp : Bool)
  | collect
  | leave
  | revert
  | next
  | finish
  | addresses (i : Nat) (ok : Bool)
  | call (i : Nat)
  | judge (i : Nat) (e : Ending)
  | put (i : Nat)
  | dial (j : Nat) (ok : Bool)
  | write (j : Nat) (ok : Bool)
  | read (j : Nat) (good : Bool)
  deriving DecidableEq, Repr

/-- The number of goroutines of a group. -/
def count {M : Type} (s : State M) (g : Bool) : Nat := (s.askers.filter (fun a => a.group == g)).length

/-- upstream_resolver.go 28. -/
def retryAttempts : Nat := 3

/-- upstream_resolver.go 327-381 and 193-230: the steps of asker `i`. -/
def setAsker {M : Type} (s : State M) (i : Nat) (a : Asker) (p : TPos) : State M :=
  { s with askers := s.askers.set i { a with pos := p } }

/-- The position of exchange `j`. -/
def posOf {M : Type} (s : State M) (j : Nat) : Option XPos := (s.exchanges[j]?).map (·.pos)

/-- The deferred `cancel` of an attempt (upstream_resolver.go 216, 351). -/
def kill {M : Type} (xs : List (Exchange M)) (js : List Nat) : List (Exchange M) :=
  xs.mapIdx (fun j x => if j ∈ js then { x with dead := true } else x)

/-- One step; `none`: it cannot happen now. -/
def step {M : Type} (rewritten original : M) (s : State M) : Event → Option (State M)
  | .rewrite => -- rewriter_resolver.go 62-72, parallel_best_resolver.go 163-167
    if s.phase = .fresh then some { s with req := rewritten, phase := .inGroup false } else none
  | .spawn udp => -- parallel_best_resolver.go 169-173, 218; strict_resolver.go 79-82
    match s.phase with
    | .inGroup g =>
      if s.winner g then none else some { s with askers := s.askers ++ [⟨g, udp, .looking⟩] }
    | _ => none
  | .collect => -- parallel_best_resolver.go 192-207
    match s.phase with
    | .inGroup g =>
      match s.chan g with
      | [] => none
      | ok :: rest =>
        some { s with chan := update s.chan g rest,
                      winner := if ok then update s.winner g true else s.winner,
                      errors := if ok then s.errors else update s.errors g (s.errors g + 1) }
    | _ => none
  | .leave => -- parallel_best_resolver.go 175-184 with the deferred `cancel` of 164
    match s.phase with
    | .inGroup g =>
      if s.winner g = true ∨ s.errors g = count s g then
        some { s with phase := .left g, cancelled := update s.cancelled g true }
      else none
    | _ => none
  | .revert => -- rewriter_resolver.go 76
    if s.phase = .left false then some { s with req := original, phase := .reverted } else none
  | .next => -- rewriter_resolver.go 79-96
    if s.phase = .reverted then some { s with phase := .inGroup true } else none
  | .finish =>
    if s.phase = .reverted ∨ s.phase = .left true then some { s with phase := .answered } else none
  | .addresses i ok => -- upstream_resolver.go 330-333
    match s.askers[i]? with
    | some a => if a.pos = .looking then some (setAsker s i a (if ok then .ready retryAttempts else .done false)) else none
    | none => none
  | .call i => -- upstream_resolver.go 345-353, 193-233: `request.Req` is read here
    match s.askers[i]? with
    | some a =>
      match a.pos with
      | .ready (n + 1) =>
        let x : Exchange M := ⟨a.group, i, s.req, .toDial, false⟩
        let k := s.exchanges.length
        some { (setAsker s i a (.racing n (if a.udp then [k, k + 1] else [k]))) with
          exchanges := s.exchanges ++ (if a.udp then [x, x] else [x]) }
      | _ => none
    | none => none
  | .judge i e => -- upstream_resolver.go 235-262, 353-364
    match s.askers[i]? with
    | some a =>
      match a.pos with
      | .racing n js =>
        if js.any (fun j => posOf s j == some (.over true)) then
          some { (setAsker s i a (.done true)) with exchanges := kill s.exchanges js }
        else if js.all (fun j => posOf s j == some (.over false)) then
          some { (setAsker s i a (match e with
            | .timeout => if 0 < n then .ready n else .done false
            | .error => .done false
            | .truncated => .done true)) with
            exchanges := kill s.exchanges js }
        else none
      | _ => none
    | none => none
  | .put i => -- parallel_best_resolver.go 82-86; the channel has room for one result per goroutine (167)
    match s.askers[i]? with
    | some a =>
      match a.pos with
      | .done ok =>
        if (s.chan a.group).length < count s a.group then
          some { (setAsker s i a .ended) with chan := update s.chan a.group (s.chan a.group ++ [ok]) }
        else none
      | _ => none
    | none => none
  | .dial j ok =>
    match s.exchanges[j]? with
    | some x =>
      if x.pos = .toDial then
        some { s with exchanges := s.exchanges.set j { x with
          pos := if ok && !(s.cancelled x.group) && !x.dead then .toSend else .over false } }
      else none
    | none => none
  | .write j ok =>
    match s.exchanges[j]? with
    | some x =>
      if x.pos = .toSend then
        if ok then some { s with exchanges := s.exchanges.set j { x with pos := .waiting },
                                 sent := s.sent ++ [(x.group, x.asker, x.msg)] }
        else some { s with exchanges := s.exchanges.set j { x with pos := .over false } }
      else none
    | none => none
  | .read j good =>
    match s.exchanges[j]? with
    | some x =>
      if x.pos = .waiting then some { s with exchanges := s.exchanges.set j { x with pos := .over good } } else none
    | none => none

/-- Before the rewriter. -/
def start {M : Type} (original : M) : State M where
  req := original
  phase := .fresh
  cancelled := fun _ => false
  askers := []
  exchanges := []
  chan := fun _ => []
  winner := fun _ => false
  errors := fun _ => 0
  sent := []

/-- A sequence of steps. -/
def run {M : Type} (rewritten original : M) (s : State M) : List Event → Option (State M)
  | [] => some s
  | e :: es =>
    match step rewritten original s e with
    | some s' => run rewritten original s' es
    | none => none

end Verif.Losers
