/-
Model of the metrics: the counters of /repo/resolver/metrics_resolver.go and the gauges kept by
/repo/metrics/metrics_event_publisher.go.

Prometheus counters and gauges are updated atomically; the event bus calls its subscribers at once, in the
publishing goroutine. Durations are left out of the histogram (only how often it is fed is modelled).
-/
import Verif.Model.BlockingStatus
import Verif.Model.ExpCache
import Verif.Model.Small

namespace Verif.Metrics
open Dns

variable {W : Type}

/-- Go `strings.Join(…, ",")`. -/
def joinNames : List Str → Str
  | [] => []
  | [s] => s
  | s :: t :: ss => s ++ str! "," ++ joinNames (t :: ss)

/-! Labels must be UTF-8. -/

/-- unicode/utf8 `acceptRanges[0]`: the bytes that go on with a character. -/
def isCont (c : Char) : Bool := 0x80 ≤ c.toNat && c.toNat ≤ 0xBF

/-- unicode/utf8 `first` and `acceptRanges`: may `b` be the second byte of a character of three bytes beginning with `a`? -/
def second3 (a b : Char) : Bool :=
  if a.toNat = 0xE0 then 0xA0 ≤ b.toNat && b.toNat ≤ 0xBF
  else if a.toNat = 0xED then 0x80 ≤ b.toNat && b.toNat ≤ 0x9F
  else 0xE1 ≤ a.toNat && a.toNat ≤ 0xEF && isCont b

/-- The same for four bytes. -/
def second4 (a b : Char) : Bool :=
  if a.toNat = 0xF0 then 0x90 ≤ b.toNat && b.toNat ≤ 0xBF
  else if a.toNat = 0xF4 then 0x80 ≤ b.toNat && b.toNat ≤ 0x8F
  else 0xF1 ≤ a.toNat && a.toNat ≤ 0xF3 && isCont b

/-- unicode/utf8 `ValidString`. -/
def validUtf8 : Str → Bool
  | [] => true
  | a :: s =>
    if a.toNat < 0x80 then validUtf8 s
    else
      match s with
      | [] => false
      | b :: s =>
        if 0xC2 ≤ a.toNat && a.toNat ≤ 0xDF then isCont b && validUtf8 s
        else
          match s with
          | [] => false
          | c :: s =>
            if 0xE0 ≤ a.toNat && a.toNat ≤ 0xEF then second3 a b && isCont c && validUtf8 s
            else
              match s with
              | [] => false
              | d :: s => second4 a b && isCont c && isCont d && validUtf8 s

/-- One atomic update of a metric, with its labels. -/
inductive Update where
  | query (client : Str) (qtype : Nat)
  | duration (rtype : Option RType)
  | error
  | response (reason : Str) (rcode : Nat) (rtype : RType)
  deriving DecidableEq

/-- metrics_resolver.go 35-62: the updates made after the next resolver has returned, and whether the
handler then returns (it panics for a request without question, for a response without message, and if the
names of the client are no UTF-8: prometheus v1.21.1 `CounterVec.With` panics then, labels.go
`validateValuesInLabels`). The other labels are ASCII or configured. The record type stands for its name
(`dns.TypeToString`), the code for its name. -/
def updates (enable : Bool) (names : List Str) (question : List Question) (o : Outcome) : List Update × Bool :=
  if enable then
    if !validUtf8 (joinNames names) then ([], false)
    else
    match question, o with
    | _, .panic => ([], false)
    | [], _ => ([], false)
    | q :: _, .ok r =>
      ([.query (joinNames names) q.qtype, .duration (some r.rtype), .response r.reason r.res.rcode r.rtype], true)
    | q :: _, .err _ => ([.query (joinNames names) q.qtype, .duration none, .error], true)
    | q :: _, .noResponse => ([.query (joinNames names) q.qtype, .duration (some .resolved)], false)
  else ([], match o with | .panic => false | _ => true)

/-- The registry: the updates made so far. The value of the counter with given labels is the number of its
updates. -/
abbrev Counters := List Update

/-- One update. -/
def inc (c : Counters) (u : Update) : Counters := u :: c

/-- metrics_resolver.go 33-63 `Resolve` for one request alone. -/
def resolve (enable : Bool) (next : Resolver W) : Resolver (Counters × W) := fun request w =>
  match next request w.2 with
  | (o, w') =>
    match updates enable request.clientNames request.req.question o with
    | (us, true) => (o, (us.foldl inc w.1, w'))
    | (us, false) => (.panic, (us.foldl inc w.1, w'))

/-- Many requests at once: the counters, and the updates each handler still has to make. -/
structure Sys where
  counters : Counters
  todo : List (List Update)

/-- Handler `i` makes its next update. -/
def sysStep (s : Sys) (i : Nat) : Sys :=
  match s.todo[i]? with
  | some (u :: us) => ⟨inc s.counters u, s.todo.set i us⟩
  | _ => s

/-- An execution: which handler moves, in order. -/
def sysRun (s : Sys) (sched : List Nat) : Sys := sched.foldl sysStep s

/-! ### Gauges -/

/-- metrics_event_publisher.go 43-55 with blocking_resolver.go 228-294: the status and the gauge
`blocky_blocking_enabled`, set while the status is locked. The gauge starts at 1 (line 84); an enabling
publishes `true` (236), an accepted disabling `false` (277), a refused one nothing. -/
structure StatusGauge where
  status : Blocking.TState
  gauge : Nat := 1

/-- What an event does to the gauge. -/
def gaugeStep (c : Blocking.BCfg) (s : StatusGauge) (e : Blocking.Ev) : StatusGauge :=
  { status := Blocking.tstep c s.status e
    gauge := match e with
      | .enable => 1
      | .disable d gs => if (Blocking.internalDisable c s.status d gs).2 then 0 else s.gauge
      | .tick _ => s.gauge
      | .fire => s.gauge
      | .runFired => if s.status.fired > 0 then 1 else s.gauge }

/-- A history. -/
def gaugeRun (c : Blocking.BCfg) (s : StatusGauge) (evs : List Blocking.Ev) : StatusGauge := evs.foldl (gaugeStep c) s

/-- expiration_cache.go 143-160 with caching_resolver.go 97-99 and metrics_event_publisher.go 142-144: the
cache and the gauge `blocky_cache_entries`. -/
structure CacheGauge (V : Type) where
  st : ExpCache.St V
  /-- What `lru.Len()` returned to each goroutine that is about to publish it. -/
  seen : List (Nat × Nat) := []
  gauge : Nat := 0

/-- Steps: an operation on the cache; goroutine `t` calls `lru.Len()` (line 158); it publishes the number.
Only `Put` is followed by these two (`putSteps`). -/
inductive CacheStep (V : Type) where
  | op (o : ExpCache.Op V)
  | len (t : Nat)
  | publish (t : Nat)

/-- Effect of a step. -/
def cacheStep {V : Type} (s : CacheGauge V) : CacheStep V → CacheGauge V
  | .op o => { s with st := ExpCache.step s.st o }
  | .len t => { s with seen := AMap.put s.seen t s.st.cache.totalCount }
  | .publish t => { s with gauge := (AMap.get s.seen t).getD s.gauge }

/-- An execution. -/
def cacheRun {V : Type} (s : CacheGauge V) (l : List (CacheStep V)) : CacheGauge V := l.foldl cacheStep s

/-- expiration_cache.go 143-160 `Put` by goroutine `t`. -/
def putSteps {V : Type} (t : Nat) (k : Str) (v : V) (ttl : Int) : List (CacheStep V) :=
  if ttl ≤ 0 then [] else [.op (.put k v ttl), .len t, .publish t]

/-- The steps of an operation of the cache (caching_resolver.go 341-345: emptying publishes nothing; the
same holds for the removals of the clean-up, expiration_cache.go 136-138). -/
def opSteps {V : Type} (t : Nat) : ExpCache.Op V → List (CacheStep V)
  | .put k v ttl => putSteps t k v ttl
  | o => [.op o]

end Verif.Metrics
