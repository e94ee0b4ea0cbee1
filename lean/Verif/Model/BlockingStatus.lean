/-
Model of enabling and disabling of blocking (/repo/resolver/blocking_resolver.go 210-312) with its
timer, and of the API entry point (/repo/api/api_interface_impl.go 91-118).

Times are nanoseconds. A timer made by `time.AfterFunc` that is due starts a goroutine, which then
waits for the lock: `fired` counts the goroutines started and not yet run. `Timer.Stop` removes a
timer that is not yet due but has no effect on a goroutine already started. The timer made at
construction (`time.NewTimer(0)`, line 149) has no function attached and is not modelled.
-/
import Verif.Model.Blocking

namespace Verif.Blocking

/-- blocking_resolver.go 72-80 `status`, with the clock. -/
structure TState where
  enabled : Bool := true
  disabledGroups : List Str := []
  timer : Option Int := none
  fired : Nat := 0
  disableEnd : Int := 0
  now : Int

/-- The part queries look at. -/
def TState.status (s : TState) : Status := ⟨s.enabled, s.disabledGroups⟩

/-- blocking_resolver.go 228-237 `internalEnableBlocking`. -/
def internalEnable (s : TState) : TState :=
  { s with timer := none, enabled := true, disabledGroups := [] }

/-- blocking_resolver.go 253-294 `internalDisableBlocking`; the flag tells whether the request was
accepted. Note that the timer is stopped first. -/
def internalDisable (c : BCfg) (s : TState) (duration : Int) (groups : List Str) : TState × Bool :=
  let s1 := { s with timer := none }
  let all := retrieveAllBlockingGroups c
  if groups.length = 0 ∨ groups.all (fun g => searchStrings all g) = true then
    ({ s1 with
        disabledGroups := if groups.length = 0 then all else groups
        enabled := false
        disableEnd := s.now + duration
        timer := if duration = 0 then none else some (s.now + duration) }, true)
  else (s1, false)

/-- api_interface_impl.go 91-118 `DisableBlocking`: `duration` is the parsed query parameter (outer
`none`: absent; inner `none`: not a duration, the request is rejected), `groups` the parameter. -/
def apiDisable (c : BCfg) (s : TState) (duration : Option (Option Int)) (groups : Option Str) :
    TState × Bool :=
  let gs := match groups with
    | some (x :: xs) => splitChar ',' (x :: xs)
    | _ => []
  match duration with
  | some none => (s, false)
  | some (some d) => internalDisable c s d gs
  | none => internalDisable c s 0 gs

/-- What can happen. `disable` and `enable` come from the API or from redis. -/
inductive Ev where
  | enable
  | disable (duration : Int) (groups : List Str)
  | tick (ns : Nat)
  | fire
  | runFired

/-- Is the pending timer due? -/
def TState.due (s : TState) : Bool :=
  match s.timer with
  | some d => decide (d ≤ s.now)
  | none => false

/-- Effect of an event (`fire` and `runFired` do nothing when they cannot happen). -/
def tstep (c : BCfg) (s : TState) : Ev → TState
  | .enable => internalEnable s
  | .disable d gs => (internalDisable c s d gs).1
  | .tick n => { s with now := s.now + n }
  | .fire => if s.due then { s with timer := none, fired := s.fired + 1 } else s
  | .runFired => if s.fired > 0 then { internalEnable s with fired := s.fired - 1 } else s

/-- A history. -/
def trun (c : BCfg) (s : TState) (evs : List Ev) : TState := evs.foldl (tstep c) s

/-- blocking_resolver.go 297-312 `BlockingStatus`: enabled, disabled groups, seconds until enabled. -/
structure Report where
  enabled : Bool
  disabledGroups : List Str
  autoEnableInSec : Int
  deriving DecidableEq

/-- blocking_resolver.go 297-312 `BlockingStatus`. -/
def blockingStatus (s : TState) : Report where
  enabled := s.enabled
  disabledGroups := s.disabledGroups
  autoEnableInSec := if s.enabled = false ∧ s.disableEnd > s.now then (s.disableEnd - s.now) / 1000000000 else 0

end Verif.Blocking
