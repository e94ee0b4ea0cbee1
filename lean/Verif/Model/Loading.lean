/-
Getting started and staying fresh:

* the download of a list with its retries (/repo/lists/downloader.go),
* the initialisation strategies and the periodic refresh (/repo/config/config.go),
* the initialisation of the upstream groups (/repo/resolver/resolver.go, upstream_resolver.go,
  upstream_tree_resolver.go).

Logging is modelled as the list of reported errors; the texts of wrapping errors are left out.
-/
import Verif.Base.AMap
import Verif.Base.Str

namespace Verif.Loading

/-! ### Downloads -/

/-- What one HTTP request gives (downloader.go 60-85): a status and a body, a network error that is a
timeout, or another error (including a link that is no URL). Redirects are followed by Go's HTTP client
and not modelled. -/
inductive Attempt where
  | response (status : Nat) (body : Str)
  | timeout
  | failure (e : Str)
  deriving DecidableEq, Repr

/-- The errors of one attempt: an unexpected status (downloader.go 77), `TransientError` (82), or the
client's own error (66, 85). -/
inductive DlErr where
  | status (code : Nat)
  | transient
  | other (e : Str)
  deriving DecidableEq, Repr

/-- The function that is retried (downloader.go 60-86): only status 200 is a success. -/
def tryOnce : Attempt → Except DlErr Str
  | .response status body => if status = 200 then .ok body else .error (.status status)
  | .timeout => .error .transient
  | .failure e => .error (.other e)

/-- The state of one `DownloadFile`: number of failed attempts so far (`n` in retry-go), how often
`onDownloadError` was published, how long it waited, and the result once it has returned. -/
structure Download where
  n : Nat := 0
  requests : Nat := 0
  events : Nat := 0
  waited : Int := 0
  result : Option (Except DlErr Str) := none

/-- One round of `retry.Do` (avast/retry-go v4.6.1, retry.go `DoWithData`) with the options of
downloader.go 87-109: fixed delay, the last error only, `OnRetry` called after every failed attempt, no
context and the default `RetryIf` (every error is retried). `attempts = 0` means until success. -/
def Download.step (attempts : Nat) (cooldown : Int) (outcome : Nat → Attempt) (d : Download) : Download :=
  match d.result with
  | some _ => d
  | none =>
    match tryOnce (outcome d.n) with
    | .ok body => { d with requests := d.requests + 1, result := some (.ok body) }
    | .error e =>
      if attempts = 0 then
        { d with n := d.n + 1, requests := d.requests + 1, events := d.events + 1,
                 waited := d.waited + cooldown }
      else if d.n = attempts - 1 then
        { d with requests := d.requests + 1, events := d.events + 1, result := some (.error e) }
      else
        { d with n := d.n + 1, requests := d.requests + 1, events := d.events + 1,
                 waited := d.waited + cooldown }

/-- `DownloadFile` (downloader.go 56-112) after at most `k` rounds. -/
def Download.run (attempts : Nat) (cooldown : Int) (outcome : Nat → Attempt) : Nat → Download
  | 0 => {}
  | k + 1 => (Download.run attempts cooldown outcome k).step attempts cooldown outcome

/-! ### Initialisation -/

/-- config.go 116-121 `InitStrategy`. -/
inductive Strategy where
  | blocking
  | failOnError
  | fast
  deriving DecidableEq, Repr

/-- How a function that may panic ends. -/
inductive TaskResult where
  | ok
  | err (e : Str)
  | panic (v : Str)
  deriving DecidableEq, Repr

/-- config.go 395-405 `recoverToError`: a panic becomes an error with the given prefix. -/
def recoverToError (pre : Str) : TaskResult → Option Str
  | .ok => none
  | .err e => some e
  | .panic v => some (pre ++ v)

/-- The prefix of config.go 124. -/
def initPanic : Str := str! "panic during initialization: "

/-- The prefix of config.go 375. -/
def refreshPanic : Str := str! "panic during refresh: "

/-- What a start leaves behind: the returned error, the state, the logged errors, and the goroutine that
is still to run. -/
structure Started (W : Type) where
  returned : Option Str
  world : W
  logged : List Str
  background : Option (W → List Str × W)

/-- config.go 122-148 `InitStrategy.Do`. -/
def Strategy.run {W : Type} (s : Strategy) (init : W → TaskResult × W) (w : W) : Started W :=
  match s with
  | .fast => ⟨none, w, [], some fun w =>
      ((recoverToError initPanic (init w).1).toList, (init w).2)⟩
  | .blocking =>
    ⟨none, (init w).2, (recoverToError initPanic (init w).1).toList, none⟩
  | .failOnError =>
    ⟨recoverToError initPanic (init w).1, (init w).2, (recoverToError initPanic (init w).1).toList, none⟩

/-- config.go 356-369 `StartPeriodicRefresh`: the start, and whether the refresh loop runs. -/
def startPeriodicRefresh {W : Type} (s : Strategy) (period : Int) (refresh : W → TaskResult × W) (w : W) :
    Started W × Bool :=
  let r := s.run refresh w
  match r.returned with
  | some _ => (r, false)
  | none => (r, decide (period > 0))

/-- The refresh loop (config.go 371-393): is the goroutine alive, is a tick waiting in the ticker's
channel (which holds one), was the context cancelled, the state and the logged errors. -/
structure Loop (W : Type) where
  alive : Bool := true
  tick : Bool := false
  cancelled : Bool := false
  world : W
  logged : List Str := []

/-- What can happen. -/
inductive LoopEvent where
  /-- the ticker fires -/
  | tick
  /-- the context is cancelled -/
  | cancel
  /-- the loop takes a tick and refreshes -/
  | refresh
  /-- the loop sees the cancellation -/
  | stop
  deriving DecidableEq, Repr

/-- One step of `periodically` (config.go 371-393). A `select` with several ready cases picks any. -/
inductive LoopStep {W : Type} (refresh : W → TaskResult × W) : Loop W → LoopEvent → Loop W → Prop where
  | tick (l : Loop W) : l.alive = true → LoopStep refresh l .tick { l with tick := true }
  | cancel (l : Loop W) : LoopStep refresh l .cancel { l with cancelled := true }
  | refresh (l : Loop W) : l.alive = true → l.tick = true →
      LoopStep refresh l .refresh
        { l with tick := false, world := (refresh l.world).2,
                 logged := l.logged ++ (recoverToError refreshPanic (refresh l.world).1).toList }
  | stop (l : Loop W) : l.alive = true → l.cancelled = true →
      LoopStep refresh l .stop { l with alive := false }

/-- A run of the loop. -/
inductive LoopRun {W : Type} (refresh : W → TaskResult × W) : Loop W → List LoopEvent → Loop W → Prop where
  | nil (l : Loop W) : LoopRun refresh l [] l
  | cons {a b c : Loop W} {e : LoopEvent} {es : List LoopEvent} :
      LoopStep refresh a e b → LoopRun refresh b es c → LoopRun refresh a (e :: es) c

/-! ### Upstream groups -/

/-- `NewUpstreamResolver` (upstream_resolver.go 270-288) as far as it concerns the group: is there a
resolver, and what was logged? `test` is the outcome of `testResolve` (317-325). -/
def newUpstreamResolver (s : Strategy) (test : TaskResult) : Bool × List Str :=
  let r := s.run (fun (_ : Unit) => (test, ())) ()
  (r.returned.isNone, r.logged)

/-- `createGroupResolvers` (resolver.go 264-285): upstreams without a resolver are skipped; none left is
an error. -/
def createGroupResolvers {U : Type} (s : Strategy) (test : U → TaskResult) (upstreams : List U) :
    Except Str (List U) :=
  let resolvers := upstreams.filter fun u => (newUpstreamResolver s (test u)).1
  if resolvers = [] then .error (str! "no valid upstream for group") else .ok resolvers

/-- The upstreams a group sends its queries to: the bootstrap DNS or these. -/
inductive GroupUpstreams (U : Type) where
  | bootstrap
  | upstreams (us : List U)
  deriving DecidableEq, Repr

/-- `initGroupResolvers` (resolver.go 234-262), called by `NewParallelBestResolver`
(parallel_best_resolver.go 96-105) and `NewStrictResolver` (strict_resolver.go 31-40) with the bootstrap
DNS as the only upstream. -/
def initGroup {U : Type} (s : Strategy) (test : U → TaskResult) (upstreams : List U) :
    Started (GroupUpstreams U) :=
  s.run (fun g => match createGroupResolvers s test upstreams with
    | .error e => (.err e, g)
    | .ok us => (.ok, .upstreams us)) .bootstrap

/-- `NewUpstreamTreeResolver` (upstream_tree_resolver.go 26-52) with `createUpstreamBranches` (54-91):
`none` is the error that ends the start. The order of the groups (a Go map) does not matter for the
result. Whether a single group is wrapped into a tree is not visible here. -/
def startGroups {U : Type} (s : Strategy) (test : U → TaskResult) (groups : AMap Str (List U)) :
    Option (List (Str × Started (GroupUpstreams U))) :=
  match groups.get (str! "default") with
  | none => none
  | some [] => none
  | some (_ :: _) =>
    let started := groups.map fun g => (g.1, initGroup s test g.2)
    if started.any fun g => g.2.returned.isSome then none else some started

end Verif.Loading
