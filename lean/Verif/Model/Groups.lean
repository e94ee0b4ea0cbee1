/-
Model of the upstream groups: /repo/resolver/parallel_best_resolver.go, strict_resolver.go and
upstream_tree_resolver.go, and of mroth/weightedrand `Chooser`.

An upstream is identified by a number (in Go: the pointer of its resolver, compared in line 250).
Times are nanoseconds. Left out: logging, names, construction of the upstreams.
-/
import Verif.Model.Blocking

namespace Verif.Groups
open Dns

/-- What a call of an upstream returns; `canceled` tells whether the error is `context.Canceled`
(parallel_best_resolver.go 69). -/
inductive Result where
  | ok (r : Response)
  | err (canceled : Bool) (e : Str)
  deriving DecidableEq

/-- Is the result an error? -/
def Result.failed : Result → Bool
  | .ok _ => false
  | .err _ _ => true

/-- parallel_best_resolver.go 40-43 `upstreamResolverStatus`. -/
structure Upstream where
  id : Nat
  lastErrorTime : Int
  deriving DecidableEq

/-- parallel_best_resolver.go 45-53 `newUpstreamResolverStatus`: the last error is at the epoch. -/
def newStatus (id : Nat) : Upstream := ⟨id, 0⟩

/-- parallel_best_resolver.go 65-77 `resolve`: the status after the call returned at `now`. -/
def Upstream.after (u : Upstream) (now : Int) : Result → Upstream
  | .ok _ => u
  | .err canceled _ => if canceled then u else { u with lastErrorTime := now }

/-! ### Weighted choice -/

/-- One hour and one minute. -/
def hour : Int := 3600000000000
def minute : Int := 60000000000

/-- parallel_best_resolver.go 255-261, 263: the weight. (In Go the minutes are computed in floating
point and truncated; here in whole minutes.) -/
def weight (now : Int) (u : Upstream) : Nat :=
  if now - u.lastErrorTime < hour then (max 1 (60 - (60 - (now - u.lastErrorTime) / minute))).toNat
  else 60

/-- parallel_best_resolver.go 245-264: the candidates with their weights. -/
def choices (now : Int) (all excluded : List Upstream) : List (Upstream × Nat) :=
  (all.filter (fun u => !excluded.any (fun x => x.id == u.id))).map (fun u => (u, weight now u))

/-- weightedrand `NewChooser`: running totals. -/
def totals : Nat → List Nat → List Nat
  | _, [] => []
  | acc, w :: ws => (acc + w) :: totals (acc + w) ws

/-- weightedrand `Chooser.Pick`: the first item whose running total is at least the draw
(1 … total). `sorted` is some ordering of the choices (weightedrand sorts by weight, unstably). -/
def pick (sorted : List (Upstream × Nat)) (draw : Nat) : Option Upstream :=
  (sorted[sortSearch (totals 0 (sorted.map Prod.snd)).length
    (fun i => match (totals 0 (sorted.map Prod.snd))[i]? with | some t => decide (draw ≤ t) | none => true)]?).map
    Prod.fst

/-- Sum of the weights. -/
def total (cs : List (Upstream × Nat)) : Nat := (cs.map Prod.snd).sum

/-- A possible result of parallel_best_resolver.go 242-276 `weightedRandom`: some order of the
choices and some draw. With no choices at all `NewChooser` fails and line 272 divides by zero. -/
def Drawn (now : Int) (all excluded : List Upstream) (u : Upstream) : Prop :=
  ∃ sorted draw, sorted.Perm (choices now all excluded) ∧ 1 ≤ draw ∧ draw ≤ total sorted ∧
    pick sorted draw = some u

/-- parallel_best_resolver.go 232-240 `pickRandom`: `n` draws, each excluding the ones before. -/
inductive Picked (now : Int) (all : List Upstream) : Nat → List Upstream → Prop where
  | zero : Picked now all 0 []
  | succ {n : Nat} {chosen : List Upstream} {u : Upstream} :
      Picked now all n chosen → Drawn now all chosen u → Picked now all (n + 1) (chosen ++ [u])

/-! ### Parallel and random strategy -/

/-- State of the loop of parallel_best_resolver.go 187-209. -/
inductive Eval where
  | waiting
  | answer (r : Response)
  | failed (errs : List Str)
  deriving DecidableEq

/-- parallel_best_resolver.go 187-209 `evaluateResponses`: `n` upstreams asked, `errs` collected,
`arrived` the results in the order in which they come out of the channel. -/
def evaluate (n : Nat) (errs : List Str) : List Result → Eval
  | [] => if errs.length < n then .waiting else .failed errs
  | a :: as =>
    if errs.length < n then
      match a with
      | .ok r => .answer r
      | .err _ e => evaluate n (errs ++ [e]) as
    else .failed errs

/-- Strategy of a group with several upstreams (parallel_best_resolver.go 107-129). -/
inductive Strategy where
  | parallelBest
  | random

/-- parallel_best_resolver.go 109, 114. -/
def Strategy.count : Strategy → Nat
  | .parallelBest => 2
  | .random => 1

/-- A finished run of parallel_best_resolver.go 151-185 `Resolve` at time `now`: `asked` are the
upstreams asked in order, with the results they gave in the order of arrival, and the outcome. -/
inductive GroupRun (now : Int) (all : List Upstream) : Strategy → List (Upstream × Result) → Option Response → Prop where
  /-- 156-161 a single upstream, success -/
  | single {st : Strategy} {u : Upstream} {r : Response} : all = [u] →
      GroupRun now all st [(u, .ok r)] (some r)
  /-- 156-161 a single upstream, error -/
  | singleErr {st : Strategy} {u : Upstream} {c : Bool} {e : Str} : all = [u] →
      GroupRun now all st [(u, .err c e)] none
  /-- 166-178 a first success; `arrived` are the results received, the others are abandoned -/
  | first {st : Strategy} {chosen : List Upstream} {results arrived : List (Upstream × Result)} {r : Response} :
      all.length ≠ 1 → Picked now all st.count chosen → (results.map Prod.fst).Perm chosen →
      arrived <+: results → evaluate chosen.length [] (arrived.map Prod.snd) = .answer r →
      GroupRun now all st results (some r)
  /-- 180-182 all failed -/
  | allFailed {chosen : List Upstream} {results : List (Upstream × Result)} {errs : List Str} :
      all.length ≠ 1 → Picked now all 2 chosen → (results.map Prod.fst).Perm chosen →
      evaluate chosen.length [] (results.map Prod.snd) = .failed errs →
      GroupRun now all .parallelBest results none
  /-- 184, 211-229 the first one failed, a second one is asked -/
  | retry {chosen : List Upstream} {results : List (Upstream × Result)} {errs : List Str} {u : Upstream}
      {res : Result} : all.length ≠ 1 → Picked now all 1 chosen → (results.map Prod.fst).Perm chosen →
      evaluate chosen.length [] (results.map Prod.snd) = .failed errs → Drawn now all chosen u →
      GroupRun now all .random (results ++ [(u, res)]) (match res with | .ok r => some r | .err _ _ => none)

/-! ### Strict strategy -/

/-- strict_resolver.go 75-99 `Resolve`: the response and the upstreams asked, in order; the outcome
of asking an upstream is `call` (state passing). -/
def strictResolve {W : Type} (call : Upstream → W → Result × W) :
    List Upstream → W → Option Response × List Upstream × W
  | [], w => (none, [], w)
  | u :: us, w =>
    match call u w with
    | (.ok r, w1) => (some r, [u], w1)
    | (.err _ _, w1) =>
      let (o, asked, w2) := strictResolve call us w1
      (o, u :: asked, w2)

/-! ### Choice of the group -/

/-- upstream_tree_resolver.go 128-134: the groups matching a name, for each name in turn; `order i` is
the order in which the map of groups happens to be iterated the `i`-th time. -/
def groupsByName (env : Blocking.Env) (order : Nat → List Str) : Nat → List Str → List Str
  | _, [] => []
  | i, n :: ns => (order i).filter (fun g => env.nameMatches g n) ++ groupsByName env order (i + 1) ns

/-- upstream_tree_resolver.go 118-158 `upstreamGroupByClient`; `branches` are the names of the
groups. -/
def groupByClient (env : Blocking.Env) (branches : List Str) (order : Nat → List Str)
    (request : Request) : Str :=
  if branches.contains (env.ipString request.clientIP) then env.ipString request.clientIP
  else
    let byName := groupsByName env order 0 request.clientNames
    let groups := if byName.length = 0 then
        (order request.clientNames.length).filter (fun g => env.cidrContains g request.clientIP)
      else byName
    match groups with
    | g :: _ => g
    | [] => str! "default"

/-- upstream_tree_resolver.go 106-116 `Resolve`: the resolver of the client's group. (A group without resolver
would be a nil pointer; `C25_group_precedence`: the group is always a configured one.) -/
def tree {W : Type} (env : Blocking.Env) (branches : AMap Str (Resolver W)) (order : Nat → List Str) : Resolver W :=
  fun request w =>
    match branches.get (groupByClient env branches.keys order request) with
    | some r => r request w
    | none => (.panic, w)

end Verif.Groups
