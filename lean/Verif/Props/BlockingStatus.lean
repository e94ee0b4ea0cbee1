/-
C18, C19: disabling and re-enabling of blocking, and the reported status.
-/
import Verif.Model.BlockingStatus
import Verif.Props.Blocking

namespace Verif.Props
open Spec Dns Blocking StringCache

/-- A group that can be named in a disable request. -/
def KnownGroup (c : BCfg) (g : Str) : Prop := g ∈ c.denyGroups ∨ g = str! "default"

theorem mem_allGroups (c : BCfg) (g : Str) : g ∈ retrieveAllBlockingGroups c ↔ KnownGroup c g := by
  simp [retrieveAllBlockingGroups, KnownGroup]

theorem knownAll (c : BCfg) (gs : List Str) :
    gs.all (fun g => searchStrings (retrieveAllBlockingGroups c) g) = true ↔
      ∀ g ∈ gs, KnownGroup c g := by
  rw [List.all_eq_true]
  constructor
  · intro h g hg
    exact (mem_allGroups c g).1 ((searchStrings_iff (sortStr_sorted _) g).1 (h g hg))
  · intro h g hg
    exact (searchStrings_iff (sortStr_sorted _) g).2 ((mem_allGroups c g).2 (h g hg))

/-- A disable request is accepted if and only if all groups it names are known. -/
theorem C18_accepted_iff (c : BCfg) (s : TState) (d : Int) (gs : List Str) :
    (internalDisable c s d gs).2 = true ↔ ∀ g ∈ gs, KnownGroup c g := by
  unfold internalDisable
  simp only
  by_cases h : gs.length = 0 ∨ gs.all (fun g => searchStrings (retrieveAllBlockingGroups c) g) = true
  · rw [if_pos h]
    simp only [true_iff]
    rcases h with h | h
    · rw [List.length_eq_zero_iff.1 h]; simp
    · exact (knownAll c gs).1 h
  · rw [if_neg h]
    simp only [Bool.false_eq_true, false_iff]
    intro hk
    exact h (.inr ((knownAll c gs).2 hk))

/-- The state after an accepted request. -/
theorem disable_accepted (c : BCfg) (s : TState) (d : Int) (gs : List Str)
    (h : (internalDisable c s d gs).2 = true) :
    (internalDisable c s d gs).1 =
      { s with
        disabledGroups := if gs.length = 0 then retrieveAllBlockingGroups c else gs
        enabled := false
        disableEnd := s.now + d
        timer := if d = 0 then none else some (s.now + d) } := by
  unfold internalDisable at h ⊢
  simp only at h ⊢
  split
  · rfl
  · rename_i hn; rw [if_neg hn] at h; cases h

/-- The state after a rejected request: only the timer is gone. -/
theorem disable_rejected (c : BCfg) (s : TState) (d : Int) (gs : List Str)
    (h : (internalDisable c s d gs).2 = false) :
    (internalDisable c s d gs).1 = { s with timer := none } := by
  unfold internalDisable at h ⊢
  simp only at h ⊢
  split
  · rename_i hn; rw [if_pos hn] at h; cases h
  · rfl

/-- Events that are not requests. -/
def Passive : Ev → Prop
  | .tick _ => True
  | .fire => True
  | .runFired => True
  | _ => False

/-- Nothing is left to do for the timer: it is not due, and no goroutine it started is waiting. -/
def Quiet (s : TState) : Prop := s.due = false ∧ s.fired = 0

/-- While only time passes, either the disabling still stands with its timer pending, or its timer
has fired, or blocking is enabled. -/
theorem passive_inv (c : BCfg) (deadline : Int) (gs : List Str) (evs : List Ev)
    (hp : ∀ e ∈ evs, Passive e) (s : TState)
    (h : (s.enabled = false ∧ s.disabledGroups = gs ∧ s.timer = some deadline ∧ s.fired = 0) ∨
         (s.enabled = false ∧ s.disabledGroups = gs ∧ s.timer = none ∧ s.fired = 1 ∧ deadline ≤ s.now) ∨
         (s.enabled = true ∧ s.disabledGroups = [] ∧ s.timer = none ∧ s.fired = 0 ∧ deadline ≤ s.now)) :
    let s' := trun c s evs
    (s'.enabled = false ∧ s'.disabledGroups = gs ∧ s'.timer = some deadline ∧ s'.fired = 0) ∨
    (s'.enabled = false ∧ s'.disabledGroups = gs ∧ s'.timer = none ∧ s'.fired = 1 ∧ deadline ≤ s'.now) ∨
    (s'.enabled = true ∧ s'.disabledGroups = [] ∧ s'.timer = none ∧ s'.fired = 0 ∧ deadline ≤ s'.now) := by
  induction evs generalizing s with
  | nil => exact h
  | cons e evs ih =>
    refine ih (fun e he => hp e (by simp [he])) (tstep c s e) ?_
    have hpe := hp e (by simp)
    cases e with
    | enable => exact hpe.elim
    | disable _ _ => exact hpe.elim
    | tick n =>
      rcases h with h | ⟨h1, h2, h3, h4, h5⟩ | ⟨h1, h2, h3, h4, h5⟩
      · exact .inl h
      · exact .inr (.inl ⟨h1, h2, h3, h4, by simp only [tstep]; omega⟩)
      · exact .inr (.inr ⟨h1, h2, h3, h4, by simp only [tstep]; omega⟩)
    | fire =>
      rcases h with ⟨h1, h2, h3, h4⟩ | ⟨h1, h2, h3, h4, h5⟩ | ⟨h1, h2, h3, h4, h5⟩
      · by_cases hd : deadline ≤ s.now
        · exact .inr (.inl (by simp [tstep, TState.due, h1, h2, h3, h4, hd]))
        · exact .inl (by simp [tstep, TState.due, h1, h2, h3, h4, hd])
      · exact .inr (.inl (by simp [tstep, TState.due, h1, h2, h3, h4, h5]))
      · exact .inr (.inr (by simp [tstep, TState.due, h1, h2, h3, h4, h5]))
    | runFired =>
      rcases h with ⟨h1, h2, h3, h4⟩ | ⟨h1, h2, h3, h4, h5⟩ | ⟨h1, h2, h3, h4, h5⟩
      · exact .inl (by simp [tstep, h1, h2, h3, h4])
      · exact .inr (.inr (by simp [tstep, internalEnable, h4, h5]))
      · exact .inr (.inr (by simp [tstep, h1, h2, h3, h4, h5]))

/-- **C18, main part.** Blocking is disabled for a duration by an accepted request while no older
timer goroutine is waiting. Then, as long as no further request of any kind (accepted or rejected)
arrives: before the duration has passed the groups are switched off; once it has passed and the
timer has run, blocking is enabled. Missing: further requests that are rejected
(`C18_rejected_request_cancels_reenabling`) and timers that have already fired
(`C18_stale_timer_reenables`). -/
theorem C18_reenabled_partial (c : BCfg) (s : TState) (d : Int) (hd : d ≠ 0) (gs : List Str)
    (hf : s.fired = 0) (hacc : (internalDisable c s d gs).2 = true) (evs : List Ev)
    (hp : ∀ e ∈ evs, Passive e) :
    let s' := trun c (tstep c s (.disable d gs)) evs
    (s'.now < s.now + d → s'.enabled = false ∧
      s'.disabledGroups = if gs.length = 0 then retrieveAllBlockingGroups c else gs) ∧
    (s.now + d ≤ s'.now → Quiet s' → s'.enabled = true ∧ s'.disabledGroups = []) := by
  have h0 := disable_accepted c s d gs hacc
  have hinv := passive_inv c (s.now + d) (if gs.length = 0 then retrieveAllBlockingGroups c else gs) evs hp
    (tstep c s (.disable d gs)) (.inl (by simp only [tstep, h0]; simp [hd, hf]))
  simp only
  generalize trun c (tstep c s (.disable d gs)) evs = s' at hinv
  rcases hinv with ⟨h1, h2, h3, h4⟩ | ⟨h1, h2, h3, h4, h5⟩ | ⟨h1, h2, h3, h4, h5⟩
  · refine ⟨fun _ => ⟨h1, h2⟩, fun hle hq => ?_⟩
    exfalso
    have := hq.1
    simp [TState.due, h3, hle] at this
  · refine ⟨fun _ => ⟨h1, h2⟩, fun _ hq => ?_⟩
    have := hq.2
    omega
  · exact ⟨fun hlt => by omega, fun _ _ => ⟨h1, h2⟩⟩

/-- From any state, letting the timer fire and its goroutines run leads to a quiet state (the
scheduler only has to be fair). -/
theorem C18_quiet_reachable (c : BCfg) (s : TState) :
    ∃ n, Quiet (trun c s (.fire :: List.replicate n .runFired)) := by
  suffices ∀ n (s : TState), s.due = false → s.fired = n →
      Quiet (trun c s (List.replicate n .runFired)) by
    refine ⟨(tstep c s .fire).fired, this _ (tstep c s .fire) ?_ rfl⟩
    by_cases h : s.due = true
    · rw [show tstep c s .fire = { s with timer := none, fired := s.fired + 1 } by simp [tstep, h]]
      rfl
    · simp [tstep, h]
  intro n
  induction n with
  | zero => intro s h1 h2; exact ⟨h1, h2⟩
  | succ n ih =>
    intro s h1 h2
    rw [List.replicate_succ]
    refine ih (tstep c s .runFired) ?_ ?_
    · simp [tstep, h2, internalEnable, TState.due]
    · simp [tstep, h2]

/-- **C18 (rejected requests), what is left alone.** A rejected request does not change which groups
are switched off, nor what the status says. -/
theorem C18_rejected_keeps_status_partial (c : BCfg) (s : TState) (d : Int) (gs : List Str)
    (h : (internalDisable c s d gs).2 = false) :
    (tstep c s (.disable d gs)).status = s.status ∧
    blockingStatus (tstep c s (.disable d gs)) = blockingStatus s := by
  simp only [tstep, disable_rejected c s d gs h]
  exact ⟨rfl, rfl⟩

/-- Without timer and waiting goroutine nothing re-enables blocking but a request. -/
theorem no_timer_stays (c : BCfg) (evs : List Ev) (hp : ∀ e ∈ evs, Passive e) (s : TState)
    (h1 : s.timer = none) (h2 : s.fired = 0) :
    (trun c s evs).enabled = s.enabled ∧ (trun c s evs).disabledGroups = s.disabledGroups := by
  induction evs generalizing s with
  | nil => exact ⟨rfl, rfl⟩
  | cons e evs ih =>
    have hpe := hp e (by simp)
    have := ih (fun e he => hp e (by simp [he])) (tstep c s e)
    cases e with
    | enable => exact hpe.elim
    | disable _ _ => exact hpe.elim
    | tick n => exact this h1 h2
    | fire =>
      have he : tstep c s .fire = s := by simp [tstep, TState.due, h1]
      rw [he] at this
      rw [show trun c s (.fire :: evs) = trun c (tstep c s .fire) evs from rfl, he]
      exact this h1 h2
    | runFired =>
      have he : tstep c s .runFired = s := by simp [tstep, h2]
      rw [he] at this
      rw [show trun c s (.runFired :: evs) = trun c (tstep c s .runFired) evs from rfl, he]
      exact this h1 h2

/-- **C18 is false.** Blocking is switched off for five minutes; then somebody sends a request naming
a group that does not exist, which is rejected. Blocking is never enabled again, however long one
waits and whatever the scheduler does - while the status goes on promising that it will be. This
holds for every configuration. -/
theorem C18_rejected_request_cancels_reenabling (c : BCfg) (s : TState) (hf : s.fired = 0)
    (d d' : Int) (bad : Str) (hbad : ¬ KnownGroup c bad) (evs : List Ev) (hp : ∀ e ∈ evs, Passive e) :
    (trun c (trun c s [.disable d [], .disable d' [bad]]) evs).enabled = false ∧
    blockingStatus (trun c s [.disable d [], .disable d' [bad]]) =
      blockingStatus (trun c s [.disable d []]) := by
  have hacc : (internalDisable c s d []).2 = true := (C18_accepted_iff c s d []).2 (by simp)
  have hrej : ∀ s', (internalDisable c s' d' [bad]).2 = false := by
    intro s'
    rw [Bool.eq_false_iff]
    intro h
    exact hbad ((C18_accepted_iff c s' d' [bad]).1 h bad (by simp))
  have e : trun c s [.disable d [], .disable d' [bad]] =
      { (internalDisable c s d []).1 with timer := none } := disable_rejected c _ d' [bad] (hrej _)
  refine ⟨?_, ?_⟩
  · rw [(no_timer_stays c evs hp _ (by rw [e]) (by rw [e, disable_accepted c s d [] hacc]; exact hf)).1, e,
      disable_accepted c s d [] hacc]
  · rw [e]; rfl

/-- Five minutes and ten minutes in nanoseconds. -/
def fiveMin : Nat := 300000000000

-- The hypotheses of the two theorems are met, and the concrete effect: disabled for five minutes,
-- after ten minutes still disabled / enabled without the rejected request.
example :
    let c : BCfg := { denyGroups := [str! "ads"] }
    ¬ KnownGroup c (str! "adz") ∧ KnownGroup c (str! "ads") := by
  refine ⟨?_, .inl (by decide)⟩
  rintro (h | h) <;> revert h <;> decide

example :
    let c : BCfg := { denyGroups := [str! "ads"] }
    let wait : List Ev := [.tick fiveMin, .tick fiveMin, .fire, .runFired]
    (trun c { now := 0 } (.disable fiveMin [] :: wait)).enabled = true ∧
    (trun c { now := 0 } ([.disable fiveMin [], .tick 5]  ++ [.fire, .runFired])).enabled = false := by
  decide

/-- **C18, second race.** Blocking is disabled for five minutes. When they are over the timer's
goroutine starts, but before it gets the lock a new request disables blocking for ever, and
succeeds. Then the goroutine runs and enables blocking. -/
theorem C18_stale_timer_reenables :
    let c : BCfg := { denyGroups := [str! "ads"] }
    let s := trun c { now := 0 } [.disable fiveMin [], .tick fiveMin, .fire]
    (internalDisable c s 0 []).2 = true ∧
    (trun c s [.disable 0 []]).enabled = false ∧
    (trun c s [.disable 0 [], .runFired]).enabled = true := by
  decide

/-! ### C19 -/

/-- A starting instance (blocking_resolver.go 147-150). -/
def startState (now : Int) : TState := { now := now }

theorem status_inv (c : BCfg) (now : Int) (evs : List Ev) :
    let s := trun c (startState now) evs
    (s.enabled = true ↔ s.disabledGroups = []) := by
  suffices ∀ evs (s : TState), (s.enabled = true ↔ s.disabledGroups = []) →
      ((trun c s evs).enabled = true ↔ (trun c s evs).disabledGroups = []) from
    this evs _ (by simp [startState])
  intro evs
  induction evs with
  | nil => intro s h; exact h
  | cons e evs ih =>
    intro s h
    refine ih (tstep c s e) ?_
    cases e with
    | enable => simp [tstep, internalEnable]
    | tick n => exact h
    | fire =>
      by_cases hd : s.due = true
      · simpa [tstep, hd] using h
      · simpa [tstep, hd] using h
    | runFired =>
      by_cases hd : s.fired > 0
      · simp [tstep, hd, internalEnable]
      · simpa [tstep, hd] using h
    | disable d gs =>
      cases hacc : (internalDisable c s d gs).2 with
      | false => simpa [tstep, disable_rejected c s d gs hacc] using h
      | true =>
        simp only [tstep, disable_accepted c s d gs hacc, Bool.false_eq_true, false_iff]
        split
        · intro h
          have : str! "default" ∈ retrieveAllBlockingGroups c := (mem_allGroups c _).2 (.inr rfl)
          rw [h] at this
          simp at this
        · rename_i hl
          intro h
          exact hl (by simp [h])

/-- **C19.** After every history of requests and timer firings, the reported status is the one queries
experience: for every client and group, the group is in effect if and only if it would be without
any disabling and is not among the groups reported as disabled; and "enabled" is reported if and
only if no group is reported as disabled. -/
theorem C19_status_effective (c : BCfg) (now : Int) (evs : List Ev) (env : Blocking.Env)
    (fqdnIPs : Str → Option (List IP)) (request : Request) (g : Str) :
    let s := trun c (startState now) evs
    (g ∈ groupsToCheck env (clientGroupsBlock c) fqdnIPs s.status request ↔
      g ∈ groupsToCheck env (clientGroupsBlock c) fqdnIPs {} request ∧
      g ∉ (blockingStatus s).disabledGroups) ∧
    ((blockingStatus s).enabled = true ↔ (blockingStatus s).disabledGroups = []) := by
  simp only
  refine ⟨?_, status_inv c now evs⟩
  rw [C17_groups_of_client, C17_groups_of_client]
  unfold Active
  simp only [TState.status, blockingStatus]
  constructor
  · rintro ⟨h1, h2⟩; exact ⟨⟨by simp, h2⟩, h1⟩
  · rintro ⟨⟨_, h2⟩, h1⟩; exact ⟨h1, h2⟩

theorem timer_inv (c : BCfg) (now : Int) (evs : List Ev) (t : Int)
    (h : (trun c (startState now) evs).timer = some t) :
    (trun c (startState now) evs).disableEnd = t ∧ (trun c (startState now) evs).enabled = false := by
  suffices ∀ evs (s : TState), (∀ t, s.timer = some t → s.disableEnd = t ∧ s.enabled = false) →
      ∀ t, (trun c s evs).timer = some t →
        (trun c s evs).disableEnd = t ∧ (trun c s evs).enabled = false from
    this evs _ (by simp [startState]) t h
  intro evs
  induction evs with
  | nil => intro s h; exact h
  | cons e evs ih =>
    intro s h
    refine ih (tstep c s e) ?_
    cases e with
    | enable => simp [tstep, internalEnable]
    | tick n => exact h
    | fire =>
      by_cases hd : s.due = true
      · simp [tstep, hd]
      · simpa [tstep, hd] using h
    | runFired =>
      by_cases hd : s.fired > 0
      · simp [tstep, hd, internalEnable]
      · simpa [tstep, hd] using h
    | disable d gs =>
      cases hacc : (internalDisable c s d gs).2 with
      | false => simp [tstep, disable_rejected c s d gs hacc]
      | true =>
        simp only [tstep, disable_accepted c s d gs hacc, and_true]
        intro t ht
        split at ht
        · cases ht
        · cases ht; rfl

/-- **C19, the reported time, provable part.** After every history, while a timer is pending the number
of seconds reported is the whole seconds left until it is due; while blocking is enabled, 0 is
reported. Missing: 0 should also be reported when blocking will not be enabled by itself, see
`C19_reported_time_wrong`. -/
theorem C19_reported_time_partial (c : BCfg) (now : Int) (evs : List Ev) :
    let s := trun c (startState now) evs
    (∀ t, s.timer = some t → s.now < t →
      (blockingStatus s).autoEnableInSec * 1000000000 ≤ t - s.now ∧
      t - s.now < ((blockingStatus s).autoEnableInSec + 1) * 1000000000) ∧
    (s.enabled = true → (blockingStatus s).autoEnableInSec = 0) := by
  intro s
  constructor
  · intro t ht hlt
    obtain ⟨h1, h2⟩ := timer_inv c now evs t ht
    have e : (blockingStatus s).autoEnableInSec = (t - s.now) / 1000000000 := by
      unfold blockingStatus
      simp only
      rw [if_pos ⟨h2, by rw [show s.disableEnd = t from h1]; exact hlt⟩, show s.disableEnd = t from h1]
    rw [e]
    generalize t - s.now = x
    omega
  · intro he
    unfold blockingStatus
    simp [he]

-- 90.5 seconds after disabling for five minutes, 209 seconds are reported.
example :
    let s := trun { denyGroups := [str! "ads"] } (startState 0) [.disable fiveMin [], .tick 90500000000]
    s.timer = some 300000000000 ∧ (blockingStatus s).autoEnableInSec = 209 := by
  decide

/-- **C19 is false (reported time).** Blocking is disabled for five minutes; then a request naming an
unknown group is rejected. The status still announces that blocking will be enabled in five minutes,
but no timer is left and (`C18_rejected_request_cancels_reenabling`) it will never be. -/
theorem C19_reported_time_wrong :
    let s := trun { denyGroups := [str! "ads"] } (startState 0) [.disable fiveMin [], .disable fiveMin [str! "adz"]]
    (blockingStatus s).autoEnableInSec = 300 ∧ s.timer = none ∧ s.fired = 0 := by
  decide +kernel

/-- **C19, disable without groups, provable part.** After such a request, a client all of whose groups
have denylists (or are called "default") is not blocked at all: every query is passed on unchanged.
Missing: groups with allowlists only, see `C19_disable_all_keeps_blocking`. -/
theorem C19_disable_all_partial {E : RegexEngine} {W : Type} (s : Setup E) (t : TState) (d : Int)
    (hst : s.status = (tstep s.cfg t (.disable d [])).status) (request : Request)
    (hgroups : ∀ g, Active s.env s.cfg s.fqdnIPs [] request g → KnownGroup s.cfg g)
    (next : Resolver W) (w : W) :
    resolve s.env s.state next request w = next request w := by
  have hacc : (internalDisable s.cfg t d []).2 = true := (C18_accepted_iff s.cfg t d []).2 (by simp)
  have hdis : s.status.disabledGroups = retrieveAllBlockingGroups s.cfg := by
    rw [hst]
    simp only [tstep, disable_accepted s.cfg t d [] hacc]
    rfl
  have hno : ∀ g, ¬ s.Act request g := by
    rintro g ⟨h1, h2⟩
    apply h1
    rw [hdis]
    exact (mem_allGroups s.cfg g).2 (hgroups g ⟨by simp, h2⟩)
  have hopen : ∀ q ∈ request.req.question, s.Open request q :=
    fun q _ => ⟨fun ⟨g, hg, _⟩ => hno g hg, fun ⟨g, hg, _⟩ => hno g hg, fun ⟨g, hg, _⟩ => hno g hg⟩
  refine C15_passed s next request w hopen ?_
  rintro r _ ⟨rr, _, x, _, _, g, hg, _⟩
  exact hno g hg

/-- A group with allowlists only, used by default. -/
def kidsCfg : BCfg :=
  { allowGroups := [(str! "kids", 1)], clientGroupsBlock := [(str! "default", [str! "kids"])] }

/-- The blocker of that configuration in a given status. -/
def kidsState (st : Status) : BState prefixEngine where
  handler := .zeroIP 60
  deny := {}
  allow := { regex := [(str! "kids", [str! "good"])] }
  allowOnly := allowlistOnlyGroups kidsCfg
  cgb := clientGroupsBlock kidsCfg
  status := st

/-- **C19 is false (disable without groups).** With an allowlist-only group, the request to disable
blocking altogether is accepted and the status says "disabled", but queries are still blocked; and
that group cannot be disabled by name either. -/
theorem C19_disable_all_keeps_blocking :
    let t := tstep kidsCfg (startState 0) (.disable 0 [])
    (blockingStatus t).enabled = false ∧
    verdict (resolve plainEnv (kidsState t.status) (countingNext (str! "t.")) (askFor [str! "x.com."]) 0)
      = (some .blocked, 0) ∧
    ¬ KnownGroup kidsCfg (str! "kids") := by
  refine ⟨by decide, by decide, ?_⟩
  rintro (h | h) <;> revert h <;> decide

/-- **C19, the API.** A disable request through the API without groups is the request to disable
everything, one with groups names exactly the comma separated ones; a malformed duration changes
nothing. -/
theorem C19_api_disable (c : BCfg) (s : TState) (d : Int) :
    (∀ g, g = none ∨ g = some [] → apiDisable c s (some (some d)) g = internalDisable c s d []) ∧
    (∀ g, g ≠ [] → apiDisable c s (some (some d)) (some g) = internalDisable c s d (splitChar ',' g)) ∧
    (∀ g, apiDisable c s (some none) g = (s, false)) ∧
    (∀ g, apiDisable c s none g = apiDisable c s (some (some 0)) g) := by
  refine ⟨?_, ?_, ?_, ?_⟩
  · rintro g (rfl | rfl) <;> rfl
  · intro g hg
    cases g with
    | nil => exact absurd rfl hg
    | cons => rfl
  · intro g; rfl
  · intro g; rfl

-- A client with a denylist group meets the hypothesis of `C19_disable_all_partial`.
example : ∀ g, Active plainEnv demoSetup.cfg (fun _ => none) [] (askFor [str! "ads.com."]) g →
    KnownGroup demoSetup.cfg g := by
  intro g hg
  have := (C17_groups_of_client plainEnv demoSetup.cfg (fun _ => none) {} (askFor [str! "ads.com."]) g).2 hg
  have h2 : groupsToCheck plainEnv (clientGroupsBlock demoSetup.cfg) (fun _ => none) {}
      (askFor [str! "ads.com."]) = [str! "g"] := by decide
  rw [h2] at this
  exact .inl (by rw [List.mem_singleton.1 this]; decide)

end Verif.Props
