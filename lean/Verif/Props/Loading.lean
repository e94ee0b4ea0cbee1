/-
C67: list downloads are retried as configured.
C68: the first load and the periodic refresh.
C69: which upstreams a group uses after the start.
-/
import Verif.Model.Loading

namespace Verif.Props
open Verif.Loading

/-! ### C67: downloads -/

/-- The attempt succeeds with this body: the server answers with status 200. -/
def AttemptDelivers (a : Attempt) (body : Str) : Prop := a = .response 200 body

/-- The attempt fails with this error: another status, a timeout or any other error. -/
def AttemptFails (a : Attempt) (e : DlErr) : Prop :=
  (∃ code b, a = .response code b ∧ code ≠ 200 ∧ e = .status code) ∨
  (a = .timeout ∧ e = .transient) ∨ (∃ t, a = .failure t ∧ e = .other t)

theorem tryOnce_ok {a : Attempt} {b : Str} (h : AttemptDelivers a b) : tryOnce a = .ok b := by
  rw [show a = _ from h]; rfl

theorem tryOnce_err {a : Attempt} {e : DlErr} (h : AttemptFails a e) : tryOnce a = .error e := by
  rcases h with ⟨c, b, rfl, hc, rfl⟩ | ⟨rfl, rfl⟩ | ⟨t, rfl, rfl⟩
  · simp [tryOnce, hc]
  · rfl
  · rfl

theorem download_failing (attempts : Nat) (cooldown : Int) (o : Nat → Attempt) (k : Nat)
    (hk : attempts = 0 ∨ k < attempts) (h : ∀ i < k, ∃ e, AttemptFails (o i) e) :
    Download.run attempts cooldown o k = ⟨k, k, k, k * cooldown, none⟩ := by
  induction k with
  | zero => simp [Download.run]
  | succ k ih =>
    obtain ⟨e, he⟩ := h k (by omega)
    rw [Download.run, ih (by omega) (fun i hi => h i (by omega))]
    unfold Download.step
    simp only [tryOnce_err he]
    have hc : (k : Int) * cooldown + cooldown = ((k + 1 : Nat) : Int) * cooldown := by
      rw [Int.natCast_add, Int.add_mul]; simp
    rw [hc]
    by_cases h0 : attempts = 0
    · rw [if_pos h0]
    · rw [if_neg h0, if_neg (by omega)]

theorem download_done (attempts : Nat) (cooldown : Int) (o : Nat → Attempt) (k j : Nat)
    (h : (Download.run attempts cooldown o k).result.isSome) :
    Download.run attempts cooldown o (k + j) = Download.run attempts cooldown o k := by
  induction j with
  | zero => rfl
  | succ j ih =>
    rw [← Nat.add_assoc, Download.run, ih]
    unfold Download.step
    cases hr : (Download.run attempts cooldown o k).result with
    | none => rw [hr] at h; simp at h
    | some r => rfl

/-- **C67** The body of the first attempt that succeeds, within the configured number of attempts, is the
result, whatever went wrong before; nothing more is requested afterwards, every failure is counted once
and the cooldown is kept before every further request. -/
theorem C67_first_success (attempts : Nat) (cooldown : Int) (o : Nat → Attempt) (k : Nat) (body : Str)
    (hk : attempts = 0 ∨ k < attempts) (h : ∀ i < k, ∃ e, AttemptFails (o i) e) (hb : AttemptDelivers (o k) body)
    (later : Nat) :
    Download.run attempts cooldown o (k + 1 + later) =
      { n := k, requests := k + 1, events := k, waited := k * cooldown, result := some (.ok body) } := by
  have h1 : Download.run attempts cooldown o (k + 1) =
      ⟨k, k + 1, k, k * cooldown, some (.ok body)⟩ := by
    rw [Download.run, download_failing attempts cooldown o k hk h]
    unfold Download.step
    simp only [tryOnce_ok hb]
  rw [download_done attempts cooldown o (k + 1) later (by rw [h1]; rfl), h1]

/-- A server that is slow at first, then overloaded, then fine. -/
def exampleServer : Nat → Attempt
  | 0 => .timeout
  | 1 => .response 503 []
  | _ => .response 200 (str! "ads.example")

example : (3 = 0 ∨ 2 < 3) ∧ (∀ i < 2, ∃ e, AttemptFails (exampleServer i) e) ∧
    AttemptDelivers (exampleServer 2) (str! "ads.example") := by
  refine ⟨by omega, ?_, rfl⟩
  intro i hi
  have : i = 0 ∨ i = 1 := by omega
  rcases this with rfl | rfl
  · exact ⟨.transient, Or.inr (Or.inl ⟨rfl, rfl⟩)⟩
  · exact ⟨.status 503, Or.inl ⟨503, [], rfl, by decide, rfl⟩⟩

/-- **C67** If all configured attempts fail, the download fails with the last error (so that a timeout at
the end is known as temporary), after exactly that many requests. -/
theorem C67_all_fail (attempts : Nat) (cooldown : Int) (o : Nat → Attempt) (e : DlErr)
    (h0 : 0 < attempts) (h : ∀ i < attempts, ∃ e, AttemptFails (o i) e) (he : AttemptFails (o (attempts - 1)) e)
    (later : Nat) :
    Download.run attempts cooldown o (attempts + later) =
      { n := attempts - 1, requests := attempts, events := attempts,
        waited := (attempts - 1 : Nat) * cooldown, result := some (.error e) } := by
  obtain ⟨m, rfl⟩ : ∃ m, attempts = m + 1 := ⟨attempts - 1, by omega⟩
  have h1 : Download.run (m + 1) cooldown o (m + 1) =
      ⟨m, m + 1, m + 1, m * cooldown, some (.error e)⟩ := by
    rw [Download.run, download_failing (m + 1) cooldown o m (by omega) (fun i hi => h i (by omega))]
    unfold Download.step
    rw [Nat.add_sub_cancel] at he
    simp only [tryOnce_err he]
    rw [if_neg (by omega), if_pos (by omega)]
  rw [download_done (m + 1) cooldown o (m + 1) later (by rw [h1]; rfl), h1]
  rfl

example : 0 < 2 ∧ (∀ i < 2, ∃ e, AttemptFails (exampleServer i) e) ∧ AttemptFails (exampleServer (2 - 1)) (.status 503) := by
  refine ⟨by omega, ?_, Or.inl ⟨503, [], rfl, by decide, rfl⟩⟩
  intro i hi
  have : i = 0 ∨ i = 1 := by omega
  rcases this with rfl | rfl
  · exact ⟨.transient, Or.inr (Or.inl ⟨rfl, rfl⟩)⟩
  · exact ⟨.status 503, Or.inl ⟨503, [], rfl, by decide, rfl⟩⟩

/-- **C67** A download that is over has a reason: the body was delivered with status 200, or the number of
attempts is used up. -/
theorem C67_result (attempts : Nat) (cooldown : Int) (o : Nat → Attempt) (k : Nat)
    (r : Except DlErr Str) (h : (Download.run attempts cooldown o k).result = some r) :
    (∃ i body, r = .ok body ∧ AttemptDelivers (o i) body ∧ (attempts = 0 ∨ i < attempts) ∧
      ∀ j < i, ∃ e, AttemptFails (o j) e) ∨
    (∃ e, r = .error e ∧ 0 < attempts ∧ AttemptFails (o (attempts - 1)) e ∧ ∀ j < attempts, ∃ e, AttemptFails (o j) e) := by
  have dec : ∀ a : Attempt, (∃ b, AttemptDelivers a b) ∨ ∃ e, AttemptFails a e := by
    intro a
    cases a with
    | response c b =>
      by_cases hc : c = 200
      · exact Or.inl ⟨b, by rw [hc]; rfl⟩
      · exact Or.inr ⟨_, Or.inl ⟨c, b, rfl, hc, rfl⟩⟩
    | timeout => exact Or.inr ⟨_, Or.inr (Or.inl ⟨rfl, rfl⟩)⟩
    | failure t => exact Or.inr ⟨_, Or.inr (Or.inr ⟨t, rfl, rfl⟩)⟩
  have first : ∀ n, (∃ i body, i < n ∧ AttemptDelivers (o i) body ∧ ∀ j < i, ∃ e, AttemptFails (o j) e) ∨
      ∀ j < n, ∃ e, AttemptFails (o j) e := by
    intro n
    induction n with
    | zero => exact Or.inr (fun j hj => absurd hj (by omega))
    | succ n ih =>
      rcases ih with ⟨i, b, hi, hd, hf⟩ | hf
      · exact Or.inl ⟨i, b, by omega, hd, hf⟩
      · rcases dec (o n) with ⟨b, hb⟩ | ⟨e, he⟩
        · exact Or.inl ⟨n, b, by omega, hb, hf⟩
        · refine Or.inr (fun j hj => ?_)
          by_cases hjn : j = n
          · subst hjn; exact ⟨e, he⟩
          · exact hf j (by omega)
  have use : ∀ i body, (attempts = 0 ∨ i < attempts) → AttemptDelivers (o i) body →
      (∀ j < i, ∃ e, AttemptFails (o j) e) → i < k → r = .ok body := by
    intro i body hi hd hf hik
    have := C67_first_success attempts cooldown o i body hi hf hd (k - (i + 1))
    rw [show i + 1 + (k - (i + 1)) = k from by omega] at this
    rw [this] at h
    simpa using h.symm
  by_cases hk : attempts = 0 ∨ k < attempts
  · rcases first k with ⟨i, b, hi, hd, hf⟩ | hf
    · have hia : attempts = 0 ∨ i < attempts := by omega
      exact Or.inl ⟨i, b, use i b hia hd hf hi, hd, hia, hf⟩
    · rw [download_failing attempts cooldown o k hk hf] at h
      exact absurd h (by simp)
  · rcases first attempts with ⟨i, b, hi, hd, hf⟩ | hf
    · exact Or.inl ⟨i, b, use i b (Or.inr hi) hd hf (by omega), hd, Or.inr hi, hf⟩
    · obtain ⟨e, he⟩ := hf (attempts - 1) (by omega)
      have := C67_all_fail attempts cooldown o e (by omega) hf he (k - attempts)
      rw [show attempts + (k - attempts) = k from by omega] at this
      rw [this] at h
      exact Or.inr ⟨e, by simpa using h.symm, by omega, he, hf⟩

example : (Download.run 3 500 exampleServer 3).result = some (.ok (str! "ads.example")) := by rfl

/-- **C67** The number of attempts is a limit only if it is not zero: with zero, a server that always
fails is asked for ever. -/
theorem C67_attempts_false :
    ¬ ∀ (attempts : Nat) (cooldown : Int) (o : Nat → Attempt) (k : Nat),
      (Download.run attempts cooldown o k).requests ≤ max 1 attempts := by
  intro h
  have := h 0 0 (fun _ => .timeout) 5
  rw [download_failing 0 0 _ 5 (by simp) (fun i _ => ⟨.transient, Or.inr (Or.inl ⟨rfl, rfl⟩)⟩)] at this
  exact absurd this (by decide)

/-- **C67** A link that will never work (here: status 404) is requested just as often. -/
example : (Download.run 3 500 (fun _ => .response 404 []) 3).requests = 3 := by rfl

/-! ### C68: first load and periodic refresh -/

/-- The load failed: it returned an error or panicked. -/
def LoadFails (r : TaskResult) : Prop := (∃ e, r = .err e) ∨ ∃ v, r = .panic v

theorem recover_isSome (pre : Str) (r : TaskResult) : (recoverToError pre r).isSome = true ↔ LoadFails r := by
  cases r <;> simp [recoverToError, LoadFails]

/-- **C68** The start fails exactly if the strategy is `failOnError` and the first load returns an error or
panics; otherwise the periodic refresh runs exactly if a period is configured. -/
theorem C68_start {W : Type} (s : Strategy) (period : Int) (refresh : W → TaskResult × W) (w : W) :
    ((startPeriodicRefresh s period refresh w).1.returned.isSome ↔
      s = .failOnError ∧ LoadFails (refresh w).1) ∧
    ((startPeriodicRefresh s period refresh w).2 = true ↔
      0 < period ∧ ¬ (s = .failOnError ∧ LoadFails (refresh w).1)) := by
  have hr : (startPeriodicRefresh s period refresh w).1 = s.run refresh w := by
    unfold startPeriodicRefresh
    simp only
    split <;> rfl
  have h1 : (s.run refresh w).returned.isSome = true ↔ s = .failOnError ∧ LoadFails (refresh w).1 := by
    cases s with
    | blocking => simp [Strategy.run]
    | fast => simp [Strategy.run]
    | failOnError => simp [Strategy.run, recover_isSome]
  refine ⟨by rw [hr]; exact h1, ?_⟩
  rw [← h1]
  unfold startPeriodicRefresh
  simp only
  cases (s.run refresh w).returned with
  | none => simp
  | some e => simp

/-- Example: a load that always fails. -/
def brokenLoad : Nat → TaskResult × Nat := fun n => (.panic (str! "boom"), n)

/-- Example: a load that works. -/
def countLoad : Nat → TaskResult × Nat := fun n => (.ok, n + 1)

example : ((startPeriodicRefresh .failOnError 5 brokenLoad 0).1.returned.isSome ∧
    (startPeriodicRefresh .failOnError 5 brokenLoad 0).2 = false) ∧
    (startPeriodicRefresh .blocking 5 brokenLoad 0).2 = true := by decide

example : (startPeriodicRefresh .blocking 5 brokenLoad 0).1.logged = [str! "panic during initialization: boom"] := by
  decide

/-- **C68** Except with `fast`, the first load is complete when the start returns; with `fast` it is still
to be done, once, by the goroutine left behind. A failure is logged exactly once in either case. -/
theorem C68_first_load {W : Type} (s : Strategy) (period : Int) (refresh : W → TaskResult × W) (w : W) :
    let r := (startPeriodicRefresh s period refresh w).1
    (s ≠ .fast → r.world = (refresh w).2 ∧ r.background = none ∧
      (r.logged.length = 1 ∧ LoadFails (refresh w).1 ∨ r.logged = [] ∧ (refresh w).1 = .ok)) ∧
    (s = .fast → r.world = w ∧ r.logged = [] ∧ ∃ job, r.background = some job ∧ ∀ w',
      (job w').2 = (refresh w').2 ∧
      ((job w').1.length = 1 ∧ LoadFails (refresh w').1 ∨ (job w').1 = [] ∧ (refresh w').1 = .ok)) := by
  have hr : (startPeriodicRefresh s period refresh w).1 = s.run refresh w := by
    unfold startPeriodicRefresh
    simp only
    split <;> rfl
  have hl : ∀ r : TaskResult, (recoverToError initPanic r).toList.length = 1 ∧ LoadFails r ∨
      (recoverToError initPanic r).toList = [] ∧ r = .ok := by
    intro r
    cases r <;> simp [recoverToError, LoadFails]
  simp only [hr]
  cases s with
  | blocking => exact ⟨fun _ => ⟨rfl, rfl, hl _⟩, fun h => nomatch h⟩
  | failOnError => exact ⟨fun _ => ⟨rfl, rfl, hl _⟩, fun h => nomatch h⟩
  | fast => exact ⟨fun h => absurd rfl h, fun _ => ⟨rfl, rfl, _, rfl, fun w' => ⟨rfl, hl _⟩⟩⟩

example : (startPeriodicRefresh .blocking 5 countLoad 0).1.world = 1 ∧
    (startPeriodicRefresh .fast 5 countLoad 0).1.world = 0 := by decide

/-- The state after `n` loads. -/
def afterLoads {W : Type} (refresh : W → TaskResult × W) : Nat → W → W
  | 0, w => w
  | n + 1, w => afterLoads refresh n (refresh w).2

/-- How many of `n` loads fail. -/
noncomputable def failures {W : Type} (refresh : W → TaskResult × W) : Nat → W → Nat
  | 0, _ => 0
  | n + 1, w =>
    (open Classical in if LoadFails (refresh w).1 then 1 else 0) + failures refresh n (refresh w).2

theorem recover_length (pre : Str) (r : TaskResult) :
    (recoverToError pre r).toList.length = (open Classical in if LoadFails r then 1 else 0) := by
  cases r <;> simp [recoverToError, LoadFails]

/-- **C68** Whatever the loads do, in every run: the refresh loop lives as long as it was not told to stop;
every refresh is one load on top of the previous state; and every failed one is logged. -/
theorem C68_refresh {W : Type} (refresh : W → TaskResult × W) (l l' : Loop W) (es : List LoopEvent)
    (h : LoopRun refresh l es l') (ha : l.alive = true) (hc : l.cancelled = false) :
    (.cancel ∉ es → l'.alive = true) ∧
    l'.world = afterLoads refresh (es.count .refresh) l.world ∧
    l'.logged.length = l.logged.length + failures refresh (es.count .refresh) l.world := by
  have key : ∀ l l' es, LoopRun refresh l es l' →
      (l.alive = true → l.cancelled = false → .cancel ∉ es → l'.alive = true) ∧
      l'.world = afterLoads refresh (es.count .refresh) l.world ∧
      l'.logged.length = l.logged.length + failures refresh (es.count .refresh) l.world := by
    intro l l' es h
    induction h with
    | nil l => exact ⟨fun h _ _ => h, rfl, rfl⟩
    | cons hs _ ih =>
      cases hs with
      | tick _ =>
        refine ⟨fun h1 h2 h3 => ih.1 h1 h2 (fun hm => h3 (List.mem_cons_of_mem _ hm)), ?_, ?_⟩
        · rw [ih.2.1]; simp
        · rw [ih.2.2]; simp
      | cancel =>
        refine ⟨fun h1 h2 h3 => absurd (List.mem_cons_self ..) h3, ?_, ?_⟩
        · rw [ih.2.1]; simp
        · rw [ih.2.2]; simp
      | refresh h1 h2 =>
        refine ⟨fun h1 h2 h3 => ih.1 h1 h2 (fun hm => h3 (List.mem_cons_of_mem _ hm)), ?_, ?_⟩
        · rw [ih.2.1, List.count_cons_self]; rfl
        · rw [ih.2.2, List.count_cons_self, failures, ← recover_length refreshPanic]
          simp only [List.length_append]
          omega
      | stop h1 h2 =>
        refine ⟨fun _ h3 _ => ?_, ?_, ?_⟩
        · rw [h3] at h2; exact absurd h2 (by simp)
        · rw [ih.2.1]; simp
        · rw [ih.2.2]; simp
  have := key l l' es h
  exact ⟨this.1 ha hc, this.2⟩

example : LoopRun brokenLoad { world := 0 } [.tick, .refresh, .tick, .refresh]
    { world := 0, logged := [str! "panic during refresh: boom", str! "panic during refresh: boom"] } :=
  .cons (.tick _ rfl) (.cons (.refresh _ rfl rfl) (.cons (.tick _ rfl) (.cons (.refresh _ rfl rfl)
    (.nil _))))

/-- **C68** The loop is never stuck: while it lives, a tick leads to a refresh and a cancellation to its
end; and after its end nothing is loaded any more. -/
theorem C68_progress {W : Type} (refresh : W → TaskResult × W) (l : Loop W) :
    (l.alive = true → l.tick = true → ∃ l', LoopStep refresh l .refresh l') ∧
    (l.alive = true → l.cancelled = true → ∃ l', LoopStep refresh l .stop l' ∧ l'.alive = false) ∧
    (l.alive = false → ∀ es l', LoopRun refresh l es l' → l'.world = l.world ∧ .refresh ∉ es) := by
  refine ⟨fun h1 h2 => ⟨_, .refresh l h1 h2⟩, fun h1 h2 => ⟨_, .stop l h1 h2, rfl⟩, ?_⟩
  intro h es l' hr
  induction hr with
  | nil l => exact ⟨rfl, by simp⟩
  | cons hs _ ih =>
    cases hs with
    | tick h1 => rw [h] at h1; exact absurd h1 (by simp)
    | cancel =>
      obtain ⟨i1, i2⟩ := ih h
      exact ⟨i1, by simp [i2]⟩
    | refresh h1 _ => rw [h] at h1; exact absurd h1 (by simp)
    | stop h1 _ => rw [h] at h1; exact absurd h1 (by simp)

example : ∃ l', LoopStep countLoad { tick := true, cancelled := true, world := 3 } .stop l' :=
  ⟨_, .stop _ rfl rfl⟩

/-- **C68** But a cancellation does not keep a waiting tick from being taken first: a refresh may start
after the shutdown. -/
theorem C68_no_refresh_after_stop_false :
    ¬ ∀ (l l' : Loop Nat) (es : List LoopEvent), l.cancelled = true → LoopRun countLoad l es l' →
      .refresh ∉ es := by
  intro h
  exact h { tick := true, cancelled := true, world := 0 } _ [.refresh] rfl
    (.cons (.refresh _ rfl rfl) (.nil _)) (by simp)

/-! ### C69: upstream groups after the start -/

/-- An upstream that answers the test query. -/
def Working {U : Type} (test : U → TaskResult) (u : U) : Prop := test u = .ok

theorem newUpstreamResolver_fst (s : Strategy) (r : TaskResult) :
    (newUpstreamResolver s r).1 = true ↔ (s = .failOnError → r = .ok) := by
  cases s <;> cases r <;> simp [newUpstreamResolver, Strategy.run, recoverToError]

/-- The upstreams that a strategy keeps. -/
def keptUpstreams {U : Type} (s : Strategy) (test : U → TaskResult) (us : List U) : List U :=
  us.filter fun u => decide (s = .failOnError → test u = .ok)

theorem createGroupResolvers_eq {U : Type} (s : Strategy) (test : U → TaskResult) (us : List U) :
    createGroupResolvers s test us =
      if keptUpstreams s test us = [] then .error (str! "no valid upstream for group")
      else .ok (keptUpstreams s test us) := by
  have : us.filter (fun u => (newUpstreamResolver s (test u)).1) = keptUpstreams s test us := by
    unfold keptUpstreams
    refine List.filter_congr fun u _ => ?_
    rw [Bool.eq_iff_iff, newUpstreamResolver_fst, decide_eq_true_iff]
  unfold createGroupResolvers
  simp only [this]

theorem kept_not_fail {U : Type} {s : Strategy} (h : s ≠ .failOnError) (test : U → TaskResult)
    (us : List U) : keptUpstreams s test us = us := by
  unfold keptUpstreams
  exact List.filter_eq_self.2 (by simp [h])

/-- **C69** With `failOnError`, the program starts exactly if there is a default group and every group has
an upstream that works; every group then uses exactly its upstreams that work, in their order. -/
theorem C69_fail_on_error {U : Type} (test : U → TaskResult) (groups : AMap Str (List U)) :
    ((startGroups .failOnError test groups).isSome ↔
      (∃ us, groups.get (str! "default") = some us ∧ us ≠ []) ∧
      ∀ g ∈ groups, ∃ u ∈ g.2, Working test u) ∧
    ∀ started, startGroups .failOnError test groups = some started →
      started.map Prod.fst = groups.map Prod.fst ∧
      ∀ name r, (name, r) ∈ started → ∃ us used, (name, us) ∈ groups ∧ r.world = .upstreams used ∧
        r.background = none ∧ used.Sublist us ∧ used ≠ [] ∧ ∀ u, u ∈ used ↔ u ∈ us ∧ Working test u := by
  have hmem : ∀ us u, u ∈ keptUpstreams .failOnError test us ↔ u ∈ us ∧ Working test u := by
    intro us u
    unfold keptUpstreams Working
    simp
  have hsome : ∀ us, (initGroup .failOnError test us).returned.isSome = true ↔
      ¬ ∃ u ∈ us, Working test u := by
    intro us
    have hk : keptUpstreams .failOnError test us = [] ↔ ¬ ∃ u ∈ us, Working test u := by
      rw [List.eq_nil_iff_forall_not_mem]
      constructor
      · rintro h ⟨u, hu, hw⟩; exact h u ((hmem us u).2 ⟨hu, hw⟩)
      · intro h u hu; exact h ⟨u, (hmem us u).1 hu⟩
    rw [← hk]
    unfold initGroup
    rw [createGroupResolvers_eq]
    by_cases h : keptUpstreams .failOnError test us = []
    · rw [if_pos h]; simp [Strategy.run, recoverToError, h]
    · rw [if_neg h]; simp [Strategy.run, recoverToError, h]
  have hworld : ∀ us, (∃ u ∈ us, Working test u) →
      (initGroup .failOnError test us).world = .upstreams (keptUpstreams .failOnError test us) := by
    intro us ⟨u, hu, hw⟩
    have h : keptUpstreams .failOnError test us ≠ [] :=
      List.ne_nil_of_mem ((hmem us u).2 ⟨hu, hw⟩)
    unfold initGroup
    rw [createGroupResolvers_eq, if_neg h]
    rfl
  have hany : ∀ l : List (Str × List U),
      ((l.map fun g => (g.1, initGroup .failOnError test g.2)).any fun g => g.2.returned.isSome) = false ↔
        ∀ g ∈ l, ∃ u ∈ g.2, Working test u := by
    intro l
    rw [List.any_eq_false]
    constructor
    · intro h g hg
      have := h (g.1, initGroup .failOnError test g.2) (List.mem_map.2 ⟨g, hg, rfl⟩)
      rw [hsome] at this
      exact Classical.not_not.1 this
    · intro h x hx
      obtain ⟨g, hg, rfl⟩ := List.mem_map.1 hx
      rw [hsome]
      exact fun hn => hn (h g hg)
  have hstart : ∀ u us, groups.get (str! "default") = some (u :: us) →
      startGroups .failOnError test groups =
        if (groups.map fun g => (g.1, initGroup .failOnError test g.2)).any (fun g => g.2.returned.isSome)
        then none else some (groups.map fun g => (g.1, initGroup .failOnError test g.2)) := by
    intro u us h
    unfold startGroups
    rw [h]
  constructor
  · cases hg : groups.get (str! "default") with
    | none => simp [startGroups, hg]
    | some us =>
      cases us with
      | nil => simp [startGroups, hg]
      | cons u us =>
        rw [hstart u us hg, ← hany]
        cases ((groups.map fun g => (g.1, initGroup .failOnError test g.2)).any
            fun g => g.2.returned.isSome) <;> simp
  · intro started h
    cases hg : groups.get (str! "default") with
    | none => simp [startGroups, hg] at h
    | some us =>
      cases us with
      | nil => simp [startGroups, hg] at h
      | cons u us =>
        rw [hstart u us hg] at h
        split at h
        · exact absurd h (by simp)
        · rename_i hnot
          have hall := (hany groups).1 (by simpa using hnot)
          rw [Option.some.injEq] at h
          subst h
          refine ⟨by simp [List.map_map, Function.comp_def], ?_⟩
          intro name r hr
          obtain ⟨g, hgm, heq⟩ := List.mem_map.1 hr
          rw [Prod.mk.injEq] at heq
          obtain ⟨rfl, rfl⟩ := heq
          have hw := hall g hgm
          refine ⟨g.2, keptUpstreams .failOnError test g.2, hgm, hworld g.2 hw, ?_, ?_, ?_, hmem g.2⟩
          · rfl
          · unfold keptUpstreams; exact List.filter_sublist
          · obtain ⟨u, hu, hw⟩ := hw
            exact List.ne_nil_of_mem ((hmem g.2 u).2 ⟨hu, hw⟩)

/-- Example: upstream 1 works, 2 does not. -/
def exampleTest : Nat → TaskResult := fun u => if u = 1 then .ok else .err (str! "timeout")

example : (startGroups .failOnError exampleTest [(str! "default", [2, 1])]).isSome ∧
    (startGroups .failOnError exampleTest [(str! "default", [1]), (str! "kids", [2])]).isNone := by
  decide

/-- **C69** With `blocking` and `fast`, the program starts exactly if there is a default group, whatever
the tests say. Every group with upstreams then uses all of them in their order: with `blocking` from the
start, with `fast` once its goroutine has run; until then it uses the bootstrap DNS. -/
theorem C69_other_strategies {U : Type} (s : Strategy) (hs : s ≠ .failOnError) (test : U → TaskResult)
    (groups : AMap Str (List U)) :
    ((startGroups s test groups).isSome ↔ ∃ us, groups.get (str! "default") = some us ∧ us ≠ []) ∧
    ∀ started, startGroups s test groups = some started →
      started.map Prod.fst = groups.map Prod.fst ∧
      ∀ name r, (name, r) ∈ started → ∃ us, (name, us) ∈ groups ∧
        (s = .blocking → us ≠ [] → r.world = .upstreams us ∧ r.background = none) ∧
        (s = .fast → r.world = .bootstrap ∧
          ∃ job, r.background = some job ∧ (us ≠ [] → (job r.world).2 = .upstreams us)) := by
  have hret : ∀ us, (initGroup s test us).returned = none := by
    intro us
    cases s with
    | failOnError => exact absurd rfl hs
    | blocking => rfl
    | fast => rfl
  have hany : ((groups.map fun g => (g.1, initGroup s test g.2)).any fun g => g.2.returned.isSome) = false := by
    rw [List.any_eq_false]
    intro x hx
    obtain ⟨g, _, rfl⟩ := List.mem_map.1 hx
    simp [hret]
  have hstart : ∀ u us, groups.get (str! "default") = some (u :: us) →
      startGroups s test groups = some (groups.map fun g => (g.1, initGroup s test g.2)) := by
    intro u us h
    unfold startGroups
    rw [h]
    simp only [hany]
    rfl
  constructor
  · cases hg : groups.get (str! "default") with
    | none => simp [startGroups, hg]
    | some us =>
      cases us with
      | nil => simp [startGroups, hg]
      | cons u us => rw [hstart u us hg]; simp
  · intro started h
    cases hg : groups.get (str! "default") with
    | none => simp [startGroups, hg] at h
    | some us =>
      cases us with
      | nil => simp [startGroups, hg] at h
      | cons u us =>
        rw [hstart u us hg, Option.some.injEq] at h
        subst h
        refine ⟨by simp [List.map_map, Function.comp_def], ?_⟩
        intro name r hr
        obtain ⟨g, hgm, heq⟩ := List.mem_map.1 hr
        rw [Prod.mk.injEq] at heq
        obtain ⟨rfl, rfl⟩ := heq
        have hcreate : g.2 ≠ [] → createGroupResolvers s test g.2 = .ok g.2 := by
          intro hne
          rw [createGroupResolvers_eq, kept_not_fail hs, if_neg hne]
        refine ⟨g.2, hgm, ?_, ?_⟩
        · rintro rfl hne
          unfold initGroup
          rw [hcreate hne]
          exact ⟨rfl, rfl⟩
        · rintro rfl
          refine ⟨rfl, _, rfl, ?_⟩
          intro hne
          simp only [hcreate hne]

example : (startGroups .blocking exampleTest [(str! "default", [2, 1])]).map
    (fun l => l.map fun g => g.2.world) = some [.upstreams [2, 1]] := by decide

/-- **C69** A client's queries do not only go to the upstreams of its group: with `fast` they go to the
bootstrap DNS until the group is initialised. -/
theorem C69_only_own_upstreams_false :
    ¬ ∀ (s : Strategy) (test : Nat → TaskResult) (groups : AMap Str (List Nat)) started,
      startGroups s test groups = some started → (∀ g ∈ groups, g.2 ≠ []) →
      ∀ g ∈ started, ∃ us, g.2.world = .upstreams us := by
  intro h
  obtain ⟨us, hus⟩ := h .fast exampleTest [(str! "default", [1])] _ rfl (by decide) _
    (List.mem_cons_self ..)
  exact absurd hus (by simp [initGroup, Strategy.run])

/-- **C69** And for ever for a group that was left empty. -/
theorem C69_empty_group_false :
    ¬ ∀ (s : Strategy) (test : Nat → TaskResult) (groups : AMap Str (List Nat)) started,
      startGroups s test groups = some started → s = .blocking →
      ∀ g ∈ started, ∃ us, g.2.world = .upstreams us := by
  intro h
  obtain ⟨us, hus⟩ := h .blocking exampleTest [(str! "default", [1]), (str! "kids", [])] _ rfl rfl
    (str! "kids", _) (List.mem_cons_of_mem _ (List.mem_cons_self ..))
  have hb : GroupUpstreams.bootstrap = GroupUpstreams.upstreams us := hus
  exact nomatch hb

/-- **C69** With `failOnError`, an upstream that fails its test once is not used by its group, although
the program starts; nothing tests it again. -/
theorem C69_all_used_false :
    ¬ ∀ (s : Strategy) (test : Nat → TaskResult) (groups : AMap Str (List Nat)) started,
      startGroups s test groups = some started → s ≠ .fast → (∀ g ∈ groups, g.2 ≠ []) →
      ∀ g ∈ groups, ∃ r, (g.1, r) ∈ started ∧ r.world = .upstreams g.2 := by
  intro h
  obtain ⟨r, hr, hw⟩ := h .failOnError exampleTest [(str! "default", [1, 2])] _ rfl (by simp) (by decide)
    (str! "default", [1, 2]) (by simp)
  rw [List.map_cons, List.map_nil, List.mem_singleton, Prod.mk.injEq] at hr
  rw [hr.2] at hw
  exact absurd hw (by decide)

end Verif.Props
