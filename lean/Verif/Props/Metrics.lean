/-
C77, C78: the counters of the metrics resolver and the gauges of blocking and cache.
-/
import Verif.Props.Utf8
import Verif.Model.Server
import Verif.Model.ClientNames
import Verif.Props.ExpCache

namespace Verif.Props
open Verif.Dns Verif.Metrics

/-! ### Counters (C77) -/

/-- A request that reached the metrics resolver and what the rest of the chain made of it. -/
structure Handled where
  names : List Str
  question : Question
  more : List Question
  outcome : Outcome

/-- What the next resolver may return: a response with a message, or an error. -/
def Handled.proper (h : Handled) : Prop := (∃ r, h.outcome = .ok r) ∨ ∃ e, h.outcome = .err e

/-- The requests' handlers, before their first update. -/
def metricsStart (hs : List Handled) : Sys := ⟨[], hs.map (fun h => (updates true h.names (h.question :: h.more) h.outcome).1)⟩

/-- All handlers are through. -/
def allThrough (s : Sys) : Prop := ∀ t ∈ s.todo, t = []

def isQueryCount : Update → Bool
  | .query .. => true
  | _ => false

def isResultCount : Update → Bool
  | .error => true
  | .response .. => true
  | _ => false

theorem flatten_set_perm {α : Type} (u : α) (us : List α) : ∀ (l : List (List α)) (i : Nat), l[i]? = some (u :: us) →
    (u :: (l.set i us).flatten).Perm l.flatten
  | [], i, h => by simp at h
  | x :: l, 0, h => by
    have : x = u :: us := by simpa using h
    subst this
    simp
  | x :: l, i + 1, h => by
    have ih := flatten_set_perm u us l i (by simpa using h)
    have h1 : (u :: (x ++ (l.set i us).flatten)).Perm (x ++ u :: (l.set i us).flatten) := List.perm_middle.symm
    simpa using h1.trans (ih.append_left x)

theorem sysStep_perm (s : Sys) (i : Nat) : ((sysStep s i).counters ++ (sysStep s i).todo.flatten).Perm (s.counters ++ s.todo.flatten) := by
  unfold sysStep
  split
  · rename_i u us h
    have h1 := (flatten_set_perm u us s.todo i h).append_left s.counters
    exact (List.perm_middle (a := u) (l₁ := s.counters) (l₂ := (s.todo.set i us).flatten)).symm.trans h1
  · exact List.Perm.refl _

theorem sysRun_perm (s : Sys) (sched : List Nat) :
    ((sysRun s sched).counters ++ (sysRun s sched).todo.flatten).Perm (s.counters ++ s.todo.flatten) := by
  induction sched generalizing s with
  | nil => exact List.Perm.refl _
  | cons i sched ih => exact (ih (sysStep s i)).trans (sysStep_perm s i)

theorem finished_counters (hs : List Handled) (sched : List Nat) (hf : allThrough (sysRun (metricsStart hs) sched)) :
    (sysRun (metricsStart hs) sched).counters.Perm
      (hs.map (fun h => (updates true h.names (h.question :: h.more) h.outcome).1)).flatten := by
  have h := sysRun_perm (metricsStart hs) sched
  have hnil : (sysRun (metricsStart hs) sched).todo.flatten = [] := by
    rw [List.flatten_eq_nil_iff]
    exact hf
  rw [hnil, List.append_nil] at h
  exact h

theorem countP_flatten_map (p : Update → Bool) (f : Handled → List Update) (q : Handled → Bool) (hs : List Handled)
    (h : ∀ x ∈ hs, (f x).countP p = if q x then 1 else 0) : ((hs.map f).flatten).countP p = hs.countP q := by
  induction hs with
  | nil => rfl
  | cons x hs ih =>
    rw [List.map_cons, List.flatten_cons, List.countP_append, ih (fun y hy => h y (List.mem_cons_of_mem _ hy)),
      h x List.mem_cons_self, List.countP_cons]
    cases q x <;> simp [Nat.add_comm]

/-- The label of a client: its names, separated by commas. -/
theorem joinNames_intercalate : ∀ l : List Str, joinNames l = List.intercalate [','] l
  | [] => rfl
  | [s] => by simp [joinNames, List.intercalate]
  | s :: t :: ss => by
    rw [joinNames, joinNames_intercalate (t :: ss)]
    simp [List.intercalate]

/-- C77: whatever the order in which concurrent handlers make their updates, in the end each query counter
(client, type) equals the number of requests of that client and type, each response counter the number of
requests answered with that reason, code and response type, and the error counter the number of requests
that failed. Missing: clients whose name is no UTF-8 (`C77_label_false`). -/
theorem C77_counts_partial (hs : List Handled) (hp : ∀ h ∈ hs, h.proper) (hl : ∀ h ∈ hs, Utf8 (List.intercalate [','] h.names)) (sched : List Nat)
    (hf : allThrough (sysRun (metricsStart hs) sched)) :
    (∀ client qtype, (sysRun (metricsStart hs) sched).counters.count (.query client qtype) =
      hs.countP (fun h => decide (List.intercalate [','] h.names = client ∧ h.question.qtype = qtype))) ∧
    (∀ reason rcode rtype, (sysRun (metricsStart hs) sched).counters.count (.response reason rcode rtype) =
      hs.countP (fun h => match h.outcome with
        | .ok r => decide (r.reason = reason ∧ r.res.rcode = rcode ∧ r.rtype = rtype)
        | _ => false)) ∧
    (sysRun (metricsStart hs) sched).counters.count .error =
      hs.countP (fun h => match h.outcome with | .err _ => true | _ => false) ∧
    (∀ rtype, (sysRun (metricsStart hs) sched).counters.count (.duration rtype) =
      hs.countP (fun h => match h.outcome with
        | .ok r => decide (rtype = some r.rtype)
        | .err _ => decide (rtype = none)
        | _ => false)) := by
  have hperm := finished_counters hs sched hf
  simp only [← joinNames_intercalate]
  refine ⟨fun client qtype => ?_, fun reason rcode rtype => ?_, ?_, fun rtype => ?_⟩
  all_goals
    rw [hperm.count_eq]
    apply countP_flatten_map
    intro h hm
    have hu := (validUtf8_iff _).2 (hl h hm)
    rw [← joinNames_intercalate] at hu
    rcases hp h hm with ⟨r, ho⟩ | ⟨e, ho⟩
  all_goals simp only [updates, hu, Bool.not_true, Bool.false_eq_true, if_false, ho, if_true, List.countP_cons, List.countP_nil]
  · by_cases hc : joinNames h.names = client ∧ h.question.qtype = qtype <;> simp [hc]
  · by_cases hc : joinNames h.names = client ∧ h.question.qtype = qtype <;> simp [hc]
  · by_cases hc : r.reason = reason ∧ r.res.rcode = rcode ∧ r.rtype = rtype <;> simp [hc]
  · simp
  · simp
  · simp
  · by_cases hc : rtype = some r.rtype
    · subst hc; simp
    · have : ¬ some r.rtype = rtype := fun e => hc e.symm
      simp [hc, this]
  · by_cases hc : rtype = none
    · subst hc; simp
    · have : ¬ none = rtype := fun e => hc e.symm
      simp [hc, this]

/-- What a handler may still have to do. -/
inductive HandlerTail : List Update → Prop
  | all (q d r : Update) (hq : isQueryCount q = true) (hq' : isResultCount q = false) (hd : isQueryCount d = false)
      (hd' : isResultCount d = false) (hr : isQueryCount r = false) (hr' : isResultCount r = true) : HandlerTail [q, d, r]
  | two (d r : Update) (hd : isQueryCount d = false) (hd' : isResultCount d = false) (hr : isQueryCount r = false)
      (hr' : isResultCount r = true) : HandlerTail [d, r]
  | one (r : Update) (hr : isQueryCount r = false) (hr' : isResultCount r = true) : HandlerTail [r]
  | none : HandlerTail []

theorem HandlerTail.next {u : Update} {us : List Update} (h : HandlerTail (u :: us)) : HandlerTail us := by
  cases h with
  | all _ d r _ _ hd hd' hr hr' => exact .two d r hd hd' hr hr'
  | two _ r _ _ hr hr' => exact .one r hr hr'
  | one => exact .none

theorem HandlerTail.counts {t : List Update} (h : HandlerTail t) : t.countP isQueryCount ≤ t.countP isResultCount ∧
    t.countP isResultCount ≤ t.countP isQueryCount + (if t = [] then 0 else 1) := by
  cases h with
  | all q d r hq hq' hd hd' hr hr' => simp [*]
  | two d r hd hd' hr hr' => simp [*]
  | one r hr hr' => simp [*]
  | none => simp

theorem sysRun_tails (s : Sys) (sched : List Nat) (h : ∀ t ∈ s.todo, HandlerTail t) :
    ∀ t ∈ (sysRun s sched).todo, HandlerTail t := by
  induction sched generalizing s with
  | nil => exact h
  | cons i sched ih =>
    apply ih (sysStep s i)
    unfold sysStep
    split
    · rename_i u us hi
      intro t ht
      rcases List.mem_or_eq_of_mem_set ht with ht | ht
      · exact h t ht
      · subst ht
        exact (h _ (List.mem_of_getElem? hi)).next
    · exact h

theorem start_tails (hs : List Handled) (hp : ∀ h ∈ hs, h.proper) : ∀ t ∈ (metricsStart hs).todo, HandlerTail t := by
  intro t ht
  obtain ⟨h, hm, rfl⟩ := List.mem_map.1 ht
  rcases hp h hm with ⟨r, ho⟩ | ⟨e, ho⟩
  · simp only [updates, ho, if_true]
    split
    · exact .none
    · exact .all _ _ _ rfl rfl rfl rfl rfl rfl
  · simp only [updates, ho, if_true]
    split
    · exact .none
    · exact .all _ _ _ rfl rfl rfl rfl rfl rfl

theorem tails_counts (l : List (List Update)) (h : ∀ t ∈ l, HandlerTail t) :
    l.flatten.countP isQueryCount ≤ l.flatten.countP isResultCount ∧
    l.flatten.countP isResultCount ≤ l.flatten.countP isQueryCount + l.countP (fun t => decide (t ≠ [])) := by
  induction l with
  | nil => simp
  | cons t l ih =>
    have h1 := ih (fun x hx => h x (List.mem_cons_of_mem _ hx))
    have h2 := (h t List.mem_cons_self).counts
    simp only [List.flatten_cons, List.countP_append, List.countP_cons]
    by_cases ht : t = []
    · rw [if_pos ht] at h2
      have : decide (t ≠ []) = false := by simp [ht]
      simp only [this]
      exact ⟨by omega, by simp only [Bool.false_eq_true, if_false]; omega⟩
    · rw [if_neg ht] at h2
      have : decide (t ≠ []) = true := by simp [ht]
      simp only [this]
      exact ⟨by omega, by simp only [if_true]; omega⟩

/-- C77: at any time, the number of results counted (responses and errors together) is at most the number of
queries counted, and the difference is at most the number of requests in progress. -/
theorem C77_at_any_time (hs : List Handled) (hp : ∀ h ∈ hs, h.proper) (sched : List Nat) :
    (sysRun (metricsStart hs) sched).counters.countP isResultCount ≤
      (sysRun (metricsStart hs) sched).counters.countP isQueryCount ∧
    (sysRun (metricsStart hs) sched).counters.countP isQueryCount ≤
      (sysRun (metricsStart hs) sched).counters.countP isResultCount +
      (sysRun (metricsStart hs) sched).todo.countP (fun t => decide (t ≠ [])) := by
  have hperm := sysRun_perm (metricsStart hs) sched
  have h1 := tails_counts _ (sysRun_tails _ sched (start_tails hs hp))
  have hq := hperm.countP_eq isQueryCount
  have hr := hperm.countP_eq isResultCount
  have h0 : (metricsStart hs).todo.flatten.countP isQueryCount = (metricsStart hs).todo.flatten.countP isResultCount := by
    unfold metricsStart
    rw [countP_flatten_map isQueryCount _ (fun h => validUtf8 (joinNames h.names)),
      countP_flatten_map isResultCount _ (fun h => validUtf8 (joinNames h.names))]
    · intro h hm
      rcases hp h hm with ⟨r, ho⟩ | ⟨e, ho⟩ <;> cases hu : validUtf8 (joinNames h.names) <;>
        simp [updates, ho, hu, isResultCount, List.countP_cons]
    · intro h hm
      rcases hp h hm with ⟨r, ho⟩ | ⟨e, ho⟩ <;> cases hu : validUtf8 (joinNames h.names) <;>
        simp [updates, ho, hu, isQueryCount, List.countP_cons]
  have hz : (metricsStart hs).counters = [] := rfl
  rw [List.countP_append, List.countP_append, hz, List.countP_nil] at hq hr
  omega

/-- What one handled request adds to the counters, as a list. -/
def expectedUpdates (names : List Str) (q : Question) : Outcome → List Update
  | .ok r => [.query (List.intercalate [','] names) q.qtype, .duration (some r.rtype), .response r.reason r.res.rcode r.rtype]
  | .err _ => [.query (List.intercalate [','] names) q.qtype, .duration none, .error]
  | _ => []

/-- C77: the metrics change nothing about the result: what the rest of the chain returns is returned, and its
state is left as it is. Switched on, exactly the updates for this request are added to the counters, labelled
with the names of its client; switched off, none. Missing: clients whose name is no UTF-8 (`C77_label_false`). -/
theorem C77_result_partial {W : Type} (enable : Bool) (next : Resolver W) (request : Request) (q : Question) (qs : List Question)
    (hq : request.req.question = q :: qs) (hl : Utf8 (List.intercalate [','] request.clientNames)) (c : Counters) (w : W)
    (hp : (∃ r, (next request w).1 = .ok r) ∨ ∃ e, (next request w).1 = .err e) :
    (Metrics.resolve enable next request (c, w)).1 = (next request w).1 ∧
    (Metrics.resolve enable next request (c, w)).2.2 = (next request w).2 ∧
    (∀ u, (Metrics.resolve enable next request (c, w)).2.1.count u =
      c.count u + if enable then (expectedUpdates request.clientNames q (next request w).1).count u else 0) := by
  have hu := (validUtf8_iff _).2 hl
  rw [← joinNames_intercalate] at hu
  unfold Metrics.resolve
  cases h : next request w with
  | mk o w' =>
  rw [h] at hp
  dsimp only at hp ⊢
  rcases hp with ⟨r, rfl⟩ | ⟨e, rfl⟩ <;> cases enable <;> simp [updates, hq, hu]
  · intro u
    simp only [expectedUpdates, ← joinNames_intercalate, inc, List.count_cons, List.count_nil]
    omega
  · intro u
    simp only [expectedUpdates, ← joinNames_intercalate, inc, List.count_cons, List.count_nil]
    omega

/-- C77 is false for clients whose name is no UTF-8: whatever the rest of the chain answers, the response is lost in a panic and nothing is
counted. Clients choose such names themselves: here with the server name "id-<byte 255>.dns" in TLS. -/
theorem C77_label_false :
    (∀ {W : Type} (next : Resolver W) (request : Request) (c : Counters) (w : W), ¬ Utf8 (List.intercalate [','] request.clientNames) →
      (Metrics.resolve true next request (c, w)).1 = .panic ∧ (Metrics.resolve true next request (c, w)).2.1 = c) ∧
    ∀ (cfg : ClientNames.Cfg) (remote : Server.Addr) (msg : Msg) (names : ExpCache.St (List Str)) (w : Nat),
      let request := (ClientNames.withNames cfg none
        (Server.newRequestFromDNS remote (some (str! "id-" ++ [Char.ofNat 255] ++ str! ".dns")) msg) names w).1
      request.clientNames = [[Char.ofNat 255]] ∧ ¬ Utf8 (List.intercalate [','] request.clientNames) := by
  refine ⟨fun next request c w h => ?_, fun cfg remote msg names w => ⟨rfl, fun h => ?_⟩⟩
  · have hu : validUtf8 (joinNames request.clientNames) = false := by
      rw [joinNames_intercalate]
      cases hv : validUtf8 (List.intercalate [','] request.clientNames) with
      | false => rfl
      | true => exact absurd ((validUtf8_iff _).1 hv) h
    unfold Metrics.resolve
    cases next request w with
    | mk o w' => simp [updates, hu]
  · have h : Utf8 [Char.ofNat 255] := h
    exact absurd ((validUtf8_iff _).2 h) (by decide)

/-- C77 is false for queries that are stopped earlier: neither a query of a filtered type nor, with FQDN-only,
a query for a bare host name is counted, although it is answered. -/
theorem C77_stopped_false {W : Type} (next : Resolver W) (request : Request) (q : Question) (qs : List Question)
    (hq : request.req.question = q :: qs) (types : List Nat) (c : Counters) (w : W) :
    (q.qtype ∈ types → ∃ r, Small.filtering types (Metrics.resolve true next) request (c, w) = (.ok r, (c, w))) ∧
    ('.' ∉ extractDomain q.name →
      ∃ r, Small.fqdnOnly true (Metrics.resolve true next) request (c, w) = (.ok r, (c, w))) := by
  refine ⟨fun h => ?_, fun h => ?_⟩
  · refine ⟨{ res := ({} : Msg).setRcode request.req rcodeSuccess, rtype := .filtered }, ?_⟩
    simp only [Small.filtering, hq]
    rw [if_pos (by simpa using h)]
  · refine ⟨{ res := { rcode := rcodeNXDomain }, reason := str! "NOTFQDN", rtype := .notfqdn }, ?_⟩
    simp only [Small.fqdnOnly, hq, if_true]
    rw [if_pos (by simpa using h)]

/-- Two requests of different clients, for the examples: one answered, one failed. -/
def twoHandled : List Handled :=
  [{ names := [str! "pc", str! "pc.lan"], question := { name := str! "h.example.", qtype := typeA }, more := [],
     outcome := .ok { res := {}, rtype := .cached, reason := str! "CACHED" } },
   { names := [str! "tv"], question := { name := str! "h.example.", qtype := typeAAAA }, more := [],
     outcome := .err (str! "time-out") }]

theorem twoHandled_proper : ∀ h ∈ twoHandled, h.proper := by
  intro h hm
  simp only [twoHandled, List.mem_cons, List.not_mem_nil, or_false] at hm
  rcases hm with rfl | rfl
  · exact .inl ⟨_, rfl⟩
  · exact .inr ⟨_, rfl⟩

theorem twoHandled_utf8 : ∀ h ∈ twoHandled, Utf8 (List.intercalate [','] h.names) := by
  intro h hm
  rw [← validUtf8_iff]
  revert h
  decide +kernel

example : (sysRun (metricsStart twoHandled) [1, 0, 0, 1, 1, 0]).counters.count (.query (str! "pc,pc.lan") typeA) = 1 :=
  (C77_counts_partial twoHandled twoHandled_proper twoHandled_utf8 [1, 0, 0, 1, 1, 0] (by unfold allThrough; decide +kernel)).1 _ _

example : (sysRun (metricsStart twoHandled) [1, 0, 0, 1, 1, 0]).counters.count .error = 1 :=
  (C77_counts_partial twoHandled twoHandled_proper twoHandled_utf8 [1, 0, 0, 1, 1, 0] (by unfold allThrough; decide +kernel)).2.2.1

example : (sysRun (metricsStart twoHandled) [1, 0, 0]).counters.countP isQueryCount ≤
    (sysRun (metricsStart twoHandled) [1, 0, 0]).counters.countP isResultCount + 2 :=
  (C77_at_any_time twoHandled twoHandled_proper [1, 0, 0]).2

/-- A resolver that always fails. -/
def failNext : Resolver Nat := fun _ w => (.err (str! "no"), w + 1)

example : (Metrics.resolve true failNext { req := newMsgWithQuestion 1 (str! "h") typeA } ([], 0)).1 = .err (str! "no") :=
  (C77_result_partial true failNext { req := newMsgWithQuestion 1 (str! "h") typeA } _ _ rfl ((validUtf8_iff _).1 rfl) [] 0 (.inr ⟨_, rfl⟩)).1

example : ∃ r, Small.fqdnOnly true (Metrics.resolve true failNext) { req := newMsgWithQuestion 1 (str! "h") typeA } ([], 0) =
    (.ok r, ([], 0)) :=
  (C77_stopped_false failNext { req := newMsgWithQuestion 1 (str! "h") typeA } _ _ rfl [typeA] [] 0).2 (by decide)

/-! ### Gauges (C78) -/

/-- C78: after any sequence of enablings, disablings (accepted and refused) and timers running out, the gauge
tells whether blocking is enabled. -/
theorem C78_status (c : Blocking.BCfg) (start : Int) (evs : List Blocking.Ev) :
    (gaugeRun c { status := { now := start } } evs).status = Blocking.trun c { now := start } evs ∧
    ((gaugeRun c { status := { now := start } } evs).gauge = 1 ↔ (Blocking.trun c { now := start } evs).enabled = true) ∧
    ((gaugeRun c { status := { now := start } } evs).gauge = 0 ↔ (Blocking.trun c { now := start } evs).enabled = false) := by
  suffices h : ∀ (s : StatusGauge), s.gauge = (if s.status.enabled then 1 else 0) →
      (gaugeRun c s evs).status = Blocking.trun c s.status evs ∧
      (gaugeRun c s evs).gauge = (if (Blocking.trun c s.status evs).enabled then 1 else 0) by
    obtain ⟨h1, h2⟩ := h { status := { now := start } } rfl
    refine ⟨h1, ?_⟩
    rw [h2]
    cases (Blocking.trun c { now := start } evs).enabled <;> simp
  induction evs with
  | nil => exact fun s hs => ⟨rfl, hs⟩
  | cons e evs ih =>
    intro s hs
    have key : (gaugeStep c s e).gauge = (if (gaugeStep c s e).status.enabled then 1 else 0) := by
      cases e with
      | enable => rfl
      | disable d gs =>
        simp only [gaugeStep, Blocking.tstep, Blocking.internalDisable]
        split
        · rfl
        · exact hs
      | tick n => exact hs
      | fire =>
        simp only [gaugeStep, Blocking.tstep]
        split
        · exact hs
        · exact hs
      | runFired =>
        simp only [gaugeStep, Blocking.tstep]
        split
        · rfl
        · exact hs
    exact ih _ key

/-- C78: after a new entry has been put (without interference) the cache gauge is the number of entries. -/
theorem C78_after_put {V : Type} (s : CacheGauge V) (t : Nat) (k : Str) (v : V) (ttl : Int) (h : ttl > 0) :
    (cacheRun s (putSteps t k v ttl)).gauge = (cacheRun s (putSteps t k v ttl)).st.cache.items.length := by
  unfold putSteps
  rw [if_neg (by omega)]
  simp only [cacheRun, List.foldl_cons, List.foldl_nil, cacheStep, AMap.get_put_self, Option.getD_some]
  rfl

/-- No entry is removed. -/
def keepsEntries {V : Type} : ExpCache.Op V → Prop
  | .remove _ => False
  | .clear => False
  | _ => True

theorem filter_key_length {V : Type} (l : List (Str × ExpCache.Element V)) (k : Str) (hu : (l.map Prod.fst).Nodup)
    (hk : k ∈ l.map Prod.fst) : (l.filter (fun e => e.1 ≠ k)).length + 1 = l.length := by
  induction l with
  | nil => simp at hk
  | cons e l ih =>
    rw [List.map_cons, List.nodup_cons] at hu
    by_cases he : e.1 = k
    · have hall : l.filter (fun e => e.1 ≠ k) = l := by
        rw [List.filter_eq_self]
        intro x hx
        have : x.1 ≠ k := fun hxk => hu.1 (by rw [he, ← hxk]; exact List.mem_map_of_mem hx)
        simpa using this
      rw [List.filter_cons_of_neg (by simpa using he), hall]
      rfl
    · rw [List.filter_cons_of_pos (by simpa using he), List.length_cons, List.length_cons,
        ih hu.2 ((List.mem_cons.1 hk).resolve_left (fun h => he h.symm))]

theorem touch_length {V : Type} (c : ExpCache.Cache V) (k : Str) (hu : (c.items.map Prod.fst).Nodup) :
    (c.touch k).items.length = c.items.length := by
  unfold ExpCache.Cache.touch
  split
  · rfl
  · rename_i el h
    have hm := AMap.get_eq_some_mem h
    exact filter_key_length c.items k hu (List.mem_map_of_mem (f := Prod.fst) hm)

theorem cacheRun_append {V : Type} (s : CacheGauge V) (a b : List (CacheStep V)) :
    cacheRun s (a ++ b) = cacheRun (cacheRun s a) b := List.foldl_append

theorem cacheRun_opSteps_st {V : Type} (s : CacheGauge V) (t : Nat) (o : ExpCache.Op V) :
    (cacheRun s (opSteps t o)).st = ExpCache.step s.st o := by
  cases o with
  | put k v ttl =>
    simp only [opSteps, putSteps]
    by_cases h : ttl ≤ 0
    · rw [if_pos h]
      simp only [ExpCache.step, ExpCache.Cache.put, if_pos h]
      rfl
    · rw [if_neg h]
      rfl
  | get k => rfl
  | remove k => rfl
  | clear => rfl
  | tick d => rfl

theorem cacheRun_ops_st {V : Type} (s : CacheGauge V) (ops : List (Nat × ExpCache.Op V)) :
    (cacheRun s (ops.flatMap (fun o => opSteps o.1 o.2))).st = ExpCache.run s.st (ops.map Prod.snd) := by
  induction ops generalizing s with
  | nil => rfl
  | cons o ops ih =>
    rw [List.flatMap_cons, cacheRun_append, ih, cacheRun_opSteps_st]
    rfl

/-- C78: as long as nothing is removed, one operation at a time, the cache gauge is the number of entries.
Missing: removals (`C78_flush_false`, `C78_expiry_false`) and concurrent insertions (`C78_race_false`). -/
theorem C78_entries_partial {V : Type} (maxSize : Nat) (start : Int) (ops : List (Nat × ExpCache.Op V))
    (h : ∀ o ∈ ops, keepsEntries o.2) :
    (cacheRun (V := V) { st := ⟨ExpCache.newCache maxSize, start⟩ } (ops.flatMap (fun o => opSteps o.1 o.2))).gauge =
    (cacheRun (V := V) { st := ⟨ExpCache.newCache maxSize, start⟩ } (ops.flatMap (fun o => opSteps o.1 o.2))).st.cache.items.length := by
  suffices ∀ (n : Nat) (ops : List (Nat × ExpCache.Op V)), ops.length = n → (∀ o ∈ ops, keepsEntries o.2) →
      (cacheRun (V := V) { st := ⟨ExpCache.newCache maxSize, start⟩ } (ops.flatMap (fun o => opSteps o.1 o.2))).gauge =
      (cacheRun (V := V) { st := ⟨ExpCache.newCache maxSize, start⟩ } (ops.flatMap (fun o => opSteps o.1 o.2))).st.cache.items.length
    from this _ ops rfl h
  intro n
  induction n with
  | zero =>
    intro ops hn _
    have : ops = [] := List.length_eq_zero_iff.1 hn
    subst this
    rfl
  | succ n ih =>
    intro ops hn hk
    rcases List.eq_nil_or_concat ops with rfl | ⟨ops', o, rfl⟩
    · simp at hn
    rw [List.concat_eq_append] at hn hk ⊢
    have hg := ih ops' (by simpa using hn) (fun x hx => hk x (List.mem_append_left _ hx))
    have hko := hk o (List.mem_append_right _ List.mem_cons_self)
    have hst := cacheRun_ops_st (V := V) { st := ⟨ExpCache.newCache maxSize, start⟩ } ops'
    rw [List.flatMap_append, cacheRun_append]
    generalize cacheRun (V := V) { st := ⟨ExpCache.newCache maxSize, start⟩ } (ops'.flatMap (fun o => opSteps o.1 o.2)) = s
      at hg hst ⊢
    have hnd : (s.st.cache.items.map Prod.fst).Nodup := by
      rw [hst]
      exact (fresh_inv maxSize start (ops'.map Prod.snd)).nodup
    obtain ⟨t, o⟩ := o
    rw [List.flatMap_cons, List.flatMap_nil, List.append_nil]
    cases o with
    | put k v ttl =>
      by_cases hpos : ttl ≤ 0
      · simp only [opSteps, putSteps, if_pos hpos]
        exact hg
      · exact C78_after_put s t k v ttl (by omega)
    | get k =>
      simp only [opSteps, cacheRun, List.foldl_cons, List.foldl_nil, cacheStep, ExpCache.step, ExpCache.Cache.get]
      split
      · rw [touch_length _ _ hnd]
        exact hg
      · exact hg
    | remove k => exact absurd hko (by simp [keepsEntries])
    | clear => exact absurd hko (by simp [keepsEntries])
    | tick d => exact hg

/-- C78 is false after the cache has been flushed: the gauge keeps the old number, whatever it was. -/
theorem C78_flush_false {V : Type} (s : CacheGauge V) (t : Nat) :
    (cacheRun s (opSteps t .clear)).st.cache.items = [] ∧ (cacheRun s (opSteps t .clear)).gauge = s.gauge := ⟨rfl, rfl⟩

/-- C78 is false after entries have expired: one entry is put, expires and is cleaned up; the gauge still says
one. -/
theorem C78_expiry_false :
    let s : CacheGauge Nat := cacheRun { st := ⟨ExpCache.newCache 5, 1000⟩ } (putSteps 0 (str! "k") 7 1000000000 ++ [.op (.tick 2000)])
    let e := cacheRun s ((ExpCache.cleanUpOps (s.st.cache.expiredKeys s.st.now) (fun _ => none)).flatMap (opSteps 0))
    e.st.cache.items.length = 0 ∧ e.gauge = 1 := by
  decide +kernel

/-- C78 is false for concurrent insertions: two entries are put at the same time and the gauge says one. -/
theorem C78_race_false :
    let s : CacheGauge Nat := cacheRun { st := ⟨ExpCache.newCache 5, 1000⟩ }
      [.op (.put (str! "a") 1 1000000000), .len 0, .op (.put (str! "b") 2 1000000000), .len 1, .publish 1, .publish 0]
    s.st.cache.items.length = 2 ∧ s.gauge = 1 ∧
    [.op (.put (str! "a") 1 1000000000), .len 0, .publish 0] = putSteps 0 (str! "a") 1 1000000000 ∧
    [.op (.put (str! "b") 2 1000000000), .len 1, .publish 1] = putSteps 1 (str! "b") 2 1000000000 :=
  ⟨by decide +kernel, by decide +kernel, rfl, rfl⟩

example : (gaugeRun { denyGroups := [str! "ads"] } { status := { now := 0 } }
    [.disable 5 [], .tick 5, .fire, .runFired]).gauge = 1 :=
  (C78_status { denyGroups := [str! "ads"] } 0 [.disable 5 [], .tick 5, .fire, .runFired]).2.1.2 (by decide +kernel)

example : (gaugeRun { denyGroups := [str! "ads"] } { status := { now := 0 } } [.disable 5 [str! "ads"], .disable 5 [str! "x"]]).gauge = 0 :=
  (C78_status { denyGroups := [str! "ads"] } 0 [.disable 5 [str! "ads"], .disable 5 [str! "x"]]).2.2.2 (by decide +kernel)

example : (cacheRun (V := Nat) { st := ⟨ExpCache.newCache 5, 1000⟩ } (putSteps 0 (str! "k") 7 1000000000)).gauge = 1 :=
  C78_after_put { st := ⟨ExpCache.newCache 5, 1000⟩ } 0 (str! "k") 7 1000000000 (by omega)

example : (cacheRun (V := Nat) { st := ⟨ExpCache.newCache 1, 1000⟩ }
    ([(0, .put (str! "a") 1 1000000000), (1, .get (str! "a")), (0, .put (str! "b") 1 1000000000)].flatMap
      (fun o => opSteps o.1 o.2))).gauge = 1 :=
  C78_entries_partial 1 1000 [(0, .put (str! "a") 1 1000000000), (1, .get (str! "a")), (0, .put (str! "b") 1 1000000000)]
    (by simp [keepsEntries])

example : (cacheRun (cacheRun (V := Nat) { st := ⟨ExpCache.newCache 5, 1000⟩ } (putSteps 0 (str! "k") 7 1000000000))
    (opSteps 0 .clear)).gauge = 1 :=
  (C78_flush_false (cacheRun (V := Nat) { st := ⟨ExpCache.newCache 5, 1000⟩ } (putSteps 0 (str! "k") 7 1000000000)) 0).2

end Verif.Props
