/-
C114: what is kept in memory for queries is bounded by the configuration.
-/
import Verif.Model.CacheSize
import Verif.Props.Survival
import Verif.Props.Metrics
import Verif.Model.QueryLog

namespace Verif.Props
open Dns Spec ExpCache StringCache

variable {W V : Type} {E : RegexEngine}

/-! ### Caches never hold more than they may -/

/-- A cache that may hold `n` entries and does not hold more. -/
def Within {T : Type} (n : Nat) (c : Cache T) : Prop := c.cap = n ∧ c.items.length ≤ n

theorem filter_shorter {T : Type} {l : List (Str × T)} {k : Str} (h : k ∈ l.map Prod.fst) :
    (l.filter (fun e => e.1 ≠ k)).length + 1 ≤ l.length := by
  obtain ⟨e, he, rfl⟩ := List.mem_map.1 h
  exact List.length_filter_lt_length_iff_exists.2 ⟨e, he, by simp⟩

theorem within_add {T : Type} {n : Nat} {c : Cache T} (h : Within n c) (k : Str) (el : Element T) : Within n (c.add k el) := by
  obtain ⟨h1, h2⟩ := h
  unfold Cache.add
  split
  · rename_i hk
    have := filter_shorter hk
    refine ⟨h1, ?_⟩
    simp only [List.length_cons]
    omega
  · split
    · refine ⟨h1, ?_⟩
      simp only [List.length_dropLast, List.length_cons]
      omega
    · refine ⟨h1, ?_⟩
      simp only [List.length_cons]
      omega

theorem within_put {T : Type} {n : Nat} {c : Cache T} (h : Within n c) (now : Int) (k : Str) (v : T) (ttl : Int) :
    Within n (c.put now k v ttl) := by
  unfold Cache.put
  split
  · exact h
  · exact within_add h _ _

theorem within_get {T : Type} {n : Nat} {c : Cache T} (h : Within n c) (now : Int) (k : Str) : Within n (c.get now k).2 := by
  unfold Cache.get Cache.touch
  cases hp : c.peek k with
  | none => exact h
  | some el =>
    have := filter_shorter (l := c.items) (k := k) (List.mem_map.2 ⟨_, AMap.get_eq_some_mem hp, rfl⟩)
    refine ⟨h.1, ?_⟩
    have := h.2
    simp only [List.length_cons]
    omega

theorem within_remove {T : Type} {n : Nat} {c : Cache T} (h : Within n c) (k : Str) : Within n (c.remove k) :=
  ⟨h.1, Nat.le_trans (List.length_filter_le _ _) h.2⟩

/-- The answers are at most `m`, the counters of queries at most `n`. -/
def Small (m n : Nat) (s : Caching.CState) : Prop := Within m s.main.cache ∧ Within n s.names

theorem small_get {m n : Nat} {s : Caching.CState} (h : Small m n s) (c : Caching.Cfg) (k : Str) :
    Small m n (Caching.cacheGet c s k).2 := by
  have h1 : Small m n (if c.prefetching then Caching.track c s k else s) := by
    split
    · exact ⟨h.1, within_put (within_get h.2 _ _) _ _ _ _⟩
    · exact h
  exact ⟨within_get h1.1 _ _, h1.2⟩

theorem small_put {m n : Nat} {s : Caching.CState} (h : Small m n s) (k : Str) (msg : Msg) (ttl : Int) :
    Small m n { s with main := step s.main (.put k msg ttl) } := ⟨within_put h.1 _ _ _ _, h.2⟩

theorem small_store {m n : Nat} {s : Caching.CState} (h : Small m n s) (env : Caching.Env) (c : Caching.Cfg) (k : Str) (r : Response) :
    Small m n (Caching.store env c s k r) := by
  unfold Caching.store Caching.putOps
  simp only
  split
  · split
    · exact small_put h _ _ _
    · split
      · split
        · exact small_put h _ _ _
        · exact h
      · exact h
  · exact h

theorem small_loop {m n : Nat} (env : Caching.Env) (c : Caching.Cfg) (next : Resolver V) (req : Request) (qs : List Question) :
    ∀ (last : Outcome) (s : Caching.CState) (w : V), Small m n s → Small m n (Caching.resolveLoop env c next req qs last s w).2.1 := by
  induction qs with
  | nil => exact fun _ _ _ h => h
  | cons q qs ih =>
    intro last s w h
    have h1 := small_get h c (Caching.questionKey q)
    unfold Caching.resolveLoop
    revert h1
    generalize Caching.cacheGet c s (Caching.questionKey q) = y
    obtain ⟨found, s1⟩ := y
    intro h1
    cases found with
    | some x => exact h1
    | none =>
      simp only
      generalize next req w = z
      obtain ⟨o, w1⟩ := z
      cases o with
      | ok r => exact ih _ _ _ (small_store h1 env c _ r)
      | err e => exact ih _ _ _ h1
      | noResponse => exact h1
      | panic => exact h1

theorem offer_length (q : QueryLog.Queue) (e : QueryLogFile.LogEntry) (h : q.waiting.length ≤ 1000) :
    (QueryLog.offer q e).waiting.length ≤ 1000 := by
  unfold QueryLog.offer QueryLog.logChanCap
  split
  · simp only [List.length_append, List.length_cons, List.length_nil]
    omega
  · exact h

/-! ### Every query keeps that -/

theorem small_observed (sz pz : Nat) (c : Chain.Config E W) (up : Resolver W) :
    ∀ r w, w.2.1.waiting.length ≤ 1000 → Small sz pz w.2.2.1 →
      (Chain.observed c up r w).2.2.1.waiting.length ≤ 1000 ∧ Small sz pz (Chain.observed c up r w).2.2.2.1 := by
  have hcache : Upheld (fun v : Caching.CState × W => Small sz pz v.1) (Chain.caching c.cacheEnv c.cache (Chain.cond c up)) := by
    intro r w hw
    unfold Chain.caching Caching.resolve
    by_cases hb : (!c.cache.enabled || !Caching.isRequestCacheable r.req) = true
    · rw [if_pos hb]
      exact hw
    · rw [if_neg hb]
      have := small_loop c.cacheEnv c.cache (Chain.cond c up) r r.req.question .noResponse w.2.1 (w.1, w.2.2) hw
      revert this
      generalize Caching.resolveLoop c.cacheEnv c.cache (Chain.cond c up) r r.req.question .noResponse w.2.1 (w.1, w.2.2) = y
      obtain ⟨o, s, m, w'⟩ := y
      exact fun this => this
  have hblock : Upheld (fun v : Caching.CState × W => Small sz pz v.1) (Chain.block c up) := by
    intro r w hw
    have hask : ∀ groups, Small sz pz (Blocking.askNext c.blockEnv c.blockState groups
        (Chain.caching c.cacheEnv c.cache (Chain.cond c up)) r w).2.2.1 := by
      intro groups
      unfold Blocking.askNext
      have := hcache r w hw
      revert this
      generalize Chain.caching c.cacheEnv c.cache (Chain.cond c up) r w = y
      obtain ⟨o, w'⟩ := y
      intro this
      cases o with
      | ok x => simp only; split
                · split <;> exact this
                · exact this
      | _ => exact this
    unfold Chain.block Blocking.resolve
    simp only
    split
    · split
      · exact hcache r w hw
      · exact hw
      · exact hask _
    · exact hask _
  have hhosts : Upheld (fun v : Caching.CState × W => Small sz pz v.1)
      (HostsFile.resolve c.hostsEnabled c.hostsCfg c.hosts c.hostsOrder4 c.hostsOrder6 (Chain.block c up)) := by
    intro r w hw
    unfold HostsFile.resolve
    split
    · exact hblock r w hw
    · split
      · exact hw
      · split
        · exact hw
        · split
          · exact hw
          · exact hblock r w hw
  have hlocal : Upheld (fun v : Caching.CState × W => Small sz pz v.1) (Chain.local c up) := by
    refine kept_ofM ?_
    have hh : ∀ r w, Small sz pz w.1 → Small sz pz
        (Chain.toM (HostsFile.resolve c.hostsEnabled c.hostsCfg c.hosts c.hostsOrder4 c.hostsOrder6 (Chain.block c up)) r w).2.2.1 :=
      fun r w hw => hhosts r (r.req, w) hw
    have hi : ∀ n : Cond.MResolver (Caching.CState × W), (∀ r w, Small sz pz w.1 → Small sz pz (n r w).2.2.1) →
        ∀ r w, Small sz pz w.1 → Small sz pz
          (Chain.toM (Chain.customDns c.customEnv c.customMapping c.customReverse c.customDepth (Chain.ofM n)) r w).2.2.1 :=
      fun n hn r w hw => kept_customDns (P := fun v : Caching.CState × W => Small sz pz v.1) _ _ _ _
        (kept_ofM (P := fun v : Caching.CState × W => Small sz pz v.1) hn) r (r.req, w) hw
    unfold Cond.newRewriter
    split
    · exact hi _ hh
    · exact kept_rewriter (P := fun v : Caching.CState × W => Small sz pz v.1) _ _ (hi _ (fun _ _ hw => hw)) hh
  have hmet : Upheld (fun v : Caching.CState × W => Small sz pz v.1) (Chain.metrics c.metrics (Chain.local c up)) := by
    intro r w hw
    unfold Chain.metrics
    have := hlocal r w hw
    revert this
    generalize Chain.local c up r w = y
    obtain ⟨o, w'⟩ := y
    intro this
    cases o <;> simp only <;> first | exact this | (split <;> first | exact this | (split <;> first | exact this))
  have hlog : ∀ r w, w.2.1.waiting.length ≤ 1000 → Small sz pz w.2.2.1 →
      (Chain.queryLog c.log c.logEnv c.logStart c.logDuration (Chain.metrics c.metrics (Chain.local c up)) r w).2.2.1.waiting.length ≤ 1000 ∧
      Small sz pz (Chain.queryLog c.log c.logEnv c.logStart c.logDuration (Chain.metrics c.metrics (Chain.local c up)) r w).2.2.2.1 := by
    intro r w hq hw
    unfold Chain.queryLog Chain.ofM QueryLog.resolve
    have : Small sz pz (Chain.toM (Chain.metrics c.metrics (Chain.local c up)) r w.2.2).2.2.1 := hmet r (r.req, w.2.2) hw
    revert this
    generalize Chain.toM (Chain.metrics c.metrics (Chain.local c up)) r w.2.2 = y
    obtain ⟨o, msg, w'⟩ := y
    intro this
    cases o with
    | ok x =>
      simp only
      split
      · exact ⟨hq, this⟩
      · split
        · exact ⟨hq, this⟩
        · exact ⟨offer_length _ _ hq, this⟩
    | _ => exact ⟨hq, this⟩
  intro r w hq hw
  unfold Chain.observed Small.ede
  split
  · exact hlog r w hq hw
  · have := hlog r w hq hw
    revert this
    generalize Chain.queryLog c.log c.logEnv c.logStart c.logDuration (Chain.metrics c.metrics (Chain.local c up)) r w = y
    obtain ⟨o, w'⟩ := y
    intro this
    cases o <;> exact this
theorem names_within {n : Nat} (cfg : ClientNames.Cfg) (l : Option (ClientNames.Lookup V)) (r : Request) (cn : St (List Str)) (w : V)
    (h : Within n cn.cache) : Within n (ClientNames.withNames cfg l r cn w).2.1.cache := by
  unfold ClientNames.withNames ClientNames.getClientNames
  simp only
  split
  · exact h
  · cases r.clientIP with
    | none => exact h
    | some ip =>
      simp only
      have := within_get h cn.now (cfg.ipString ip)
      revert this
      generalize cn.cache.get cn.now (cfg.ipString ip) = y
      obtain ⟨found, cache⟩ := y
      intro this
      cases found with
      | some x => exact this
      | none => exact within_put this _ _ _ _

/-- What a server keeps in memory for queries: answers, counters of queries, names of clients, entries of the query log. -/
def Modest (m n k : Nat) (w : Chain.World W) : Prop :=
  Within k w.1.cache ∧ w.2.1.waiting.length ≤ 1000 ∧ Small m n w.2.2.1

theorem modest_whole {m n k : Nat} (c : Chain.Config E W) (hk : CacheKept c) (up : Resolver W) (request : Request) (msg : Msg)
    (w : Chain.World W) (hw : Modest m n k w) : Modest m n k (Chain.whole c up request (msg, w)).2.2 := by
  obtain ⟨cn, q, v⟩ := w
  have hecs : Modest m n k (Chain.ecs c.ecs (Chain.clientNames c.names (c.namesLookup.map Chain.liftLookup) (Chain.observed c up)) request
      (msg, (cn, (q, v)))).2.2 := by
    unfold Chain.ecs
    cases h : Ecs.transform c.ecs request with
    | none => exact hw
    | some r =>
      simp only [Chain.clientNames, withNames_lift]
      have he' := withNames_keeps c.names c.namesLookup (fun w => Small m n w.1)
        (fun ask ha ip w hw => by rw [hk ask ha ip w]; exact hw) r cn v hw.2.2
      have hn := names_within c.names c.namesLookup r cn v hw.1
      revert he' hn
      generalize ClientNames.withNames c.names c.namesLookup r cn v = y
      obtain ⟨r', cn', w'⟩ := y
      intro he' hn
      exact ⟨hn, small_observed m n c up r' (r.req, (q, w')) hw.2.1 he'⟩
  unfold Chain.whole Small.filtering
  split
  · exact hw
  · split
    · exact hw
    · unfold Small.fqdnOnly
      split
      · split
        · exact hw
        · split
          · exact hw
          · exact hecs
      · exact hecs

/-! ### So does everything else -/

theorem small_shouldPrefetch {m n : Nat} {s : Caching.CState} (h : Small m n s) (c : Caching.Cfg) (k : Str) :
    Small m n (Caching.shouldPrefetch c s k).2 := by
  unfold Caching.shouldPrefetch
  split
  · exact h
  · exact ⟨h.1, within_get h.2 _ _⟩

theorem small_onExpired {m n : Nat} (env : Caching.Env) (c : Caching.Cfg) (next : Resolver V) {s : Caching.CState} (h : Small m n s)
    (k : Str) (w : V) : Small m n (Caching.onExpired env c next s w k).2.1 := by
  unfold Caching.onExpired
  split
  · split <;> exact small_shouldPrefetch h c k
  · exact h

theorem small_reloadLoop {m n : Nat} (env : Caching.Env) (c : Caching.Cfg) (next : Resolver V) (ks : List Str) :
    ∀ (del : List Str) (s : Caching.CState) (w : V), Small m n s →
      ∀ x, (Caching.reloadLoop env c next ks del s w).1 = some x → Small m n x.2 := by
  induction ks with
  | nil =>
    intro del s w h x hx
    cases hx
    exact h
  | cons k ks ih =>
    intro del s w h x
    have h1 := small_onExpired env c next h k w
    unfold Caching.reloadLoop
    revert h1
    generalize Caching.onExpired env c next s w k = y
    obtain ⟨o, s1, w1⟩ := y
    intro h1
    cases o with
    | none => exact fun h => nomatch h
    | some o =>
      cases o with
      | none => exact ih _ _ _ h1 x
      | some p => exact ih _ _ _ (small_put h1 _ _ _) x

theorem small_removes {m n : Nat} (del : List Str) : ∀ (s : Caching.CState), Small m n s →
    Small m n { s with main := run s.main (del.map Op.remove) } := by
  induction del with
  | nil => exact fun _ h => h
  | cons k ks ih => exact fun s h => ih { s with main := step s.main (.remove k) } ⟨within_remove h.1 _, h.2⟩

theorem small_cleanUp {m n : Nat} (env : Caching.Env) (c : Caching.Cfg) (next : Resolver V) {s : Caching.CState} (h : Small m n s) (w : V)
    {s' : Caching.CState} (hs : (Caching.cleanUpCache env c next s w).1 = some s') : Small m n s' := by
  have h1 := small_reloadLoop env c next (s.main.cache.expiredKeys s.main.now) [] s w h
  unfold Caching.cleanUpCache at hs
  revert h1 hs
  generalize Caching.reloadLoop env c next (s.main.cache.expiredKeys s.main.now) [] s w = y
  obtain ⟨o, w'⟩ := y
  intro hs h1
  cases o with
  | none => cases hs
  | some x =>
    cases hs
    exact small_removes _ _ (h1 x rfl)

/-- What happens to a running server and its query log: what clients, upstreams and redis do (`Incident`), the writer of the query log takes
an entry, the writer has written an entry, the expired names of clients (any keys) are removed. -/
inductive Moment where
  | incident (i : Incident)
  | take
  | written
  | forget (keys : List Str)

/-- The world afterwards; `none`: the process has ended. -/
def lapse (senv : Server.Env) (c : Chain.Config E W) (up : Resolver W) (w : Chain.World W) : Moment → Option (Chain.World W)
  | .incident i => (befall senv c up w i).2
  | .take => some (w.1, QueryLog.take w.2.1, w.2.2)
  | .written => some (w.1, QueryLog.finish w.2.1, w.2.2)
  | .forget keys => some (run w.1 (keys.map Op.remove), w.2)

/-- A history; the configuration (lists, blocking status, hosts files, upstreams) may be another one each time. -/
def runs (senv : Server.Env) : List (Chain.Config E W × Resolver W × Moment) → Chain.World W → Option (Chain.World W)
  | [], w => some w
  | x :: xs, w =>
    match lapse senv x.1 x.2.1 w x.2.2 with
    | some w' => runs senv xs w'
    | none => none

theorem within_removes {T : Type} {n : Nat} (del : List Str) : ∀ (s : St T), Within n s.cache →
    Within n (run s (del.map Op.remove)).cache := by
  induction del with
  | nil => exact fun _ h => h
  | cons k ks ih => exact fun s h => ih (step s (.remove k)) (within_remove h _)

theorem take_length (q : QueryLog.Queue) (h : q.waiting.length ≤ 1000) : (QueryLog.take q).waiting.length ≤ 1000 := by
  unfold QueryLog.take
  split
  · rename_i e es _ hw
    rw [hw] at h
    simp only [List.length_cons] at h
    simp only
    omega
  · exact h

theorem finish_length (q : QueryLog.Queue) (h : q.waiting.length ≤ 1000) : (QueryLog.finish q).waiting.length ≤ 1000 := by
  unfold QueryLog.finish
  split <;> exact h

theorem befall_modest {m n k : Nat} (senv : Server.Env) (c : Chain.Config E W) (hk : CacheKept c) (up : Resolver W) (i : Incident)
    (w w' : Chain.World W) (hw : Modest m n k w) (h : (befall senv c up w i).2 = some w') : Modest m n k w' := by
  cases i with
  | event e =>
    cases e with
    | query remote sni msg =>
      have h : some (Chain.serve senv c up remote sni msg w).2 = some w' := h
      cases h
      rw [serve_world]
      split
      · exact hw
      · exact modest_whole c hk up _ _ _ hw
    | pass ms => cases h; exact hw
    | cleanUp =>
      have h1 := fun s' => small_cleanUp (m := m) (n := n) c.cacheEnv c.cache (Chain.cond c up) hw.2.2 ({}, w.2.2.2) (s' := s')
      unfold befall happen at h
      revert h1 h
      simp only
      generalize Caching.cleanUpCache c.cacheEnv c.cache (Chain.cond c up) w.2.2.1 ({}, w.2.2.2) = y
      obtain ⟨o, mw⟩ := y
      intro h h1
      cases o with
      | none => cases h
      | some s =>
        cases h
        exact ⟨hw.1, hw.2.1, h1 s rfl⟩
  | message id m =>
    unfold befall at h
    simp only at h
    split at h
    · cases h
      exact ⟨hw.1, hw.2.1, small_store hw.2.2 _ _ _ _⟩
    · cases h
      exact hw
  | load store now later key =>
    cases h
    refine ⟨hw.1, hw.2.1, ?_⟩
    show Small _ _ (RedisStore.loadKey c.cacheEnv c.cache store now later key w.2.2.1)
    unfold RedisStore.loadKey
    split
    · unfold RedisStore.getResponse
      cases RedisStore.fetch store now key with
      | none => exact hw.2.2
      | some e => exact small_store hw.2.2 _ _ _ _
    · exact hw.2.2
  | flush =>
    cases h
    exact ⟨hw.1, hw.2.1, ⟨hw.2.2.1.1, Nat.zero_le _⟩, ⟨hw.2.2.2.1, Nat.zero_le _⟩⟩

theorem lapse_modest {m n k : Nat} (senv : Server.Env) (c : Chain.Config E W) (hk : CacheKept c) (up : Resolver W) (x : Moment)
    (w w' : Chain.World W) (hw : Modest m n k w) (h : lapse senv c up w x = some w') : Modest m n k w' := by
  cases x with
  | incident i => exact befall_modest senv c hk up i w w' hw h
  | take => cases h; exact ⟨hw.1, take_length _ hw.2.1, hw.2.2⟩
  | written => cases h; exact ⟨hw.1, finish_length _ hw.2.1, hw.2.2⟩
  | forget keys => cases h; exact ⟨within_removes _ _ hw.1, hw.2⟩

theorem runs_modest {m n k : Nat} (senv : Server.Env) (xs : List (Chain.Config E W × Resolver W × Moment)) (hk : ∀ x ∈ xs, CacheKept x.1) :
    ∀ w w', Modest m n k w → runs senv xs w = some w' → Modest m n k w' := by
  induction xs with
  | nil =>
    intro w w' hw h
    cases h
    exact hw
  | cons x xs ih =>
    intro w w' hw h
    unfold runs at h
    cases hl : lapse senv x.1 x.2.1 w x.2.2 with
    | none => rw [hl] at h; cases h
    | some w1 =>
      rw [hl] at h
      exact ih (fun y hy => hk y (List.mem_cons_of_mem _ hy)) w1 w'
        (lapse_modest senv x.1 (hk x List.mem_cons_self) x.2.1 x.2.2 w w1 hw hl) h

/-! ### The claims -/

/-- A server just started, with the given `caching.maxItemsCount` and `caching.prefetchMaxItemsCount`. -/
structure Started (maxItems prefetchMax : Nat) (w : Chain.World W) : Prop where
  answers : w.2.2.1.main.cache = newCache maxItems
  counters : w.2.2.1.names = newCache prefetchMax
  clients : w.1.cache = newCache 0
  log : w.2.1.waiting = []

/-- The number configured; 10000 if that is 0. -/
def atMost (configured : Nat) : Nat := if configured = 0 then 10000 else configured

theorem newCache_within {T : Type} (n : Nat) : Within (atMost n) (newCache n : Cache T) := by
  refine ⟨?_, Nat.zero_le _⟩
  unfold newCache atMost
  simp only
  split
  · rw [if_neg (by omega)]
  · rw [if_pos (by omega)]

/-- **C114.** However many clients send whatever queries, whatever the upstreams answer, redis delivers and other instances publish, and
however slow the writer of the query log is: there are never more answers in memory than `caching.maxItemsCount`, never more counters of
queries than `caching.prefetchMaxItemsCount` (10000 each where that is 0), never the names of more than 10000 clients, and never more
than 1000 entries waiting to be written to the query log. Missing: 0 meaning "unlimited" (`C114_unlimited_false`) and the entries
waiting for the database (`C114_database_false`). -/
theorem C114_bounded_partial (senv : Server.Env) (xs : List (Chain.Config E W × Resolver W × Moment)) (hk : ∀ x ∈ xs, CacheKept x.1)
    (maxItems prefetchMax : Nat) (w w' : Chain.World W) (hw : Started maxItems prefetchMax w) (h : runs senv xs w = some w') :
    w'.2.2.1.main.cache.items.length ≤ atMost maxItems ∧ w'.2.2.1.names.items.length ≤ atMost prefetchMax ∧
    w'.1.cache.items.length ≤ 10000 ∧ w'.2.1.waiting.length ≤ 1000 := by
  have h0 : Modest (atMost maxItems) (atMost prefetchMax) (atMost 0) w := by
    refine ⟨?_, ?_, ?_, ?_⟩
    · rw [hw.clients]; exact newCache_within _
    · rw [hw.log]; exact Nat.zero_le _
    · rw [hw.answers]; exact newCache_within _
    · rw [hw.counters]; exact newCache_within _
  have h1 := runs_modest senv xs hk w w' h0 h
  exact ⟨h1.2.2.1.2, h1.2.2.2.2, h1.1.2, h1.2.1⟩

/-- **C114, negation.** `docs/configuration.md` says of `caching.maxItemsCount` "Default (0): unlimited". It is not: of any 10001 different
names (keys), after any history, the answer to at least one is not in the cache - it has to be asked for again, however long it was to be
kept. -/
theorem C114_unlimited_false (senv : Server.Env) (xs : List (Chain.Config E W × Resolver W × Moment)) (hk : ∀ x ∈ xs, CacheKept x.1)
    (prefetchMax : Nat) (w w' : Chain.World W) (hw : Started 0 prefetchMax w) (h : runs senv xs w = some w')
    (keys : List Str) (hn : keys.Nodup) (hl : 10000 < keys.length) : ∃ key ∈ keys, w'.2.2.1.main.cache.peek key = none := by
  have h1 := (C114_bounded_partial senv xs hk 0 prefetchMax w w' hw h).1
  have h1 : w'.2.2.1.main.cache.items.length ≤ 10000 := h1
  refine Classical.byContradiction (fun hc => ?_)
  have hsub : ∀ key ∈ keys, key ∈ w'.2.2.1.main.cache.items.map Prod.fst := by
    intro key hkey
    cases hp : w'.2.2.1.main.cache.peek key with
    | none => exact absurd ⟨key, hkey, hp⟩ hc
    | some el => exact List.mem_map.2 ⟨_, AMap.get_eq_some_mem hp, rfl⟩
  have := nodup_length_le hn hsub
  rw [List.length_map] at this
  omega

/-- **C114.** For numbers from 0 on the cache made is an empty one for that many entries (10000 for 0) ... -/
theorem C114_size {T : Type} (n : Int) (h0 : 0 ≤ n) (h1 : n ≤ 9223372036854775807) :
    (makeCache n : Option (Cache T)) = some ⟨if n = 0 then 10000 else n.toNat, []⟩ := by
  have hm : n % 18446744073709551616 = n := Int.emod_eq_of_lt h0 (by omega)
  unfold makeCache toUint toInt lruNew
  simp only [hm]
  by_cases h : n = 0
  · subst h
    rfl
  · rw [if_pos (show n.toNat > 0 by omega), if_pos (show n.toNat < 9223372036854775808 by omega), if_neg (show ¬ (n.toNat : Int) ≤ 0 by omega), if_neg h]
    simp only [Int.toNat_natCast]

example : (makeCache 5 : Option (Cache Str)) = some ⟨5, []⟩ := C114_size 5 (by decide) (by decide)

/-- **C114, negation.** ... but for negative numbers (`caching.maxItemsCount: -1`, which are accepted) there is none: every look into the cache panics,
and so does the clean-up five seconds after the start, which ends the process. -/
theorem C114_negative_false (T : Type) (n : Int) (h0 : n < 0) (h1 : -9223372036854775808 ≤ n) (now : Int) (key : Str) :
    madeGet (makeCache n : Option (Cache T)) now key = none ∧ madeExpired (makeCache n : Option (Cache T)) now = none := by
  have hm : n % 18446744073709551616 = n + 18446744073709551616 := by omega
  have hc : (makeCache n : Option (Cache T)) = none := by
    unfold makeCache toUint toInt lruNew
    simp only [hm]
    rw [if_pos (show (n + 18446744073709551616).toNat > 0 by omega), if_neg (show ¬ (n + 18446744073709551616).toNat < 9223372036854775808 by omega),
      if_pos (show ((n + 18446744073709551616).toNat : Int) - 18446744073709551616 ≤ 0 by omega)]
  rw [hc]
  exact ⟨rfl, rfl⟩

/-- **C114, negation.** Between two flushes the entries waiting for the database are not bounded: each entry written to the query log stays
in memory until then. -/
theorem C114_database_false {A R D : Type} (row : A → R) (es : List A) (w : QueryLog.Writer R D) :
    (es.foldl (QueryLog.dbWrite row) w).pending.length = w.pending.length + es.length := by
  induction es generalizing w with
  | nil => rfl
  | cons e es ih =>
    rw [List.foldl_cons, ih]
    unfold QueryLog.dbWrite
    simp only [List.length_append, List.length_cons, List.length_nil]
    omega

/-- **C114.** Every flush empties them, also if the database refuses them. -/
theorem C114_flush {R D : Type} (create : QueryLog.Create R D) (w : QueryLog.Writer R D) :
    (QueryLog.doDBWrite create w).2.pending = [] := by
  unfold QueryLog.doDBWrite
  split
  · generalize QueryLog.writeBulks create _ w.db = y
    obtain ⟨ok, d⟩ := y
    rfl
  · rename_i h
    exact List.eq_nil_of_length_eq_zero (Nat.eq_zero_of_not_pos h)


/-- A client asks over TLS, with a server name that contains the id it has chosen; the counters of the metrics and the world afterwards. -/
def askAs (cfg : ClientNames.Cfg) (remote : Server.Addr) (next : Resolver W) (msg : Msg) (s : Metrics.Counters × W) (id : Str) :
    Metrics.Counters × W :=
  (Metrics.resolve true next (ClientNames.withNames cfg none
    (Server.newRequestFromDNS remote (some (str! "id-" ++ id ++ str! ".dns")) msg) (⟨newCache 0, 0⟩ : St (List Str)) ()).1 s).2

theorem chosenId {id : Str} (hd : '.' ∉ id) : Server.extractClientIDFromHost (str! "id-" ++ id ++ str! ".dns") = id := by
  have h : (str! "id-" ++ id ++ str! ".dns") = str! "id-" ++ (id ++ str! ".dns") := List.append_assoc _ _ _
  have ht : (id ++ str! ".dns").takeWhile (fun c => c ≠ '.') = id := by
    rw [List.takeWhile_append_of_pos (fun c hc => by
      simp only [ne_eq, decide_not, Bool.not_eq_true', decide_eq_false_iff_not]
      rintro rfl
      exact hd hc)]
    simp [List.takeWhile]
  unfold Server.extractClientIDFromHost
  rw [if_pos (by simp [List.isPrefixOf]), h]
  simp only [List.cons_append, List.nil_append] at ht ⊢
  simp only [List.takeWhile_cons]
  simpa using ht

theorem askAs_counts (cfg : ClientNames.Cfg) (remote : Server.Addr) {next : Resolver W} (hn : ∀ r w, ∃ x, (next r w).1 = .ok x)
    {msg : Msg} {q : Question} {qs : List Question} (hq : msg.question = q :: qs) (s : Metrics.Counters × W) {id : Str}
    (he : id ≠ []) (hd : '.' ∉ id) (hu : Utf8 id) :
    .query id q.qtype ∈ (askAs cfg remote next msg s id).1 ∧ ∀ u ∈ s.1, u ∈ (askAs cfg remote next msg s id).1 := by
  obtain ⟨c, w⟩ := s
  have hr : (ClientNames.withNames cfg none (Server.newRequestFromDNS remote (some (str! "id-" ++ id ++ str! ".dns")) msg)
      (⟨newCache 0, 0⟩ : St (List Str)) ()).1.clientNames = [id] := by
    unfold ClientNames.withNames ClientNames.getClientNames
    have : (Server.newRequestFromDNS remote (some (str! "id-" ++ id ++ str! ".dns")) msg).requestClientID = id := chosenId hd
    rw [this, if_pos he]
  have hq' : (ClientNames.withNames cfg none (Server.newRequestFromDNS remote (some (str! "id-" ++ id ++ str! ".dns")) msg)
      (⟨newCache 0, 0⟩ : St (List Str)) ()).1.req.question = q :: qs := hq
  have h := C77_result_partial true next _ q qs hq' (by rw [hr]; simpa [List.intercalate] using hu) c w (.inl (hn _ _))
  have hcount := h.2.2
  obtain ⟨x, hx⟩ := hn (ClientNames.withNames cfg none (Server.newRequestFromDNS remote (some (str! "id-" ++ id ++ str! ".dns")) msg)
      (⟨newCache 0, 0⟩ : St (List Str)) ()).1 w
  rw [hx, hr] at hcount
  refine ⟨?_, fun u hm => ?_⟩
  · refine List.count_pos_iff.1 ?_
    unfold askAs
    rw [hcount]
    simp [expectedUpdates, List.intercalate]
  · refine List.count_pos_iff.1 ?_
    have := List.count_pos_iff.2 hm
    unfold askAs
    rw [hcount]
    simp only at this ⊢
    omega

/-- **C114, negation.** With the metrics switched on, clients decide how much memory blocky uses: each id a client chooses (in the server
name of TLS, or in the path of DoH) makes a time series of its own, none is ever removed, and the ids are not checked against anything.
So there are at least as many time series as there were different ids. -/
theorem C114_series_false (cfg : ClientNames.Cfg) (remote : Server.Addr) (next : Resolver W) (hn : ∀ r w, ∃ x, (next r w).1 = .ok x)
    (msg : Msg) (q : Question) (qs : List Question) (hq : msg.question = q :: qs) (w : W) (ids : List Str) (hnd : ids.Nodup)
    (hids : ∀ id ∈ ids, id ≠ [] ∧ '.' ∉ id ∧ Utf8 id) :
    ids.length ≤ ((ids.foldl (askAs cfg remote next msg) ([], w)).1.eraseDups).length := by
  have key : ∀ (ids : List Str), (∀ id ∈ ids, id ≠ [] ∧ '.' ∉ id ∧ Utf8 id) → ∀ s : Metrics.Counters × W,
      (∀ u ∈ s.1, u ∈ (ids.foldl (askAs cfg remote next msg) s).1) ∧
      ∀ id ∈ ids, .query id q.qtype ∈ (ids.foldl (askAs cfg remote next msg) s).1 := by
    intro ids
    induction ids with
    | nil => exact fun _ s => ⟨fun _ h => h, fun _ h => nomatch h⟩
    | cons id ids ih =>
      intro hids s
      obtain ⟨h1, h2, h3⟩ := hids id List.mem_cons_self
      have hs := askAs_counts cfg remote hn hq s h1 h2 h3
      have hr := ih (fun x hx => hids x (List.mem_cons_of_mem _ hx)) (askAs cfg remote next msg s id)
      refine ⟨fun u hu => hr.1 u (hs.2 u hu), fun x hx => ?_⟩
      rcases List.mem_cons.1 hx with rfl | hx
      · exact hr.1 _ hs.1
      · exact hr.2 x hx
  have hn2 : (ids.map (fun id => Metrics.Update.query id q.qtype)).Nodup := by
    refine List.Pairwise.map _ (fun a b hab he => hab ?_) hnd
    injection he
  have := nodup_length_le hn2 (m := (ids.foldl (askAs cfg remote next msg) ([], w)).1.eraseDups) (by
    intro u hu
    obtain ⟨id, hid, rfl⟩ := List.mem_map.1 hu
    exact List.mem_eraseDups.2 ((key ids hids ([], w)).2 id hid))
  rwa [List.length_map] at this

/-! ### Examples -/

/-- An upstream that answers everything. -/
def answering : Resolver Nat := fun _ w => (.ok { res := {} }, w + 1)

-- three ids of one client: three time series of queries (and two others)
example : 3 ≤ (([str! "a", str! "b", str! "c"].foldl (askAs ⟨[], [], fun _ => []⟩ (.tcp none) answering (query (str! "x.org."))) ([], 0)).1.eraseDups).length := by
  refine C114_series_false _ _ _ (fun _ _ => ⟨_, rfl⟩) _ _ _ rfl 0 [str! "a", str! "b", str! "c"] (by decide) ?_
  intro id h
  rw [← validUtf8_iff]
  revert id
  decide

/-- A server that keeps two answers and three counters. -/
def twoWorld : Chain.World Nat := (⟨newCache 0, 0⟩, {}, ⟨⟨newCache 2, 0⟩, newCache 3⟩, 0)

/-- The sample server, prefetching, without client subnets (answers to queries with them are not cached). -/
def minuteConfig : Chain.Config prefixEngine Nat :=
  { sampleConfig with ecs := {}, cache := { prefetching := true } }

/-- Clients ask for the names; then the log is written a little, time passes and the cache is cleaned up. -/
def namesAsked (c : Chain.Config prefixEngine Nat) (names : List Str) : List (Chain.Config prefixEngine Nat × Resolver Nat × Moment) :=
  names.map (fun n => (c, countingUp, .incident (.event (.query (.udp (some (.v4 1#32))) none (query n))))) ++
    [(c, countingUp, .take), (c, countingUp, .written), (c, countingUp, .incident (.event (.pass 5))), (c, countingUp, .incident (.event .cleanUp))]

-- five names: two answers and three counters are kept, the names of one client, four entries of the log
example : (runs sampleServer (namesAsked minuteConfig [str! "a.org.", str! "b.org.", str! "c.org.", str! "d.org.", str! "e.org."]) twoWorld).map
    (fun w => (w.2.2.1.main.cache.items.length, w.2.2.1.names.items.length, w.1.cache.items.length, w.2.1.waiting.length)) = some (2, 3, 1, 4) := by
  decide +kernel

-- the theorem applies to that history
example (w' : Chain.World Nat) (names : List Str) (h : runs sampleServer (namesAsked minuteConfig names) twoWorld = some w') :
    w'.2.2.1.main.cache.items.length ≤ 2 := by
  refine (C114_bounded_partial sampleServer _ ?_ 2 3 twoWorld w' ⟨rfl, rfl, rfl, rfl⟩ h).1
  intro x hx
  have hc : x.1 = minuteConfig := by
    unfold namesAsked at hx
    rcases List.mem_append.1 hx with hx | hx
    · obtain ⟨n, _, rfl⟩ := List.mem_map.1 hx
      rfl
    · simp only [List.mem_cons, List.not_mem_nil, or_false] at hx
      rcases hx with rfl | rfl | rfl | rfl <;> rfl
  rw [hc]
  exact fun l hl => (nomatch hl)

end Verif.Props
