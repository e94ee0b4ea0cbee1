/-
C109: nothing that clients, upstreams or other instances send ends the process.
-/
import Verif.Props.OwnGroup
import Verif.Props.Groups
import Verif.Model.RedisStore

namespace Verif.Props
open Dns Spec ExpCache StringCache

variable {W V : Type} {E : RegexEngine}

/-! ### Asking for a new answer never panics -/

/-- Every query with a question gets a response or an error: no panic, no missing response. -/
def Firm (n : Resolver W) : Prop := ∀ r w, r.req.question ≠ [] → (n r w).1 ≠ .panic ∧ (n r w).1 ≠ .noResponse

/-- The same, for a resolver that may write into the message. -/
def FirmM (n : Cond.MResolver W) : Prop := ∀ r w, r.req.question ≠ [] → (n r w).1 ≠ .panic ∧ (n r w).1 ≠ .noResponse

theorem firm_toM {n : Chain.MR W} (h : Firm n) : FirmM (Chain.toM n) := fun r w hq => h r (r.req, w) hq

theorem firm_ofM {n : Cond.MResolver W} (h : FirmM n) : Firm (Chain.ofM n) := fun r w hq => h r w.2 hq

theorem setName_some {d : Str} {qs : List Question} (h : qs ≠ []) : Cond.setName d qs ≠ [] := by
  cases qs with
  | nil => exact absurd rfl h
  | cons q qs => exact List.cons_ne_nil _ _

theorem firm_lookup {mapping : AMap Str (Resolver W)} (hm : ∀ z r, AMap.get mapping z = some r → Firm r) (d : Str)
    (reso : Resolver W) (hl : Cond.lookup mapping d = some reso) : Firm reso := by
  unfold Cond.lookup at hl
  split at hl
  · cases hw : walk (AMap.get mapping) (d.length + 1) d with
    | none => rw [hw] at hl; cases hl
    | some x =>
      rw [hw] at hl
      cases hl
      exact hm _ _ (walk_some hw).2.2.1
  · exact hm _ _ hl

theorem firm_internal {reso : Resolver W} (hs : Firm reso) (r : Request) (d : Str) (w : W) (hq : r.req.question ≠ []) :
    ((Cond.internalResolve reso d r w).1 ≠ .panic ∧ (Cond.internalResolve reso d r w).1 ≠ .noResponse) ∧
      (Cond.internalResolve reso d r w).2.1.question ≠ [] := by
  unfold Cond.internalResolve
  have := hs { r with req := { r.req with question := Cond.setName (fqdn d) r.req.question } } w (setName_some hq)
  simp only
  revert this
  generalize reso { r with req := { r.req with question := Cond.setName (fqdn d) r.req.question } } w = y
  obtain ⟨o, w'⟩ := y
  intro this
  cases o with
  | ok x => exact ⟨⟨(fun h => nomatch h), (fun h => nomatch h)⟩, setName_some hq⟩
  | err e => exact ⟨⟨(fun h => nomatch h), (fun h => nomatch h)⟩, setName_some hq⟩
  | noResponse => exact absurd rfl this.2
  | panic => exact absurd rfl this.1

theorem firm_conditional {mapping : AMap Str (Resolver W)} (hm : ∀ z r, AMap.get mapping z = some r → Firm r) {n : Cond.MResolver W}
    (h : FirmM n) : FirmM (Cond.conditional mapping n) := by
  intro r w hq
  unfold Cond.conditional
  split
  · split
    · rename_i hn
      exact absurd hn hq
    · split
      · rename_i reso hl
        exact (firm_internal (firm_lookup hm _ reso hl) r _ w hq).1
      · exact h r w hq
  · exact h r w hq

/-- Before a rewriter: no panic, and the message still has a question. -/
theorem firm_inner {mapping : AMap Str (Resolver W)} (hm : ∀ z r, AMap.get mapping z = some r → Firm r) (r : Request) (w : W)
    (hq : r.req.question ≠ []) :
    (Cond.conditional mapping (fun request w => (.noResponse, request.req, w)) r w).1 ≠ .panic ∧
      (Cond.conditional mapping (fun request w => (.noResponse, request.req, w)) r w).2.1.question ≠ [] := by
  unfold Cond.conditional
  split
  · split
    · rename_i hn
      exact absurd hn hq
    · split
      · rename_i reso hl
        have := firm_internal (firm_lookup hm _ reso hl) r (extractDomain (by assumption : Question).name) w hq
        exact ⟨this.1.1, this.2⟩
      · exact ⟨(fun h => nomatch h), hq⟩
  · exact ⟨(fun h => nomatch h), hq⟩

theorem rewriteQuestions_some (order : Nat → List (Str × Str)) (i : Nat) (qs : List Question) (names : AMap Str Str) (h : qs ≠ []) :
    (Cond.rewriteQuestions order i qs names).1 ≠ [] := by
  cases qs with
  | nil => exact absurd rfl h
  | cons q qs =>
    unfold Cond.rewriteQuestions
    simp only
    split <;> exact List.cons_ne_nil _ _

theorem firm_rewriter (fallback : Bool) (order : Nat → List (Str × Str)) {i n : Cond.MResolver W}
    (hi : ∀ r w, r.req.question ≠ [] → (i r w).1 ≠ .panic ∧ (i r w).2.1.question ≠ []) (hn : FirmM n) :
    FirmM (Cond.rewriter fallback order i n) := by
  intro r w hq
  unfold Cond.rewriter
  have hne := rewriteQuestions_some order 0 r.req.question [] hq
  revert hne
  generalize Cond.rewriteQuestions order 0 r.req.question [] = y
  obtain ⟨questions, rewritten, names⟩ := y
  intro hne
  simp only at hne ⊢
  have h := hi (if rewritten then { r with req := { r.req with question := questions } } else r) w (by
    split
    · exact hne
    · exact hq)
  revert h
  generalize i _ w = z
  obtain ⟨o, msg, w'⟩ := z
  intro h
  simp only at h
  have ho : (if rewritten then r.req else msg).question ≠ [] := by
    split
    · exact hq
    · exact h.2
  cases o with
  | panic => exact absurd rfl h.1
  | err e => simp only; split
             · exact hn _ _ ho
             · exact ⟨(fun h => nomatch h), (fun h => nomatch h)⟩
  | noResponse => exact hn _ _ ho
  | ok x =>
    simp only
    split
    · exact hn _ _ ho
    · split <;> exact ⟨(fun h => nomatch h), (fun h => nomatch h)⟩

/-- Behind the cache: conditional upstreams, special-use names and upstreams. -/
theorem firm_cond (c : Chain.Config E W) (hm : ∀ z r, AMap.get c.condMapping z = some r → Firm r) {up : Resolver W} (hu : Firm up) :
    Firm (Chain.cond c up) := by
  have htail : Firm (Chain.tail c up) := by
    intro r w hq
    have hl : (Chain.liftUp up r w).1 ≠ .panic ∧ (Chain.liftUp up r w).1 ≠ .noResponse := hu r w.2 hq
    unfold Chain.tail Small.sudn
    split
    · exact hl
    · split
      · rename_i hn
        exact absurd hn hq
      · split
        · exact ⟨(fun h => nomatch h), (fun h => nomatch h)⟩
        · exact hl
  refine firm_ofM ?_
  unfold Cond.newRewriter
  split
  · exact firm_conditional hm (firm_toM htail)
  · exact firm_rewriter _ _ (firm_inner hm) (firm_toM htail)

/-! ### The keys in the cache -/

/-- The query counters have keys of questions only; so has the cache, unless (`short`) others put there what they like. -/
def KeysOk (short : Bool) (s : Caching.CState) : Prop :=
  (∀ e ∈ s.names.items, 2 ≤ e.1.length) ∧ (short = false → ∀ e ∈ s.main.cache.items, 2 ≤ e.1.length)

theorem cacheAdd_all {T : Type} {P : Str → Prop} {c : Cache T} (h : ∀ e ∈ c.items, P e.1) {k : Str} (hk : P k) (el : Element T) :
    ∀ e ∈ (c.add k el).items, P e.1 := by
  have hc : ∀ l : List (Str × Element T), (∀ e ∈ l, P e.1) → ∀ e ∈ (k, el) :: l, P e.1 := by
    intro l hl e he
    rcases List.mem_cons.1 he with rfl | he
    · exact hk
    · exact hl e he
  unfold Cache.add
  split
  · exact hc _ (fun e he => h e (List.mem_filter.1 he).1)
  · split
    · exact fun e he => hc _ h e (List.dropLast_subset _ he)
    · exact hc _ h

theorem cachePut_all {T : Type} {P : Str → Prop} {c : Cache T} (h : ∀ e ∈ c.items, P e.1) {k : Str} (hk : P k) (now : Int) (v : T) (ttl : Int) :
    ∀ e ∈ (c.put now k v ttl).items, P e.1 := by
  unfold Cache.put
  split
  · exact h
  · exact cacheAdd_all h hk _

theorem cacheTouch_all {T : Type} {P : Str → Prop} {c : Cache T} (h : ∀ e ∈ c.items, P e.1) (k : Str) :
    ∀ e ∈ (c.touch k).items, P e.1 := by
  unfold Cache.touch
  cases hp : c.peek k with
  | none => exact h
  | some el =>
    intro e he
    rcases List.mem_cons.1 he with rfl | he
    · exact h (k, el) (AMap.get_eq_some_mem hp)
    · exact h e (List.mem_filter.1 he).1

theorem cacheGet_all {T : Type} {P : Str → Prop} {c : Cache T} (h : ∀ e ∈ c.items, P e.1) (now : Int) (k : Str) :
    ∀ e ∈ (c.get now k).2.items, P e.1 := by
  unfold Cache.get
  cases c.peek k with
  | none => exact h
  | some el => exact cacheTouch_all h k

theorem keysOk_track {short : Bool} {s : Caching.CState} (h : KeysOk short s) (c : Caching.Cfg) {k : Str} (hk : 2 ≤ k.length) :
    KeysOk short (Caching.track c s k) :=
  ⟨cachePut_all (P := fun k => 2 ≤ k.length) (cacheGet_all (P := fun k => 2 ≤ k.length) h.1 _ _) hk _ _ _, h.2⟩

theorem keysOk_get {short : Bool} {s : Caching.CState} (h : KeysOk short s) (c : Caching.Cfg) {k : Str} (hk : 2 ≤ k.length) :
    KeysOk short (Caching.cacheGet c s k).2 := by
  have h1 : KeysOk short (if c.prefetching then Caching.track c s k else s) := by
    split
    · exact keysOk_track h c hk
    · exact h
  exact ⟨h1.1, fun hs => cacheGet_all (P := fun k => 2 ≤ k.length) (h1.2 hs) _ _⟩

theorem keysOk_put {short : Bool} {s : Caching.CState} (h : KeysOk short s) {k : Str} (hk : short = false → 2 ≤ k.length) (m : Msg) (ttl : Int) :
    KeysOk short { s with main := step s.main (.put k m ttl) } :=
  ⟨h.1, fun hs => cachePut_all (P := fun k => 2 ≤ k.length) (h.2 hs) (hk hs) _ _ _⟩

theorem keysOk_store {short : Bool} {s : Caching.CState} (h : KeysOk short s) (env : Caching.Env) (c : Caching.Cfg) {k : Str}
    (hk : short = false → 2 ≤ k.length) (r : Response) : KeysOk short (Caching.store env c s k r) := by
  unfold Caching.store Caching.putOps
  simp only
  split
  · split
    · exact keysOk_put h hk _ _
    · split
      · split
        · exact keysOk_put h hk _ _
        · exact h
      · exact h
  · exact h

theorem questionKey_length (q : Question) : 2 ≤ (Caching.questionKey q).length := by
  unfold Caching.questionKey Caching.cacheKey
  simp

theorem keysOk_loop {short : Bool} (env : Caching.Env) (c : Caching.Cfg) (next : Resolver V) (req : Request) (qs : List Question) :
    ∀ (last : Outcome) (s : Caching.CState) (w : V), KeysOk short s → KeysOk short (Caching.resolveLoop env c next req qs last s w).2.1 := by
  induction qs with
  | nil => exact fun _ _ _ h => h
  | cons q qs ih =>
    intro last s w h
    have h1 := keysOk_get h c (questionKey_length q)
    unfold Caching.resolveLoop
    revert h1
    generalize Caching.cacheGet c s (Caching.questionKey q) = y
    obtain ⟨found, s1⟩ := y
    intro h1
    cases found with
    | some x => exact h1
    | none =>
      simp only
      generalize next req w = z
      obtain ⟨o, w1⟩ := z
      cases o with
      | ok r => exact ih _ _ _ (keysOk_store h1 env c (fun _ => questionKey_length q) r)
      | err e => exact ih _ _ _ h1
      | noResponse => exact h1
      | panic => exact h1

/-! ### Every query keeps that -/

/-- A property of the world that every query keeps. -/
def Upheld (P : V → Prop) (n : Chain.MR V) : Prop := ∀ r w, P w.2 → P (n r w).2.2

theorem kept_ofM {P : V → Prop} {n : Cond.MResolver V} (h : ∀ r w, P w → P (n r w).2.2) : Upheld P (Chain.ofM n) := fun r w hw => h r w.2 hw

theorem kept_rewriter {P : V → Prop} (fallback : Bool) (order : Nat → List (Str × Str)) {i n : Cond.MResolver V}
    (hi : ∀ r w, P w → P (i r w).2.2) (hn : ∀ r w, P w → P (n r w).2.2) :
    ∀ r w, P w → P (Cond.rewriter fallback order i n r w).2.2 := by
  intro r w hw
  unfold Cond.rewriter
  simp only
  generalize Cond.rewriteQuestions order 0 r.req.question [] = y
  obtain ⟨questions, rewritten, names⟩ := y
  simp only
  have h := hi (if rewritten then { r with req := { r.req with question := questions } } else r) w hw
  revert h
  generalize i _ w = z
  obtain ⟨o, msg, w'⟩ := z
  intro h
  cases o with
  | panic => exact h
  | err e => simp only; split
             · exact hn _ _ h
             · exact h
  | noResponse => exact hn _ _ h
  | ok x =>
    simp only
    split
    · exact hn _ _ h
    · split <;> exact h

theorem kept_customDns {P : V → Prop} (env : CustomDns.Env) (mapping : CustomDns.Mapping) (reverse : AMap Str (List Str)) (depth : Nat)
    {n : Chain.MR V} (h : Upheld P n) : Upheld P (Chain.customDns env mapping reverse depth n) := by
  intro r w hw
  unfold Chain.customDns CustomDns.resolve
  have key : ∀ x, CustomDns.processRequest env mapping
      (fun (r : Request) (w : Msg × V) => if r.internal then ((n r (r.req, w.2)).1, (w.1, (n r (r.req, w.2)).2.2)) else n r w)
      depth r [] w = some x → P x.2.2 := by
    intro x hx
    refine processRequest_keeps (fun _ => True) (fun v => P v.2) env mapping (fun _ _ _ _ => trivial) ?_ depth r [] w trivial hw x hx
    intro r v _ hv
    show P (if r.internal then ((n r (r.req, v.2)).1, (v.1, (n r (r.req, v.2)).2.2)) else n r v).2.2
    split
    · exact h r (r.req, v.2) hv
    · exact h r v hv
  cases r.req.question with
  | nil => exact hw
  | cons q qs =>
    simp only
    cases CustomDns.handleReverse env reverse r q with
    | some y => exact hw
    | none =>
      simp only
      revert key
      generalize CustomDns.processRequest env mapping _ depth r [] w = z
      intro key
      cases z with
      | none => exact hw
      | some x => exact key x rfl

theorem keysOk_observed (short : Bool) (c : Chain.Config E W) (up : Resolver W) :
    ∀ r w, KeysOk short w.2.2.1 → KeysOk short (Chain.observed c up r w).2.2.2.1 := by
  have hcache : Upheld (fun v : Caching.CState × W => KeysOk short v.1) (Chain.caching c.cacheEnv c.cache (Chain.cond c up)) := by
    intro r w hw
    unfold Chain.caching Caching.resolve
    by_cases hb : (!c.cache.enabled || !Caching.isRequestCacheable r.req) = true
    · rw [if_pos hb]
      exact hw
    · rw [if_neg hb]
      have := keysOk_loop c.cacheEnv c.cache (Chain.cond c up) r r.req.question .noResponse w.2.1 (w.1, w.2.2) hw
      revert this
      generalize Caching.resolveLoop c.cacheEnv c.cache (Chain.cond c up) r r.req.question .noResponse w.2.1 (w.1, w.2.2) = y
      obtain ⟨o, s, m, w'⟩ := y
      exact fun this => this
  have hblock : Upheld (fun v : Caching.CState × W => KeysOk short v.1) (Chain.block c up) := by
    intro r w hw
    have hask : ∀ groups, KeysOk short (Blocking.askNext c.blockEnv c.blockState groups
        (Chain.caching c.cacheEnv c.cache (Chain.cond c up)) r w).2.2.1 := by
      intro groups
      unfold Blocking.askNext
      have := hcache r w hw
      revert this
      generalize Chain.caching c.cacheEnv c.cache (Chain.cond c up) r w = y
      obtain ⟨o, w'⟩ := y
      intro this
      cases o with
      | ok x => simp only; split
                · split <;> exact this
                · exact this
      | _ => exact this
    unfold Chain.block Blocking.resolve
    simp only
    split
    · split
      · exact hcache r w hw
      · exact hw
      · exact hask _
    · exact hask _
  have hhosts : Upheld (fun v : Caching.CState × W => KeysOk short v.1)
      (HostsFile.resolve c.hostsEnabled c.hostsCfg c.hosts c.hostsOrder4 c.hostsOrder6 (Chain.block c up)) := by
    intro r w hw
    unfold HostsFile.resolve
    split
    · exact hblock r w hw
    · split
      · exact hw
      · split
        · exact hw
        · split
          · exact hw
          · exact hblock r w hw
  have hlocal : Upheld (fun v : Caching.CState × W => KeysOk short v.1) (Chain.local c up) := by
    refine kept_ofM ?_
    have hh : ∀ r w, KeysOk short w.1 → KeysOk short
        (Chain.toM (HostsFile.resolve c.hostsEnabled c.hostsCfg c.hosts c.hostsOrder4 c.hostsOrder6 (Chain.block c up)) r w).2.2.1 :=
      fun r w hw => hhosts r (r.req, w) hw
    have hi : ∀ n : Cond.MResolver (Caching.CState × W), (∀ r w, KeysOk short w.1 → KeysOk short (n r w).2.2.1) →
        ∀ r w, KeysOk short w.1 → KeysOk short
          (Chain.toM (Chain.customDns c.customEnv c.customMapping c.customReverse c.customDepth (Chain.ofM n)) r w).2.2.1 :=
      fun n hn r w hw => kept_customDns (P := fun v : Caching.CState × W => KeysOk short v.1) _ _ _ _
        (kept_ofM (P := fun v : Caching.CState × W => KeysOk short v.1) hn) r (r.req, w) hw
    unfold Cond.newRewriter
    split
    · exact hi _ hh
    · exact kept_rewriter (P := fun v : Caching.CState × W => KeysOk short v.1) _ _ (hi _ (fun _ _ hw => hw)) hh
  have hmet : Upheld (fun v : Caching.CState × W => KeysOk short v.1) (Chain.metrics c.metrics (Chain.local c up)) := by
    intro r w hw
    unfold Chain.metrics
    have := hlocal r w hw
    revert this
    generalize Chain.local c up r w = y
    obtain ⟨o, w'⟩ := y
    intro this
    cases o <;> simp only <;> first | exact this | (split <;> first | exact this | (split <;> first | exact this))
  have hlog : ∀ r w, KeysOk short w.2.2.1 → KeysOk short
      (Chain.queryLog c.log c.logEnv c.logStart c.logDuration (Chain.metrics c.metrics (Chain.local c up)) r w).2.2.2.1 := by
    intro r w hw
    unfold Chain.queryLog Chain.ofM QueryLog.resolve
    have : KeysOk short (Chain.toM (Chain.metrics c.metrics (Chain.local c up)) r w.2.2).2.2.1 := hmet r (r.req, w.2.2) hw
    revert this
    generalize Chain.toM (Chain.metrics c.metrics (Chain.local c up)) r w.2.2 = y
    obtain ⟨o, m, w'⟩ := y
    intro this
    cases o with
    | ok x =>
      simp only
      split
      · exact this
      · split <;> exact this
    | _ => exact this
  intro r w hw
  unfold Chain.observed Small.ede
  split
  · exact hlog r w hw
  · have := hlog r w hw
    revert this
    generalize Chain.queryLog c.log c.logEnv c.logStart c.logDuration (Chain.metrics c.metrics (Chain.local c up)) r w = y
    obtain ⟨o, w'⟩ := y
    intro this
    cases o <;> exact this

theorem keysOk_whole (short : Bool) (c : Chain.Config E W) (hk : CacheKept c) (up : Resolver W) (request : Request) (m : Msg)
    (w : Chain.World W) (hw : KeysOk short w.2.2.1) : KeysOk short (Chain.whole c up request (m, w)).2.2.2.2.1 := by
  obtain ⟨cn, q, v⟩ := w
  have hecs : KeysOk short (Chain.ecs c.ecs (Chain.clientNames c.names (c.namesLookup.map Chain.liftLookup) (Chain.observed c up)) request
      (m, (cn, (q, v)))).2.2.2.2.1 := by
    unfold Chain.ecs
    cases h : Ecs.transform c.ecs request with
    | none => exact hw
    | some r =>
      simp only [Chain.clientNames, withNames_lift]
      have he' := withNames_keeps c.names c.namesLookup (fun w => KeysOk short w.1)
        (fun ask ha ip w hw => by rw [hk ask ha ip w]; exact hw) r cn v hw
      revert he'
      generalize ClientNames.withNames c.names c.namesLookup r cn v = y
      obtain ⟨r', cn', w'⟩ := y
      intro he'
      exact keysOk_observed short c up r' (r.req, (q, w')) he'
  unfold Chain.whole Small.filtering
  split
  · exact hw
  · split
    · exact hw
    · unfold Small.fqdnOnly
      split
      · split
        · exact hw
        · split
          · exact hw
          · exact hecs
      · exact hecs

/-! ### Cleaning up never panics -/

/-- Which keys may be there when the cache is cleaned up: prefetching is off, or only what was asked for is prefetched, or all keys
are keys of questions. -/
def Survivable (short : Bool) (c : Caching.Cfg) : Prop := c.prefetching = false ∨ c.prefetchThreshold ≠ 0 ∨ short = false

theorem extractKey_long {k : Str} (h : 2 ≤ k.length) : ∃ t n, Caching.extractKey k = some (t, n) := by
  match k, h with
  | a :: b :: name, _ => exact ⟨_, _, rfl⟩

theorem reload_survives (env : Caching.Env) (c : Caching.Cfg) {next : Resolver V} (hn : Firm next) {k : Str} (hk : 2 ≤ k.length) (w : V) :
    (Caching.reload env c next k w).1 ≠ none := by
  obtain ⟨t, n, he⟩ := extractKey_long hk
  unfold Caching.reload
  rw [he]
  have := hn (Caching.reloadRequest env t n) w (List.cons_ne_nil _ _)
  simp only
  revert this
  generalize next (Caching.reloadRequest env t n) w = y
  obtain ⟨o, w'⟩ := y
  intro this
  cases o with
  | ok r =>
    simp only
    split
    · split <;> exact fun h => nomatch h
    · exact fun h => nomatch h
  | err e => exact fun h => nomatch h
  | noResponse => exact absurd rfl this.2
  | panic => exact absurd rfl this.1

theorem keysOk_shouldPrefetch {short : Bool} {s : Caching.CState} (h : KeysOk short s) (c : Caching.Cfg) (k : Str) :
    KeysOk short (Caching.shouldPrefetch c s k).2 := by
  unfold Caching.shouldPrefetch
  split
  · exact h
  · exact ⟨cacheGet_all (P := fun k => 2 ≤ k.length) h.1 _ _, h.2⟩

theorem onExpired_survives {short : Bool} (env : Caching.Env) {c : Caching.Cfg} (hs : Survivable short c) {next : Resolver V} (hn : Firm next)
    {s : Caching.CState} (h : KeysOk short s) {k : Str} (hk : short = false → 2 ≤ k.length) (w : V) :
    (Caching.onExpired env c next s w k).1 ≠ none ∧ KeysOk short (Caching.onExpired env c next s w k).2.1 := by
  unfold Caching.onExpired
  split
  · rename_i hp
    split
    · rename_i hsp
      refine ⟨?_, keysOk_shouldPrefetch h c k⟩
      refine reload_survives env c hn ?_ w
      rcases hs with hs | hs | hs
      · rw [hp] at hs
        cases hs
      · unfold Caching.shouldPrefetch at hsp
        rw [if_neg hs] at hsp
        simp only at hsp
        cases hg : s.names.peek k with
        | none =>
          have : (s.names.get s.main.now k).1 = none := by
            unfold Cache.get
            rw [hg]
          rw [this] at hsp
          cases hsp
        | some el => exact h.1 (k, el) (AMap.get_eq_some_mem hg)
      · exact hk hs
    · exact ⟨(fun h => nomatch h), keysOk_shouldPrefetch h c k⟩
  · exact ⟨(fun h => nomatch h), h⟩

theorem reloadLoop_survives {short : Bool} (env : Caching.Env) {c : Caching.Cfg} (hs : Survivable short c) {next : Resolver V} (hn : Firm next)
    (ks : List Str) (hk : short = false → ∀ k ∈ ks, 2 ≤ k.length) : ∀ (del : List Str) (s : Caching.CState) (w : V), KeysOk short s →
      ∃ del' s', (Caching.reloadLoop env c next ks del s w).1 = some (del', s') ∧ KeysOk short s' := by
  induction ks with
  | nil => exact fun del s w h => ⟨del, s, rfl, h⟩
  | cons k ks ih =>
    intro del s w h
    have hk' : short = false → 2 ≤ k.length := fun hsh => hk hsh k List.mem_cons_self
    have ih := ih (fun hsh k' hm => hk hsh k' (List.mem_cons_of_mem _ hm))
    have h1 := onExpired_survives env hs hn h hk' w
    unfold Caching.reloadLoop
    revert h1
    generalize Caching.onExpired env c next s w k = y
    obtain ⟨o, s1, w1⟩ := y
    intro h1
    cases o with
    | none => exact absurd rfl h1.1
    | some o =>
      cases o with
      | none => exact ih _ _ _ h1.2
      | some x => exact ih _ _ _ (keysOk_put h1.2 hk' _ _)

theorem keysOk_removes {short : Bool} (del : List Str) : ∀ (s : Caching.CState), KeysOk short s →
    KeysOk short { s with main := run s.main (del.map Op.remove) } := by
  induction del with
  | nil => exact fun _ h => h
  | cons k ks ih =>
    intro s h
    exact ih { s with main := step s.main (.remove k) } ⟨h.1, fun hs e he => h.2 hs e (List.mem_filter.1 he).1⟩

theorem cleanUp_survives {short : Bool} (env : Caching.Env) {c : Caching.Cfg} (hs : Survivable short c) {next : Resolver V} (hn : Firm next)
    {s : Caching.CState} (h : KeysOk short s) (w : V) :
    ∃ s', (Caching.cleanUpCache env c next s w).1 = some s' ∧ KeysOk short s' := by
  have hk : short = false → ∀ k ∈ s.main.cache.expiredKeys s.main.now, 2 ≤ k.length := by
    intro hsh k hm
    unfold Cache.expiredKeys at hm
    obtain ⟨e, he, rfl⟩ := List.mem_map.1 hm
    exact h.2 hsh e (List.mem_reverse.1 (List.mem_filter.1 he).1)
  obtain ⟨del, s', h1, h2⟩ := reloadLoop_survives env hs hn _ hk [] s w h
  unfold Caching.cleanUpCache
  revert h1
  generalize Caching.reloadLoop env c next (s.main.cache.expiredKeys s.main.now) [] s w = y
  obtain ⟨o, w'⟩ := y
  intro h1
  simp only at h1
  subst h1
  exact ⟨_, rfl, keysOk_removes del s' h2⟩

/-! ### Histories -/

/-- What happens to a running server: a query, time passing or cleaning up (`Event`), a message from redis, a key of redis loaded (the
content of redis and the times of the commands `GET` and `TTL` are given), the answer cache emptied through the API. -/
inductive Incident where
  | event (e : Event)
  | message (id : Str) (m : Redis.Wire)
  | load (store : RedisStore.Store) (now later : Nat) (k : Str)
  | flush

/-- The messages sent and the world afterwards; `none`: the process has ended. -/
def befall (senv : Server.Env) (c : Chain.Config E W) (up : Resolver W) (w : Chain.World W) : Incident → List Msg × Option (Chain.World W)
  | .event e => happen senv c up w e
  | .message id m =>
    match Redis.processReceivedMessage id m with
    | some (.cache key msg) =>
      ([], some (w.1, w.2.1, Redis.onCacheMessage c.cacheEnv c.cache w.2.2.1 key (Redis.convertMessage msg 0), w.2.2.2))
    | _ => ([], some w)
  | .load store now later k => ([], some (w.1, w.2.1, RedisStore.loadKey c.cacheEnv c.cache store now later k w.2.2.1, w.2.2.2))
  | .flush => ([], some (w.1, w.2.1, Caching.flush w.2.2.1, w.2.2.2))

/-- A history; the configuration (lists, blocking status, hosts files, upstreams) may be another one each time. -/
def endures (senv : Server.Env) : List (Chain.Config E W × Resolver W × Incident) → Chain.World W → Option (Chain.World W)
  | [], w => some w
  | x :: xs, w =>
    match (befall senv x.1 x.2.1 w x.2.2).2 with
    | some w' => endures senv xs w'
    | none => none

/-- What comes from redis has the key of a question. -/
def LongKeys : Incident → Prop
  | .message _ m => ∀ key msg, m.payload = .cache key msg → 2 ≤ key.length
  | .load _ _ _ k => RedisStore.storePrefix.length + 2 ≤ k.length
  | _ => True

/-- A server with empty caches. -/
def EmptyCaches (w : Chain.World W) : Prop := w.2.2.1.main.cache.items = [] ∧ w.2.2.1.names.items = []

theorem cleanKey_long {k : Str} (hp : RedisStore.storePrefix.isPrefixOf k = true) (h : RedisStore.storePrefix.length + 2 ≤ k.length) :
    2 ≤ (RedisStore.cleanKey k).length := by
  unfold RedisStore.cleanKey
  rw [if_pos hp, List.length_drop]
  omega

theorem befall_survives {short : Bool} (senv : Server.Env) {c : Chain.Config E W} {up : Resolver W} (hs : Survivable short c.cache)
    (hk : CacheKept c) (hm : ∀ z r, AMap.get c.condMapping z = some r → Firm r) (hu : Firm up) (i : Incident)
    (hi : short = false → LongKeys i) (w : Chain.World W) (hw : KeysOk short w.2.2.1) :
    ∃ w', (befall senv c up w i).2 = some w' ∧ KeysOk short w'.2.2.1 := by
  cases i with
  | event e =>
    cases e with
    | query remote sni msg =>
      refine ⟨(Chain.serve senv c up remote sni msg w).2, rfl, ?_⟩
      rw [serve_world]
      split
      · exact hw
      · exact keysOk_whole short c hk up _ _ _ hw
    | pass ms => exact ⟨_, rfl, hw⟩
    | cleanUp =>
      obtain ⟨s, h1, h2⟩ := cleanUp_survives c.cacheEnv hs (firm_cond c hm hu) hw ({}, w.2.2.2)
      unfold befall happen
      revert h1
      simp only
      generalize Caching.cleanUpCache c.cacheEnv c.cache (Chain.cond c up) w.2.2.1 ({}, w.2.2.2) = y
      obtain ⟨o, mw⟩ := y
      intro h1
      simp only at h1
      subst h1
      exact ⟨_, rfl, h2⟩
  | message id m =>
    unfold befall Redis.processReceivedMessage
    simp only
    split
    · rename_i key msg hx
      refine ⟨_, rfl, keysOk_store hw _ _ (fun hsh => ?_) _⟩
      refine hi hsh key msg ?_
      split at hx
      · cases hp : m.payload with
        | cache k m' => rw [hp] at hx; cases hx; rfl
        | enable e => rw [hp] at hx; cases hx
        | other => rw [hp] at hx; cases hx
      · cases hx
    · exact ⟨w, rfl, hw⟩
  | load store now later k =>
    refine ⟨_, rfl, ?_⟩
    show KeysOk short (RedisStore.loadKey c.cacheEnv c.cache store now later k w.2.2.1)
    unfold RedisStore.loadKey
    split
    · rename_i hp
      unfold RedisStore.getResponse
      cases RedisStore.fetch store now k with
      | none => exact hw
      | some e => exact keysOk_store hw _ _ (fun hsh => cleanKey_long hp (hi hsh)) _
    · exact hw
  | flush => exact ⟨_, rfl, fun _ h => (nomatch h), fun _ _ h => (nomatch h)⟩

theorem endures_of {short : Bool} (senv : Server.Env) (xs : List (Chain.Config E W × Resolver W × Incident))
    (hall : ∀ x ∈ xs, Survivable short x.1.cache ∧ CacheKept x.1 ∧ (∀ z r, AMap.get x.1.condMapping z = some r → Firm r) ∧ Firm x.2.1 ∧
      (short = false → LongKeys x.2.2)) :
    ∀ w, KeysOk short w.2.2.1 → ∃ w', endures senv xs w = some w' := by
  induction xs with
  | nil => exact fun w _ => ⟨w, rfl⟩
  | cons x xs ih =>
    intro w hw
    obtain ⟨h1, h2, h3, h4, h5⟩ := hall x List.mem_cons_self
    obtain ⟨w', e1, e2⟩ := befall_survives senv h1 h2 h3 h4 x.2.2 h5 w hw
    obtain ⟨w'', e3⟩ := ih (fun y hy => hall y (List.mem_cons_of_mem _ hy)) w' e2
    refine ⟨w'', ?_⟩
    unfold endures
    rw [e1]
    exact e3

/-- **C109.** A server started with empty caches, its lists, blocking status, hosts files and upstreams being others at every moment; clients
send arbitrary messages, the cache is cleaned up (and entries are prefetched) at any time, and redis delivers arbitrary messages and
stored answers: the process does not end, if all through one of these holds: it does not prefetch, or only names asked more often than
a threshold other than 0, or the keys coming from redis have at least two bytes. The upstreams answer or fail (which they do:
`C45_no_panic`, `C109_groups`). Missing: prefetching with threshold 0 and other keys, where it fails - `C109_short_key_false`. -/
theorem C109_endures_partial (senv : Server.Env) (xs : List (Chain.Config E W × Resolver W × Incident))
    (hk : (∀ x ∈ xs, x.1.cache.prefetching = false ∨ x.1.cache.prefetchThreshold ≠ 0) ∨ ∀ x ∈ xs, LongKeys x.2.2)
    (hl : ∀ x ∈ xs, CacheKept x.1) (hm : ∀ x ∈ xs, ∀ z r, AMap.get x.1.condMapping z = some r → Firm r) (hu : ∀ x ∈ xs, Firm x.2.1)
    (w : Chain.World W) (hw : EmptyCaches w) : ∃ w', endures senv xs w = some w' := by
  rcases hk with hk | hk
  · refine endures_of (short := true) senv xs (fun x hx => ⟨?_, hl x hx, hm x hx, hu x hx, fun h => nomatch h⟩) w ⟨?_, fun h => nomatch h⟩
    · rcases hk x hx with h | h
      · exact .inl h
      · exact .inr (.inl h)
    · rw [hw.2]
      exact fun _ h => nomatch h
  · refine endures_of (short := false) senv xs (fun x hx => ⟨.inr (.inr rfl), hl x hx, hm x hx, hu x hx, fun _ => hk x hx⟩) w ⟨?_, fun _ => ?_⟩
    · rw [hw.2]
      exact fun _ h => nomatch h
    · rw [hw.1]
      exact fun _ h => nomatch h

/-- **C109.** Every query a client sends is answered by one message, in every state of the server, whatever the configuration and the upstreams -
even if they panic: the panic is recovered. -/
theorem C109_answered (senv : Server.Env) (c : Chain.Config E W) (up : Resolver W) (remote : Server.Addr) (sni : Option Str) (msg : Msg)
    (w : Chain.World W) :
    ∃ m w', befall senv c up w (.event (.query remote sni msg)) = ([m], some w') := by
  unfold befall happen Chain.serve Server.onRequest Server.handleReq Server.resolve
  simp only
  cases (Server.newRequestFromDNS remote sni msg).req.question with
  | nil => exact ⟨_, _, rfl⟩
  | cons q qs =>
    simp only
    generalize Chain.toM (Chain.whole c up) (Server.newRequestFromDNS remote sni msg) w = y
    obtain ⟨o, m, w'⟩ := y
    cases o with
    | err e => simp only; cases senv.asUpstream e <;> exact ⟨_, _, rfl⟩
    | _ => exact ⟨_, _, rfl⟩

/-- **C109.** The upstream groups answer or fail if the upstreams do: whatever the client, its names, and the order in which the map of groups is
iterated, one of the groups is found. -/
theorem C109_groups (env : Blocking.Env) (branches : AMap Str (Resolver W)) (order : Nat → List Str)
    (horder : ∀ i, (order i).Perm branches.keys) (hdef : str! "default" ∈ branches.keys)
    (hb : ∀ g r, AMap.get branches g = some r → Firm r) : Firm (Groups.tree env branches order) := by
  intro r w hq
  have hg := (C25_group_precedence env branches.keys order horder hdef r).1
  unfold Groups.tree
  cases hx : AMap.get branches (Groups.groupByClient env branches.keys order r) with
  | some reso => exact hb _ _ hx r w hq
  | none => exact absurd hg (AMap.get_eq_none_iff.1 hx)

theorem jsonString_length (s : Str) : s.length ≤ (Redis.jsonString s).length := by
  induction s with
  | nil => exact Nat.zero_le _
  | cons c s ih =>
    have : Redis.jsonString (c :: s) = (if c.toNat < 128 then [c] else [Char.ofNat 0xEF, Char.ofNat 0xBF, Char.ofNat 0xBD]) ++ Redis.jsonString s := rfl
    rw [this, List.length_append, List.length_cons]
    have h : 1 ≤ (if c.toNat < 128 then [c] else [Char.ofNat 0xEF, Char.ofNat 0xBF, Char.ofNat 0xBD]).length := by
      split
      · exact Nat.le_refl 1
      · decide
    omega

/-- **C109.** What an instance of blocky publishes for a question, and what it keeps in redis for it, has a key that every other instance
endures. -/
theorem C109_own_keys (env : Caching.Env) (q : Question) (res : Msg) (client id : Str) (now : Nat) (store : RedisStore.Store) :
    (∀ p, Redis.publishCache env (Caching.questionKey q) res = some p → LongKeys (.message id ⟨client, p⟩)) ∧
    (∀ k, AMap.get (RedisStore.keep env now (Caching.questionKey q) res store) k ≠ AMap.get store k → ∀ s t u, LongKeys (.load s t u k)) := by
  have hlen := questionKey_length q
  constructor
  · intro p hp key msg hm
    unfold Redis.publishCache at hp
    split at hp
    · cases hp
      cases hm
      exact Nat.le_trans hlen (jsonString_length _)
    · cases hp
  · intro k hk s t u
    unfold RedisStore.keep at hk
    split at hk
    · by_cases he : k = RedisStore.prefixKey (Caching.questionKey q)
      · subst he
        show RedisStore.storePrefix.length + 2 ≤ (RedisStore.storePrefix ++ Caching.questionKey q).length
        rw [List.length_append]
        omega
      · exact absurd (AMap.get_put_ne _ _ (Ne.symm he)) hk
    · exact absurd rfl hk

/-! ### A concrete history -/

/-- The sample server with prefetching of names asked more than `n` times. -/
def prefetchConfig (n : Nat) : Chain.Config prefixEngine Nat :=
  { sampleConfig with cache := { prefetching := true, prefetchThreshold := n } }

/-- The name sent by another instance for the empty key. -/
def shortMessage : Redis.Wire :=
  ⟨str! "other", .cache [] { response := true, answer := [{ name := str! "x.org.", rtype := typeA, ttl := 1, data := .a (.v4 7#32) }] }⟩

/-- A query, the short key, two seconds, cleaning up, another query. -/
def shortHistory (n : Nat) : List (Chain.Config prefixEngine Nat × Resolver Nat × Incident) :=
  [.event (.query (.udp none) none (query (str! "www.org."))), .message (str! "me") shortMessage, .event (.pass 2000), .event .cleanUp,
    .event (.query (.udp none) none (query (str! "www.org.")))].map (fun i => (prefetchConfig n, countingUp, i))

theorem countingUp_firm : Firm countingUp :=
  fun r w _ => ⟨countingUp_ok.noPanic r w, countingUp_ok.some r w⟩

theorem prefetchConfig_ok (n : Nat) : CacheKept (prefetchConfig n) ∧ ∀ z r, AMap.get (prefetchConfig n).condMapping z = some r → Firm r := by
  refine ⟨fun l hl => (nomatch hl), fun z r h => ?_⟩
  have hm := AMap.get_eq_some_mem h
  have : r = countingUp := by
    simp only [prefetchConfig, sampleConfig, List.mem_singleton, Prod.mk.injEq] at hm
    exact hm.2
  rw [this]
  exact countingUp_firm

/-- The hypotheses of `C109_endures_partial` are met with a threshold, even with the short key... -/
example : ∃ w', endures sampleServer (shortHistory 5) sampleWorld = some w' := by
  refine C109_endures_partial sampleServer (shortHistory 5) (.inl ?_) ?_ ?_ ?_ sampleWorld ⟨rfl, rfl⟩
  all_goals
    intro x hx
    obtain ⟨i, _, rfl⟩ := List.mem_map.1 hx
  · exact .inr (show ¬ (5 = 0) by decide)
  · exact (prefetchConfig_ok 5).1
  · exact (prefetchConfig_ok 5).2
  · exact countingUp_firm

/-- ... and with threshold 0 without it: the entry is prefetched and the last query answered from the cache. -/
example : (endures sampleServer ((shortHistory 0).eraseIdx 1) sampleWorld).map (fun w => (w.2.2.2, w.2.2.1.main.cache.items.length)) = some (1, 1) := by
  decide +kernel

/-- **C109 is false for short keys.** With prefetching and threshold 0, a message with a key of less than two bytes ends the process when
its entry has expired; all else is as `C109_endures_partial` wants it. -/
theorem C109_short_key_false :
    endures sampleServer (shortHistory 0) sampleWorld = none ∧ EmptyCaches sampleWorld ∧
      (∀ x ∈ shortHistory 0, CacheKept x.1 ∧ (∀ z r, AMap.get x.1.condMapping z = some r → Firm r) ∧ Firm x.2.1) := by
  refine ⟨?_, ⟨rfl, rfl⟩, ?_⟩
  · have h : (endures sampleServer (shortHistory 0) sampleWorld).isNone = true := by decide +kernel
    exact Option.isNone_iff_eq_none.1 h
  · intro x hx
    obtain ⟨i, _, rfl⟩ := List.mem_map.1 hx
    exact ⟨(prefetchConfig_ok 0).1, (prefetchConfig_ok 0).2, countingUp_firm⟩

end Verif.Props
