/-
C127: how many questions to upstreams a query causes when many are handled at the same time.
-/
import Verif.Props.Amplify
import Verif.Props.Sourced

namespace Verif.Props
open Verif.Dns Verif.Spec Verif.ExpCache Verif.StringCache Verif.Threads Verif.Chain

variable {E : RegexEngine} {X : Type}

/-- Is the step a question to upstreams? -/
def isAsk : Threads.Op → Bool
  | .ask _ _ => true
  | _ => false

/-- The number of questions to upstreams among the steps. -/
def asksIn (made : List (Threads.Op × Res)) : Nat := (made.filter (fun e => isAsk e.1)).length

/-! ### One run -/

/-- The questions used up, of `N`. -/
def usedOf (N : Nat) (v : Replay) : Nat := N - asksIn v.todo

theorem asksIn_cons (e : Threads.Op × Res) (rest : List (Threads.Op × Res)) : asksIn (e :: rest) = (if isAsk e.1 then 1 else 0) + asksIn rest := by
  unfold asksIn
  rw [List.filter_cons]
  split
  · rw [List.length_cons]; omega
  · omega

theorem asks_once (N : Nat) (z : Option Str) (u : Resolver Unit) : AsksOnce (usedOf N) (asking z u) := by
  intro r v
  unfold asking ask usedOf
  split
  · rename_i z' r' o rest he
    split
    · simp only [he, asksIn_cons]
      have : isAsk (Threads.Op.ask z' r') = true := rfl
      rw [if_pos this]
      omega
    · exact Nat.le_add_right _ _
  · exact Nat.le_add_right _ _

/-- A step of another kind. -/
theorem used_other {N : Nat} {v : Replay} {e : Threads.Op × Res} {rest : List (Threads.Op × Res)} (he : v.todo = e :: rest) (h : isAsk e.1 = false) :
    usedOf N { v with todo := rest } = usedOf N v := by
  unfold usedOf
  rw [he, asksIn_cons, h]
  simp

theorem find_used (N : Nat) (k : Str) (v : Replay) : usedOf N (find k v).2 = usedOf N v := by
  unfold find
  split
  · rename_i he
    split
    · exact used_other he rfl
    · rfl
  · rfl

theorem keep_used (N : Nat) (k : Str) (m : Msg) (ttl : Int) (v : Replay) : usedOf N (keep k m ttl v) = usedOf N v := by
  unfold keep
  split
  · rename_i he; exact used_other he rfl
  · rfl

theorem log_used (N : Nat) (e : QueryLogFile.LogEntry) (v : Replay) : usedOf N (log e v) = usedOf N v := by
  unfold log
  split
  · rename_i he; exact used_other he rfl
  · rfl

theorem keepAll_used (N : Nat) (ops : List (ExpCache.Op Msg)) : ∀ v, usedOf N (keepAll ops v) = usedOf N v := by
  unfold keepAll
  induction ops with
  | nil => exact fun _ => rfl
  | cons op ops ih =>
    intro v
    rw [List.foldl_cons, ih]
    cases op with
    | put k m ttl => exact keep_used N k m ttl v
    | _ => rfl

theorem loop_costT {N k : Nat} (env : Caching.Env) (cfg : Caching.Cfg) {next : MR Replay} (hn : Cost (usedOf N) (fun _ => k) next) (req : Request)
    (qs : List Question) : ∀ (last : Outcome) (w : Msg × Replay), w.1.question.length = req.req.question.length →
      (cachingLoop env cfg next req qs last w).2.1.question.length = req.req.question.length ∧
        usedOf N (cachingLoop env cfg next req qs last w).2.2 ≤ usedOf N w.2 + k * qs.length := by
  induction qs with
  | nil => exact fun _ _ hm => ⟨hm, Nat.le_refl _⟩
  | cons q qs ih =>
    intro last w hm
    unfold cachingLoop
    have hf := find_used N (Caching.questionKey q) w.2
    generalize find (Caching.questionKey q) w.2 = y at hf
    obtain ⟨found, v⟩ := y
    simp only at hf
    have hl : k * (q :: qs).length = k * qs.length + k := by rw [List.length_cons, Nat.mul_succ]
    cases found with
    | some x => exact ⟨hm, by simp only; omega⟩
    | none =>
      simp only
      have h2 := hn req (w.1, v) hm
      generalize next req (w.1, v) = z at h2
      obtain ⟨o, m1, v1⟩ := z
      obtain ⟨h2, h3⟩ := h2
      simp only at h2 h3
      have h4 : usedOf N v1 ≤ usedOf N w.2 + k * (q :: qs).length := by rw [hl]; omega
      cases o with
      | ok r =>
        have := ih (.ok (Caching.adjusted cfg r)) (m1, keepAll (Caching.putOps env cfg (Caching.questionKey q) (Caching.adjusted cfg r).res
          (Caching.adjustTTLs cfg r.res.answer).2) v1) h2
        exact ⟨this.1, by have := this.2; simp only [keepAll_used] at this ⊢; rw [hl]; omega⟩
      | err e =>
        have := ih (.err e) (m1, v1) h2
        exact ⟨this.1, by have := this.2; simp only at this ⊢; rw [hl]; omega⟩
      | noResponse => exact ⟨h2, h4⟩
      | panic => exact ⟨h2, h4⟩

theorem caching_costT {N k : Nat} (env : Caching.Env) (cfg : Caching.Cfg) {next : MR Replay} (hn : Cost (usedOf N) (fun _ => k) next) :
    Cost (usedOf N) (fun n => k * max 1 n) (Threads.caching env cfg next) := by
  intro r w hw
  have hk : k ≤ k * max 1 r.req.question.length := Nat.le_mul_of_pos_right _ (by omega)
  have hk' : k * r.req.question.length ≤ k * max 1 r.req.question.length := Nat.mul_le_mul_left _ (by omega)
  unfold Threads.caching
  split
  · have := hn r w hw
    exact ⟨this.1, Nat.le_trans this.2 (Nat.add_le_add_left hk _)⟩
  · have := loop_costT env cfg hn r r.req.question .noResponse w hw
    exact ⟨this.1, Nat.le_trans this.2 (Nat.add_le_add_left hk' _)⟩

theorem cond_costT (N : Nat) (c : Config E Unit) (up : Resolver Unit) : Cost (usedOf N) (fun _ => condCost c) (Threads.cond c up) := by
  refine cond_cost (c := forRuns c) (up := asking none up) (fun z r h => ?_) (asks_once N none up)
  have := zonesBy_get asking c.condMapping z
  rw [show (forRuns c).condMapping = zonesBy asking c.condMapping from rfl] at h
  rw [h] at this
  cases hu : AMap.get c.condMapping z with
  | none => rw [hu] at this; cases this
  | some u => rw [hu] at this; cases this; exact asks_once N _ _

theorem getNames_used (N : Nat) (cfg : ClientNames.Cfg) (l : Option (ClientNames.Lookup (Caching.CState × Unit))) (r : Request) (v : Replay) :
    usedOf N (getNames cfg (l.map askNames) r v).2 = usedOf N v := by
  have hfind : ∀ (k : Str) (v : Replay), usedOf N (findNames k v).2 = usedOf N v := by
    intro k v
    unfold findNames
    split
    · rename_i he
      split
      · exact used_other he rfl
      · rfl
    · rfl
  have hkeep : ∀ (k : Str) (ns : List Str) (v : Replay), usedOf N (keepNames k ns v) = usedOf N v := by
    intro k ns v
    unfold keepNames
    split
    · rename_i he; exact used_other he rfl
    · rfl
  have hask : ∀ (e : ClientNames.Lookup (Caching.CState × Unit)) (ip : IP) (v : Replay), usedOf N (askNames e ip v).2 = usedOf N v := by
    intro e ip v
    unfold askNames
    split
    · rename_i he
      split
      · exact used_other he rfl
      · rfl
    · rfl
  have hres : ∀ (ip : IP) (v : Replay), usedOf N (ClientNames.resolveClientNames cfg (l.map askNames) ip v).2 = usedOf N v := by
    intro ip v
    unfold ClientNames.resolveClientNames
    split
    · rfl
    · cases l with
      | none => rfl
      | some e =>
        simp only [Option.map]
        have := hask e ip v
        generalize askNames e ip v = x at this
        obtain ⟨a, v1⟩ := x
        cases a with
        | none => exact this
        | some ans => simp only; split <;> exact this
  unfold getNames
  split
  · rfl
  · split
    · rfl
    · rename_i ip _
      have h1 := hfind (cfg.ipString ip) v
      generalize findNames (cfg.ipString ip) v = x at h1
      obtain ⟨a, v1⟩ := x
      cases a with
      | some ns => exact h1
      | none =>
        simp only
        rw [hkeep, hres]
        exact h1

theorem whole_costT (N : Nat) (c : Config E Unit) (up : Resolver Unit) {a : Nat} (ha : AliasesAtMost a c.customMapping) (request : Request) (v : Replay) :
    usedOf N (Threads.whole c up request (request.req, v)).2.2 ≤ usedOf N v + askBound (condCost c) a c.customDepth request.req.question.length := by
  have hmet : Cost (usedOf N) (fun n => askBound (condCost c) a c.customDepth n) (Chain.metrics c.metrics (Threads.locally c up)) :=
    metrics_cost _ (local_cost (c := c) ha (hosts_cost _ _ _ _ _ (block_cost _ _ (caching_costT _ _ (cond_costT N c up)))))
  have hobs : ∀ (r : Request) (w : Msg × Replay), usedOf N (Threads.observed c up r w).2.2 ≤ usedOf N w.2 + askBound (condCost c) a c.customDepth r.req.question.length := by
    intro r w
    have hlog : usedOf N (ofM (Threads.queryLog c.log c.logEnv c.logStart c.logDuration (toM (Chain.metrics c.metrics (Threads.locally c up)))) r w).2.2 ≤
        usedOf N w.2 + askBound (condCost c) a c.customDepth r.req.question.length := by
      unfold ofM Threads.queryLog
      have : usedOf N (toM (Chain.metrics c.metrics (Threads.locally c up)) r w.2).2.2 ≤
        usedOf N w.2 + askBound (condCost c) a c.customDepth r.req.question.length := (hmet r (r.req, w.2) rfl).2
      generalize toM (Chain.metrics c.metrics (Threads.locally c up)) r w.2 = y at this
      obtain ⟨o, m, w'⟩ := y
      cases o with
      | ok x =>
        simp only
        split
        · exact this
        · split
          · exact this
          · simp only [log_used]; exact this
      | _ => exact this
    unfold Threads.observed Small.ede
    split
    · exact hlog
    · generalize ofM (Threads.queryLog c.log c.logEnv c.logStart c.logDuration (toM (Chain.metrics c.metrics (Threads.locally c up)))) r w = y at hlog
      obtain ⟨o, w'⟩ := y
      cases o <;> exact hlog
  have h0 : usedOf N v ≤ usedOf N v + askBound (condCost c) a c.customDepth request.req.question.length := Nat.le_add_right _ _
  have hecs : usedOf N (Chain.ecs c.ecs (Threads.clientNames c.names (c.namesLookup.map askNames) (Threads.observed c up)) request (request.req, v)).2.2 ≤
      usedOf N v + askBound (condCost c) a c.customDepth request.req.question.length := by
    unfold Chain.ecs
    cases h : Ecs.transform c.ecs request with
    | none => exact h0
    | some r =>
      have hq : r.req.question = request.req.question := by
        have hm := (C28_rest_unchanged c.ecs request r h).1
        unfold SameOutsideExtra at hm
        have e := congrArg Msg.question hm
        simp only at e
        exact e
      have := hobs { r with clientNames := (getNames c.names (c.namesLookup.map askNames) r v).1 }
        (r.req, (getNames c.names (c.namesLookup.map askNames) r v).2)
      simp only [getNames_used, hq] at this
      exact this
  unfold Threads.whole Small.filtering
  split
  · exact h0
  · split
    · exact h0
    · unfold Small.fqdnOnly
      split
      · split
        · exact h0
        · split
          · exact h0
          · exact hecs
      · exact hecs

theorem serve_runT (senv : Server.Env) (c : Config E Unit) (up : Resolver Unit) (remote : Server.Addr) (sni : Option Str) (msg : Msg) (v : Replay) :
    (Threads.serve senv c up remote sni msg v).2 =
      if msg.question = [] then v else (Threads.whole c up (Server.newRequestFromDNS remote sni msg) (msg, v)).2.2 := by
  have hr : (Server.newRequestFromDNS remote sni msg).req = msg := rfl
  unfold Threads.serve Server.onRequest Server.handleReq Server.resolve
  rw [hr]
  cases hq : msg.question with
  | nil => rfl
  | cons q qs =>
    simp only
    have hto : toM (Threads.whole c up) (Server.newRequestFromDNS remote sni msg) v =
      Threads.whole c up (Server.newRequestFromDNS remote sni msg) (msg, v) := rfl
    rw [hto, if_neg (by simp)]
    generalize Threads.whole c up (Server.newRequestFromDNS remote sni msg) (msg, v) = x
    obtain ⟨o, m', v'⟩ := x
    cases o with
    | err e => simp only; cases senv.asUpstream e <;> rfl
    | _ => rfl

/-- How many questions to upstreams a job may cause; at most `a` aliases per name. -/
def jobBound (a : Nat) : Job E → Nat
  | .query c _ _ msg => condCost c * (msg.question.length + reachable a (c.customDepth - 1))
  | .refresh c _ => condCost c

/-- A query's settings: custom DNS gets to the end of all chains of aliases, and there are at most `a` of them for a name. -/
def Settled (a : Nat) : Job E → Prop
  | .query c _ _ _ => (aliases c.customMapping).length < c.customDepth ∧ AliasesAtMost a c.customMapping
  | .refresh _ _ => True

theorem run_used (N a : Nat) (senv : Server.Env) (up : Resolver Unit) (j : Job E) (ha : Settled a j) (made : List (Threads.Op × Res)) :
    usedOf N (({ job := j, made := made } : Thread E).run senv up).2 ≤ usedOf N ⟨made, none⟩ + jobBound a j := by
  cases j with
  | query c remote sni msg =>
    show usedOf N (Threads.serve senv c up remote sni msg { todo := made }).2 ≤ _
    rw [serve_runT]
    split
    · exact Nat.le_add_right _ _
    · rename_i hq
      have := whole_costT N c up ha.2 (Server.newRequestFromDNS remote sni msg) { todo := made }
      have hlen : 1 ≤ msg.question.length := List.length_pos_iff.2 hq
      have hreq : (Server.newRequestFromDNS remote sni msg).req = msg := rfl
      unfold askBound at this
      rw [hreq, show max 1 msg.question.length = msg.question.length from by omega] at this
      exact this
  | refresh c key =>
    show usedOf N (Threads.refresh c up key { todo := made }) ≤ _
    unfold Threads.refresh
    have h := reload_cost (ν := usedOf N) (k := condCost c) c.cacheEnv c.cache (next := Threads.cond c up) ?_ key ({}, { todo := made })
    · generalize Caching.reload c.cacheEnv c.cache (Threads.cond c up) key ({}, { todo := made }) = x at h
      obtain ⟨o, m, v⟩ := x
      match o with
      | none => exact h
      | some none => exact h
      | some (some (m, ttl)) => simp only [keep_used]; exact h
    · exact fun r w => (cond_costT N c up r (r.req, w.2) rfl).2

/-- The run of a goroutine, with all that is left. -/
theorem job_tree (senv : Server.Env) (up : Resolver Unit) {a : Nat} (j : Job E) (hd : Settled a j) :
    ∃ F : List (Threads.Op × Res) → Unit × (Msg × Replay), Runs F ∧ ∀ made, (({ job := j, made := made } : Thread E).run senv up).2 = (F made).2.2 := by
  have key : ∀ {X : Type} (f : Msg × Replay → X × (Msg × Replay)), runsLogic.rel f f →
      (∀ made, (({ job := j, made := made } : Thread E).run senv up).2 = (f ({}, ⟨made, none⟩)).2.2) →
      ∃ F : List (Threads.Op × Res) → Unit × (Msg × Replay), Runs F ∧ ∀ made, (({ job := j, made := made } : Thread E).run senv up).2 = (F made).2.2 := by
    intro X f h1 h2
    exact ⟨_, (logic_map (L := runsLogic) h1 (fun _ => ())).2 {}, h2⟩
  cases j with
  | query c remote sni msg =>
    refine key _ (steps_serve runs_ops senv c up hd.1 remote sni msg) (fun made => ?_)
    have := serve_by asking senv c up remote sni msg ({}, ⟨made, none⟩)
    show (Server.onRequest senv (toM (wholeBy asking c up)) remote sni msg ⟨made, none⟩).2 = _
    rw [this]
  | refresh c key' =>
    obtain ⟨f, h1, h2⟩ := steps_refresh runs_ops.toInnerOk c up key'
    refine key f h2 (fun made => ?_)
    exact (h1 ({}, ⟨made, none⟩)).symm

theorem some_result (op : Threads.Op) : ∃ res, ResultOf op res := by
  cases op with
  | find k => exact ⟨.found none, trivial⟩
  | keep k m ttl => exact ⟨.done, trivial⟩
  | findNames k => exact ⟨.names none, trivial⟩
  | keepNames k l => exact ⟨.done, trivial⟩
  | log e => exact ⟨.done, trivial⟩
  | ask z r => exact ⟨.answer .noResponse, trivial⟩
  | askNames ip => exact ⟨.records none, trivial⟩

/-- A run can be continued to its end. -/
theorem runs_end {G : List (Threads.Op × Res) → X × (Msg × Replay)} (h : Runs G) : ∃ ext, (G ext).2.2 = ⟨[], none⟩ := by
  induction h with
  | ret F x m h => exact ⟨[], by rw [h]⟩
  | step F op h hk ih =>
    obtain ⟨res, hres⟩ := some_result op
    obtain ⟨ext, he⟩ := ih res hres
    exact ⟨_, he⟩

/-- After steps that were the ones to be made, too. -/
theorem runs_along {G : List (Threads.Op × Res) → X × (Msg × Replay)} (h : Runs G) : ∀ made : List (Threads.Op × Res),
    (∀ pre op res post, made = pre ++ (op, res) :: post → (G pre).2.2.wish = some op ∧ ResultOf op res) → ∃ ext, (G (made ++ ext)).2.2 = ⟨[], none⟩ := by
  induction h with
  | ret F x m h =>
    intro made hm
    cases made with
    | nil => exact ⟨[], by rw [List.nil_append, h]⟩
    | cons e made =>
      have := (hm [] e.1 e.2 made rfl).1
      rw [h] at this
      cases this
  | step F op h hk ih =>
    intro made hm
    cases made with
    | nil => exact runs_end (.step F op h hk)
    | cons e made =>
      obtain ⟨h1, h2⟩ := hm [] e.1 e.2 made rfl
      rw [h] at h1
      cases h1
      exact ih e.2 h2 made (fun pre op' res' post he => hm (e :: pre) op' res' post (by rw [he]; rfl))

/-! ### The whole execution -/

/-- Every step has a result of its kind. -/
theorem made_results (senv : Server.Env) (up : Resolver Unit) (es : List (Ev E)) : ∀ s : Sys E,
    (∀ t ∈ s.threads, ∀ e ∈ t.made, ResultOf e.1 e.2) → ∀ t ∈ (execute senv up s es).threads, ∀ e ∈ t.made, ResultOf e.1 e.2 := by
  induction es with
  | nil => exact fun s hs => hs
  | cons ev es ih =>
    intro s hs
    refine ih (advance senv up s ev) ?_
    have hadd : ∀ j : Job E, ∀ t ∈ s.threads ++ [{ job := j }], ∀ e ∈ t.made, ResultOf e.1 e.2 := by
      intro j t ht
      rcases List.mem_append.1 ht with ht | ht
      · exact hs t ht
      · rw [List.mem_singleton] at ht
        subst ht
        exact fun e h => nomatch h
    cases ev with
    | query c remote sni msg => exact hadd _
    | refresh c key =>
      unfold advance
      simp only
      split
      · exact hadd _
      · exact hs
    | move i o x =>
      unfold advance
      simp only
      split
      · rename_i t hi
        split
        · rename_i op hn
          intro u hu
          rcases List.mem_or_eq_of_mem_set hu with hu | rfl
          · exact hs u hu
          · intro e he
            rcases List.mem_append.1 he with he | he
            · exact hs t (List.mem_of_getElem? hi) e he
            · rw [List.mem_singleton] at he
              subst he
              exact resultOf_perform _ _ _ _ _
        · exact hs
      · exact hs
    | _ => exact hs

theorem asksIn_append (a b : List (Threads.Op × Res)) : asksIn (a ++ b) = asksIn a + asksIn b := by
  unfold asksIn
  rw [List.filter_append, List.length_append]

theorem asks_bound (senv : Server.Env) (up : Resolver Unit) (s : Sys E) (hs : s.threads = []) (es : List (Ev E)) (t : Thread E)
    (ht : t ∈ (execute senv up s es).threads) (a : Nat)
    (ha : Settled a t.job) : asksIn t.made ≤ jobBound a t.job := by
  have htr := execute_trail senv up s hs es t ht
  have hres := made_results senv up es s (by rw [hs]; exact fun t ht => nomatch ht) t ht
  obtain ⟨j, made⟩ := t
  simp only at htr hres ha ⊢
  obtain ⟨F, hF, hrun⟩ := job_tree senv up j ha
  obtain ⟨ext, he⟩ := runs_along hF made (fun pre op res post hm => by
    refine ⟨?_, hres (op, res) (by rw [hm]; simp)⟩
    rw [← hrun pre]
    exact htr pre op res post hm)
  have h := run_used (asksIn (made ++ ext)) a senv up j ha (made ++ ext)
  rw [hrun, he] at h
  unfold usedOf at h
  rw [asksIn_append] at h
  simp only [show asksIn ([] : List (Threads.Op × Res)) = 0 from rfl] at h
  omega

/-- **C127.** However many queries are handled at the same time, and in whatever order they make their steps: a message of a client makes the
server ask upstreams at most once for each question in it and each target of an alias that can be reached, twice with conditional rewriting
and `fallbackUpstream`; others never make it ask more often. (`reachable` as in C112.) -/
theorem C127_query (senv : Server.Env) (up : Resolver Unit) (s : Sys E) (hs : s.threads = []) (es : List (Ev E)) (t : Thread E)
    (ht : t ∈ (execute senv up s es).threads) (c : Config E Unit) (remote : Server.Addr) (sni : Option Str) (msg : Msg) (hj : t.job = .query c remote sni msg)
    (hd : (aliases c.customMapping).length < c.customDepth) (a : Nat) (ha : AliasesAtMost a c.customMapping) :
    asksIn t.made ≤ (if c.condRewrite.rewrite ≠ [] ∧ c.condRewrite.fallbackUpstream = true then 2 else 1) *
      (msg.question.length + reachable a (c.customDepth - 1)) := by
  have := asks_bound senv up s hs es t ht a (by rw [hj]; exact ⟨hd, ha⟩)
  rw [hj] at this
  exact this

/-- **C127**: without aliases, and without conditional rewriting or without fallback, a query with one question is sent to upstreams once at most. -/
theorem C127_once (senv : Server.Env) (up : Resolver Unit) (s : Sys E) (hs : s.threads = []) (es : List (Ev E)) (t : Thread E)
    (ht : t ∈ (execute senv up s es).threads) (c : Config E Unit) (remote : Server.Addr) (sni : Option Str) (msg : Msg) (hj : t.job = .query c remote sni msg)
    (hd : (aliases c.customMapping).length < c.customDepth) (ha : AliasesAtMost 0 c.customMapping)
    (hf : c.condRewrite.rewrite = [] ∨ c.condRewrite.fallbackUpstream = false) (hq : msg.question.length = 1) : asksIn t.made ≤ 1 := by
  have := C127_query senv up s hs es t ht c remote sni msg hj hd 0 ha
  rw [if_neg (by
    rintro ⟨h1, h2⟩
    rcases hf with h | h
    · exact h1 h
    · rw [h] at h2; cases h2), hq, reachable_zero] at this
  exact this

/-- **C127, refreshing.** An entry of the cache that is asked for again is asked for once, twice with conditional rewriting and `fallbackUpstream`. -/
theorem C127_refresh (senv : Server.Env) (up : Resolver Unit) (s : Sys E) (hs : s.threads = []) (es : List (Ev E)) (t : Thread E)
    (ht : t ∈ (execute senv up s es).threads) (c : Config E Unit) (key : Str) (hj : t.job = .refresh c key) :
    asksIn t.made ≤ if c.condRewrite.rewrite ≠ [] ∧ c.condRewrite.fallbackUpstream = true then 2 else 1 := by
  have := asks_bound senv up s hs es t ht 0 (by rw [hj]; trivial)
  rw [hj] at this
  exact this

/-- A query has come, or an entry is to be refreshed. -/
def starts : Ev E → Option (Job E)
  | .query c remote sni msg => some (.query c remote sni msg)
  | .refresh c key => some (.refresh c key)
  | _ => none

theorem jobs_started (senv : Server.Env) (up : Resolver Unit) (es : List (Ev E)) : ∀ s : Sys E,
    ((execute senv up s es).threads.map Thread.job).Sublist (s.threads.map Thread.job ++ es.filterMap starts) := by
  induction es with
  | nil => intro s; simp [execute]
  | cons ev es ih =>
    intro s
    refine (ih (advance senv up s ev)).trans ?_
    have hsame : (advance senv up s ev).threads.map Thread.job = s.threads.map Thread.job →
        ((advance senv up s ev).threads.map Thread.job ++ es.filterMap starts).Sublist (s.threads.map Thread.job ++ (ev :: es).filterMap starts) := by
      intro h
      rw [h]
      refine List.Sublist.append_left ?_ _
      rw [List.filterMap_cons]
      split
      · exact List.Sublist.refl _
      · exact List.sublist_cons_self _ _
    cases ev with
    | query c remote sni msg =>
      unfold advance
      simp [starts]
    | refresh c key =>
      unfold advance
      simp only
      split
      · simp [starts]
      · simp only [starts, List.filterMap_cons]
        exact List.Sublist.append_left (List.sublist_cons_self _ _) _
    | move i o x =>
      refine hsame ?_
      unfold advance
      simp only
      split
      · rename_i t hi
        split
        · simp only [List.map_set]
          refine List.ext_getElem? (fun k => ?_)
          rw [List.getElem?_set]
          split
          · rename_i hk
            subst hk
            split
            · rw [List.getElem?_map, hi]; rfl
            · rename_i hlt
              exact absurd (by rw [List.length_map]; exact (List.getElem?_eq_some_iff.1 hi).1) hlt
          · rfl
        · rfl
      · rfl
    | _ => exact hsame rfl

theorem sum_le_of_sublist {l l' : List Nat} (h : l.Sublist l') : l.sum ≤ l'.sum := by
  induction h with
  | slnil => exact Nat.le_refl _
  | cons a _ ih => rw [List.sum_cons]; omega
  | cons_cons a _ ih => rw [List.sum_cons, List.sum_cons]; omega

/-- **C127, altogether.** All goroutines together ask upstreams at most as often as the queries that have come and the entries refreshed allow,
added up. -/
theorem C127_total (senv : Server.Env) (up : Resolver Unit) (s : Sys E) (hs : s.threads = []) (es : List (Ev E)) (a : Nat)
    (ha : ∀ j ∈ es.filterMap starts, Settled a j) :
    ((execute senv up s es).threads.map (fun t => asksIn t.made)).sum ≤ ((es.filterMap starts).map (jobBound a)).sum := by
  have hsub := jobs_started senv up es s
  rw [hs, List.map_nil, List.nil_append] at hsub
  refine Nat.le_trans ?_ (sum_le_of_sublist (hsub.map (jobBound a)))
  rw [List.map_map]
  have key : ∀ l : List (Thread E), (∀ t ∈ l, asksIn t.made ≤ jobBound a t.job) → (l.map (fun t => asksIn t.made)).sum ≤ (l.map (jobBound a ∘ Thread.job)).sum := by
    intro l
    induction l with
    | nil => exact fun _ => Nat.le_refl _
    | cons t l ih =>
      intro h
      rw [List.map_cons, List.map_cons, List.sum_cons, List.sum_cons]
      exact Nat.add_le_add (h t List.mem_cons_self) (ih (fun t ht => h t (List.mem_cons_of_mem _ ht)))
  exact key _ (fun t ht => asks_bound senv up s hs es t ht a (ha _ (hsub.subset (List.mem_map_of_mem ht))))

/-! ### Examples -/

/-- The questions to upstreams of each goroutine. -/
def asksOf (s : Sys prefixEngine) : List Nat := s.threads.map (fun t => asksIn t.made)

/-- The same name, asked for at the same time by two clients, is asked for twice - the cache does not keep the second one waiting -; the blocked
one not at all, the refreshed entry once, and the later query is answered from the cache. -/
example : asksOf (execute sampleServer bareUp freshSys (planned freshSys overlapping)) = [1, 1, 0, 1, 0] := by decide +kernel

/-- Two clients ask for the same name. -/
def twins : List Plan :=
  [asks 1#32 (str! "www.org."), asks 2#32 (str! "www.org.")] ++ [.go 0 0, .go 0 0, .go 1 0, .go 0 0, .go 1 0, .go 1 0, .go 0 0, .go 1 0, .go 0 60, .go 1 60]

/-- **C127, at the same time.** A name whose answer may be cached is not asked for only once until the answer expires: two queries handled at the
same time both ask. -/
theorem C127_merged_false : ¬ ∀ es : List (Ev prefixEngine),
    (∀ ev ∈ es, (∃ i o x, ev = .move i o x) ∨ ∃ remote, ev = .query (threadsConfig 0) remote none (query (str! "www.org."))) →
    (asksOf (execute sampleServer bareUp freshSys es)).sum ≤ 1 := by
  intro h
  have h1 := h (planned freshSys twins) (planned_events (P := fun ev => (∃ i o x, ev = .move i o x) ∨
    ∃ remote, ev = .query (threadsConfig 0) remote none (query (str! "www.org."))) (fun i o x => .inl ⟨i, o, x, rfl⟩) twins (fun e he => by
      simp only [twins, asks, List.cons_append, List.nil_append, List.mem_cons, List.not_mem_nil, or_false, reduceCtorEq, Plan.event.injEq] at he
      rcases he with rfl | rfl
      · exact .inr ⟨_, rfl⟩
      · exact .inr ⟨_, rfl⟩) freshSys)
  have h2 : (asksOf (execute sampleServer bareUp freshSys (planned freshSys twins))).sum = 2 := by decide +kernel
  rw [h2] at h1
  exact absurd h1 (by decide)

/-- The hypotheses of `C127_query` are met by the queries that overlap. (The sample server has one alias.) -/
example (t : Thread prefixEngine) (ht : t ∈ (execute sampleServer bareUp freshSys (planned freshSys overlapping)).threads) (remote : Server.Addr)
    (sni : Option Str) (msg : Msg) (hj : t.job = .query (threadsConfig 0) remote sni msg) :
    asksIn t.made ≤ msg.question.length + reachable 1 ((threadsConfig 0).customDepth - 1) := by
  have := C127_query sampleServer bareUp freshSys rfl _ t ht (threadsConfig 0) remote sni msg hj (by decide) 1 (by
    intro z es h
    have hall : ∀ e ∈ ((threadsConfig 0).customMapping : List (Str × List RR)), (e.2.filter isAlias).length ≤ 1 := by decide
    exact hall _ (AMap.get_eq_some_mem h))
  rw [if_neg (by decide), Nat.one_mul] at this
  exact this

end Verif.Props
