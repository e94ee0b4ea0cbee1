/-
C81: logging and metrics do not change answers. Whole server.
-/
import Verif.Props.Privacy
import Verif.Props.QueryLog

namespace Verif.Props
open Dns ExpCache StringCache

variable {E : RegexEngine} {W : Type}

/-! ### The message keeps its questions -/

/-- The request's message has questions before and after. -/
def KeepsQ (n : Chain.MR W) : Prop := ∀ r w, r.req.question ≠ [] → w.1.question ≠ [] → (n r w).2.1.question ≠ []

/-- The same for resolvers that return the message. -/
def KeepsQM (n : Cond.MResolver W) : Prop := ∀ r w, r.req.question ≠ [] → (n r w).2.1.question ≠ []

theorem keepsQ_toM {n : Chain.MR W} (h : KeepsQ n) : KeepsQM (Chain.toM n) := fun r w hr => h r (r.req, w) hr hr

theorem keepsQ_ofM {n : Cond.MResolver W} (h : KeepsQM n) : KeepsQ (Chain.ofM n) := fun r w hr _ => h r w.2 hr

theorem setName_ne {name : Str} {qs : List Question} (h : qs ≠ []) : Cond.setName name qs ≠ [] := by
  cases qs with
  | nil => exact absurd rfl h
  | cons q qs => simp [Cond.setName]

theorem keepsQ_conditional (mapping : AMap Str (Resolver W)) {n : Cond.MResolver W} (h : KeepsQM n) :
    KeepsQM (Cond.conditional mapping n) := by
  intro r w hr
  unfold Cond.conditional
  split
  · split
    · exact hr
    · split
      · unfold Cond.internalResolve
        simp only
        split <;> exact setName_ne hr
      · exact h r w hr
  · exact h r w hr

theorem rewriteQuestions_ne (order : Nat → List (Str × Str)) (i : Nat) (qs : List Question) (names : AMap Str Str) (h : qs ≠ []) :
    (Cond.rewriteQuestions order i qs names).1 ≠ [] := by
  cases qs with
  | nil => exact absurd rfl h
  | cons q qs =>
    unfold Cond.rewriteQuestions
    simp only
    split <;> simp

theorem keepsQ_rewriter (fallback : Bool) (order : Nat → List (Str × Str)) {i n : Cond.MResolver W} (hi : KeepsQM i) (hn : KeepsQM n) :
    KeepsQM (Cond.rewriter fallback order i n) := by
  intro r w hr
  unfold Cond.rewriter
  simp only
  have hq := rewriteQuestions_ne order 0 r.req.question [] hr
  revert hq
  generalize Cond.rewriteQuestions order 0 r.req.question [] = y
  obtain ⟨questions, rewritten, names⟩ := y
  intro hq
  simp only at hq ⊢
  have hr' : (if rewritten then { r with req := { r.req with question := questions } } else r).req.question ≠ [] := by
    split
    · exact hq
    · exact hr
  have hm := hi _ w hr'
  revert hm
  generalize i (if rewritten then { r with req := { r.req with question := questions } } else r) w = z
  obtain ⟨o, msg, w'⟩ := z
  intro hm
  simp only at hm
  have ho : (if rewritten then r.req else msg).question ≠ [] := by
    split
    · exact hr
    · exact hm
  have hnx := hn { r with req := if rewritten then r.req else msg } w' ho
  cases o with
  | panic => exact hm
  | err e => simp only; split <;> assumption
  | noResponse => exact hnx
  | ok y =>
    simp only
    split
    · exact hnx
    · cases rewritten
      · exact hm
      · exact hr

theorem keepsQ_newRewriter (cfg : Cond.RewriteCfg) (order : Nat → List (Str × Str)) {i : Cond.MResolver W → Cond.MResolver W}
    {n : Cond.MResolver W} (hi : ∀ m, KeepsQM m → KeepsQM (i m)) (hn : KeepsQM n) : KeepsQM (Cond.newRewriter cfg order i n) := by
  unfold Cond.newRewriter
  split
  · exact hi _ hn
  · exact keepsQ_rewriter _ _ (hi _ (fun _ _ h => h)) hn

theorem keepsQ_caching (env : Caching.Env) (cfg : Caching.Cfg) {n : Chain.MR W} (h : KeepsQ n) :
    KeepsQ (Chain.caching env cfg n) := by
  intro r w hr hw
  have hloop : ∀ qs last s (w : Msg × W), w.1.question ≠ [] → (Caching.resolveLoop env cfg n r qs last s w).2.2.1.question ≠ [] := by
    intro qs
    induction qs with
    | nil => intro _ _ _ hw; exact hw
    | cons q qs ih =>
      intro last s w hw
      unfold Caching.resolveLoop
      split
      · exact hw
      · have hn := h r w hr hw
        split
        all_goals
          rename_i hx
          rw [hx] at hn
        · exact ih _ _ _ hn
        · exact ih _ _ _ hn
        · exact hn
        · exact hn
  unfold Chain.caching Caching.resolve
  by_cases hc : (!cfg.enabled || !Caching.isRequestCacheable r.req) = true
  · simp only [hc, if_true]
    exact h r (w.1, w.2.2) hr hw
  · simp only [hc]
    exact hloop _ _ _ _ hw

theorem keepsQ_blocking (env : Blocking.Env) (b : Blocking.BState E) {n : Chain.MR W} (h : KeepsQ n) : KeepsQ (Blocking.resolve env b n) := by
  intro r w hr hw
  have ha : ∀ gs, (Blocking.askNext env b gs n r w).2.1.question ≠ [] := by
    intro gs
    have hn := h r w hr hw
    unfold Blocking.askNext
    split
    · rename_i hx
      rw [hx] at hn
      split
      · split <;> exact hn
      · exact hn
    · rename_i hx
      rw [hx] at hn
      exact hn
  unfold Blocking.resolve
  simp only
  split
  · split
    · exact h r w hr hw
    · exact hw
    · exact ha _
  · exact ha _

theorem keepsQ_hosts (enabled : Bool) (cfg : HostsFile.Cfg) (hs : HostsFile.Hosts) (o4 o6 : List (Str × (IP × List Str)))
    {n : Chain.MR W} (h : KeepsQ n) : KeepsQ (HostsFile.resolve enabled cfg hs o4 o6 n) := by
  intro r w hr hw
  unfold HostsFile.resolve
  split
  · exact h r w hr hw
  · split
    · exact hw
    · split
      · exact hw
      · split
        · exact hw
        · exact h r w hr hw

theorem keepsQ_sudn (cfg : Small.SudnCfg) {n : Chain.MR W} (h : KeepsQ n) : KeepsQ (Small.sudn cfg n) := by
  intro r w hr hw
  unfold Small.sudn
  split
  · exact h r w hr hw
  · split
    · exact hw
    · split
      · exact hw
      · exact h r w hr hw

theorem keepsQ_customDns (env : CustomDns.Env) (mapping : CustomDns.Mapping) (reverse : AMap Str (List Str))
    (depth : Nat) {n : Chain.MR W} (h : KeepsQ n) : KeepsQ (Chain.customDns env mapping reverse depth n) := by
  intro r w hr hw
  unfold Chain.customDns CustomDns.resolve
  have key : ∀ x, CustomDns.processRequest env mapping
      (fun (r : Request) (w : Msg × W) => if r.internal then ((n r (r.req, w.2)).1, (w.1, (n r (r.req, w.2)).2.2)) else n r w)
      depth r [] w = some x → x.2.1.question ≠ [] := by
    intro x hx'
    refine processRequest_keeps (fun r => r.req.question ≠ []) (fun w => w.1.question ≠ []) env mapping ?_ ?_ depth r [] w hr hw x hx'
    · intro _ _ _ _
      simp [CustomDns.targetRequest, newMsgWithQuestion]
    · intro r w hr hw
      split
      · exact hw
      · exact h r w hr hw
  cases r.req.question with
  | nil => exact hw
  | cons q qs =>
    simp only
    cases CustomDns.handleReverse env reverse r q with
    | some y => exact hw
    | none =>
      simp only
      revert key
      generalize CustomDns.processRequest env mapping _ depth r [] w = z
      intro key
      cases z with
      | none => exact hw
      | some x => exact key x rfl

theorem keepsQ_local (c : Chain.Config E W) (up : Resolver W) : KeepsQ (Chain.local c up) := by
  have ht : KeepsQ (Chain.tail c up) := keepsQ_sudn _ (fun _ _ _ hw => hw)
  have hc : KeepsQ (Chain.cond c up) :=
    keepsQ_ofM (keepsQ_newRewriter _ _ (fun _ h => keepsQ_conditional _ h) (keepsQ_toM ht))
  exact keepsQ_ofM (keepsQ_newRewriter _ _ (fun _ h => keepsQ_toM (keepsQ_customDns _ _ _ _ (keepsQ_ofM h)))
    (keepsQ_toM (keepsQ_hosts _ _ _ _ _ (keepsQ_blocking _ _ (keepsQ_caching _ _ hc)))))

/-! ### What the observers hand on -/

/-- The answer of the chain behind the observing resolvers, with the extended error code. -/
def observedAnswer (ede : Bool) : Outcome → Outcome
  | .ok r => .ok (if ede then Small.addExtraReasoning r else r)
  | .noResponse => .panic
  | o => o

theorem fillFields_ok (env : QueryLog.Env) (request : Request) (req : Msg) (hq : req.question ≠ []) (response : Response) (ms : Int)
    (fs : List QueryLog.Field) (e : QueryLogFile.LogEntry) : ∃ e', QueryLog.fillFields env request req response ms fs e = some e' :=
  fillFields_some env request req response ms fs e (.inl hq)

theorem observed_eq (c : Chain.Config E W) (up : Resolver W) (request : Request) (hq : request.req.question ≠ []) (m : Msg)
    (q : QueryLog.Queue) (w : Caching.CState × W) :
    ∃ q', Chain.observed c up request (m, (q, w)) =
      (observedAnswer c.ede (Chain.local c up request (request.req, w)).1,
        ((Chain.local c up request (request.req, w)).2.1, (q', (Chain.local c up request (request.req, w)).2.2))) := by
  have hk := keepsQ_local c up request (request.req, w) hq hq
  cases hz : Chain.local c up request (request.req, w) with
  | mk o y =>
  obtain ⟨msg, w'⟩ := y
  rw [hz] at hk
  simp only at hk
  simp only [Chain.observed, Chain.queryLog, Chain.ofM, QueryLog.resolve, Chain.toM, Chain.metrics, Small.ede, hz]
  obtain ⟨q0, qs, hqs⟩ := List.exists_cons_of_ne_nil hk
  cases o with
  | panic => cases c.ede <;> exact ⟨q, rfl⟩
  | noResponse => cases c.metrics <;> cases c.ede <;> simp only [hqs] <;> exact ⟨q, rfl⟩
  | err e => cases c.metrics <;> cases c.ede <;> simp only [hqs] <;> exact ⟨q, rfl⟩
  | ok r =>
    obtain ⟨e', he'⟩ := fillFields_ok c.logEnv request msg hk r c.logDuration c.log.fields (QueryLog.emptyEntry c.logEnv c.logStart)
    have hc : QueryLog.createLogEntry c.log c.logEnv request msg r c.logStart c.logDuration = some e' := he'
    cases hi : QueryLog.ignore c.log r <;> cases c.metrics <;> cases c.ede <;> simp [hqs, hc, hi, observedAnswer]

/-! ### The whole server -/

/-- The same, except for the queue of the query log. -/
def SameButQueue (x y : Outcome × Msg × Chain.World W) : Prop :=
  x.1 = y.1 ∧ x.2.1 = y.2.1 ∧ x.2.2.1 = y.2.2.1 ∧ x.2.2.2.2 = y.2.2.2.2

/-- The configuration with another query log and metrics. -/
def withObservers (c : Chain.Config E W) (log : QueryLog.Cfg) (env : QueryLog.Env) (start duration : Int) (metrics : Bool) : Chain.Config E W :=
  { c with log := log, logEnv := env, logStart := start, logDuration := duration, metrics := metrics }

theorem ecs_question {cfg : Ecs.Cfg} {request r : Request} (h : Ecs.transform cfg request = some r) :
    r.req.question = request.req.question := by
  have hm := (C28_rest_unchanged cfg request r h).1
  unfold SameOutsideExtra at hm
  have := congrArg Msg.question hm
  simp only at this
  exact this

theorem whole_observers (c : Chain.Config E W) (up : Resolver W) (log : QueryLog.Cfg) (env : QueryLog.Env) (start duration : Int)
    (metrics : Bool) (request : Request) (hq : request.req.question ≠ []) (m : Msg) (cn : St (List Str)) (q q' : QueryLog.Queue)
    (w : Caching.CState × W) :
    SameButQueue (Chain.whole (withObservers c log env start duration metrics) up request (m, (cn, (q, w))))
      (Chain.whole c up request (m, (cn, (q', w)))) := by
  have hsame : ∀ x : Outcome × Msg, ∀ q q', SameButQueue (x.1, (x.2, (cn, (q, w)))) (x.1, (x.2, (cn, (q', w)))) :=
    fun _ _ _ => ⟨rfl, rfl, rfl, rfl⟩
  have hecs : SameButQueue
      (Chain.ecs c.ecs (Chain.clientNames c.names (c.namesLookup.map Chain.liftLookup)
        (Chain.observed (withObservers c log env start duration metrics) up)) request (m, (cn, (q, w))))
      (Chain.ecs c.ecs (Chain.clientNames c.names (c.namesLookup.map Chain.liftLookup) (Chain.observed c up)) request (m, (cn, (q', w)))) := by
    unfold Chain.ecs
    cases h : Ecs.transform c.ecs request with
    | none => exact hsame (.panic, m) q q'
    | some r =>
      simp only [Chain.clientNames, withNames_lift]
      have hr : (ClientNames.withNames c.names c.namesLookup r cn w).1.req.question ≠ [] := by
        rw [withNames_req, ecs_question h]
        exact hq
      generalize ClientNames.withNames c.names c.namesLookup r cn w = y at hr
      obtain ⟨r', cn', w'⟩ := y
      obtain ⟨q1, e1⟩ := observed_eq c up r' hr r.req q' w'
      obtain ⟨q2, e2⟩ := observed_eq (withObservers c log env start duration metrics) up r' hr r.req q w'
      simp only [e1, e2]
      exact ⟨rfl, rfl, rfl, rfl⟩
  have hfq : SameButQueue
      (Small.fqdnOnly c.fqdnOnly (Chain.ecs c.ecs (Chain.clientNames c.names (c.namesLookup.map Chain.liftLookup)
        (Chain.observed (withObservers c log env start duration metrics) up))) request (m, (cn, (q, w))))
      (Small.fqdnOnly c.fqdnOnly (Chain.ecs c.ecs (Chain.clientNames c.names (c.namesLookup.map Chain.liftLookup)
        (Chain.observed c up))) request (m, (cn, (q', w)))) := by
    unfold Small.fqdnOnly
    split
    · split
      · exact hsame (.panic, m) q q'
      · split
        · exact hsame (_, m) q q'
        · exact hecs
    · exact hecs
  show SameButQueue (Small.filtering c.filterTypes _ request _) (Small.filtering c.filterTypes _ request _)
  unfold Small.filtering
  split
  · exact hsame (.panic, m) q q'
  · split
    · exact hsame (_, m) q q'
    · exact hfq

/-- **C81.** Whatever is configured for the query log and for metrics, whatever the log's queue contains, and
whatever the clock says for the log: the server sends the same messages, and its state afterwards - caches and
upstreams - is the same, except for the queue of the log. For every message, also malformed ones. -/
theorem C81_answers (senv : Server.Env) (c : Chain.Config E W) (up : Resolver W) (log : QueryLog.Cfg) (env : QueryLog.Env)
    (start duration : Int) (metrics : Bool) (remote : Server.Addr) (sni : Option Str) (msg : Msg) (cn : St (List Str))
    (q q' : QueryLog.Queue) (cache : Caching.CState) (w : W) :
    let x := Chain.serve senv c up remote sni msg (cn, q, cache, w)
    let y := Chain.serve senv (withObservers c log env start duration metrics) up remote sni msg (cn, q', cache, w)
    y.1 = x.1 ∧ y.2.1 = x.2.1 ∧ y.2.2.2.1 = x.2.2.2.1 ∧ y.2.2.2.2 = x.2.2.2.2 := by
  intro x y
  by_cases hq : msg.question = []
  · have : ∀ (chain : Cond.MResolver (Chain.World W)) w, Server.resolve senv chain (Server.newRequestFromDNS remote sni msg) w =
        (some (Server.finish senv msg (Server.newRequestFromDNS remote sni msg).protocol (({} : Msg).setRcode msg rcodeFormErr)), msg, w) := by
      intro chain w
      unfold Server.resolve
      rw [show (Server.newRequestFromDNS remote sni msg).req = msg from rfl, hq]
    simp only [x, y, Chain.serve, Server.onRequest, Server.handleReq, this, and_self]
  · have h := whole_observers c up log env start duration metrics (Server.newRequestFromDNS remote sni msg) hq msg cn q' q (cache, w)
    have hreq : (Server.newRequestFromDNS remote sni msg).req = msg := rfl
    obtain ⟨q0, qs, hqs⟩ := List.exists_cons_of_ne_nil hq
    simp only [x, y, Chain.serve, Server.onRequest, Server.handleReq, Server.resolve, Chain.toM, hreq, hqs]
    revert h
    generalize Chain.whole (withObservers c log env start duration metrics) up (Server.newRequestFromDNS remote sni msg) (msg, (cn, (q', (cache, w)))) = a
    generalize Chain.whole c up (Server.newRequestFromDNS remote sni msg) (msg, (cn, (q, (cache, w)))) = b
    obtain ⟨o1, m1, n1, k1, c1, w1⟩ := a
    obtain ⟨o2, m2, n2, k2, c2, w2⟩ := b
    rintro ⟨h1, h2, h3, h4⟩
    simp only [Prod.mk.injEq] at h1 h2 h3 h4
    obtain ⟨h4, h5⟩ := h4
    subst h1 h2 h3 h4 h5
    cases o1 with
    | ok r => exact ⟨rfl, rfl, rfl, rfl⟩
    | err e => simp only; cases senv.asUpstream e <;> exact ⟨rfl, rfl, rfl, rfl⟩
    | noResponse => exact ⟨rfl, rfl, rfl, rfl⟩
    | panic => exact ⟨rfl, rfl, rfl, rfl⟩

-- Concrete: without logging and metrics, or with a full log queue, the sample server does the same; the queues differ.
example : view (Chain.serve sampleServer (withObservers sampleConfig ⟨[], true⟩ sampleConfig.logEnv 7 9 false) countingUp
      (.udp (some (.v4 1#32))) none (query (str! "www.org.")) sampleWorld) = ([(5, str! "www.org.", 0, 1)], 1) := by decide +kernel

example : (Chain.serve sampleServer sampleConfig countingUp (.udp (some (.v4 1#32))) none (query (str! "www.org.")) sampleWorld).2.2.1.waiting.length = 1 ∧
    (Chain.serve sampleServer { sampleConfig with log := ⟨[], true⟩, sudn := ⟨true, true⟩ } countingUp (.udp (some (.v4 1#32))) none
      (query (str! "printer.local.")) sampleWorld).2.2.1.waiting.length = 0 := by decide +kernel

end Verif.Props
