/-
The whole server of `Model/Threads` in any of the ways of reasoning of `Lemmas/Logic`: what holds of each step holds of the whole run.
-/
import Verif.Model.Threads
import Verif.Lemmas.Logic
import Verif.Props.Conditional

namespace Verif.Props
open Verif.Dns Verif.ExpCache Verif.StringCache Verif.Threads Verif.Chain

variable {E : RegexEngine} {X Y : Type}

/-! ### The server with questions to upstreams made in some way -/

/-- A way of asking upstreams. -/
abbrev Asking := Option Str → Resolver Unit → Resolver Replay

/-- The one of `Model/Threads`. -/
def asking : Asking := fun z u => ask u z

/-- As `Threads.zones`. -/
def zonesBy (a : Asking) (mapping : AMap Str (Resolver Unit)) : AMap Str (Resolver Replay) := mapping.map (fun e => (e.1, a (some e.1) e.2))

/-- As `Threads.tail`. -/
def tailBy (a : Asking) (c : Config E Unit) (up : Resolver Unit) : MR Replay := Small.sudn c.sudn (liftUp (a none up))

/-- As `Threads.cond`. -/
def condBy (a : Asking) (c : Config E Unit) (up : Resolver Unit) : MR Replay :=
  ofM (Cond.newRewriter c.condRewrite c.condOrder (Cond.conditional (zonesBy a c.condMapping)) (toM (tailBy a c up)))

/-- As `Threads.block`. -/
def blockBy (a : Asking) (c : Config E Unit) (up : Resolver Unit) : MR Replay :=
  Blocking.resolve c.blockEnv c.blockState (Threads.caching c.cacheEnv c.cache (condBy a c up))

/-- As `Threads.locally`. -/
def localBy (a : Asking) (c : Config E Unit) (up : Resolver Unit) : MR Replay :=
  ofM (Cond.newRewriter c.customRewrite c.customOrder
    (fun next => toM (customDns c.customEnv c.customMapping c.customReverse c.customDepth (ofM next)))
    (toM (HostsFile.resolve c.hostsEnabled c.hostsCfg c.hosts c.hostsOrder4 c.hostsOrder6 (blockBy a c up))))

/-- As `Threads.observed`. -/
def observedBy (a : Asking) (c : Config E Unit) (up : Resolver Unit) : MR Replay :=
  Small.ede c.ede (ofM (Threads.queryLog c.log c.logEnv c.logStart c.logDuration (toM (metrics c.metrics (localBy a c up)))))

/-- As `Threads.whole`. -/
def wholeBy (a : Asking) (c : Config E Unit) (up : Resolver Unit) : MR Replay :=
  Small.filtering c.filterTypes
    (Small.fqdnOnly c.fqdnOnly
      (Chain.ecs c.ecs
        (Threads.clientNames c.names (c.namesLookup.map askNames) (observedBy a c up))))

theorem whole_by (c : Config E Unit) (up : Resolver Unit) : Threads.whole c up = wholeBy asking c up := rfl

theorem cond_by (c : Config E Unit) (up : Resolver Unit) : Threads.cond c up = condBy asking c up := rfl

/-! ### Conditional upstreams -/

theorem zonesBy_get (a : Asking) (m : AMap Str (Resolver Unit)) (z : Str) : AMap.get (zonesBy a m) z = (AMap.get m z).map (a (some z)) := by
  unfold zonesBy
  induction m with
  | nil => rfl
  | cons e m ih =>
    obtain ⟨k, n⟩ := e
    rw [List.map_cons, AMap.get, AMap.get, ih]
    split
    · rename_i hk
      subst hk
      rfl
    · rfl

theorem zonesBy_walk (a : Asking) (m : AMap Str (Resolver Unit)) : ∀ (k : Nat) (d : Str),
    walk (AMap.get (zonesBy a m)) k d = (walk (AMap.get m) k d).map (fun x => (x.1, a (some x.1) x.2)) := by
  intro k
  induction k with
  | zero => intro d; rfl
  | succ k ih =>
    intro d
    unfold walk
    split
    · rfl
    · rw [zonesBy_get]
      cases AMap.get m d with
      | some n => rfl
      | none =>
        simp only [Option.map_none]
        cases afterDot d with
        | some d' => exact ih d'
        | none => rfl

theorem zonesBy_lookup (m : AMap Str (Resolver Unit)) (d : Str) :
    (∃ z u, ∀ a : Asking, Cond.lookup (zonesBy a m) d = some (a (some z) u)) ∨ ∀ a : Asking, Cond.lookup (zonesBy a m) d = none := by
  unfold Cond.lookup
  split
  · simp only [zonesBy_walk]
    cases hw : walk (AMap.get m) (d.length + 1) d with
    | none => exact .inr (fun a => rfl)
    | some x => exact .inl ⟨x.1, x.2, fun a => rfl⟩
  · simp only [zonesBy_get]
    cases hg : AMap.get m (str! ".") with
    | none => exact .inr (fun a => rfl)
    | some u => exact .inl ⟨_, u, fun a => rfl⟩

/-! ### From steps to runs -/

/-- A step of a run. -/
abbrev onRun (F : Replay → X × Replay) : Msg × Replay → X × (Msg × Replay) := fun w => ((F w.2).1, (w.1, (F w.2).2))

/-- The relation holds of the steps but for those of the query log. -/
structure InnerOk (L : Logic Replay Replay) (a a' : Asking) : Prop where
  find : ∀ k, L.rel (onRun (find k)) (onRun (find k))
  keep : ∀ k m ttl, L.rel (onRun (fun v => ((), keep k m ttl v))) (onRun (fun v => ((), keep k m ttl v)))
  findNames : ∀ k, L.rel (onRun (findNames k)) (onRun (findNames k))
  keepNames : ∀ k l, L.rel (onRun (fun v => ((), keepNames k l v))) (onRun (fun v => ((), keepNames k l v)))
  askNames : ∀ l ip, L.rel (onRun (askNames l ip)) (onRun (askNames l ip))
  ask : ∀ z u r, L.rel (onRun (a z u r)) (onRun (a' z u r))

/-- The relation holds of the steps. -/
structure OpsOk (L : Logic Replay Replay) (a a' : Asking) : Prop extends InnerOk L a a' where
  log : ∀ e, L.rel (onRun (fun v => ((), log e v))) (onRun (fun v => ((), log e v)))

/-- What the conditional resolver makes of the outcome of an upstream. -/
def ofZone (d : Str) : Outcome → Outcome
  | .ok x => .ok { res := { x.res with question := Cond.setName (fqdn d) x.res.question }, reason := str! "CONDITIONAL",
                   rtype := .conditional }
  | .noResponse => .panic
  | o => o

section
variable {L : Logic Replay Replay} {a a' : Asking} {n n' : MR Replay}

theorem steps_conditional (ho : InnerOk L a a') (m : AMap Str (Resolver Unit)) {k k' : Cond.MResolver Replay} (hk : L.M k k') :
    L.M (Cond.conditional (zonesBy a m) k) (Cond.conditional (zonesBy a' m) k') := by
  intro r
  have hlen : ∀ a : Asking, (zonesBy a m).length = m.length := fun a => by simp [zonesBy]
  have e1 : ∀ (m : AMap Str (Resolver Replay)) (k : Cond.MResolver Replay), ofM (Cond.conditional m k) r =
      if m.length > 0 then
        match r.req.question with
        | [] => fun w => (.panic, (r.req, w.2))
        | q :: _ =>
          match Cond.lookup m (extractDomain q.name) with
          | some reso => fun w => ((Cond.internalResolve reso (extractDomain q.name) r w.2).1,
              ((Cond.internalResolve reso (extractDomain q.name) r w.2).2.1, (Cond.internalResolve reso (extractDomain q.name) r w.2).2.2))
          | none => ofM k r
      else ofM k r := by
    intro m k
    funext w
    simp only [ofM, Cond.conditional]
    split
    · cases r.req.question with
      | nil => rfl
      | cons q _ =>
        simp only
        cases Cond.lookup m (extractDomain q.name) <;> rfl
    · rfl
  rw [e1, e1, hlen a, hlen a']
  split
  · cases r.req.question with
    | nil => exact L.pure (fun _ => Outcome.panic) (fun _ => r.req)
    | cons q _ =>
      simp only
      rcases zonesBy_lookup m (extractDomain q.name) with ⟨z, u, h1⟩ | h1
      · rw [h1, h1]
        simp only
        have e2 : ∀ (reso : Resolver Replay) (d : Str) (w : Msg × Replay),
            ((Cond.internalResolve reso d r w.2).1, ((Cond.internalResolve reso d r w.2).2.1, (Cond.internalResolve reso d r w.2).2.2)) =
            (fun (o : Outcome) (w : Msg × Replay) => (ofZone d o, ({ r.req with question := Cond.setName (fqdn d) r.req.question }, w.2)))
              (reso { r with req := { r.req with question := Cond.setName (fqdn d) r.req.question } } w.2).1
              (w.1, (reso { r with req := { r.req with question := Cond.setName (fqdn d) r.req.question } } w.2).2) := by
          intro reso d w
          simp only [Cond.internalResolve]
          generalize reso _ w.2 = y
          obtain ⟨o, w1⟩ := y
          cases o <;> rfl
        refine logic_congr ?_ (fun w => e2 _ _ w) (fun w => e2 _ _ w)
        exact L.bind (ho.ask (some z) u { r with req := { r.req with question := Cond.setName (fqdn (extractDomain q.name)) r.req.question } })
          (fun o => L.pure (fun _ => ofZone (extractDomain q.name) o)
            (fun _ => { r.req with question := Cond.setName (fqdn (extractDomain q.name)) r.req.question }))
      · rw [h1, h1]
        exact hk r
  · exact hk r

theorem steps_tail (ho : InnerOk L a a') (c : Config E Unit) (up : Resolver Unit) : L.R (tailBy a c up) (tailBy a' c up) :=
  logic_sudn _ (fun r => ho.ask none up r)

theorem steps_cond (ho : InnerOk L a a') (c : Config E Unit) (up : Resolver Unit) : L.R (condBy a c up) (condBy a' c up) :=
  logic_ofM (logic_newRewriter _ _ (fun hk => steps_conditional ho _ hk) (logic_toM (steps_tail ho c up)))

theorem steps_keepAll (ho : InnerOk L a a') (env : Caching.Env) (cc : Caching.Cfg) (key : Str) (m : Msg) (ttl : Int) :
    L.rel (onRun (fun v => ((), keepAll (Caching.putOps env cc key m ttl) v))) (onRun (fun v => ((), keepAll (Caching.putOps env cc key m ttl) v))) := by
  have one : ∀ (m : Msg) (ttl : Int), L.rel (onRun (fun v => ((), keepAll [.put key m ttl] v))) (onRun (fun v => ((), keepAll [.put key m ttl] v))) :=
    fun m ttl => ho.keep key m ttl
  have none' : L.rel (onRun (fun v => ((), keepAll [] v))) (onRun (fun v => ((), keepAll [] v))) := logic_ret ()
  unfold Caching.putOps
  simp only
  split
  · split
    · exact one _ _
    · split
      · split
        · exact one _ _
        · exact none'
      · exact none'
  · exact none'

/-- What the cache does with what it gets. -/
def afterMiss (env : Caching.Env) (cfg : Caching.Cfg) (n : MR Replay) (r : Request) (q : Question) (qs : List Question) :
    Outcome → Msg × Replay → Outcome × (Msg × Replay)
  | .ok x, w => cachingLoop env cfg n r qs (.ok (Caching.adjusted cfg x))
      (w.1, keepAll (Caching.putOps env cfg (Caching.questionKey q) (Caching.adjusted cfg x).res (Caching.adjustTTLs cfg x.res.answer).2) w.2)
  | .err e, w => cachingLoop env cfg n r qs (.err e) w
  | .noResponse, w => (.panic, w)
  | .panic, w => (.panic, w)

/-- What the cache does with what it finds. -/
def afterFind (env : Caching.Env) (cfg : Caching.Cfg) (n : MR Replay) (r : Request) (q : Question) (qs : List Question) :
    Option (Msg × Int) → Msg × Replay → Outcome × (Msg × Replay)
  | some (m, ttl), w => (.ok (Caching.hitResponse r.req m ttl), w)
  | none, w => afterMiss env cfg n r q qs (n r w).1 (n r w).2

theorem cachingLoop_cons (env : Caching.Env) (cfg : Caching.Cfg) (n : MR Replay) (r : Request) (q : Question) (qs : List Question)
    (last : Outcome) (w : Msg × Replay) : cachingLoop env cfg n r (q :: qs) last w =
      afterFind env cfg n r q qs (onRun (find (Caching.questionKey q)) w).1 (onRun (find (Caching.questionKey q)) w).2 := by
  rw [cachingLoop]
  simp only
  generalize find (Caching.questionKey q) w.2 = y
  obtain ⟨o, v⟩ := y
  cases o with
  | some y => rfl
  | none =>
    simp only [afterFind]
    generalize n r (w.1, v) = z
    obtain ⟨o, m1, v1⟩ := z
    cases o <;> rfl

theorem steps_caching (ho : InnerOk L a a') (env : Caching.Env) (cfg : Caching.Cfg) (h : L.R n n') :
    L.R (Threads.caching env cfg n) (Threads.caching env cfg n') := by
  intro r
  unfold Threads.caching
  split
  · exact h r
  · have loop : ∀ (qs : List Question) (last : Outcome), L.rel (cachingLoop env cfg n r qs last) (cachingLoop env cfg n' r qs last) := by
      intro qs
      induction qs with
      | nil => intro last; exact logic_ret last
      | cons q qs ih =>
        intro last
        refine logic_congr (L.bind (ho.find (Caching.questionKey q)) (k := afterFind env cfg n r q qs) (l := afterFind env cfg n' r q qs)
          (fun x => ?_)) (fun w => cachingLoop_cons ..) (fun w => cachingLoop_cons ..)
        match x with
        | some (m, ttl) => exact logic_ret _
        | none =>
          refine L.bind (h r) (k := afterMiss env cfg n r q qs) (l := afterMiss env cfg n' r q qs) (fun o => ?_)
          cases o with
          | ok x => exact L.bind (steps_keepAll ho env cfg (Caching.questionKey q) _ _) (fun _ => ih _)
          | err e => exact ih _
          | noResponse => exact logic_ret _
          | panic => exact logic_ret _
    exact loop r.req.question .noResponse

/-- What the query log does with a response. -/
def afterLogged (cfg : QueryLog.Cfg) (env : QueryLog.Env) (start dur : Int) (r : Request) : Outcome → Msg → Msg × Replay → Outcome × (Msg × Replay)
  | .ok x, m, w => match QueryLog.createLogEntry cfg env r m x start dur with
    | none => (Outcome.panic, w)
    | some entry => if QueryLog.ignore cfg x then (.ok x, w) else (.ok x, (w.1, log entry w.2))
  | .err e, _, w => (.err e, w)
  | _, _, w => (.panic, w)

theorem steps_queryLog (ho : OpsOk L a a') (cfg : QueryLog.Cfg) (env : QueryLog.Env) (start dur : Int) (h : L.R n n') :
    L.R (ofM (Threads.queryLog cfg env start dur (toM n))) (ofM (Threads.queryLog cfg env start dur (toM n'))) := by
  intro r
  have e1 : ∀ (n : MR Replay) (w : Msg × Replay), ofM (Threads.queryLog cfg env start dur (toM n)) r w =
      (fun (o : Outcome) (w : Msg × Replay) => afterLogged cfg env start dur r o w.1 w) (n r (r.req, w.2)).1 (n r (r.req, w.2)).2 := by
    intro n w
    simp only [ofM, Threads.queryLog, toM]
    generalize n r (r.req, w.2) = y
    obtain ⟨o, m1, v⟩ := y
    cases o with
    | ok x =>
      simp only [afterLogged]
      cases QueryLog.createLogEntry cfg env r m1 x start dur with
      | none => rfl
      | some entry => simp only
    | _ => rfl
  refine logic_congr (L.bind (logic_with (h r) (fun _ => r.req)) (k := fun o w => afterLogged cfg env start dur r o w.1 w)
    (l := fun o w => afterLogged cfg env start dur r o w.1 w) (fun o => ?_)) (fun w => e1 n w) (fun w => e1 n' w)
  refine logic_msg (k := fun m w => afterLogged cfg env start dur r o m w) (l := fun m w => afterLogged cfg env start dur r o m w) (fun m => ?_)
  cases o with
  | ok x =>
    simp only [afterLogged]
    cases QueryLog.createLogEntry cfg env r m x start dur with
    | none => exact logic_ret _
    | some entry =>
      simp only
      split
      · exact logic_ret _
      · exact logic_map (ho.log entry) (fun _ => Outcome.ok x)
  | err e => exact logic_ret _
  | noResponse => exact logic_ret _
  | panic => exact logic_ret _

/-- The names in what the upstream answers. -/
def namesOf (cfg : ClientNames.Cfg) (ip : IP) : Option (List RR) → List Str
  | none => [cfg.ipString ip]
  | some answer => if cfg.order.length > 0 then ClientNames.pickName (ClientNames.fromAnswer cfg answer ip) cfg.order
    else ClientNames.fromAnswer cfg answer ip

theorem steps_resolveNames (ho : InnerOk L a a') (cfg : ClientNames.Cfg) (l : Option (ClientNames.Lookup (Caching.CState × Unit))) (ip : IP) :
    L.rel (onRun (ClientNames.resolveClientNames cfg (l.map askNames) ip)) (onRun (ClientNames.resolveClientNames cfg (l.map askNames) ip)) := by
  unfold ClientNames.resolveClientNames
  split
  · exact logic_ret _
  · cases l with
    | none => exact logic_ret _
    | some l =>
      simp only [Option.map_some]
      refine logic_congr (logic_map (ho.askNames l ip) (namesOf cfg ip)) (fun w => ?_) (fun w => ?_) <;>
      · simp only [onRun]
        generalize askNames l ip w.2 = y
        obtain ⟨o, v⟩ := y
        cases o with
        | none => rfl
        | some a => simp only [namesOf]; split <;> rfl

/-- What is done with names found. -/
def afterNames (cfg : ClientNames.Cfg) (l : Option (ClientNames.Lookup Replay)) (ip : IP) : Option (List Str) → Msg × Replay → List Str × (Msg × Replay)
  | some names, w => (names, w)
  | none, w => ((ClientNames.resolveClientNames cfg l ip w.2).1,
      (w.1, keepNames (cfg.ipString ip) (ClientNames.resolveClientNames cfg l ip w.2).1 (ClientNames.resolveClientNames cfg l ip w.2).2))

theorem steps_getNames (ho : InnerOk L a a') (cfg : ClientNames.Cfg) (l : Option (ClientNames.Lookup (Caching.CState × Unit))) (r : Request) :
    L.rel (onRun (Threads.getNames cfg (l.map askNames) r)) (onRun (Threads.getNames cfg (l.map askNames) r)) := by
  unfold Threads.getNames
  split
  · exact logic_ret _
  · cases r.clientIP with
    | none => exact logic_ret _
    | some ip =>
      simp only
      have e1 : ∀ w : Msg × Replay, onRun (fun v => match findNames (cfg.ipString ip) v with
          | (some names, v) => (names, v)
          | (none, v) => ((ClientNames.resolveClientNames cfg (l.map askNames) ip v).1,
              keepNames (cfg.ipString ip) (ClientNames.resolveClientNames cfg (l.map askNames) ip v).1
                (ClientNames.resolveClientNames cfg (l.map askNames) ip v).2)) w =
          afterNames cfg (l.map askNames) ip (onRun (findNames (cfg.ipString ip)) w).1 (onRun (findNames (cfg.ipString ip)) w).2 := by
        intro w
        simp only [onRun]
        generalize findNames (cfg.ipString ip) w.2 = y
        obtain ⟨o, v⟩ := y
        cases o <;> rfl
      refine logic_congr (L.bind (ho.findNames (cfg.ipString ip)) (k := afterNames cfg (l.map askNames) ip)
        (l := afterNames cfg (l.map askNames) ip) (fun x => ?_)) e1 e1
      cases x with
      | some names => exact logic_ret _
      | none =>
        exact L.bind (steps_resolveNames ho cfg l ip)
          (k := fun names w => (names, (w.1, keepNames (cfg.ipString ip) names w.2)))
          (l := fun names w => (names, (w.1, keepNames (cfg.ipString ip) names w.2)))
          (fun names => logic_map (ho.keepNames (cfg.ipString ip) names) (fun _ => names))

theorem steps_clientNames (ho : InnerOk L a a') (cfg : ClientNames.Cfg) (l : Option (ClientNames.Lookup (Caching.CState × Unit))) (h : L.R n n') :
    L.R (Threads.clientNames cfg (l.map askNames) n) (Threads.clientNames cfg (l.map askNames) n') := by
  intro r
  exact L.bind (steps_getNames ho cfg l r) (k := fun names w => n { r with clientNames := names } w)
    (l := fun names w => n' { r with clientNames := names } w) (fun names => h _)

theorem steps_whole (ho : OpsOk L a a') (c : Config E Unit) (up : Resolver Unit) (hd : (aliases c.customMapping).length < c.customDepth) :
    L.R (wholeBy a c up) (wholeBy a' c up) :=
  logic_filtering _ (logic_fqdnOnly _ (logic_ecs _ (steps_clientNames ho.toInnerOk _ _ (logic_ede _ (steps_queryLog ho _ _ _ _ (logic_metrics _
    (logic_ofM (logic_newRewriter _ _ (fun hk => logic_toM (logic_customDns _ _ _ _ hd (logic_ofM hk)))
      (logic_toM (logic_hosts _ _ _ _ _ (logic_blocking _ _ (steps_caching ho.toInnerOk _ _ (steps_cond ho.toInnerOk c up)))))))))))))

/-- What is left to do after asking again for an entry. -/
def thenKeep (key : Str) : Option (Option (Msg × Int)) → Msg × Replay → Unit × (Msg × Replay)
  | some (some (m, ttl)), w => ((), (w.1, keep key m ttl w.2))
  | _, w => ((), w)

theorem steps_refresh (ho : InnerOk L asking asking) (c : Config E Unit) (up : Resolver Unit) (key : Str) :
    ∃ f : Msg × Replay → Unit × (Msg × Replay), (∀ w, (f w).2.2 = refresh c up key w.2) ∧ L.rel f f := by
  refine ⟨fun w => thenKeep key (Caching.reload c.cacheEnv c.cache (Threads.cond c up) key ({}, w.2)).1
    (Caching.reload c.cacheEnv c.cache (Threads.cond c up) key ({}, w.2)).2, fun w => ?_, ?_⟩
  · unfold refresh
    simp only
    generalize Caching.reload c.cacheEnv c.cache (Threads.cond c up) key ({}, w.2) = y
    obtain ⟨o, m1, v⟩ := y
    match o with
    | some (some (m, ttl)) => rfl
    | some none => rfl
    | none => rfl
  · refine L.bind (logic_with (logic_reload _ _ key (steps_cond ho c up)) (fun _ => {})) (k := thenKeep key) (l := thenKeep key) (fun x => ?_)
    match x with
    | some (some (m, ttl)) => exact ho.keep key m ttl
    | some none => exact logic_ret _
    | none => exact logic_ret _

/-- The messages written for what the resolvers come to (server.go 509-570). -/
def writes (senv : Server.Env) (r : Request) : Outcome → Msg → List Msg
  | .ok x, m => [Server.finish senv m r.protocol x.res]
  | .err e, m => match senv.asUpstream e with
    | some um => [Server.finish senv m r.protocol um]
    | none => [({} : Msg).setRcode m rcodeServFail]
  | _, m => [({} : Msg).setRcode m rcodeServFail]

/-- As `Threads.serve`, keeping the message as it is in the end. -/
def serveBy (a : Asking) (senv : Server.Env) (c : Config E Unit) (up : Resolver Unit) (remote : Server.Addr) (sni : Option Str) (msg : Msg)
    (w : Msg × Replay) : List Msg × (Msg × Replay) :=
  match msg.question with
  | [] => ([Server.finish senv msg (Server.newRequestFromDNS remote sni msg).protocol (({} : Msg).setRcode msg rcodeFormErr)], w)
  | _ :: _ =>
    (writes senv (Server.newRequestFromDNS remote sni msg) (wholeBy a c up (Server.newRequestFromDNS remote sni msg) (msg, w.2)).1
        (wholeBy a c up (Server.newRequestFromDNS remote sni msg) (msg, w.2)).2.1,
      (wholeBy a c up (Server.newRequestFromDNS remote sni msg) (msg, w.2)).2)

theorem serve_by (a : Asking) (senv : Server.Env) (c : Config E Unit) (up : Resolver Unit) (remote : Server.Addr) (sni : Option Str) (msg : Msg)
    (w : Msg × Replay) : Server.onRequest senv (toM (wholeBy a c up)) remote sni msg w.2 =
      ((serveBy a senv c up remote sni msg w).1, (serveBy a senv c up remote sni msg w).2.2) := by
  unfold Server.onRequest Server.handleReq Server.resolve serveBy
  have hr : (Server.newRequestFromDNS remote sni msg).req = msg := rfl
  rw [hr]
  cases msg.question with
  | nil => rfl
  | cons q qs =>
    simp only [toM, hr]
    generalize wholeBy a c up _ _ = y
    obtain ⟨o, m1, v⟩ := y
    cases o with
    | err e => simp only [writes]; cases senv.asUpstream e <;> rfl
    | _ => rfl

theorem steps_serve (ho : OpsOk L a a') (senv : Server.Env) (c : Config E Unit) (up : Resolver Unit)
    (hd : (aliases c.customMapping).length < c.customDepth) (remote : Server.Addr) (sni : Option Str) (msg : Msg) :
    L.rel (serveBy a senv c up remote sni msg) (serveBy a' senv c up remote sni msg) := by
  unfold serveBy
  cases msg.question with
  | nil => exact logic_ret _
  | cons q qs =>
    exact L.bind (logic_with (steps_whole ho c up hd (Server.newRequestFromDNS remote sni msg)) (fun _ => msg))
      (k := fun o w => (writes senv (Server.newRequestFromDNS remote sni msg) o w.1, w))
      (l := fun o w => (writes senv (Server.newRequestFromDNS remote sni msg) o w.1, w))
      (fun o => L.pure (fun m => writes senv (Server.newRequestFromDNS remote sni msg) o m) id)

end
end Verif.Props
