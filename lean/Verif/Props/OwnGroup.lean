/-
C100: clients are served by the upstreams of their own group. Whole server.
-/
import Verif.Props.Zones
import Verif.Props.Groups
import Verif.Props.Case
import Verif.Props.Observers

namespace Verif.Props
open Dns ExpCache StringCache

variable {E : RegexEngine} {W V : Type} {D : Option IP → List Str → Prop}

/-- Two resolvers do the same for all requests of clients (address, names) with property `D`. -/
def AgreeC (D : Option IP → List Str → Prop) (n1 n2 : Request → W → V) : Prop :=
  ∀ r w, D r.clientIP r.clientNames → n1 r w = n2 r w

theorem agreeC_liftUp {u1 u2 : Resolver W} (h : AgreeC D u1 u2) : AgreeC D (Chain.liftUp u1) (Chain.liftUp u2) := by
  intro r w hx
  simp [Chain.liftUp, h r w.2 hx]

theorem agreeC_toM {n1 n2 : Chain.MR W} (h : AgreeC D n1 n2) : AgreeC D (Chain.toM n1) (Chain.toM n2) := by
  intro r w hx
  simp [Chain.toM, h r (r.req, w) hx]

theorem agreeC_ofM {n1 n2 : Cond.MResolver W} (h : AgreeC D n1 n2) : AgreeC D (Chain.ofM n1) (Chain.ofM n2) := by
  intro r w hx
  simp [Chain.ofM, h r w.2 hx]

theorem agreeC_sudn (cfg : Small.SudnCfg) {n1 n2 : Resolver W} (h : AgreeC D n1 n2) :
    AgreeC D (Small.sudn cfg n1) (Small.sudn cfg n2) := by
  intro r w hx
  simp only [Small.sudn, h r w hx]

theorem agreeC_conditional (mapping : AMap Str (Resolver W)) {n1 n2 : Cond.MResolver W} (h : AgreeC D n1 n2) :
    AgreeC D (Cond.conditional mapping n1) (Cond.conditional mapping n2) := by
  intro r w hx
  simp only [Cond.conditional, h r w hx]

theorem agreeC_rewriter (fallback : Bool) (order : Nat → List (Str × Str)) {i1 i2 n1 n2 : Cond.MResolver W}
    (hi : AgreeC D i1 i2) (hn : AgreeC D n1 n2) :
    AgreeC D (Cond.rewriter fallback order i1 n1) (Cond.rewriter fallback order i2 n2) := by
  intro r w hx
  unfold Cond.rewriter
  simp only
  generalize Cond.rewriteQuestions order 0 r.req.question [] = y
  obtain ⟨questions, rewritten, names⟩ := y
  simp only
  have h1 : i1 (if rewritten then { r with req := { r.req with question := questions } } else r) w =
      i2 (if rewritten then { r with req := { r.req with question := questions } } else r) w := by
    apply hi
    cases rewritten <;> exact hx
  have h2 : ∀ m w, n1 { r with req := m } w = n2 { r with req := m } w := fun m w => hn _ w hx
  rw [h1]
  generalize i2 _ w = z
  obtain ⟨o, msg, w'⟩ := z
  simp only [h2]

theorem agreeC_newRewriter (cfg : Cond.RewriteCfg) (order : Nat → List (Str × Str)) {i1 i2 : Cond.MResolver W → Cond.MResolver W}
    {n1 n2 : Cond.MResolver W} (hi : ∀ m1 m2, AgreeC D m1 m2 → AgreeC D (i1 m1) (i2 m2)) (hn : AgreeC D n1 n2) :
    AgreeC D (Cond.newRewriter cfg order i1 n1) (Cond.newRewriter cfg order i2 n2) := by
  unfold Cond.newRewriter
  split
  · exact hi _ _ hn
  · exact agreeC_rewriter _ _ (hi _ _ (fun _ _ _ => rfl)) hn

theorem agreeC_caching (env : Caching.Env) (cfg : Caching.Cfg) {n1 n2 : Chain.MR W} (h : AgreeC D n1 n2) :
    AgreeC D (Chain.caching env cfg n1) (Chain.caching env cfg n2) := by
  intro r w hx
  have hloop : ∀ qs last s (w : Msg × W), Caching.resolveLoop env cfg n1 r qs last s w = Caching.resolveLoop env cfg n2 r qs last s w := by
    intro qs
    induction qs with
    | nil => intros; rfl
    | cons q qs ih =>
      intro last s w
      unfold Caching.resolveLoop
      simp only [h r w hx, ih]
  unfold Chain.caching Caching.resolve
  simp only [h r _ hx, hloop]

theorem agreeC_blocking (env : Blocking.Env) (b : Blocking.BState E) {n1 n2 : Resolver W} (h : AgreeC D n1 n2) :
    AgreeC D (Blocking.resolve env b n1) (Blocking.resolve env b n2) := by
  intro r w hx
  unfold Blocking.resolve Blocking.askNext
  simp only [h r w hx]

theorem agreeC_hosts (enabled : Bool) (cfg : HostsFile.Cfg) (hs : HostsFile.Hosts) (o4 o6 : List (Str × (IP × List Str)))
    {n1 n2 : Resolver W} (h : AgreeC D n1 n2) :
    AgreeC D (HostsFile.resolve enabled cfg hs o4 o6 n1) (HostsFile.resolve enabled cfg hs o4 o6 n2) := by
  intro r w hx
  unfold HostsFile.resolve
  simp only [h r w hx]

theorem agreeC_processRequest (env : CustomDns.Env) (mapping : CustomDns.Mapping)
    (hA : ∀ t, AliasTarget mapping t → ∀ ip names, D ip names → D ip []) {n1 n2 : Resolver W}
    (h : AgreeC D n1 n2) (depth : Nat) (r : Request) (resolved : List Str) (w : W) (hx : D r.clientIP r.clientNames) :
    CustomDns.processRequest env mapping n1 depth r resolved w = CustomDns.processRequest env mapping n2 depth r resolved w := by
  induction depth generalizing r resolved w with
  | zero => rfl
  | succ depth ih =>
    have hent : ∀ q es, (∀ e ∈ es, ∀ t, e.data = .cname t → AliasTarget mapping t) → ∀ acc w,
        CustomDns.processEntries env (CustomDns.processRequest env mapping n1 depth) r resolved q es acc w =
        CustomDns.processEntries env (CustomDns.processRequest env mapping n2 depth) r resolved q es acc w := by
      intro q es
      induction es with
      | nil => intros; rfl
      | cons e es ihe =>
        intro hes acc w
        have he : CustomDns.processEntry env (CustomDns.processRequest env mapping n1 depth) r resolved q e w =
            CustomDns.processEntry env (CustomDns.processRequest env mapping n2 depth) r resolved q e w := by
          unfold CustomDns.processEntry CustomDns.processCNAME
          cases hd : e.data <;> try rfl
          rename_i t
          simp only
          rw [ih (CustomDns.targetRequest env r (trimSuffixDot t) q.qtype (resolved ++ [trimSuffixDot t])) _ w
            (hA t (hes e (by simp) t hd) _ _ hx)]
        unfold CustomDns.processEntries
        rw [he]
        simp only [ihe (fun e' h' => hes e' (by simp [h']))]
    unfold CustomDns.processRequest
    cases r.req.question with
    | nil => rfl
    | cons q qs =>
      simp only
      cases hw : walk (AMap.get mapping) ((extractDomain q.name).length + 1) (extractDomain q.name) with
      | none => simp only [h r _ hx]
      | some x =>
        obtain ⟨z, es⟩ := x
        have hz := (walk_some hw).2.2.1
        simp only [hent q es (fun e he t ht => ⟨z, es, e, hz, he, ht⟩), h r _ hx]

theorem agreeC_customDns (env : CustomDns.Env) (mapping : CustomDns.Mapping)
    (hA : ∀ t, AliasTarget mapping t → ∀ ip names, D ip names → D ip []) (reverse : AMap Str (List Str))
    (depth : Nat) {n1 n2 : Chain.MR W} (h : AgreeC D n1 n2) :
    AgreeC D (Chain.customDns env mapping reverse depth n1) (Chain.customDns env mapping reverse depth n2) := by
  intro r w hx
  unfold Chain.customDns CustomDns.resolve
  have ha : AgreeC D
      (fun (r : Request) (w : Msg × W) => if r.internal then ((n1 r (r.req, w.2)).1, (w.1, (n1 r (r.req, w.2)).2.2)) else n1 r w)
      (fun (r : Request) (w : Msg × W) => if r.internal then ((n2 r (r.req, w.2)).1, (w.1, (n2 r (r.req, w.2)).2.2)) else n2 r w) := by
    intro r w hx
    simp only [h r _ hx]
  simp only [agreeC_processRequest env mapping hA ha depth r [] w hx]

theorem agreeC_observed (c : Chain.Config E W)
    (hA : ∀ t, AliasTarget c.customMapping t → ∀ ip names, D ip names → D ip []) {u1 u2 : Resolver W}
    (hu : AgreeC D u1 u2) : AgreeC D (Chain.observed c u1) (Chain.observed c u2) := by
  have hc : AgreeC D (Chain.cond c u1) (Chain.cond c u2) :=
    agreeC_ofM (agreeC_newRewriter _ _ (fun _ _ h => agreeC_conditional _ h) (agreeC_toM (agreeC_sudn _ (agreeC_liftUp hu))))
  have hb : AgreeC D (Chain.block c u1) (Chain.block c u2) := agreeC_blocking _ _ (agreeC_caching _ _ hc)
  have hl : AgreeC D (Chain.local c u1) (Chain.local c u2) := by
    refine agreeC_ofM (agreeC_newRewriter _ _ ?_ (agreeC_toM (agreeC_hosts _ _ _ _ _ hb)))
    intro m1 m2 h
    exact agreeC_toM (agreeC_customDns _ _ hA _ _ (agreeC_ofM h))
  intro r w hx
  have hm : AgreeC D (Chain.metrics c.metrics (Chain.local c u1)) (Chain.metrics c.metrics (Chain.local c u2)) := by
    intro r w hx
    unfold Chain.metrics
    rw [hl r w hx]
  have hq : AgreeC D (Chain.queryLog c.log c.logEnv c.logStart c.logDuration (Chain.metrics c.metrics (Chain.local c u1)))
      (Chain.queryLog c.log c.logEnv c.logStart c.logDuration (Chain.metrics c.metrics (Chain.local c u2))) := by
    refine agreeC_ofM ?_
    intro r w hx
    unfold QueryLog.resolve
    rw [agreeC_toM hm r w.2 hx]
  unfold Chain.observed Small.ede
  rw [hq r w hx]

/-- Who the server takes the client for: the request behind the resolvers for client subnets (C28) and client
names (C47). -/
def identified (c : Chain.Config E W) (remote : Server.Addr) (sni : Option Str) (msg : Msg) (w : Chain.World W) : Option Request :=
  (Ecs.transform c.ecs (Server.newRequestFromDNS remote sni msg)).map
    (fun r => (ClientNames.withNames c.names (c.namesLookup.map Chain.liftLookup) r w.1 w.2).1)

theorem serve_agreeC (senv : Server.Env) (c : Chain.Config E W)
    (hA : ∀ t, AliasTarget c.customMapping t → ∀ ip names, D ip names → D ip []) {u1 u2 : Resolver W}
    (hu : AgreeC D u1 u2) (remote : Server.Addr) (sni : Option Str) (msg : Msg) (w : Chain.World W)
    (hD : ∀ r, identified c remote sni msg w = some r → D r.clientIP r.clientNames) :
    Chain.serve senv c u1 remote sni msg w = Chain.serve senv c u2 remote sni msg w := by
  have ho := agreeC_observed c hA hu
  have hw : ∀ m, Chain.whole c u1 (Server.newRequestFromDNS remote sni msg) (m, w) = Chain.whole c u2 (Server.newRequestFromDNS remote sni msg) (m, w) := by
    intro m
    have hecs : Chain.ecs c.ecs (Chain.clientNames c.names (c.namesLookup.map Chain.liftLookup) (Chain.observed c u1))
          (Server.newRequestFromDNS remote sni msg) (m, w) =
        Chain.ecs c.ecs (Chain.clientNames c.names (c.namesLookup.map Chain.liftLookup) (Chain.observed c u2))
          (Server.newRequestFromDNS remote sni msg) (m, w) := by
      unfold Chain.ecs
      unfold identified at hD
      cases h : Ecs.transform c.ecs (Server.newRequestFromDNS remote sni msg) with
      | none => rfl
      | some r =>
        simp only [h, Option.map_some, Option.some.injEq] at hD ⊢
        unfold Chain.clientNames
        revert hD
        simp only
        generalize ClientNames.withNames c.names (c.namesLookup.map Chain.liftLookup) r w.1 w.2 = y
        obtain ⟨r', cn', w'⟩ := y
        intro hD
        simp only at hD ⊢
        rw [ho r' _ (hD r' rfl)]
    exact filtering_congr _ (fqdnOnly_congr _ hecs)
  unfold Chain.serve Server.onRequest Server.handleReq Server.resolve
  have ht : Chain.toM (Chain.whole c u1) (Server.newRequestFromDNS remote sni msg) w =
      Chain.toM (Chain.whole c u2) (Server.newRequestFromDNS remote sni msg) w := by
    unfold Chain.toM
    rw [hw]
  rw [ht]

/-! ### Groups -/

/-- The upstream group of a client. -/
def groupOf (env : Blocking.Env) (groups : List Str) (order : Nat → List Str) (ip : Option IP) (names : List Str) : Str :=
  Groups.groupByClient env groups order { req := {}, clientIP := ip, clientNames := names }

theorem tree_agrees (env : Blocking.Env) (order : Nat → List Str) {b1 b2 : AMap Str (Resolver W)} (hk : b1.keys = b2.keys) (g : Str)
    (hg : AMap.get b1 g = AMap.get b2 g) :
    AgreeC (fun ip names => groupOf env b1.keys order ip names = g) (Groups.tree env b1 order) (Groups.tree env b2 order) := by
  intro r w h
  have h' : Groups.groupByClient env b1.keys order r = g := h
  unfold Groups.tree
  rw [← hk, h', hg]

/-- **C100.** While the query of a client of group `g` is answered, the upstreams of other groups are not asked:
whatever they are, the server does the same (replies, cache, log). If there are custom aliases, the client's group
must not depend on its names. -/
theorem C100_query_partial (senv : Server.Env) (c : Chain.Config E W) (env : Blocking.Env) (order : Nat → List Str)
    (b1 b2 : AMap Str (Resolver W)) (hk : b1.keys = b2.keys) (g : Str) (hg : AMap.get b1 g = AMap.get b2 g)
    (remote : Server.Addr) (sni : Option Str) (msg : Msg) (w : Chain.World W)
    (hD : ∀ r, identified c remote sni msg w = some r → groupOf env b1.keys order r.clientIP r.clientNames = g ∧
      ((∃ t, AliasTarget c.customMapping t) → groupOf env b1.keys order r.clientIP [] = g)) :
    Chain.serve senv c (Groups.tree env b1 order) remote sni msg w = Chain.serve senv c (Groups.tree env b2 order) remote sni msg w := by
  refine serve_agreeC (D := fun ip names => groupOf env b1.keys order ip names = g ∧
    ((∃ t, AliasTarget c.customMapping t) → groupOf env b1.keys order ip [] = g)) senv c ?_ ?_ remote sni msg w hD
  · intro t ht ip names h
    exact ⟨h.2 ⟨t, ht⟩, fun _ => h.2 ⟨t, ht⟩⟩
  · intro r w h
    exact tree_agrees env order hk g hg r w h.1

/-! ### Without cache, other clients make no difference -/

/-- The upstream has no state that matters. -/
def Still (r : Resolver W) : Prop := ∀ request w, (r request w).2 = w

/-- Nothing but the message changes. -/
def StillM (n : Cond.MResolver W) : Prop := ∀ r w, (n r w).2.2 = w

theorem still_toM {n : Chain.MR W} (h : ∀ r w, (n r w).2.2 = w.2) : StillM (Chain.toM n) := fun r w => h r (r.req, w)

theorem still_ofM {n : Cond.MResolver W} (h : StillM n) : ∀ r w, (Chain.ofM n r w).2.2 = w.2 := fun r w => h r w.2

theorem still_lookup {mapping : AMap Str (Resolver W)} (hm : ∀ z r, AMap.get mapping z = some r → Still r) (d : Str)
    (reso : Resolver W) (hl : Cond.lookup mapping d = some reso) : Still reso := by
  unfold Cond.lookup at hl
  split at hl
  · cases hw : walk (AMap.get mapping) (d.length + 1) d with
    | none => rw [hw] at hl; cases hl
    | some x =>
      rw [hw] at hl
      cases hl
      exact hm _ _ (walk_some hw).2.2.1
  · exact hm _ _ hl

theorem still_internal {reso : Resolver W} (hs : Still reso) (r : Request) (d : Str) (w : W) :
    (Cond.internalResolve reso d r w).2.2 = w := by
  unfold Cond.internalResolve
  have := hs { r with req := { r.req with question := Cond.setName (fqdn d) r.req.question } } w
  simp only
  revert this
  generalize reso { r with req := { r.req with question := Cond.setName (fqdn d) r.req.question } } w = y
  obtain ⟨o, w'⟩ := y
  intro this
  cases o <;> exact this

theorem still_conditional {mapping : AMap Str (Resolver W)} (hm : ∀ z r, AMap.get mapping z = some r → Still r) {n : Cond.MResolver W}
    (h : StillM n) : StillM (Cond.conditional mapping n) := by
  intro r w
  unfold Cond.conditional
  split
  · split
    · rfl
    · split
      · rename_i reso hl
        exact still_internal (still_lookup hm _ reso hl) r _ w
      · exact h r w
  · exact h r w

theorem still_rewriter (fallback : Bool) (order : Nat → List (Str × Str)) {i n : Cond.MResolver W} (hi : StillM i) (hn : StillM n) :
    StillM (Cond.rewriter fallback order i n) := by
  intro r w
  unfold Cond.rewriter
  simp only
  generalize Cond.rewriteQuestions order 0 r.req.question [] = y
  obtain ⟨questions, rewritten, names⟩ := y
  simp only
  have h := hi (if rewritten then { r with req := { r.req with question := questions } } else r) w
  revert h
  generalize i _ w = z
  obtain ⟨o, msg, w'⟩ := z
  intro h
  simp only at h
  subst h
  cases o with
  | panic => rfl
  | err e => simp only; split
             · exact hn _ _
             · rfl
  | noResponse => exact hn _ _
  | ok x =>
    simp only
    split
    · exact hn _ _
    · split <;> rfl

theorem still_newRewriter (cfg : Cond.RewriteCfg) (order : Nat → List (Str × Str)) {i : Cond.MResolver W → Cond.MResolver W}
    {n : Cond.MResolver W} (hi : ∀ m, StillM m → StillM (i m)) (hn : StillM n) : StillM (Cond.newRewriter cfg order i n) := by
  unfold Cond.newRewriter
  split
  · exact hi _ hn
  · exact still_rewriter _ _ (hi _ (fun _ _ => rfl)) hn

theorem still_customDns (env : CustomDns.Env) (mapping : CustomDns.Mapping) (reverse : AMap Str (List Str)) (depth : Nat)
    {n : Chain.MR W} (h : ∀ r w, (n r w).2.2 = w.2) : ∀ r w, (Chain.customDns env mapping reverse depth n r w).2.2 = w.2 := by
  intro r w
  unfold Chain.customDns CustomDns.resolve
  have key : ∀ x, CustomDns.processRequest env mapping
      (fun (r : Request) (w : Msg × W) => if r.internal then ((n r (r.req, w.2)).1, (w.1, (n r (r.req, w.2)).2.2)) else n r w)
      depth r [] w = some x → x.2.2 = w.2 := by
    intro x hx
    refine processRequest_keeps (fun _ => True) (fun v => v.2 = w.2) env mapping (fun _ _ _ _ => trivial) ?_ depth r [] w trivial rfl x hx
    intro r v _ hv
    show (if r.internal then ((n r (r.req, v.2)).1, (v.1, (n r (r.req, v.2)).2.2)) else n r v).2.2 = w.2
    split
    · exact (h r (r.req, v.2)).trans hv
    · exact (h r v).trans hv
  cases r.req.question with
  | nil => rfl
  | cons q qs =>
    simp only
    cases CustomDns.handleReverse env reverse r q with
    | some y => rfl
    | none =>
      simp only
      revert key
      generalize CustomDns.processRequest env mapping _ depth r [] w = z
      intro key
      cases z with
      | none => rfl
      | some x => exact key x rfl

/-- The part of the world the caches and upstreams are in does not change. -/
theorem still_observed (c : Chain.Config E W) (hc : c.cache.maxTime < 0)
    (hm : ∀ z r, AMap.get c.condMapping z = some r → Still r) {up : Resolver W} (hu : Still up) :
    ∀ r w, (Chain.observed c up r w).2.2.2 = w.2.2 := by
  have htail : ∀ r w, (Chain.tail c up r w).2.2 = w.2 := by
    intro r w
    have hl : (Chain.liftUp up r w).2.2 = w.2 := hu r w.2
    unfold Chain.tail Small.sudn
    split
    · exact hl
    · split
      · rfl
      · split
        · rfl
        · exact hl
  have hcond : ∀ r w, (Chain.cond c up r w).2.2 = w.2 :=
    still_ofM (still_newRewriter _ _ (fun _ h => still_conditional hm h) (still_toM htail))
  have hcache : ∀ r w, (Chain.caching c.cacheEnv c.cache (Chain.cond c up) r w).2.2 = w.2 := by
    intro r w
    have he : c.cache.enabled = false := by
      unfold Caching.Cfg.enabled
      simp only [decide_eq_false_iff_not]
      omega
    unfold Chain.caching Caching.resolve
    simp only [he, Bool.not_false, Bool.true_or, if_true]
    have := hcond r (w.1, w.2.2)
    revert this
    generalize Chain.cond c up r (w.1, w.2.2) = y
    obtain ⟨o, m, w'⟩ := y
    intro this
    simp only at this ⊢
    rw [this]
  have hblock : ∀ r w, (Chain.block c up r w).2.2 = w.2 := by
    intro r w
    have hask : ∀ groups, (Blocking.askNext c.blockEnv c.blockState groups (Chain.caching c.cacheEnv c.cache (Chain.cond c up)) r w).2.2 = w.2 := by
      intro groups
      unfold Blocking.askNext
      have := hcache r w
      revert this
      generalize Chain.caching c.cacheEnv c.cache (Chain.cond c up) r w = y
      obtain ⟨o, w'⟩ := y
      intro this
      cases o with
      | ok x => simp only; split
                · split <;> exact this
                · exact this
      | _ => exact this
    unfold Chain.block Blocking.resolve
    simp only
    split
    · split
      · exact hcache r w
      · rfl
      · exact hask _
    · exact hask _
  have hhosts : ∀ r w, (HostsFile.resolve c.hostsEnabled c.hostsCfg c.hosts c.hostsOrder4 c.hostsOrder6 (Chain.block c up) r w).2.2 = w.2 := by
    intro r w
    unfold HostsFile.resolve
    split
    · exact hblock r w
    · split
      · rfl
      · split
        · rfl
        · split
          · rfl
          · exact hblock r w
  have hlocal : ∀ r w, (Chain.local c up r w).2.2 = w.2 := by
    refine still_ofM (still_newRewriter _ _ ?_ (still_toM hhosts))
    intro m h
    exact still_toM (still_customDns _ _ _ _ (still_ofM h))
  have hmet : ∀ r w, (Chain.metrics c.metrics (Chain.local c up) r w).2.2 = w.2 := by
    intro r w
    unfold Chain.metrics
    have := hlocal r w
    revert this
    generalize Chain.local c up r w = y
    obtain ⟨o, w'⟩ := y
    intro this
    cases o <;> simp only <;> first | exact this | (split <;> first | exact this | (split <;> first | exact this))
  have hlog : ∀ r w, (Chain.queryLog c.log c.logEnv c.logStart c.logDuration (Chain.metrics c.metrics (Chain.local c up)) r w).2.2.2 = w.2.2 := by
    intro r w
    unfold Chain.queryLog Chain.ofM QueryLog.resolve
    have := still_toM hmet r w.2.2
    revert this
    generalize Chain.toM (Chain.metrics c.metrics (Chain.local c up)) r w.2.2 = y
    obtain ⟨o, m, w'⟩ := y
    intro this
    cases o with
    | ok x =>
      simp only
      split
      · exact this
      · split <;> exact this
    | _ => exact this
  intro r w
  unfold Chain.observed Small.ede
  split
  · exact hlog r w
  · have := hlog r w
    revert this
    generalize Chain.queryLog c.log c.logEnv c.logStart c.logDuration (Chain.metrics c.metrics (Chain.local c up)) r w = y
    obtain ⟨o, w'⟩ := y
    intro this
    cases o <;> exact this

/-- The same, except for the queue of the query log, and nothing in the answer cache. -/
def SameRest (w w' : Chain.World W) : Prop := w.1 = w'.1 ∧ w.2.2 = w'.2.2 ∧ w.2.2.1.main.cache.items = []

/-- Lookups of client names do not touch the answer cache. -/
def CacheKept (c : Chain.Config E W) : Prop := ∀ l, c.namesLookup = some l → ∀ ip w, (l ip w).2.1 = w.1

theorem withNames_keeps (cfg : ClientNames.Cfg) (l : Option (ClientNames.Lookup V)) (P : V → Prop)
    (hl : ∀ ask, l = some ask → ∀ ip w, P w → P (ask ip w).2) (r : Request) (cn : St (List Str)) (w : V) (hw : P w) :
    P (ClientNames.withNames cfg l r cn w).2.2 := by
  have hr : ∀ ip, P (ClientNames.resolveClientNames cfg l ip w).2 := by
    intro ip
    unfold ClientNames.resolveClientNames
    split
    · exact hw
    · cases l with
      | none => exact hw
      | some ask =>
        have := hl ask rfl ip w hw
        revert this
        simp only
        generalize ask ip w = y
        obtain ⟨a, w'⟩ := y
        intro this
        cases a with
        | none => exact this
        | some a => simp only; split <;> exact this
  unfold ClientNames.withNames ClientNames.getClientNames
  simp only
  split
  · exact hw
  · cases r.clientIP with
    | none => exact hw
    | some ip =>
      simp only
      cases cn.cache.get cn.now (cfg.ipString ip) with
      | mk a c =>
        cases a with
        | some a => exact hw
        | none => exact hr ip

theorem whole_rest (c : Chain.Config E W) (hc : c.cache.maxTime < 0) (hk : CacheKept c)
    (hm : ∀ z r, AMap.get c.condMapping z = some r → Still r) {u1 u2 : Resolver W} (h1 : Still u1) (h2 : Still u2)
    (request : Request) (m : Msg) (cn : St (List Str)) (q q' : QueryLog.Queue) (w : Caching.CState × W)
    (he : w.1.main.cache.items = []) :
    SameRest (Chain.whole c u1 request (m, (cn, (q, w)))).2.2 (Chain.whole c u2 request (m, (cn, (q', w)))).2.2 := by
  have hsame : ∀ q q', SameRest (cn, (q, w)) (cn, (q', w)) := fun _ _ => ⟨rfl, rfl, he⟩
  have hecs : SameRest
      (Chain.ecs c.ecs (Chain.clientNames c.names (c.namesLookup.map Chain.liftLookup) (Chain.observed c u1)) request (m, (cn, (q, w)))).2.2
      (Chain.ecs c.ecs (Chain.clientNames c.names (c.namesLookup.map Chain.liftLookup) (Chain.observed c u2)) request (m, (cn, (q', w)))).2.2 := by
    unfold Chain.ecs
    cases h : Ecs.transform c.ecs request with
    | none => exact hsame q q'
    | some r =>
      simp only [Chain.clientNames, withNames_lift]
      have he' := withNames_keeps c.names c.namesLookup (fun w => w.1.main.cache.items = [])
        (fun ask ha ip w hw => by rw [hk ask ha ip w]; exact hw) r cn w he
      revert he'
      generalize ClientNames.withNames c.names c.namesLookup r cn w = y
      obtain ⟨r', cn', w'⟩ := y
      intro he'
      have hs1 := still_observed c hc hm h1 r' (r.req, (q, w'))
      refine ⟨rfl, ?_, ?_⟩
      · exact hs1.trans (still_observed c hc hm h2 r' (r.req, (q', w'))).symm
      · simp only
        rw [hs1]
        exact he'
  have hfq : SameRest
      (Small.fqdnOnly c.fqdnOnly (Chain.ecs c.ecs (Chain.clientNames c.names (c.namesLookup.map Chain.liftLookup)
        (Chain.observed c u1))) request (m, (cn, (q, w)))).2.2
      (Small.fqdnOnly c.fqdnOnly (Chain.ecs c.ecs (Chain.clientNames c.names (c.namesLookup.map Chain.liftLookup)
        (Chain.observed c u2))) request (m, (cn, (q', w)))).2.2 := by
    unfold Small.fqdnOnly
    split
    · split
      · exact hsame q q'
      · split
        · exact hsame q q'
        · exact hecs
    · exact hecs
  unfold Chain.whole
  unfold Small.filtering
  split
  · exact hsame q q'
  · split
    · exact hsame q q'
    · exact hfq

theorem serve_world (senv : Server.Env) (c : Chain.Config E W) (up : Resolver W) (remote : Server.Addr) (sni : Option Str)
    (msg : Msg) (w : Chain.World W) :
    (Chain.serve senv c up remote sni msg w).2 =
      if msg.question = [] then w else (Chain.whole c up (Server.newRequestFromDNS remote sni msg) (msg, w)).2.2 := by
  have hreq : (Server.newRequestFromDNS remote sni msg).req = msg := rfl
  unfold Chain.serve Server.onRequest Server.handleReq Server.resolve Chain.toM
  rw [hreq]
  cases hq : msg.question with
  | nil => rfl
  | cons q qs =>
    simp only [reduceCtorEq, if_false]
    generalize Chain.whole c up (Server.newRequestFromDNS remote sni msg) (msg, w) = y
    obtain ⟨o, m, w'⟩ := y
    cases o with
    | err e => simp only; cases senv.asUpstream e <;> rfl
    | _ => rfl

theorem serve_rest (senv : Server.Env) (c : Chain.Config E W) (hc : c.cache.maxTime < 0) (hk : CacheKept c)
    (hm : ∀ z r, AMap.get c.condMapping z = some r → Still r) {u1 u2 : Resolver W} (h1 : Still u1) (h2 : Still u2)
    (remote : Server.Addr) (sni : Option Str) (msg : Msg) (w w' : Chain.World W) (hw : SameRest w w') :
    SameRest (Chain.serve senv c u1 remote sni msg w).2 (Chain.serve senv c u2 remote sni msg w').2 := by
  rw [serve_world, serve_world]
  obtain ⟨cn, q, r⟩ := w
  obtain ⟨cn', q', r'⟩ := w'
  obtain ⟨rfl, rfl, he⟩ : cn = cn' ∧ r = r' ∧ r.1.main.cache.items = [] := hw
  split
  · exact ⟨rfl, rfl, he⟩
  · exact whole_rest c hc hk hm h1 h2 _ _ _ _ _ _ he

theorem serve_answers (senv : Server.Env) (c : Chain.Config E W) (up : Resolver W)
    (remote : Server.Addr) (sni : Option Str) (msg : Msg) (w w' : Chain.World W) (hw : SameRest w w') :
    (Chain.serve senv c up remote sni msg w).1 = (Chain.serve senv c up remote sni msg w').1 := by
  obtain ⟨cn, q, r⟩ := w
  obtain ⟨cn', q', r'⟩ := w'
  obtain ⟨rfl, rfl, he⟩ : cn = cn' ∧ r = r' ∧ r.1.main.cache.items = [] := hw
  exact (C81_answers senv c up c.log c.logEnv c.logStart c.logDuration c.metrics remote sni msg cn q q' r.1 r.2).1.symm

/-- A query of a client of group `g`, whatever names lookups find for it (with aliases: even without its names). -/
def OwnQuery (c : Chain.Config E W) (env : Blocking.Env) (groups : List Str) (order : Nat → List Str) (g : Str) : Event → Prop
  | .query remote sni msg => ∀ w r, identified c remote sni msg w = some r → groupOf env groups order r.clientIP r.clientNames = g ∧
      ((∃ t, AliasTarget c.customMapping t) → groupOf env groups order r.clientIP [] = g)
  | _ => False

theorem tree_still (env : Blocking.Env) (order : Nat → List Str) {b : AMap Str (Resolver W)}
    (h : ∀ g r, AMap.get b g = some r → Still r) : Still (Groups.tree env b order) := by
  intro r w
  unfold Groups.tree
  split
  · exact h _ _ (by assumption) r w
  · rfl

theorem cleanUp_empty (env : Caching.Env) (cfg : Caching.Cfg) (next : Resolver V) (s : Caching.CState)
    (h : s.main.cache.items = []) (w : V) : Caching.cleanUpCache env cfg next s w = (some s, w) := by
  have : s.main.cache.expiredKeys s.main.now = [] := by
    unfold ExpCache.Cache.expiredKeys
    rw [h]
    rfl
  unfold Caching.cleanUpCache
  rw [this]
  rfl

/-- **C100.** Without the answer cache, whatever the clients of all groups ask: the answers to the clients of a
group do not depend on the upstreams of other groups. -/
theorem C100_uncached_partial (senv : Server.Env) (c : Chain.Config E W) (hc : c.cache.maxTime < 0) (hl : CacheKept c)
    (hm : ∀ z r, AMap.get c.condMapping z = some r → Still r) (env : Blocking.Env) (order : Nat → List Str)
    (b1 b2 : AMap Str (Resolver W)) (h1 : ∀ g r, AMap.get b1 g = some r → Still r) (h2 : ∀ g r, AMap.get b2 g = some r → Still r)
    (hk : b1.keys = b2.keys) (g : Str) (hg : AMap.get b1 g = AMap.get b2 g) (events : List Event) (w : Chain.World W)
    (he : w.2.2.1.main.cache.items = []) (i : Nat) (e : Event) (hi : events[i]? = some e) (ho : OwnQuery c env b1.keys order g e) :
    (answersOf senv c (Groups.tree env b1 order) events w)[i]? = (answersOf senv c (Groups.tree env b2 order) events w)[i]? := by
  suffices ∀ w w' : Chain.World W, SameRest w w' →
      (answersOf senv c (Groups.tree env b1 order) events w)[i]? = (answersOf senv c (Groups.tree env b2 order) events w')[i]? from
    this w w ⟨rfl, rfl, he⟩
  clear he w
  induction events generalizing i with
  | nil => simp at hi
  | cons f fs ih =>
    intro w w' hw
    cases f with
    | query remote sni msg =>
      have hr := serve_rest senv c hc hl hm (tree_still env order h1) (tree_still env order h2) remote sni msg w w' hw
      cases i with
      | zero =>
        simp only [List.getElem?_cons_zero, Option.some.injEq] at hi
        subst hi
        simp only [answersOf, happen, List.getElem?_cons_zero, Option.some.injEq]
        rw [C100_query_partial senv c env order b1 b2 hk g hg remote sni msg w (ho w)]
        exact serve_answers senv c _ remote sni msg w w' hw
      | succ i =>
        simp only [answersOf, happen, List.getElem?_cons_succ] at hi ⊢
        exact ih i hi _ _ hr
    | pass ms =>
      cases i with
      | zero => simp only [answersOf, happen, List.getElem?_cons_zero]
      | succ i =>
        simp only [answersOf, happen, List.getElem?_cons_succ] at hi ⊢
        refine ih i hi _ _ ⟨?_, ?_, ?_⟩
        · simp only [hw.1]
        · simp only [hw.2.1]
        · exact hw.2.2
    | cleanUp =>
      have e1 := cleanUp_empty c.cacheEnv c.cache (Chain.cond c (Groups.tree env b1 order)) w.2.2.1 hw.2.2 ({}, w.2.2.2)
      have e2 := cleanUp_empty c.cacheEnv c.cache (Chain.cond c (Groups.tree env b2 order)) w'.2.2.1 (hw.2.1 ▸ hw.2.2) ({}, w'.2.2.2)
      cases i with
      | zero => simp only [answersOf, happen, e1, e2, List.getElem?_cons_zero]
      | succ i =>
        simp only [answersOf, happen, e1, e2, List.getElem?_cons_succ] at hi ⊢
        exact ih i hi _ _ hw

/-! ### With cache, prefetching, or aliases -/

/-- An upstream that gives every name the address `ip`. -/
def oneAddressUp (ip : IP) : Resolver Nat := fun request n =>
  (.ok { res := { ({} : Msg).setReply request.req with
    answer := request.req.question.map (fun q => { name := q.name, rtype := typeA, ttl := 60, data := .a ip }) } }, n)

theorem oneAddressUp_still (ip : IP) : Still (oneAddressUp ip) := fun _ _ => rfl

/-- The client 0.0.0.2 has the group `10.0.0.2`. -/
def groupEnv : Blocking.Env :=
  ⟨fun ip => if ip = some (.v4 2#32) then str! "10.0.0.2" else str! "other", fun _ _ => false, fun p s => p == s⟩

/-- Two groups. The upstream of the group given by name or address answers 9.9.9.9, the default upstream answers `ip`. -/
def twoGroups (g : Str) (ip : IP) : Resolver Nat :=
  Groups.tree groupEnv [(str! "default", oneAddressUp ip), (g, oneAddressUp (.v4 0x09090909#32))] (fun _ => [str! "default", g])

/-- Tells the addresses of the examples apart. -/
def addressDigit : IP → Str
  | .v4 b => [Char.ofNat (b.toNat + 48)]
  | .v6 _ => []

/-- The sample server, without client subnets. -/
def groupConfig (cache : Caching.Cfg) (names : List (Str × List IP)) (custom : CustomDns.Mapping) : Chain.Config prefixEngine Nat :=
  { sampleConfig with
    ecs := {}, cache := cache, names := ⟨names, [], addressDigit⟩, customMapping := custom, condMapping := []
    condRewrite := ⟨[], false⟩, condOrder := fun _ => [] }

/-- A query of a client. -/
def clientAsks (client : BitVec 32) (name : Str) : Event := .query (.udp (some (.v4 client))) none (query name)

/-- The data of the answers. -/
def dataSent (c : Chain.Config prefixEngine Nat) (up : Resolver Nat) (es : List Event) : List (List (List RData)) :=
  (answersOf sampleServer c up es sampleWorld).map (fun ms => ms.map (fun m => m.answer.map RR.data))

instance : DecidableEq (List (List (List RData))) := inferInstance

-- Without cache: both clients get the data of their own group.
example : dataSent (groupConfig { maxTime := -1 } [] []) (twoGroups (str! "10.0.0.2") (.v4 1#32))
    [clientAsks 1#32 (str! "www.org."), clientAsks 2#32 (str! "www.org."), .cleanUp] =
    [[[.a (.v4 1#32)]], [[.a (.v4 0x09090909#32)]], []] := by decide +kernel

/-- The client's address is enough to tell its group. -/
theorem groupConfig_own (cache : Caching.Cfg) (name : Str) :
    OwnQuery (groupConfig cache [] []) groupEnv [str! "default", str! "10.0.0.2"] (fun _ => [str! "default", str! "10.0.0.2"])
      (str! "10.0.0.2") (clientAsks 2#32 name) := by
  intro w r h
  have hr : r.clientIP = some (.v4 2#32) := by
    unfold identified at h
    have ht : Ecs.transform (groupConfig cache [] []).ecs (Server.newRequestFromDNS (.udp (some (.v4 2#32))) none (query name)) =
        some (Server.newRequestFromDNS (.udp (some (.v4 2#32))) none (query name)) := rfl
    rw [ht] at h
    simp only [Option.map_some, Option.some.injEq] at h
    rw [← h]
    rfl
  unfold groupOf Groups.groupByClient
  rw [hr]
  exact ⟨rfl, fun _ => rfl⟩

-- Nor does it while a single query is answered with the cache, whatever is in it.
example (ip : IP) (name : Str) (w : Chain.World Nat) :
    Chain.serve sampleServer (groupConfig {} [] []) (twoGroups (str! "10.0.0.2") (.v4 1#32)) (.udp (some (.v4 2#32))) none (query name) w =
    Chain.serve sampleServer (groupConfig {} [] []) (twoGroups (str! "10.0.0.2") ip) (.udp (some (.v4 2#32))) none (query name) w := by
  unfold twoGroups
  refine C100_query_partial sampleServer (groupConfig {} [] []) groupEnv _ _ _ ?_ (str! "10.0.0.2") ?_ _ _ _ w ?_
  · rfl
  · rfl
  · exact groupConfig_own {} name w

-- The hypotheses of `C100_uncached_partial` hold: the other upstream does not matter for the second query.
example (ip : IP) (name other : Str) :
    (answersOf sampleServer (groupConfig { maxTime := -1 } [] []) (twoGroups (str! "10.0.0.2") (.v4 1#32))
      [clientAsks 1#32 other, clientAsks 2#32 name] sampleWorld)[1]? =
    (answersOf sampleServer (groupConfig { maxTime := -1 } [] []) (twoGroups (str! "10.0.0.2") ip)
      [clientAsks 1#32 other, clientAsks 2#32 name] sampleWorld)[1]? := by
  have hs : ∀ ip' g r, AMap.get [(str! "default", oneAddressUp ip'), (str! "10.0.0.2", oneAddressUp (.v4 0x09090909#32))] g = some r →
      Still r := by
    intro ip' g r h
    have hm := AMap.get_eq_some_mem h
    simp only [List.mem_cons, Prod.mk.injEq, List.not_mem_nil, or_false] at hm
    rcases hm with ⟨_, rfl⟩ | ⟨_, rfl⟩ <;> exact oneAddressUp_still _
  unfold twoGroups
  refine C100_uncached_partial sampleServer (groupConfig { maxTime := -1 } [] []) ?_ ?_ ?_
    groupEnv _ _ _ (hs _) (hs _) ?_ (str! "10.0.0.2") ?_ _ sampleWorld ?_ 1 (clientAsks 2#32 name) ?_ (groupConfig_own _ name)
  · show (-1 : Int) < 0
    decide
  · exact fun _ h => nomatch h
  · exact fun _ _ h => nomatch h
  · rfl
  · rfl
  · rfl
  · rfl

/-- **C100 is false as stated.** The answer cache is shared by all groups: a client gets the data the upstreams of
another group gave to another client. -/
theorem C100_cache_false :
    (∀ ip, dataSent (groupConfig {} [] []) (twoGroups (str! "10.0.0.2") ip)
      [clientAsks 2#32 (str! "www.org.")] = [[[.a (.v4 0x09090909#32)]]]) ∧
    dataSent (groupConfig {} [] []) (twoGroups (str! "10.0.0.2") (.v4 1#32))
      [clientAsks 1#32 (str! "www.org."), clientAsks 2#32 (str! "www.org.")] = [[[.a (.v4 1#32)]], [[.a (.v4 1#32)]]] := by
  constructor
  · intro ip
    rfl
  · decide +kernel

/-- Prefetching makes a client get data of the default group although no other client ever asked. -/
theorem C100_prefetch_false :
    dataSent (groupConfig { prefetching := true, prefetchThreshold := 0 } [] []) (twoGroups (str! "10.0.0.2") (.v4 1#32))
      [clientAsks 2#32 (str! "www.org."), .pass 61000, .cleanUp, clientAsks 2#32 (str! "www.org.")] =
    [[[.a (.v4 0x09090909#32)]], [], [], [[.a (.v4 1#32)]]] := by decide +kernel

/-- A client whose group is given by its name: the targets of custom aliases are looked up with the default group. -/
theorem C100_alias_false :
    dataSent (groupConfig { maxTime := -1 } [(str! "kid", [.v4 3#32])]
        [(str! "alias.lan", [{ name := [], rtype := typeCNAME, ttl := 60, data := .cname (str! "www.org.") }])])
      (twoGroups (str! "kid") (.v4 1#32)) [clientAsks 3#32 (str! "www.org."), clientAsks 3#32 (str! "alias.lan.")] =
    [[[.a (.v4 0x09090909#32)]], [[.cname (str! "www.org."), .a (.v4 1#32)]]] := by decide +kernel

end Verif.Props
