/-
C120: the answer cache is not noticed, but for TTLs: what a client gets is what it would get from a server without cache.
-/
import Verif.Props.Transparent

namespace Verif.Props
open Verif.Dns Verif.ExpCache Verif.StringCache Verif.Spec

variable {E : RegexEngine} {W : Type} {V : Type} {V' : Type} {I : V → Prop} {S : Question → Prop}

/-! ### Metrics, query log, extended errors -/

theorem shows_metrics (b : Bool) {n : Chain.MR V} {n' : Chain.MR V'} (h : Shows S I n n') : Shows S I (Chain.metrics b n) (Chain.metrics b n') := by
  intro r m m' v v' hr hm hm' hv
  have hn := h r m m' v v' hr hm hm' hv
  unfold Chain.metrics
  revert hn
  generalize n r (m, v) = y
  generalize n' r (m', v') = y'
  obtain ⟨o, m1, v1⟩ := y
  obtain ⟨o', m1', v1'⟩ := y'
  rintro ⟨h1, h2, h3, h4⟩
  simp only at h2 h3 h4
  obtain ⟨q, qs, hq⟩ := List.exists_cons_of_ne_nil h2.2.1
  obtain ⟨q', qs', hq'⟩ := List.exists_cons_of_ne_nil h3.2.1
  cases o with
  | ok a =>
    cases o' with
    | ok a' => cases b <;> simp only [hq, hq'] <;> exact ⟨h1, h2, h3, h4⟩
    | _ => cases h1
  | err e =>
    cases o' with
    | err e' => cases b <;> simp only [hq, hq'] <;> exact ⟨h1, h2, h3, h4⟩
    | _ => cases h1
  | noResponse =>
    cases o' with
    | noResponse => cases b <;> simp only [hq, hq'] <;> exact ⟨rfl, h2, h3, h4⟩
    | _ => cases h1
  | panic =>
    cases o' with
    | panic => exact ⟨rfl, h2, h3, h4⟩
    | _ => cases h1

theorem shows_queryLog (cfg : QueryLog.Cfg) (env : QueryLog.Env) (start duration : Int) {n : Chain.MR V} {n' : Chain.MR V'} (h : Shows S I n n') :
    Shows S (fun v : QueryLog.Queue × V => I v.2) (Chain.queryLog cfg env start duration n) (Chain.queryLog cfg env start duration n') := by
  refine shows_ofM ?_
  intro r v v' hr hv
  have hn := shows_toM h r v.2 v'.2 hr hv
  unfold QueryLog.resolve
  revert hn
  generalize Chain.toM n r v.2 = y
  generalize Chain.toM n' r v'.2 = y'
  obtain ⟨o, m1, v1⟩ := y
  obtain ⟨o', m1', v1'⟩ := y'
  rintro ⟨h1, h2, h3, h4⟩
  simp only at h2 h3 h4
  cases o with
  | ok a =>
    cases o' with
    | ok a' =>
      obtain ⟨e, he⟩ := fillFields_ok env r m1 h2.2.1 a duration cfg.fields (QueryLog.emptyEntry env start)
      obtain ⟨e', he'⟩ := fillFields_ok env r m1' h3.2.1 a' duration cfg.fields (QueryLog.emptyEntry env start)
      have he : QueryLog.createLogEntry cfg env r m1 a start duration = some e := he
      have he' : QueryLog.createLogEntry cfg env r m1' a' start duration = some e' := he'
      simp only [he, he']
      cases QueryLog.ignore cfg a <;> cases QueryLog.ignore cfg a' <;> exact ⟨h1, h2, h3, h4⟩
    | _ => cases h1
  | err e =>
    cases o' with
    | err e' => exact ⟨h1, h2, h3, h4⟩
    | _ => cases h1
  | noResponse =>
    cases o' with
    | noResponse => exact ⟨rfl, h2, h3, h4⟩
    | _ => cases h1
  | panic =>
    cases o' with
    | panic => exact ⟨rfl, h2, h3, h4⟩
    | _ => cases h1

theorem like_setEdns (m : Msg) (o : EOption) : Like (setEdns0Option m o) m := by
  unfold setEdns0Option
  split
  · refine ⟨rfl, rfl, rfl, ?_⟩
    show (plainRecords (m.extra ++ [freshOpt [o]])).map bareRecord = _
    have : plainRecords (m.extra ++ [freshOpt [o]]) = plainRecords m.extra := by
      unfold plainRecords
      rw [List.filter_append]
      simp [freshOpt, RR.isOpt]
    rw [this]
  · refine ⟨rfl, rfl, rfl, ?_⟩
    show (plainRecords (updateLastOpt _ m.extra)).map bareRecord = _
    rw [plainRecords_update]

theorem like_reasoning (a : Response) : Like (Small.addExtraReasoning a).res a.res := by
  unfold Small.addExtraReasoning
  split
  · exact Like.refl _
  · exact like_setEdns _ _

theorem shows_ede (b : Bool) {n : Chain.MR V} {n' : Chain.MR V'} (h : Shows S I n n') : Shows S I (Small.ede b n) (Small.ede b n') := by
  intro r m m' v v' hr hm hm' hv
  have hn := h r m m' v v' hr hm hm' hv
  unfold Small.ede
  split
  · exact hn
  · revert hn
    generalize n r (m, v) = y
    generalize n' r (m', v') = y'
    obtain ⟨o, m1, v1⟩ := y
    obtain ⟨o', m1', v1'⟩ := y'
    rintro ⟨h1, h2⟩
    cases o with
    | ok a =>
      cases o' with
      | ok a' => exact ⟨((like_reasoning a).trans h1).trans (like_reasoning a').symm, h2⟩
      | _ => cases h1
    | _ =>
      cases o' with
      | ok a' => cases h1
      | _ => exact ⟨h1, h2⟩

/-! ### The whole chain -/

/-- A server with a cache and the same server without. -/
structure Uncached (c c' : Chain.Config E W) : Prop where
  rest : c' = { c with cache := c'.cache }
  off : c'.cache.maxTime < 0

/-- Upstreams - also conditional ones - that answer every query, go by the query alone, and are steady: an answer is the same whoever
asks and in whatever letter case; client names are asked for elsewhere. What
is asked (`S`) are for example names in any letter case or names in lower case. -/
structure SteadyWorld (S : Question → Prop) (c : Chain.Config E W) (up : Dns.Resolver W) : Prop where
  manner : Manner S
  steady : Steady S (Chain.cond c up)
  memoryless : Memoryless up
  condMemoryless : ∀ z r, AMap.get c.condMapping z = some r → Memoryless r
  firm : Firm up
  condFirm : ∀ z r, AMap.get c.condMapping z = some r → Firm r
  addresses : ∀ a b, c.names.ipString a = c.names.ipString b → a = b
  names : MemorylessNames c.namesLookup
  kept : CacheKept c
  aliases : ProperAliases S c.customMapping

theorem SteadyWorld.behind {c : Chain.Config E W} {up : Dns.Resolver W} (h : SteadyWorld S c up) : Behind S (Chain.cond c up) where
  steady := h.steady
  blind := by
    have : Blind (Cond.newRewriter c.condRewrite c.condOrder (Cond.conditional c.condMapping) (Chain.toM (Chain.tail c up))) :=
      blind_newRewriter _ _ (fun _ => blind_conditional h.condMemoryless) (blind_toM (sees_sudn _ (sees_liftUp h.memoryless)))
    exact fun r x x' => (this r x.2 x'.2).1
  firm := firm_cond c h.condFirm h.firm
  near := fun r m w hr => near_cond c up r m w hr

/-- The caches have what was looked up. -/
def CachesRight (S : Question → Prop) (c : Chain.Config E W) (up : Dns.Resolver W) (w : Chain.World W) : Prop :=
  NamesSound c.names c.namesLookup w.1 ∧ CacheRight S (Chain.cond c up) w.2.2.1

theorem whole_shows {c c' : Chain.Config E W} {up : Dns.Resolver W} (hc : Uncached c c') (h : SteadyWorld S c up) (r : Request) (hr : Plain S r.req)
    (w w' : Chain.World W) (hw : CachesRight S c up w) (hw' : NamesSound c.names c.namesLookup w'.1) :
    LikeOut (Chain.whole c up r (r.req, w)).1 (Chain.whole c' up r (r.req, w')).1 ∧
    Near (Chain.whole c up r (r.req, w)).2.1 (Chain.whole c' up r (r.req, w')).2.1 ∧
    CacheRight S (Chain.cond c up) (Chain.whole c up r (r.req, w)).2.2.2.2.1 := by
  obtain ⟨cn, q, s, w⟩ := w
  obtain ⟨cn', q', s', w'⟩ := w'
  obtain ⟨hcn, hs⟩ := hw
  have hrest := hc.rest
  have hoff : c'.cache.enabled = false := by
    have := hc.off
    simp only [Caching.Cfg.enabled, decide_eq_false_iff_not]
    omega
  have hobs : Shows S (fun v : QueryLog.Queue × Caching.CState × W => CacheRight S (Chain.cond c up) v.2.1) (Chain.observed c up) (Chain.observed c' up) := by
    unfold Chain.observed
    have e1 : c'.ede = c.ede := by rw [hrest]
    have e2 : c'.log = c.log := by rw [hrest]
    have e3 : c'.logEnv = c.logEnv := by rw [hrest]
    have e4 : c'.logStart = c.logStart := by rw [hrest]
    have e5 : c'.logDuration = c.logDuration := by rw [hrest]
    have e6 : c'.metrics = c.metrics := by rw [hrest]
    rw [e1, e2, e3, e4, e5, e6]
    exact shows_ede _ (shows_queryLog (I := fun v : Caching.CState × W => CacheRight S (Chain.cond c up) v.1) _ _ _ _
      (shows_metrics _ (shows_local hrest hoff h.behind h.aliases)))
  have e1 : c'.filterTypes = c.filterTypes := by rw [hrest]
  have e2 : c'.fqdnOnly = c.fqdnOnly := by rw [hrest]
  have e3 : c'.ecs = c.ecs := by rw [hrest]
  have e4 : c'.names = c.names := by rw [hrest]
  have e5 : c'.namesLookup = c.namesLookup := by rw [hrest]
  have hecs : LikeOut
        (Chain.ecs c.ecs (Chain.clientNames c.names (c.namesLookup.map Chain.liftLookup) (Chain.observed c up)) r (r.req, (cn, q, s, w))).1
        (Chain.ecs c.ecs (Chain.clientNames c.names (c.namesLookup.map Chain.liftLookup) (Chain.observed c' up)) r (r.req, (cn', q', s', w'))).1 ∧
      Near (Chain.ecs c.ecs (Chain.clientNames c.names (c.namesLookup.map Chain.liftLookup) (Chain.observed c up)) r (r.req, (cn, q, s, w))).2.1
        (Chain.ecs c.ecs (Chain.clientNames c.names (c.namesLookup.map Chain.liftLookup) (Chain.observed c' up)) r (r.req, (cn', q', s', w'))).2.1 ∧
      CacheRight S (Chain.cond c up)
        (Chain.ecs c.ecs (Chain.clientNames c.names (c.namesLookup.map Chain.liftLookup) (Chain.observed c up)) r (r.req, (cn, q, s, w))).2.2.2.2.1 := by
    unfold Chain.ecs
    cases ht : Ecs.transform c.ecs r with
    | none => exact ⟨rfl, near_refl hr.some, hs⟩
    | some r1 =>
      have hr1 : Plain S r1.req := by
        obtain ⟨q, h1, h2⟩ := hr
        exact ⟨q, by rw [ecs_question ht, h1], h2⟩
      simp only [Chain.clientNames, withNames_lift]
      have hsame := withNames_same h.addresses h.names hcn hw' r1 (s, w) (s', w')
      have hkeep := withNames_keeps c.names c.namesLookup (fun v => CacheRight S (Chain.cond c up) v.1)
        (fun ask hask ip v hv => by rw [h.kept ask hask ip v]; exact hv) r1 cn (s, w) hs
      have hreq : (ClientNames.withNames c.names c.namesLookup r1 cn (s, w)).1.req = r1.req := rfl
      revert hsame hkeep hreq
      generalize ClientNames.withNames c.names c.namesLookup r1 cn (s, w) = y
      generalize ClientNames.withNames c.names c.namesLookup r1 cn' (s', w') = y'
      obtain ⟨r2, cn2, v2⟩ := y
      obtain ⟨r2', cn2', v2'⟩ := y'
      intro hsame hkeep hreq
      simp only at hsame hkeep hreq
      subst hsame
      have hr2 : Plain S r2.req := by rw [hreq]; exact hr1
      have hnear : Near r1.req r2.req := by rw [hreq]; exact near_refl hr1.some
      obtain ⟨g1, g2, g3, g4⟩ := hobs r2 r1.req r1.req (q, v2) (q', v2') hr2 hnear hnear hkeep
      exact ⟨g1, g2.trans g3.symm, g4⟩
  unfold Chain.whole
  rw [e1, e2, e3, e4, e5]
  unfold Small.filtering
  split
  · exact ⟨rfl, near_refl hr.some, hs⟩
  · split
    · exact ⟨LikeOut.refl _, near_refl hr.some, hs⟩
    · unfold Small.fqdnOnly
      split
      · split
        · exact ⟨rfl, near_refl hr.some, hs⟩
        · split
          · exact ⟨LikeOut.refl _, near_refl hr.some, hs⟩
          · exact hecs
      · exact hecs

/-- The same reply: like messages, both cut off (`Msg.Truncate`) at the same size or both not. -/
def SameReply (senv : Server.Env) (ms ms' : List Msg) : Prop :=
  ∃ a b, Like a b ∧ ((∃ size, ms = [senv.trunc size a] ∧ ms' = [senv.trunc size b]) ∨ (ms = [a] ∧ ms' = [b]))

theorem onRequest_shows (senv : Server.Env) {n : Cond.MResolver V} {n' : Cond.MResolver V'} (remote : Server.Addr) (sni : Option Str) (msg : Msg)
    (hm : Plain S msg) (v : V) (v' : V')
    (key : ∀ r, r.req = msg → Plain S r.req → LikeOut (n r v).1 (n' r v').1 ∧ Near (n r v).2.1 (n' r v').2.1) :
    SameReply senv (Server.onRequest senv n remote sni msg v).1 (Server.onRequest senv n' remote sni msg v').1 := by
  have hreq : (Server.newRequestFromDNS remote sni msg).req = msg := rfl
  unfold Server.onRequest Server.handleReq Server.resolve
  revert hreq
  generalize Server.newRequestFromDNS remote sni msg = r
  intro hreq
  have hr : Plain S r.req := by rw [hreq]; exact hm
  have key := key r hreq hr
  obtain ⟨q, hq, _⟩ := hr
  rw [hq]
  simp only
  revert key
  generalize n r v = y
  generalize n' r v' = y'
  obtain ⟨o, m1, v1⟩ := y
  obtain ⟨o', m1', v1'⟩ := y'
  rintro ⟨h1, h2⟩
  simp only at h2
  have hx : m1.extra = m1'.extra := by have := congrArg Msg.extra h2.1; exact this
  have hd : m1.recursionDesired = m1'.recursionDesired := by have := congrArg Msg.recursionDesired h2.1; exact this
  have hfin : ∀ a b, Like a b → SameReply senv [Server.finish senv m1 r.protocol a] [Server.finish senv m1' r.protocol b] := by
    intro a b hab
    unfold Server.finish Server.getMaxResponseSize
    rw [hx, hd]
    exact ⟨{ a with recursionAvailable := m1'.recursionDesired }, { b with recursionAvailable := m1'.recursionDesired },
      ⟨hab.1, hab.2, hab.3, hab.4⟩, .inl ⟨_, rfl, rfl⟩⟩
  have hfail : SameReply senv [({} : Msg).setRcode m1 rcodeServFail] [({} : Msg).setRcode m1' rcodeServFail] :=
    ⟨({} : Msg).setRcode m1 rcodeServFail, ({} : Msg).setRcode m1' rcodeServFail, ⟨rfl, rfl, rfl, rfl⟩, .inr ⟨rfl, rfl⟩⟩
  cases o with
  | ok a =>
    cases o' with
    | ok a' => exact hfin _ _ h1
    | _ => cases h1
  | err e =>
    cases o' with
    | err e' =>
      cases h1
      simp only
      cases senv.asUpstream e with
      | none => exact hfail
      | some x => exact hfin _ _ (Like.refl _)
    | _ => cases h1
  | noResponse =>
    cases o' with
    | noResponse => exact hfail
    | _ => cases h1
  | panic =>
    cases o' with
    | panic => exact hfail
    | _ => cases h1

theorem serve_shows (senv : Server.Env) {c c' : Chain.Config E W} {up : Dns.Resolver W} (hc : Uncached c c') (h : SteadyWorld S c up)
    (remote : Server.Addr) (sni : Option Str) (msg : Msg) (hm : Plain S msg)
    (w w' : Chain.World W) (hw : CachesRight S c up w) (hw' : NamesSound c.names c.namesLookup w'.1) :
    SameReply senv (Chain.serve senv c up remote sni msg w).1 (Chain.serve senv c' up remote sni msg w').1 := by
  unfold Chain.serve
  refine onRequest_shows senv remote sni msg hm w w' (fun r _ hr => ?_)
  have key := whole_shows hc h r hr w w' hw hw'
  exact ⟨key.1, key.2.1⟩

/-! ### Histories -/

/-- What happens usually: queries with one question (or none), time passing, cleaning up with or without prefetching, the cache being
emptied; nothing from redis. -/
def Usual (S : Question → Prop) : Incident → Prop
  | .event (.query _ _ msg) => Plain S msg ∨ msg.question = []
  | .event _ => True
  | .flush => True
  | _ => False

/-- At another moment the server had the same upstreams - also conditional ones - and settings of client names; lists, custom DNS, hosts
files, settings of the cache, … may have been others. -/
structure SameBehind (S : Question → Prop) (c : Chain.Config E W) (up : Dns.Resolver W) (x : Chain.Config E W × Dns.Resolver W × Incident) : Prop where
  up : x.2.1 = up
  condRewrite : x.1.condRewrite = c.condRewrite
  condOrder : x.1.condOrder = c.condOrder
  condMapping : x.1.condMapping = c.condMapping
  sudn : x.1.sudn = c.sudn
  names : x.1.names = c.names
  namesLookup : x.1.namesLookup = c.namesLookup
  aliases : ProperAliases S x.1.customMapping

theorem SameBehind.cond {c : Chain.Config E W} {up : Dns.Resolver W} {x : Chain.Config E W × Dns.Resolver W × Incident} (h : SameBehind S c up x) :
    Chain.cond x.1 x.2.1 = Chain.cond c up := by
  unfold Chain.cond Chain.tail
  rw [h.up, h.condRewrite, h.condOrder, h.condMapping, h.sudn]

theorem SameBehind.world {c : Chain.Config E W} {up : Dns.Resolver W} {x : Chain.Config E W × Dns.Resolver W × Incident} (h : SameBehind S c up x)
    (hw : SteadyWorld S c up) : SteadyWorld S x.1 x.2.1 where
  manner := hw.manner
  steady := by rw [h.cond]; exact hw.steady
  memoryless := by rw [h.up]; exact hw.memoryless
  condMemoryless := by rw [h.condMapping]; exact hw.condMemoryless
  firm := by rw [h.up]; exact hw.firm
  condFirm := by rw [h.condMapping]; exact hw.condFirm
  addresses := by rw [h.names]; exact hw.addresses
  names := by rw [h.namesLookup]; exact hw.names
  kept := by unfold CacheKept; rw [h.namesLookup]; exact hw.kept
  aliases := h.aliases

theorem befall_right (senv : Server.Env) {c : Chain.Config E W} {up : Dns.Resolver W} (h : SteadyWorld S c up) (x : Incident) (hx : Usual S x)
    {w w' : Chain.World W} (hw : CachesRight S c up w) (he : (befall senv c up w x).2 = some w') : CachesRight S c up w' := by
  refine ⟨names_befall senv up x hw.1 he, ?_⟩
  cases x with
  | event e =>
    cases e with
    | query remote sni msg =>
      simp only [befall, happen, Option.some.injEq] at he
      rw [← he, serve_world]
      split
      · exact hw.2
      · rename_i hne
        have hm : Plain S msg := by
          rcases hx with hx | hx
          · exact hx
          · exact absurd hx hne
        exact (whole_shows (c' := { c with cache := { c.cache with maxTime := -1 } }) ⟨rfl, show (-1 : Int) < 0 by decide⟩ h
          (Server.newRequestFromDNS remote sni msg) hm w w hw hw.1).2.2
    | pass ms =>
      simp only [befall, happen, Option.some.injEq] at he
      rw [← he]
      exact hw.2
    | cleanUp =>
      have key := fun s' => right_cleanUp h.manner h.steady c.cacheEnv c.cache (s' := s') hw.2 ({}, w.2.2.2)
      simp only [befall, happen] at he
      revert he key
      generalize Caching.cleanUpCache c.cacheEnv c.cache (Chain.cond c up) w.2.2.1 ({}, w.2.2.2) = y
      obtain ⟨o, mw⟩ := y
      intro he key
      cases o with
      | none => cases he
      | some s => cases he; exact key s rfl
  | message id m => exact hx.elim
  | load store now later k => exact hx.elim
  | flush =>
    simp only [befall, Option.some.injEq] at he
    rw [← he]
    exact fun e he => (nomatch he)

theorem endures_right (senv : Server.Env) {c : Chain.Config E W} {up : Dns.Resolver W} (h : SteadyWorld S c up)
    (xs : List (Chain.Config E W × Dns.Resolver W × Incident)) (hxs : ∀ x ∈ xs, SameBehind S c up x ∧ Usual S x.2.2) :
    ∀ {w w' : Chain.World W}, CachesRight S c up w → endures senv xs w = some w' → CachesRight S c up w' := by
  induction xs with
  | nil => intro w w' hw he; cases he; exact hw
  | cons x xs ih =>
    intro w w' hw he
    obtain ⟨h1, h2⟩ := hxs x (by simp)
    unfold endures at he
    revert he
    cases hb : (befall senv x.1 x.2.1 w x.2.2).2 with
    | none => rintro ⟨⟩
    | some v =>
      intro he
      have hw1 : CachesRight S x.1 x.2.1 w := by
        unfold CachesRight
        rw [h1.names, h1.namesLookup, h1.cond]
        exact hw
      have := befall_right senv (h1.world h) x.2.2 h2 hw1 hb
      unfold CachesRight at this
      rw [h1.names, h1.namesLookup, h1.cond] at this
      exact ih (fun y hy => hxs y (by simp [hy])) this he

/-- **C120.** A server with an answer cache, started with empty caches, and any history of queries with one question, of any clients, with
time passing, prefetching and flushing; settings of the cache, lists, custom DNS and hosts files may have changed meanwhile. If what is
behind the cache is steady, a query is answered like by the same server without cache: same response code and same records, but for
TTLs and letter case. So nothing is blocked, passed, rewritten or answered otherwise because of the cache. -/
theorem C120_unnoticed_partial (senv : Server.Env) (c c' : Chain.Config E W) (up : Dns.Resolver W) (hc : Uncached c c') (h : SteadyWorld S c up)
    (xs : List (Chain.Config E W × Dns.Resolver W × Incident)) (hxs : ∀ x ∈ xs, SameBehind S c up x ∧ Usual S x.2.2)
    (w0 w v : Chain.World W) (hw0 : w0.1.cache.items = [] ∧ w0.2.2.1.main.cache.items = []) (hw : endures senv xs w0 = some w)
    (hv : v.1.cache.items = []) (remote : Server.Addr) (sni : Option Str) (msg : Msg) (hmsg : Plain S msg) :
    SameReply senv (Chain.serve senv c up remote sni msg w).1 (Chain.serve senv c' up remote sni msg v).1 := by
  refine serve_shows senv hc h remote sni msg hmsg w v (endures_right senv h xs hxs ⟨namesSound_fresh hw0.1, ?_⟩ hw) (namesSound_fresh hv)
  intro e he
  rw [hw0.2] at he
  cases he

/-! ### What is steady -/

/-- Names in any letter case, with at most one final dot. -/
def AnyCase (q : Question) : Prop := (extractDomain q.name).getLast? ≠ some '.'

/-- Names in lower case with one final dot. -/
def LowerCase (q : Question) : Prop := (extractDomain q.name).getLast? ≠ some '.' ∧ q.name = fqdn (extractDomain q.name) ∧ q.qtype < 65536

theorem extractDomain_again {name : Str} (h : (extractDomain name).getLast? ≠ some '.') :
    extractDomain (fqdn (extractDomain name)) = extractDomain name := by
  have : fqdn (extractDomain name) = extractDomain name ++ ['.'] := by
    unfold fqdn
    rw [if_neg h]
  rw [this, extractDomain_fqdn, lower_extractDomain]

theorem anyCase : Manner AnyCase where
  proper := fun _ h => h
  again := by
    intro q q' h hn _
    unfold AnyCase
    rw [hn, extractDomain_again h]
    exact h

theorem lowerCase : Manner LowerCase where
  proper := fun _ h => h.1
  again := by
    intro q q' h hn ht
    unfold LowerCase
    have := h.2.2
    refine ⟨?_, ?_, by omega⟩
    · rw [hn, extractDomain_again h.1]
      exact h.1
    · rw [hn, extractDomain_again h.1]

theorem steady_cond (hs : Manner S) (c : Chain.Config E W) (up : Dns.Resolver W) (hr : c.condRewrite.rewrite = []) (ht : Steady S (Chain.tail c up))
    (hm : ∀ z r, AMap.get c.condMapping z = some r → Steady S r) : Steady S (Chain.cond c up) := by
  intro r r' v v' q q' a hq hq' hp hp' hsame ha
  have key : ∀ (r : Request) (q : Question) (v : Msg × W), r.req.question = [q] → (Chain.cond c up r v).1 =
      if c.condMapping.length > 0 then
        (match Cond.lookup c.condMapping (extractDomain q.name) with
         | some reso => (Cond.internalResolve reso (extractDomain q.name) r v.2).1
         | none => (Chain.tail c up r (r.req, v.2)).1)
      else (Chain.tail c up r (r.req, v.2)).1 := by
    intro r q v hq
    unfold Chain.cond Chain.ofM Cond.newRewriter
    simp only
    rw [if_pos (by rw [hr]; rfl)]
    unfold Cond.conditional
    split
    · rw [hq]
      simp only
      cases Cond.lookup c.condMapping (extractDomain q.name) with
      | some reso => rfl
      | none => rfl
    · rfl
  rw [key r q v hq] at ha
  rw [key r' q' v' hq', ← hsame.2]
  split at ha
  · rename_i hlen
    rw [if_pos hlen]
    cases hl : Cond.lookup c.condMapping (extractDomain q.name) with
    | none =>
      rw [hl] at ha
      exact ht r r' (r.req, v.2) (r'.req, v'.2) q q' a hq hq' hp hp' hsame ha
    | some reso =>
      rw [hl] at ha
      simp only at ha ⊢
      have hst : Steady S reso := by
        unfold Cond.lookup at hl
        split at hl
        · cases hw : walk (AMap.get c.condMapping) ((extractDomain q.name).length + 1) (extractDomain q.name) with
          | none => rw [hw] at hl; cases hl
          | some x =>
            rw [hw] at hl
            cases hl
            exact hm _ _ (walk_some hw).2.2.1
        · exact hm _ _ hl
      have hst := hst { r with req := { r.req with question := Cond.setName (fqdn (extractDomain q.name)) r.req.question } }
        { r' with req := { r'.req with question := Cond.setName (fqdn (extractDomain q.name)) r'.req.question } } v.2 v'.2
        { q with name := fqdn (extractDomain q.name) } { q' with name := fqdn (extractDomain q.name) }
      unfold Cond.internalResolve at ha ⊢
      simp only at ha ⊢
      revert ha hst
      generalize reso _ v.2 = y
      generalize reso _ v'.2 = y'
      obtain ⟨o, w1⟩ := y
      obtain ⟨o', w1'⟩ := y'
      intro ha hst
      cases o with
      | ok b =>
        cases ha
        obtain ⟨b', hb, hlike⟩ := hst b (by rw [hq]; rfl) (by rw [hq']; rfl)
          (hs.again q _ hp rfl (.inl rfl)) (hs.again q' _ hp' (by rw [hsame.2]) (.inl rfl)) ⟨hsame.1, rfl⟩ rfl
        simp only at hb
        subst hb
        exact ⟨_, rfl, hlike.1, hlike.2, hlike.3, hlike.4⟩
      | err e => cases ha
      | noResponse => cases ha
      | panic => cases ha
  · rename_i hlen
    rw [if_neg hlen]
    exact ht r r' (r.req, v.2) (r'.req, v'.2) q q' a hq hq' hp hp' hsame ha

/-- **C120 (hypothesis).** What is behind the cache is steady for names in any letter case if the upstreams are, special-use names are not
treated, and no rules for rewriting are set for conditional upstreams. -/
theorem C120_steady (c : Chain.Config E W) (up : Dns.Resolver W) (hs : c.sudn.enable = false) (hr : c.condRewrite.rewrite = [])
    (hu : Steady AnyCase up) (hm : ∀ z r, AMap.get c.condMapping z = some r → Steady AnyCase r) : Steady AnyCase (Chain.cond c up) := by
  refine steady_cond anyCase c up hr ?_ hm
  intro r r' v v' q q' a hq hq' hp hp' hsame ha
  have htail : ∀ (r : Request) (v : Msg × W), (Chain.tail c up r v).1 = (up r v.2).1 := by
    intro r w
    unfold Chain.tail Small.sudn
    simp [hs, Chain.liftUp]
  rw [htail] at ha ⊢
  exact hu r r' v.2 v'.2 q q' a hq hq' hp hp' hsame ha

/-- **C120 (hypothesis).** For names in lower case, it is steady also with special-use names treated, as configured by default. -/
theorem C120_steady_special (c : Chain.Config E W) (up : Dns.Resolver W) (hr : c.condRewrite.rewrite = [])
    (hu : Steady LowerCase up) (hm : ∀ z r, AMap.get c.condMapping z = some r → Steady LowerCase r) : Steady LowerCase (Chain.cond c up) := by
  refine steady_cond lowerCase c up hr ?_ hm
  intro r r' v v' q q' a hq hq' hp hp' hsame ha
  have hname : q'.name = q.name := by rw [hp.2.1, hp'.2.1, hsame.2]
  have htype : q'.qtype = q.qtype := by
    have h1 := hp.2.2
    have h2 := hp'.2.2
    have := hsame.1
    omega
  have hup : ∀ (r r' : Request), r.req.question = [q] → r'.req.question = [q'] → ∀ v v' : Msg × W, ∀ a, (Chain.liftUp up r v).1 = .ok a →
      ∃ b, (Chain.liftUp up r' v').1 = .ok b ∧ Like a.res b.res :=
    fun r r' hq hq' v v' a ha => hu r r' v.2 v'.2 q q' a hq hq' hp hp' hsame ha
  unfold Chain.tail Small.sudn at ha ⊢
  split at ha
  · rename_i hd
    rw [if_pos hd]
    exact hup r r' hq hq' v v' a ha
  · rename_i hd
    rw [if_neg hd]
    rw [hq] at ha
    rw [hq']
    simp only at ha ⊢
    rw [hname]
    have hcall : ∀ h : Small.SudnHandler, (Small.callSudn c.sudn r q h = none ∧ Small.callSudn c.sudn r' q' h = none) ∨
        ∃ x y, Small.callSudn c.sudn r q h = some x ∧ Small.callSudn c.sudn r' q' h = some y ∧ Like x.res y.res := by
      intro h
      cases h with
      | nxdomain => exact .inr ⟨_, _, rfl, rfl, rfl, rfl, rfl, rfl⟩
      | localhost =>
        refine .inr ⟨_, _, rfl, rfl, ?_⟩
        unfold Small.sudnLocalhost
        rw [hname, htype]
        split
        · exact ⟨rfl, rfl, rfl, rfl⟩
        · split
          · exact ⟨rfl, rfl, rfl, rfl⟩
          · exact ⟨rfl, rfl, rfl, rfl⟩
      | pass => exact .inl ⟨rfl, rfl⟩
      | appendixG =>
        simp only [Small.callSudn]
        split
        · exact .inl ⟨rfl, rfl⟩
        · exact .inr ⟨_, _, rfl, rfl, rfl, rfl, rfl, rfl⟩
      | homeArpa =>
        simp only [Small.callSudn, htype]
        split
        · exact .inl ⟨rfl, rfl⟩
        · exact .inr ⟨_, _, rfl, rfl, rfl, rfl, rfl, rfl⟩
    cases hh : Small.sudnHandler q.name with
    | none =>
      rw [hh] at ha
      exact hup r r' hq hq' v v' a ha
    | some h =>
      rw [hh] at ha
      simp only [Option.bind_some] at ha ⊢
      rcases hcall h with ⟨h1, h2⟩ | ⟨x, y, h1, h2, h3⟩
      · rw [h1] at ha
        rw [h2]
        exact hup r r' hq hq' v v' a ha
      · rw [h1] at ha
        rw [h2]
        cases ha
        exact ⟨y, rfl, h3⟩

/-! ### A server with clients -/

/-- An upstream that answers in lower case and not below broken. -/
def steadyUp : Resolver Nat := fun request n =>
  match request.req.question with
  | [] => (.err (str! "no question"), n + 1)
  | q :: _ =>
    if (str! "broken").isSuffixOf (extractDomain q.name) then (.err (str! "servfail"), n + 1)
    else (.ok { res := { ({} : Msg).setReply request.req with
        answer := [{ name := extractDomain q.name ++ ['.'], rtype := typeA, ttl := 60, data := .a (.v4 0x01020304#32) }] } }, n + 1)

theorem steadyUp_memoryless : Memoryless steadyUp := by
  intro r w w'
  unfold steadyUp
  split
  · rfl
  · split <;> rfl

theorem steadyUp_firm : Firm steadyUp := by
  intro r w hq
  unfold steadyUp
  split
  · contradiction
  · split
    · exact ⟨fun h => (nomatch h), fun h => (nomatch h)⟩
    · exact ⟨fun h => (nomatch h), fun h => (nomatch h)⟩

theorem steadyUp_steady : Steady S steadyUp := by
  intro r r' v v' q q' a hq hq' _ _ hsame ha
  unfold steadyUp at ha ⊢
  rw [hq] at ha
  rw [hq']
  simp only at ha ⊢
  rw [← hsame.2]
  split at ha
  · cases ha
  · rename_i h
    rw [if_neg h]
    cases ha
    exact ⟨_, rfl, rfl, rfl, rfl, rfl⟩

/-- The sample server with that upstream, also for lan, and without treatment of special-use names. -/
def steadyConfig (maxTime : Int) : Chain.Config prefixEngine Nat :=
  { askingConfig maxTime with
    condRewrite := ⟨[], false⟩
    condMapping := [(str! "office", steadyUp)]
    sudn := ⟨true, false⟩ }

theorem steadyConfig_world (maxTime : Int) : SteadyWorld AnyCase (steadyConfig maxTime) steadyUp where
  manner := anyCase
  steady := by
    refine C120_steady _ _ rfl rfl steadyUp_steady ?_
    intro z r h
    have hm := AMap.get_eq_some_mem h
    simp only [steadyConfig, List.mem_singleton, Prod.mk.injEq] at hm
    rw [hm.2]
    exact steadyUp_steady
  memoryless := steadyUp_memoryless
  condMemoryless := by
    intro z r h
    have hm := AMap.get_eq_some_mem h
    simp only [steadyConfig, List.mem_singleton, Prod.mk.injEq] at hm
    rw [hm.2]
    exact steadyUp_memoryless
  firm := steadyUp_firm
  condFirm := by
    intro z r h
    have hm := AMap.get_eq_some_mem h
    simp only [steadyConfig, List.mem_singleton, Prod.mk.injEq] at hm
    rw [hm.2]
    exact steadyUp_firm
  addresses := unaryText_inj
  names := by
    intro ask h ip v v'
    cases h
    rfl
  kept := by
    intro ask h ip v
    cases h
    rfl
  aliases := by
    intro z es h e he t ht q hq
    have hm := AMap.get_eq_some_mem h
    simp only [steadyConfig, askingConfig, sampleConfig, List.mem_cons, List.not_mem_nil, or_false, Prod.mk.injEq] at hm
    rcases hm with ⟨_, rfl⟩ | ⟨_, rfl⟩ | ⟨_, rfl⟩
    · simp only [List.mem_singleton] at he
      subst he
      cases ht
    · simp only [List.mem_singleton] at he
      subst he
      cases ht
    · simp only [List.mem_singleton] at he
      subst he
      cases ht
      show (extractDomain (fqdn (trimSuffixDot (str! "host.broken.")))).getLast? ≠ some '.'
      decide

/-- Another client asks for names, also blocked ones, time passes, the cache is cleaned up. -/
def steadyHistory (maxTime : Int) : List (Chain.Config prefixEngine Nat × Dns.Resolver Nat × Incident) :=
  [.event (.query (.udp (some (.v4 1#32))) none (query (str! "WWW.org."))),
    .event (.query (.udp (some (.v4 1#32))) none (query (str! "ads.org."))),
    .event (.query (.udp (some (.v4 1#32))) none (query (str! "Mail.Office."))), .event (.pass 10000), .event .cleanUp].map
    (fun i => (steadyConfig maxTime, steadyUp, i))

/-- All hypotheses of `C120_unnoticed_partial` are met. -/
example (w : Chain.World Nat) (hw : endures sampleServer (steadyHistory 0) sampleWorld = some w) (name : Str) (hn : AnyCase ⟨name, 1, 1⟩) :
    SameReply sampleServer (Chain.serve sampleServer (steadyConfig 0) steadyUp (.udp (some (.v4 2#32))) none (query name) w).1
      (Chain.serve sampleServer (steadyConfig (-1)) steadyUp (.udp (some (.v4 2#32))) none (query name) sampleWorld).1 := by
  refine C120_unnoticed_partial sampleServer (steadyConfig 0) (steadyConfig (-1)) steadyUp ⟨rfl, by decide⟩ (steadyConfig_world 0)
    (steadyHistory 0) ?_ sampleWorld w sampleWorld ⟨rfl, rfl⟩ hw rfl _ _ _ ⟨_, rfl, hn⟩
  intro x hx
  obtain ⟨i, hi, rfl⟩ := List.mem_map.1 hx
  refine ⟨⟨rfl, rfl, rfl, rfl, rfl, rfl, rfl, (steadyConfig_world 0).aliases⟩, ?_⟩
  simp only [List.mem_cons, List.not_mem_nil, or_false] at hi
  rcases hi with rfl | rfl | rfl | rfl | rfl
  · exact .inl ⟨_, rfl, by unfold AnyCase; decide⟩
  · exact .inl ⟨_, rfl, by unfold AnyCase; decide⟩
  · exact .inl ⟨_, rfl, by unfold AnyCase; decide⟩
  · exact trivial
  · exact trivial

instance : DecidableEq (Str × UInt32 × RData) := inferInstance
instance : DecidableEq (Nat × List (Str × UInt32 × RData)) := inferInstance

/-- What a client gets to see of answers: codes, and names, TTLs and addresses, after a history. -/
def replyAfter (c : Chain.Config prefixEngine Nat) (xs : List (Chain.Config prefixEngine Nat × Dns.Resolver Nat × Incident)) (name : Str) :
    Option (List (Nat × List (Str × UInt32 × RData))) :=
  (endures sampleServer xs sampleWorld).map (fun w =>
    (Chain.serve sampleServer c steadyUp (.udp (some (.v4 2#32))) none (query name) w).1.map
      (fun m => (m.rcode, m.answer.map (fun r => (r.name, r.ttl, r.data)))))

-- From the cache, with lower TTLs; a blocked name; from the conditional upstream.
example : replyAfter (steadyConfig 0) (steadyHistory 0) (str! "www.ORG.") = some [(0, [(str! "www.org.", 50, .a (.v4 0x01020304#32))])] ∧
    replyAfter (steadyConfig (-1)) [] (str! "www.ORG.") = some [(0, [(str! "www.org.", 60, .a (.v4 0x01020304#32))])] ∧
    replyAfter (steadyConfig 0) (steadyHistory 0) (str! "ads.org.") = replyAfter (steadyConfig (-1)) [] (str! "ads.org.") ∧
    replyAfter (steadyConfig 0) (steadyHistory 0) (str! "mail.office.") = some [(0, [(str! "mail.office.", 50, .a (.v4 0x01020304#32))])] ∧
    replyAfter (steadyConfig (-1)) [] (str! "mail.office.") = some [(0, [(str! "mail.office.", 60, .a (.v4 0x01020304#32))])] := by
  decide +kernel

/-- The sample server with treatment of special-use names (`specialUseDomains`, on by default). -/
def specialConfig (maxTime : Int) : Chain.Config prefixEngine Nat := { steadyConfig maxTime with sudn := ⟨true, true⟩ }

theorem specialConfig_world (maxTime : Int) : SteadyWorld LowerCase (specialConfig maxTime) steadyUp where
  manner := lowerCase
  steady := by
    refine C120_steady_special _ _ rfl steadyUp_steady ?_
    intro z r h
    have hm := AMap.get_eq_some_mem h
    simp only [specialConfig, steadyConfig, List.mem_singleton, Prod.mk.injEq] at hm
    rw [hm.2]
    exact steadyUp_steady
  memoryless := steadyUp_memoryless
  condMemoryless := (steadyConfig_world maxTime).condMemoryless
  firm := steadyUp_firm
  condFirm := (steadyConfig_world maxTime).condFirm
  addresses := (steadyConfig_world maxTime).addresses
  names := (steadyConfig_world maxTime).names
  kept := (steadyConfig_world maxTime).kept
  aliases := by
    intro z es h e he t ht q hq
    have hm := AMap.get_eq_some_mem h
    simp only [specialConfig, steadyConfig, askingConfig, sampleConfig, List.mem_cons, List.not_mem_nil, or_false, Prod.mk.injEq] at hm
    rcases hm with ⟨_, rfl⟩ | ⟨_, rfl⟩ | ⟨_, rfl⟩
    · simp only [List.mem_singleton] at he
      subst he
      cases ht
    · simp only [List.mem_singleton] at he
      subst he
      cases ht
    · simp only [List.mem_singleton] at he
      subst he
      cases ht
      refine ⟨?_, ?_, hq.2.2⟩
      · show (extractDomain (fqdn (trimSuffixDot (str! "host.broken.")))).getLast? ≠ some '.'
        decide
      · show fqdn (trimSuffixDot (str! "host.broken.")) = fqdn (extractDomain (fqdn (trimSuffixDot (str! "host.broken."))))
        decide

/-- All hypotheses of `C120_unnoticed_partial` are met, with special-use names treated. -/
example (w : Chain.World Nat) (hw : endures sampleServer [(specialConfig 0, steadyUp, .event (.query (.udp (some (.v4 1#32))) none
    (query (str! "localhost."))))] sampleWorld = some w) :
    SameReply sampleServer (Chain.serve sampleServer (specialConfig 0) steadyUp (.udp (some (.v4 2#32))) none (query (str! "localhost.")) w).1
      (Chain.serve sampleServer (specialConfig (-1)) steadyUp (.udp (some (.v4 2#32))) none (query (str! "localhost.")) sampleWorld).1 := by
  have hq : LowerCase ⟨str! "localhost.", 1, 1⟩ := by unfold LowerCase; decide
  refine C120_unnoticed_partial sampleServer (specialConfig 0) (specialConfig (-1)) steadyUp ⟨rfl, by decide⟩ (specialConfig_world 0)
    _ ?_ sampleWorld w sampleWorld ⟨rfl, rfl⟩ hw rfl _ _ _ ⟨_, rfl, hq⟩
  intro x hx
  simp only [List.mem_singleton] at hx
  subst hx
  exact ⟨⟨rfl, rfl, rfl, rfl, rfl, rfl, rfl, (specialConfig_world 0).aliases⟩, .inl ⟨_, rfl, hq⟩⟩

/-- **C120 is false for special-use names**, as configured by default: sudn_resolver.go compares names case-sensitively, and is
behind the cache, that does not. If somebody asks for `LOCALHOST.`, the upstream is asked, and from then on its answer is
given to everybody who asks for `localhost.`, that else is answered with the loopback address. -/
theorem C120_special_false :
    replyAfter (specialConfig (-1)) [] (str! "localhost.") = some [(0, [(str! "localhost.", 0, .a (.v4 0x7f000001#32))])] ∧
    replyAfter (specialConfig 0) [] (str! "localhost.") = some [(0, [(str! "localhost.", 0, .a (.v4 0x7f000001#32))])] ∧
    replyAfter (specialConfig 0) [(specialConfig 0, steadyUp, .event (.query (.udp (some (.v4 1#32))) none (query (str! "LOCALHOST."))))]
      (str! "localhost.") = some [(0, [(str! "localhost.", 60, .a (.v4 0x01020304#32))])] := by
  decide +kernel

end Verif.Props
