/-
C121: queries handled at the same time do not disturb each other.
-/
import Verif.Model.Threads
import Verif.Props.Unnoticed

namespace Verif.Props
open Verif.Dns Verif.ExpCache Verif.StringCache Verif.Spec Verif.Threads

variable {E : RegexEngine} {S : Question → Prop} {c : Chain.Config E Unit} {up : Dns.Resolver Unit}

/-! ### Steps and their results -/

/-- What upstreams answer. -/
def expected (c : Chain.Config E Unit) (up : Dns.Resolver Unit) : Option Str → Request → Outcome
  | none, r => (up r ()).1
  | some z, r => match AMap.get c.condMapping z with | some n => (n r ()).1 | none => .noResponse

/-- The names of the client with this address (in text form). -/
def NamesOf (c : Chain.Config E Unit) (k : Str) (l : List Str) : Prop :=
  ∃ ip w, c.names.ipString ip = k ∧ l = (ClientNames.resolveClientNames c.names c.namesLookup ip w).1

/-- Results of steps: what is found in the caches was looked up, upstreams answer as always (but for TTLs and letter case). -/
def FitsRun (S : Question → Prop) (c : Chain.Config E Unit) (up : Dns.Resolver Unit) : Threads.Op × Res → Prop
  | (.find k, .found (some x)) => Right S (Chain.cond c up) k x.1
  | (.findNames k, .names (some l)) => NamesOf c k l
  | (.ask z r, .answer o) => LikeOut o (expected c up z r)
  | (.askNames ip, .records x) => ∀ l, c.namesLookup = some l → x = (l ip (noCache, ())).1
  | _ => True

/-- Steps: what is stored was looked up. -/
def WantedStep (S : Question → Prop) (c : Chain.Config E Unit) (up : Dns.Resolver Unit) : Threads.Op → Prop
  | .keep k m _ => Right S (Chain.cond c up) k m
  | .keepNames k l => NamesOf c k l
  | _ => True

/-- The results are all right, and so is the next step. -/
def SoundRun (S : Question → Prop) (c : Chain.Config E Unit) (up : Dns.Resolver Unit) (v : Replay) : Prop :=
  (∀ e ∈ v.todo, FitsRun S c up e) ∧ ∀ op, v.wish = some op → WantedStep S c up op

theorem sound_wait {v : Replay} (h : SoundRun S c up v) {op : Threads.Op} (ho : WantedStep S c up op) : SoundRun S c up (v.wait op) := by
  refine ⟨h.1, fun x hx => ?_⟩
  unfold Replay.wait at hx
  cases hw : v.wish with
  | none => rw [hw] at hx; cases hx; exact ho
  | some y => rw [hw] at hx; cases hx; exact h.2 _ hw

theorem sound_rest {v : Replay} (h : SoundRun S c up v) {e : Threads.Op × Res} {rest : List (Threads.Op × Res)} (hv : v.todo = e :: rest) :
    SoundRun S c up { v with todo := rest } ∧ FitsRun S c up e := by
  refine ⟨⟨fun x hx => h.1 x ?_, h.2⟩, h.1 e ?_⟩
  · rw [hv]; exact List.mem_cons_of_mem _ hx
  · rw [hv]; exact List.mem_cons_self ..

theorem sound_find {v : Replay} (h : SoundRun S c up v) (k : Str) :
    SoundRun S c up (find k v).2 ∧ ∀ x, (find k v).1 = some x → Right S (Chain.cond c up) k x.1 := by
  unfold find
  split
  · rename_i k' x rest hv
    obtain ⟨h1, h2⟩ := sound_rest h hv
    split
    · rename_i hk
      refine ⟨h1, fun y hy => ?_⟩
      simp only at hy
      subst hy hk
      exact h2
    · exact ⟨sound_wait h trivial, fun _ hy => (nomatch hy)⟩
  · exact ⟨sound_wait h trivial, fun _ hy => (nomatch hy)⟩

theorem sound_keep {v : Replay} (h : SoundRun S c up v) {k : Str} {m : Msg} (hk : Right S (Chain.cond c up) k m) (ttl : Int) :
    SoundRun S c up (keep k m ttl v) := by
  unfold keep
  split
  · rename_i hv
    exact (sound_rest h hv).1
  · exact sound_wait h hk

theorem sound_findNames {v : Replay} (h : SoundRun S c up v) (k : Str) :
    SoundRun S c up (findNames k v).2 ∧ ∀ x, (findNames k v).1 = some x → NamesOf c k x := by
  unfold findNames
  split
  · rename_i k' x rest hv
    obtain ⟨h1, h2⟩ := sound_rest h hv
    split
    · rename_i hk
      refine ⟨h1, fun y hy => ?_⟩
      simp only at hy
      subst hy hk
      exact h2
    · exact ⟨sound_wait h trivial, fun _ hy => (nomatch hy)⟩
  · exact ⟨sound_wait h trivial, fun _ hy => (nomatch hy)⟩

theorem sound_keepNames {v : Replay} (h : SoundRun S c up v) {k : Str} {l : List Str} (hk : NamesOf c k l) : SoundRun S c up (keepNames k l v) := by
  unfold keepNames
  split
  · rename_i hv
    exact (sound_rest h hv).1
  · exact sound_wait h hk

theorem sound_log {v : Replay} (h : SoundRun S c up v) (e : QueryLogFile.LogEntry) : SoundRun S c up (log e v) := by
  unfold log
  split
  · rename_i hv
    exact (sound_rest h hv).1
  · exact sound_wait h trivial

theorem sound_ask {v : Replay} (h : SoundRun S c up v) {n : Dns.Resolver Unit} {z : Option Str} (r : Request) (he : (n r ()).1 = expected c up z r) :
    SoundRun S c up (ask n z r v).2 ∧ LikeOut (ask n z r v).1 (n r ()).1 := by
  unfold ask
  split
  · rename_i z' r' o rest hv
    obtain ⟨h1, h2⟩ := sound_rest h hv
    split
    · rename_i hk
      obtain ⟨rfl, rfl⟩ := hk
      refine ⟨h1, ?_⟩
      rw [he]
      exact h2
    · exact ⟨sound_wait h trivial, LikeOut.refl _⟩
  · exact ⟨sound_wait h trivial, LikeOut.refl _⟩

theorem sound_askNames {v : Replay} (h : SoundRun S c up v) {l : ClientNames.Lookup (Caching.CState × Unit)} (hl : c.namesLookup = some l) (ip : IP) :
    SoundRun S c up (askNames l ip v).2 ∧ (askNames l ip v).1 = (l ip (noCache, ())).1 := by
  unfold askNames
  split
  · rename_i ip' x rest hv
    obtain ⟨h1, h2⟩ := sound_rest h hv
    split
    · rename_i hk
      subst hk
      exact ⟨h1, h2 l hl⟩
    · exact ⟨sound_wait h trivial, rfl⟩
  · exact ⟨sound_wait h trivial, rfl⟩

/-! ### Behind the cache -/

theorem zones_get (m : AMap Str (Dns.Resolver Unit)) (z : Str) : AMap.get (zones m) z = (AMap.get m z).map (fun n => ask n (some z)) := by
  unfold zones
  induction m with
  | nil => rfl
  | cons e m ih =>
    obtain ⟨k, n⟩ := e
    rw [List.map_cons, AMap.get, AMap.get, ih]
    split
    · rename_i hk
      subst hk
      rfl
    · rfl

theorem zones_walk (m : AMap Str (Dns.Resolver Unit)) : ∀ (k : Nat) (d : Str),
    walk (AMap.get (zones m)) k d = (walk (AMap.get m) k d).map (fun x => (x.1, ask x.2 (some x.1))) := by
  intro k
  induction k with
  | zero => intro d; rfl
  | succ k ih =>
    intro d
    unfold walk
    split
    · rfl
    · rw [zones_get]
      cases AMap.get m d with
      | some n => rfl
      | none =>
        simp only [Option.map_none]
        cases afterDot d with
        | some d' => exact ih d'
        | none => rfl

theorem zones_lookup (m : AMap Str (Dns.Resolver Unit)) (d : Str) :
    (∃ z n, AMap.get m z = some n ∧ Cond.lookup m d = some n ∧ Cond.lookup (zones m) d = some (ask n (some z))) ∨
    (Cond.lookup m d = none ∧ Cond.lookup (zones m) d = none) := by
  unfold Cond.lookup
  split
  · rw [zones_walk]
    cases hw : walk (AMap.get m) (d.length + 1) d with
    | none => exact .inr ⟨rfl, rfl⟩
    | some x => exact .inl ⟨x.1, x.2, (walk_some hw).2.2.1, rfl, rfl⟩
  · rw [zones_get]
    cases hg : AMap.get m (str! ".") with
    | none => exact .inr ⟨rfl, rfl⟩
    | some n => exact .inl ⟨_, n, hg, rfl, rfl⟩

theorem shows_condT (hr : c.condRewrite.rewrite = []) : Shows S (SoundRun S c up) (Threads.cond c up) (Chain.cond c up) := by
  intro r m m' v v' hp hm hm' hv
  have hnear := near_cond c up r m' v' hp.some
  have htail : ∀ w, NearM (Chain.toM (Threads.tail c w)) := by
    intro w r v hr
    show Near (Threads.tail c w r (r.req, v)).2.1 r.req
    unfold Threads.tail Small.sudn
    split
    · exact near_refl hr
    · split
      · exact near_refl hr
      · split <;> exact near_refl hr
  have ht : LikeOut (Threads.tail c up r (r.req, v)).1 (Chain.tail c up r (r.req, v')).1 ∧ SoundRun S c up (Threads.tail c up r (r.req, v)).2.2 := by
    have h1 := sound_ask hv (n := up) (z := none) r rfl
    unfold Threads.tail Chain.tail Small.sudn
    split
    · exact ⟨h1.2, h1.1⟩
    · split
      · exact ⟨rfl, hv⟩
      · split
        · exact ⟨LikeOut.refl _, hv⟩
        · exact ⟨h1.2, h1.1⟩
  have hnear1 : Near (Threads.cond c up r (m, v)).2.1 r.req := by
    have : NearM (Cond.newRewriter c.condRewrite c.condOrder (Cond.conditional (zones c.condMapping)) (Chain.toM (Threads.tail c up))) := by
      unfold Cond.newRewriter
      split
      · exact near_conditional _ (htail up)
      · exact near_rewriter _ _ (near_conditional _ (fun r w hr => near_refl hr)) (htail up)
    exact this r v hp.some
  suffices h : LikeOut (Threads.cond c up r (m, v)).1 (Chain.cond c up r (m', v')).1 ∧ SoundRun S c up (Threads.cond c up r (m, v)).2.2 from
    ⟨h.1, hnear1, hnear, h.2⟩
  obtain ⟨q, hq, hs⟩ := hp
  unfold Threads.cond Chain.cond Chain.ofM Cond.newRewriter
  simp only
  rw [if_pos (by rw [hr]; rfl), if_pos (by rw [hr]; rfl)]
  unfold Cond.conditional
  have hlen : (zones c.condMapping).length = c.condMapping.length := by unfold zones; exact List.length_map _
  rw [hlen]
  split
  · rw [hq]
    simp only
    rcases zones_lookup c.condMapping (extractDomain q.name) with ⟨z, n, h1, h2, h3⟩ | ⟨h2, h3⟩
    · rw [h2, h3]
      simp only
      have := sound_ask hv (n := n) (z := some z)
        { r with req := { r.req with question := Cond.setName (fqdn (extractDomain q.name)) r.req.question } }
        (by unfold expected; simp only [h1])
      unfold Cond.internalResolve
      simp only
      revert this
      generalize ask n (some z) _ v = y
      generalize n _ () = y'
      obtain ⟨o, v1⟩ := y
      obtain ⟨o', v1'⟩ := y'
      rintro ⟨g1, g2⟩
      cases o with
      | ok a =>
        cases o' with
        | ok a' => exact ⟨⟨g2.1, g2.2, g2.3, g2.4⟩, g1⟩
        | _ => cases g2
      | err e =>
        cases o' with
        | err e' => exact ⟨g2, g1⟩
        | _ => cases g2
      | noResponse =>
        cases o' with
        | noResponse => exact ⟨rfl, g1⟩
        | _ => cases g2
      | panic =>
        cases o' with
        | panic => exact ⟨rfl, g1⟩
        | _ => cases g2
    · rw [h2, h3]
      exact ht
  · exact ht

/-! ### The cache -/

theorem sound_keepAll (env : Caching.Env) (cfg : Caching.Cfg) {k : Str} {r : Response} (hr : ∀ m, Like m r.res → Right S (Chain.cond c up) k m)
    (ttl : Int) {v : Replay} (h : SoundRun S c up v) : SoundRun S c up (keepAll (Caching.putOps env cfg k (Caching.adjusted cfg r).res ttl) v) := by
  have hput : ∀ ttl, SoundRun S c up (keep k (removeEdns0Record (Caching.adjusted cfg r).res) ttl v) := fun ttl =>
    sound_keep h (hr _ ((like_removeEdns _).trans (like_adjusted cfg r))) ttl
  unfold Caching.putOps
  simp only
  split
  · split
    · exact hput _
    · split
      · split
        · exact hput _
        · exact h
      · exact h
  · exact h

theorem shows_cachingT {n : Chain.MR Replay} (hn : Shows S (SoundRun S c up) n (Chain.cond c up)) (hst : Steady S (Chain.cond c up))
    (hf : Firm (Chain.cond c up)) (env env' : Caching.Env) (cfg : Caching.Cfg) {cfg' : Caching.Cfg} (hoff : cfg'.enabled = false) :
    Shows S (SoundRun S c up) (Threads.caching env cfg n) (Chain.caching env' cfg' (Chain.cond c up)) := by
  intro r m m' v v' hr hm hm' hv
  obtain ⟨s', w'⟩ := v'
  have e' : Chain.caching env' cfg' (Chain.cond c up) r (m', (s', w')) =
      ((Chain.cond c up r (m', w')).1, ((Chain.cond c up r (m', w')).2.1, (s', (Chain.cond c up r (m', w')).2.2))) := by
    unfold Chain.caching Caching.resolve
    simp [hoff]
  rw [e']
  unfold Threads.caching
  by_cases hcb : (!cfg.enabled || !Caching.isRequestCacheable r.req) = true
  · rw [if_pos hcb]
    exact hn r m m' v w' hr hm hm' hv
  · rw [if_neg hcb]
    have hr' := hr
    obtain ⟨q, hq, hp⟩ := hr'
    rw [hq]
    unfold Threads.cachingLoop
    have h1 := sound_find hv (Caching.questionKey q)
    revert h1
    simp only
    generalize Threads.find (Caching.questionKey q) v = y
    obtain ⟨found, v1⟩ := y
    rintro ⟨h1, h2⟩
    have hn' := hn r m m' v1 w' hr hm hm' h1
    cases found with
    | some x =>
      obtain ⟨res, ttl⟩ := x
      obtain ⟨a, ha, hl⟩ := (h2 (res, ttl) rfl).2 r q (m', w') hq hp rfl
      refine ⟨?_, hm, hn'.2.2.1, h1⟩
      rw [ha]
      exact (like_hit _ _ _).trans hl
    | none =>
      have hf' := hf r (m', w') hr.some
      have hright : ∀ a, (Chain.cond c up r (m', w')).1 = .ok a → ∀ x, Like x a.res → Right S (Chain.cond c up) (Caching.questionKey q) x :=
        fun a ha x hx => right_of hst hq hp (fun q' _ hk => sameQuestion_of_key hk.symm) ⟨q, hp, rfl⟩ ha hx
      revert hn' hf' hright
      simp only
      generalize n r (m, v1) = z
      generalize Chain.cond c up r (m', w') = z'
      obtain ⟨o, m2, v2⟩ := z
      obtain ⟨o', m2', v2'⟩ := z'
      rintro ⟨g1, g2, g3, g4⟩ hf' hright
      cases o' with
      | ok a' =>
        cases o with
        | ok a =>
          have g1 : Like a.res a'.res := g1
          exact ⟨(like_adjusted cfg a).trans g1, g2, g3, sound_keepAll env cfg (fun x hx => hright a' rfl x (hx.trans g1)) _ g4⟩
        | _ => cases g1
      | err e' =>
        cases o with
        | err e => exact ⟨g1, g2, g3, g4⟩
        | _ => cases g1
      | noResponse => exact absurd rfl hf'.2
      | panic => exact absurd rfl hf'.1

/-! ### In front of the cache -/

theorem sound_resolveNames {v : Replay} (h : SoundRun S c up v) (ip : IP) :
    SoundRun S c up (ClientNames.resolveClientNames c.names (c.namesLookup.map askNames) ip v).2 ∧
    (ClientNames.resolveClientNames c.names (c.namesLookup.map askNames) ip v).1 =
      (ClientNames.resolveClientNames c.names c.namesLookup ip (noCache, ())).1 := by
  unfold ClientNames.resolveClientNames
  split
  · exact ⟨h, rfl⟩
  · cases hl : c.namesLookup with
    | none => exact ⟨h, rfl⟩
    | some l =>
      have := sound_askNames h hl ip
      simp only [Option.map_some]
      revert this
      generalize askNames l ip v = y
      generalize l ip (noCache, ()) = y'
      obtain ⟨o, v1⟩ := y
      obtain ⟨o', v1'⟩ := y'
      rintro ⟨g1, g2⟩
      simp only at g2
      subst g2
      cases o with
      | none => exact ⟨g1, rfl⟩
      | some a => simp only; split <;> exact ⟨g1, rfl⟩

theorem sound_getNames (hinj : ∀ a b, c.names.ipString a = c.names.ipString b → a = b) (hl : MemorylessNames c.namesLookup) {v : Replay}
    (h : SoundRun S c up v) (r : Request) :
    SoundRun S c up (getNames c.names (c.namesLookup.map askNames) r v).2 ∧
    (getNames c.names (c.namesLookup.map askNames) r v).1 =
      if r.requestClientID ≠ [] then [r.requestClientID]
      else match r.clientIP with
        | none => []
        | some ip => (ClientNames.resolveClientNames c.names c.namesLookup ip (noCache, ())).1 := by
  unfold getNames
  split
  · exact ⟨h, rfl⟩
  · cases r.clientIP with
    | none => exact ⟨h, rfl⟩
    | some ip =>
      simp only
      have h1 := sound_findNames h (c.names.ipString ip)
      revert h1
      generalize findNames (c.names.ipString ip) v = y
      obtain ⟨found, v1⟩ := y
      rintro ⟨h1, h2⟩
      cases found with
      | some l =>
        obtain ⟨ip', w, e1, e2⟩ := h2 l rfl
        refine ⟨h1, ?_⟩
        simp only
        rw [e2, hinj _ _ e1]
        exact resolveNames_same hl ip w (noCache, ())
      | none =>
        obtain ⟨g1, g2⟩ := sound_resolveNames h1 ip
        exact ⟨sound_keepNames g1 ⟨ip, (noCache, ()), rfl, g2⟩, g2⟩

theorem shows_queryLogT {V : Type} (cfg : QueryLog.Cfg) (env : QueryLog.Env) (start duration : Int) {n : Chain.MR Replay} {n' : Chain.MR V}
    (h : Shows S (SoundRun S c up) n n') :
    Shows S (SoundRun S c up) (Chain.ofM (Threads.queryLog cfg env start duration (Chain.toM n))) (Chain.queryLog cfg env start duration n') := by
  refine shows_ofM ?_
  intro r v v' hr hv
  have hn := shows_toM h r v v'.2 hr hv
  unfold Threads.queryLog QueryLog.resolve
  revert hn
  generalize Chain.toM n r v = y
  generalize Chain.toM n' r v'.2 = y'
  obtain ⟨o, m1, v1⟩ := y
  obtain ⟨o', m1', v1'⟩ := y'
  rintro ⟨h1, h2, h3, h4⟩
  simp only at h2 h3 h4
  cases o with
  | ok a =>
    cases o' with
    | ok a' =>
      obtain ⟨e, he⟩ := fillFields_ok env r m1 h2.2.1 a duration cfg.fields (QueryLog.emptyEntry env start)
      obtain ⟨e', he'⟩ := fillFields_ok env r m1' h3.2.1 a' duration cfg.fields (QueryLog.emptyEntry env start)
      have he : QueryLog.createLogEntry cfg env r m1 a start duration = some e := he
      have he' : QueryLog.createLogEntry cfg env r m1' a' start duration = some e' := he'
      simp only [he, he']
      cases QueryLog.ignore cfg a <;> cases QueryLog.ignore cfg a' <;>
        first | exact ⟨h1, h2, h3, h4⟩ | exact ⟨h1, h2, h3, sound_log h4 e⟩
    | _ => cases h1
  | err e =>
    cases o' with
    | err e' => exact ⟨h1, h2, h3, h4⟩
    | _ => cases h1
  | noResponse =>
    cases o' with
    | noResponse => exact ⟨rfl, h2, h3, h4⟩
    | _ => cases h1
  | panic =>
    cases o' with
    | panic => exact ⟨rfl, h2, h3, h4⟩
    | _ => cases h1

theorem sound_custom (c1 : Chain.Config E Unit) (r : Request) (v : Replay) (hv : SoundRun S c up v) :
    SoundRun S c up (Chain.toM (Chain.customDns c1.customEnv c1.customMapping c1.customReverse c1.customDepth
      (Chain.ofM (fun request w => (.noResponse, request.req, w)))) r v).2.2 :=
  kept_customDns (P := SoundRun S c up) _ _ _ _ (kept_ofM (P := SoundRun S c up) (fun _ _ hw => hw)) r (r.req, v) hv

theorem shows_observedT {c' : Chain.Config E Unit} (hc : Uncached c c') (h : SteadyWorld S c up) (hr : c.condRewrite.rewrite = []) :
    Shows S (SoundRun S c up) (Threads.observed c up) (Chain.observed c' up) := by
  have hrest := hc.rest
  have hoff : c'.cache.enabled = false := by
    have := hc.off
    simp only [Caching.Cfg.enabled, decide_eq_false_iff_not]
    omega
  have hcond : Chain.cond c' up = Chain.cond c up := by rw [hrest]; rfl
  have hb : Shows S (SoundRun S c up) (Threads.block c up) (Chain.block c' up) := by
    unfold Threads.block Chain.block
    rw [hcond]
    have e1 : c'.blockEnv = c.blockEnv := by rw [hrest]
    have e2 : c'.blockState = c.blockState := by rw [hrest]
    rw [e1, e2]
    exact shows_blocking _ _ (shows_cachingT (shows_condT hr) h.steady (firm_cond c h.condFirm h.firm) _ _ _ hoff)
  have hl : Shows S (SoundRun S c up) (Threads.locally c up) (Chain.local c' up) := by
    unfold Threads.locally Chain.local
    have e1 : c'.customRewrite = c.customRewrite := by rw [hrest]
    have e2 : c'.customOrder = c.customOrder := by rw [hrest]
    have e3 : c'.customEnv = c.customEnv := by rw [hrest]
    have e4 : c'.customMapping = c.customMapping := by rw [hrest]
    have e5 : c'.customReverse = c.customReverse := by rw [hrest]
    have e6 : c'.customDepth = c.customDepth := by rw [hrest]
    have e7 : c'.hostsEnabled = c.hostsEnabled := by rw [hrest]
    have e8 : c'.hostsCfg = c.hostsCfg := by rw [hrest]
    have e9 : c'.hosts = c.hosts := by rw [hrest]
    have e10 : c'.hostsOrder4 = c.hostsOrder4 := by rw [hrest]
    have e11 : c'.hostsOrder6 = c.hostsOrder6 := by rw [hrest]
    rw [e1, e2, e3, e4, e5, e6, e7, e8, e9, e10, e11]
    have hh := shows_toM (shows_hosts c.hostsEnabled c.hostsCfg c.hosts c.hostsOrder4 c.hostsOrder6 hb)
    refine shows_ofM ?_
    unfold Cond.newRewriter
    split
    · exact shows_toM (shows_customDns _ h.aliases _ _ (shows_ofM hh))
    · refine shows_rewriter _ _ ?_ (fun r v => customDns_leaves _ _ _ _ r v) (fun r v hv => sound_custom c r v hv) hh
      exact fun r v v' => sees_customBoth _ _ _ _ (n := Chain.ofM (fun request w => (.noResponse, request.req, w)))
        (n' := Chain.ofM (fun request w => (.noResponse, request.req, w))) (fun _ _ _ _ => ⟨rfl, rfl⟩) r (r.req, v) (r.req, v') rfl
  unfold Threads.observed Chain.observed
  have e1 : c'.ede = c.ede := by rw [hrest]
  have e2 : c'.log = c.log := by rw [hrest]
  have e3 : c'.logEnv = c.logEnv := by rw [hrest]
  have e4 : c'.logStart = c.logStart := by rw [hrest]
  have e5 : c'.logDuration = c.logDuration := by rw [hrest]
  have e6 : c'.metrics = c.metrics := by rw [hrest]
  rw [e1, e2, e3, e4, e5, e6]
  exact shows_ede _ (shows_queryLogT _ _ _ _ (shows_metrics _ hl))

theorem whole_showsT {c' : Chain.Config E Unit} (hc : Uncached c c') (h : SteadyWorld S c up) (hr0 : c.condRewrite.rewrite = []) (r : Request)
    (hr : Plain S r.req) (v : Replay) (w' : Chain.World Unit) (hv : SoundRun S c up v) (hw' : NamesSound c.names c.namesLookup w'.1) :
    LikeOut (Threads.whole c up r (r.req, v)).1 (Chain.whole c' up r (r.req, w')).1 ∧
    Near (Threads.whole c up r (r.req, v)).2.1 (Chain.whole c' up r (r.req, w')).2.1 ∧ SoundRun S c up (Threads.whole c up r (r.req, v)).2.2 := by
  obtain ⟨cn', q', s', w'⟩ := w'
  have hrest := hc.rest
  have hobs := shows_observedT hc h hr0
  have e1 : c'.filterTypes = c.filterTypes := by rw [hrest]
  have e2 : c'.fqdnOnly = c.fqdnOnly := by rw [hrest]
  have e3 : c'.ecs = c.ecs := by rw [hrest]
  have e4 : c'.names = c.names := by rw [hrest]
  have e5 : c'.namesLookup = c.namesLookup := by rw [hrest]
  have hecs : LikeOut
        (Chain.ecs c.ecs (Threads.clientNames c.names (c.namesLookup.map askNames) (Threads.observed c up)) r (r.req, v)).1
        (Chain.ecs c.ecs (Chain.clientNames c.names (c.namesLookup.map Chain.liftLookup) (Chain.observed c' up)) r (r.req, (cn', q', s', w'))).1 ∧
      Near (Chain.ecs c.ecs (Threads.clientNames c.names (c.namesLookup.map askNames) (Threads.observed c up)) r (r.req, v)).2.1
        (Chain.ecs c.ecs (Chain.clientNames c.names (c.namesLookup.map Chain.liftLookup) (Chain.observed c' up)) r (r.req, (cn', q', s', w'))).2.1 ∧
      SoundRun S c up (Chain.ecs c.ecs (Threads.clientNames c.names (c.namesLookup.map askNames) (Threads.observed c up)) r (r.req, v)).2.2 := by
    unfold Chain.ecs
    cases ht : Ecs.transform c.ecs r with
    | none => exact ⟨rfl, near_refl hr.some, hv⟩
    | some r1 =>
      have hr1 : Plain S r1.req := by
        obtain ⟨q, h1, h2⟩ := hr
        exact ⟨q, by rw [ecs_question ht, h1], h2⟩
      simp only [Chain.clientNames, Threads.clientNames, withNames_lift]
      obtain ⟨k1, k2⟩ := sound_getNames h.addresses h.names hv r1
      have k3 := getNames_same h.addresses h.names hw' r1 (s', w') (noCache, ())
      unfold ClientNames.withNames
      revert k1 k2 k3
      generalize getNames c.names (c.namesLookup.map askNames) r1 v = y
      generalize ClientNames.getClientNames c.names c.namesLookup r1 cn' (s', w') = y'
      obtain ⟨l, v2⟩ := y
      obtain ⟨l', cn2', v2'⟩ := y'
      intro k1 k2 k3
      simp only at k1 k2 k3
      have k4 : l = l' := k2.trans k3.symm
      subst k4
      have hnear : Near r1.req r1.req := near_refl hr1.some
      obtain ⟨g1, g2, g3, g4⟩ := hobs { r1 with clientNames := l } r1.req r1.req v2 (q', v2') hr1 hnear hnear k1
      exact ⟨g1, g2.trans g3.symm, g4⟩
  unfold Threads.whole Chain.whole
  rw [e1, e2, e3, e4, e5]
  unfold Small.filtering
  split
  · exact ⟨rfl, near_refl hr.some, hv⟩
  · split
    · exact ⟨LikeOut.refl _, near_refl hr.some, hv⟩
    · unfold Small.fqdnOnly
      split
      · split
        · exact ⟨rfl, near_refl hr.some, hv⟩
        · split
          · exact ⟨LikeOut.refl _, near_refl hr.some, hv⟩
          · exact hecs
      · exact hecs

/-! ### A query, a refresh -/

theorem serve_showsT (senv : Server.Env) {c' : Chain.Config E Unit} (hc : Uncached c c') (h : SteadyWorld S c up) (hr0 : c.condRewrite.rewrite = [])
    (remote : Server.Addr) (sni : Option Str) (msg : Msg) (hm : Plain S msg) (v : Replay) (w' : Chain.World Unit) (hv : SoundRun S c up v)
    (hw' : NamesSound c.names c.namesLookup w'.1) :
    SameReply senv (Threads.serve senv c up remote sni msg v).1 (Chain.serve senv c' up remote sni msg w').1 := by
  unfold Threads.serve Chain.serve
  refine onRequest_shows senv remote sni msg hm v w' (fun r _ hr => ?_)
  have key := whole_showsT hc h hr0 r hr v w' hv hw'
  exact ⟨key.1, key.2.1⟩

theorem serve_sound (senv : Server.Env) (h : SteadyWorld S c up) (hr0 : c.condRewrite.rewrite = []) (remote : Server.Addr) (sni : Option Str)
    (msg : Msg) (hm : Plain S msg ∨ msg.question = []) (v : Replay) (hv : SoundRun S c up v) :
    SoundRun S c up (Threads.serve senv c up remote sni msg v).2 := by
  have hreq : (Server.newRequestFromDNS remote sni msg).req = msg := rfl
  unfold Threads.serve Server.onRequest Server.handleReq Server.resolve
  revert hreq
  generalize Server.newRequestFromDNS remote sni msg = r
  intro hreq
  rcases hm with hm | hm
  · have hr : Plain S r.req := by rw [hreq]; exact hm
    have key := (whole_showsT (c' := { c with cache := { c.cache with maxTime := -1 } }) ⟨rfl, show (-1 : Int) < 0 by decide⟩ h hr0 r hr v
      (⟨newCache 0, 0⟩, {}, noCache, ()) hv (namesSound_fresh rfl)).2.2
    have key : SoundRun S c up (Chain.toM (Threads.whole c up) r v).2.2 := key
    obtain ⟨q, hq, _⟩ := hr
    rw [hq]
    simp only
    revert key
    generalize Chain.toM (Threads.whole c up) r v = y
    obtain ⟨o, m1, v1⟩ := y
    intro key
    cases o with
    | err e => simp only; cases senv.asUpstream e <;> exact key
    | _ => exact key
  · rw [hreq, hm]
    exact hv

theorem right_like {V : Type} {n : Dns.Resolver V} {k : Str} {m m' : Msg} (h : Right S n k m') (hl : Like m m') : Right S n k m :=
  ⟨h.1, fun r q v hq hs hk => by
    obtain ⟨a, h1, h2⟩ := h.2 r q v hq hs hk
    exact ⟨a, h1, hl.trans h2⟩⟩

theorem refresh_sound (h : SteadyWorld S c up) (hr0 : c.condRewrite.rewrite = []) {k : Str} (hk : ∃ q, S q ∧ Caching.questionKey q = k) (v : Replay)
    (hv : SoundRun S c up v) : SoundRun S c up (Threads.refresh c up k v) := by
  have hright := fun m ttl => right_reload h.manner h.steady { c.cacheEnv with packs := fun _ => true } c.cache hk ({}, ()) m ttl
  obtain ⟨q, hp, rfl⟩ := hk
  unfold Threads.refresh
  unfold Caching.reload at hright ⊢
  have hx : Caching.extractKey (Caching.questionKey q) = some (q.qtype % 65536, extractDomain q.name) := by
    unfold Caching.questionKey Caching.cacheKey Caching.extractKey
    simp only
    rw [byteChar (by omega), byteChar (by omega), lower_extractDomain]
    congr 2
    omega
  rw [hx] at hright ⊢
  simp only at hright ⊢
  have hd : fqdn (extractDomain q.name) = extractDomain q.name ++ ['.'] := by
    unfold fqdn
    rw [if_neg (h.manner.proper q hp)]
  have hd2 : fqdn (fqdn (extractDomain q.name)) = fqdn (extractDomain q.name) := by
    rw [hd]
    unfold fqdn
    rw [if_pos (by simp)]
  have hplain : Plain S (Caching.reloadRequest c.cacheEnv (q.qtype % 65536) (extractDomain q.name)).req := by
    refine ⟨_, rfl, h.manner.again q _ hp ?_ (.inr rfl)⟩
    exact hd2
  have key : LikeOut (Threads.cond c up (Caching.reloadRequest c.cacheEnv (q.qtype % 65536) (extractDomain q.name)) ({}, v)).1
      (Chain.cond c up (Caching.reloadRequest c.cacheEnv (q.qtype % 65536) (extractDomain q.name)) ({}, ())).1 ∧
      SoundRun S c up (Threads.cond c up (Caching.reloadRequest c.cacheEnv (q.qtype % 65536) (extractDomain q.name)) ({}, v)).2.2 := by
    have := shows_toM (shows_condT (S := S) (up := up) hr0) (Caching.reloadRequest c.cacheEnv (q.qtype % 65536) (extractDomain q.name)) v () hplain hv
    exact ⟨this.1, this.2.2.2⟩
  have e : Caching.reloadRequest { c.cacheEnv with packs := fun _ => true } (q.qtype % 65536) (extractDomain q.name) =
    Caching.reloadRequest c.cacheEnv (q.qtype % 65536) (extractDomain q.name) := rfl
  rw [e] at hright
  revert key hright
  generalize Threads.cond c up _ ({}, v) = y
  generalize Chain.cond c up _ ({}, ()) = y'
  obtain ⟨o, m1, v1⟩ := y
  obtain ⟨o', m1', v1'⟩ := y'
  intro hright key
  obtain ⟨g1, g2⟩ := key
  cases o with
  | ok a =>
    cases o' with
    | ok a' =>
      have g1 : Like a.res a'.res := g1
      simp only at hright ⊢
      rw [← g1.rcode] at hright
      by_cases hc : (a.res.rcode == rcodeSuccess) = true
      · rw [if_pos hc] at hright ⊢
        by_cases hpk : c.cacheEnv.packs a.res = true
        · rw [if_pos hpk]
          exact sound_keep g2 (right_like (hright _ _ rfl) g1) _
        · rw [if_neg hpk]; exact g2
      · rw [if_neg hc]; exact g2
    | _ => cases g1
  | _ => exact g2

/-! ### Executions -/

/-- The settings at another moment: the same upstreams - also conditional ones - and settings of client names; lists, custom DNS, hosts
files, settings of the cache, … may be others. -/
structure SameUpstreams (S : Question → Prop) (c c1 : Chain.Config E Unit) : Prop where
  condRewrite : c1.condRewrite = c.condRewrite
  condOrder : c1.condOrder = c.condOrder
  condMapping : c1.condMapping = c.condMapping
  sudn : c1.sudn = c.sudn
  names : c1.names = c.names
  namesLookup : c1.namesLookup = c.namesLookup
  aliases : ProperAliases S c1.customMapping

theorem SameUpstreams.behind {c1 : Chain.Config E Unit} (h : SameUpstreams S c c1) : SameBehind S c up (c1, up, .flush) :=
  ⟨rfl, h.condRewrite, h.condOrder, h.condMapping, h.sudn, h.names, h.namesLookup, h.aliases⟩

theorem SameUpstreams.sound {c1 : Chain.Config E Unit} (h : SameUpstreams S c c1) : SoundRun S c1 up = SoundRun S c up := by
  have h1 : Chain.cond c1 up = Chain.cond c up := SameBehind.cond (h.behind (up := up))
  have h2 : expected c1 up = expected c up := by
    funext z r
    unfold expected
    rw [h.condMapping]
  have h3 : NamesOf c1 = NamesOf c := by
    funext k l
    unfold NamesOf
    rw [h.names, h.namesLookup]
  have h4 : FitsRun S c1 up = FitsRun S c up := by
    funext e
    obtain ⟨op, res⟩ := e
    unfold FitsRun
    rw [h1, h2, h3, h.namesLookup]
  have h5 : WantedStep S c1 up = WantedStep S c up := by
    funext op
    unfold WantedStep
    rw [h1, h3]
  funext v
  unfold SoundRun
  rw [h4, h5]

/-- What goroutines are for: queries with one question (or none); refreshing an answer. -/
def Asked (S : Question → Prop) : Job E → Prop
  | .query _ _ _ msg => Plain S msg ∨ msg.question = []
  | .refresh _ k => ∃ q, S q ∧ Caching.questionKey q = k

/-- The caches have what was looked up, and goroutines only know of that. -/
structure OrderlySys (S : Question → Prop) (c : Chain.Config E Unit) (up : Dns.Resolver Unit) (s : Sys E) : Prop where
  names : NamesSound c.names c.namesLookup s.names
  cache : CacheRight S (Chain.cond c up) s.cache
  threads : ∀ t ∈ s.threads, SameUpstreams S c t.job.config ∧ Asked S t.job ∧ ∀ e ∈ t.made, FitsRun S c up e

/-- What may happen: queries with one question (or none), refreshing, time passing, …, under any settings with the same upstreams; upstreams
answer as always, but for TTLs and letter case. -/
def Regular (S : Question → Prop) (senv : Server.Env) (c : Chain.Config E Unit) (up : Dns.Resolver Unit) (s : Sys E) : Threads.Ev E → Prop
  | .query c1 _ _ msg => SameUpstreams S c c1 ∧ (Plain S msg ∨ msg.question = [])
  | .refresh c1 _ => SameUpstreams S c c1
  | .move i o x => ∀ t, s.threads[i]? = some t →
      (∀ z r, t.next senv up = some (.ask z r) → LikeOut o (expected c up z r)) ∧
      (∀ ip l, t.next senv up = some (.askNames ip) → c.namesLookup = some l → x = (l ip (noCache, ())).1)
  | _ => True

/-- All of what happens. -/
def RegularRun (S : Question → Prop) (senv : Server.Env) (c : Chain.Config E Unit) (up : Dns.Resolver Unit) : Sys E → List (Threads.Ev E) → Prop
  | _, [] => True
  | s, e :: es => Regular S senv c up s e ∧ RegularRun S senv c up (advance senv up s e) es

theorem thread_sound (senv : Server.Env) (h : SteadyWorld S c up) (hr0 : c.condRewrite.rewrite = []) {t : Thread E}
    (ht : SameUpstreams S c t.job.config ∧ Asked S t.job ∧ ∀ e ∈ t.made, FitsRun S c up e) : SoundRun S c up (t.run senv up).2 := by
  obtain ⟨h1, h2, h3⟩ := ht
  have hv : SoundRun S c up { todo := t.made } := ⟨h3, fun _ hx => (nomatch hx)⟩
  unfold Thread.run
  cases hj : t.job with
  | query c1 remote sni msg =>
    rw [hj] at h1 h2
    have h1 : SameUpstreams S c c1 := h1
    rw [← h1.sound] at hv ⊢
    exact serve_sound senv (SameBehind.world (h1.behind (up := up)) h) (by rw [h1.condRewrite]; exact hr0) remote sni msg h2 _ hv
  | refresh c1 k =>
    rw [hj] at h1 h2
    have h1 : SameUpstreams S c c1 := h1
    rw [← h1.sound] at hv ⊢
    exact refresh_sound (SameBehind.world (h1.behind (up := up)) h) (by rw [h1.condRewrite]; exact hr0) h2 _ hv

theorem orderly_perform {s : Sys E} (hs : OrderlySys S c up s) (c1 : Chain.Config E Unit) (o : Outcome) (x : Option (List RR)) {op : Threads.Op}
    (hw : WantedStep S c up op) (ho : ∀ z r, op = .ask z r → LikeOut o (expected c up z r))
    (hx : ∀ ip l, op = .askNames ip → c.namesLookup = some l → x = (l ip (noCache, ())).1) :
    NamesSound c.names c.namesLookup (perform c1 s o x op).2.names ∧ CacheRight S (Chain.cond c up) (perform c1 s o x op).2.cache ∧
    FitsRun S c up (op, (perform c1 s o x op).1) ∧ (perform c1 s o x op).2.threads = s.threads := by
  obtain ⟨hn, hc, _⟩ := hs
  have hn' : ∀ e ∈ s.names.cache.items, NamesOf c e.1 e.2.val := fun e he => by
    obtain ⟨ip, w, h1, h2⟩ := hn e.1 e.2 he
    exact ⟨ip, w, h1, h2⟩
  cases op with
  | find k =>
    refine ⟨hn, right_get hc c1.cache k, ?_, rfl⟩
    have := right_found hc c1.cache k
    show FitsRun S c up (.find k, .found (Caching.cacheGet c1.cache s.cache k).1)
    revert this
    generalize (Caching.cacheGet c1.cache s.cache k).1 = y
    intro this
    cases y with
    | none => trivial
    | some p => exact this p.1 p.2 rfl
  | keep k m ttl => exact ⟨hn, allPut hc hw _ _, trivial, rfl⟩
  | findNames k =>
    refine ⟨?_, hc, ?_, rfl⟩
    · intro k' el hm
      exact getAll (P := NamesOf c) hn' s.names.now k (k', el) hm
    · show FitsRun S c up (.findNames k, .names ((s.names.cache.get s.names.now k).1.map Prod.fst))
      unfold Cache.get
      cases hp : s.names.cache.peek k with
      | none => trivial
      | some el => exact hn' (k, el) (AMap.get_eq_some_mem hp)
  | keepNames k l =>
    refine ⟨?_, hc, trivial, rfl⟩
    intro k' el hm
    exact allPut (P := NamesOf c) hn' hw _ _ (k', el) hm
  | log e => exact ⟨hn, hc, trivial, rfl⟩
  | ask z r => exact ⟨hn, hc, ho z r rfl, rfl⟩
  | askNames ip => exact ⟨hn, hc, fun l hl => hx ip l rfl hl, rfl⟩

theorem orderly_advance (senv : Server.Env) (h : SteadyWorld S c up) (hr0 : c.condRewrite.rewrite = []) {s : Sys E} (hs : OrderlySys S c up s)
    (e : Threads.Ev E) (he : Regular S senv c up s e) : OrderlySys S c up (advance senv up s e) := by
  have hnew : ∀ j : Job E, SameUpstreams S c j.config → Asked S j → OrderlySys S c up { s with threads := s.threads ++ [{ job := j }] } := by
    intro j h1 h2
    refine ⟨hs.names, hs.cache, fun t ht => ?_⟩
    rcases List.mem_append.1 ht with ht | ht
    · exact hs.threads t ht
    · cases List.mem_singleton.1 ht
      exact ⟨h1, h2, fun _ hx => (nomatch hx)⟩
  cases e with
  | query c1 remote sni msg => exact hnew _ he.1 he.2
  | refresh c1 k =>
    unfold advance
    simp only
    split
    · rename_i hk
      refine hnew _ he ?_
      obtain ⟨x, hx, rfl⟩ := List.mem_map.1 (List.contains_iff_mem.1 hk)
      exact (hs.cache x hx).1
    · exact hs
  | move i o x =>
    unfold advance
    simp only
    cases ht : s.threads[i]? with
    | none => exact hs
    | some t =>
      simp only
      have hmem : t ∈ s.threads := List.mem_of_getElem? ht
      obtain ⟨he1, he2⟩ := he t ht
      cases hn : t.next senv up with
      | none => exact hs
      | some op =>
        simp only
        rw [hn] at he1 he2
        have hw : WantedStep S c up op := (thread_sound senv h hr0 (hs.threads t hmem)).2 op hn
        obtain ⟨g1, g2, g3, g4⟩ := orderly_perform hs t.job.config o x hw (fun z r hz => he1 z r (by rw [hz])) (fun ip l hz => he2 ip l (by rw [hz]))
        refine ⟨g1, g2, fun t' ht' => ?_⟩
        rcases List.mem_or_eq_of_mem_set ht' with ht' | rfl
        · exact hs.threads t' ht'
        · obtain ⟨k1, k2, k3⟩ := hs.threads t hmem
          refine ⟨k1, k2, fun e he => ?_⟩
          rcases List.mem_append.1 he with he | he
          · exact k3 e he
          · cases List.mem_singleton.1 he
            exact g3
  | pass d => exact ⟨hs.names, hs.cache, hs.threads⟩
  | drop k => exact ⟨hs.names, fun e he => hs.cache e (List.mem_filter.1 he).1, hs.threads⟩
  | dropNames k => exact ⟨fun k' el he => hs.names k' el (List.mem_filter.1 he).1, hs.cache, hs.threads⟩
  | flush => exact ⟨hs.names, fun e he => (nomatch he), hs.threads⟩
  | take => exact ⟨hs.names, hs.cache, hs.threads⟩
  | written => exact ⟨hs.names, hs.cache, hs.threads⟩

theorem orderly_execute (senv : Server.Env) (h : SteadyWorld S c up) (hr0 : c.condRewrite.rewrite = []) (es : List (Threads.Ev E)) :
    ∀ {s : Sys E}, OrderlySys S c up s → RegularRun S senv c up s es → OrderlySys S c up (execute senv up s es) := by
  induction es with
  | nil => exact fun hs _ => hs
  | cons e es ih => exact fun hs he => ih (orderly_advance senv h hr0 hs e he.1) he.2

/-- **C121.** A server started with empty caches, and any number of queries with one question, of any clients, handled at the same time: their
accesses to the caches and to the query log and their questions to upstreams come in any order, while time passes, entries are dropped
or refreshed, the cache is flushed, and lists, custom DNS, hosts files and settings of the cache change. If what is behind the cache is steady
- upstreams may change TTLs and letter case as they like -, a query is answered like by a server without cache that was just started
and never had another query: same response code and same records, but for TTLs and letter case. -/
theorem C121_undisturbed_partial (senv : Server.Env) (c : Chain.Config E Unit) (up : Dns.Resolver Unit) (h : SteadyWorld S c up)
    (hr0 : c.condRewrite.rewrite = []) (s0 : Sys E) (hs0 : s0.names.cache.items = [] ∧ s0.cache.main.cache.items = [] ∧ s0.threads = [])
    (es : List (Threads.Ev E)) (hes : RegularRun S senv c up s0 es) (t : Thread E) (ht : t ∈ (execute senv up s0 es).threads)
    (c1 c1' : Chain.Config E Unit) (remote : Server.Addr) (sni : Option Str) (msg : Msg) (hj : t.job = .query c1 remote sni msg) (hm : Plain S msg)
    (ms : List Msg) (hms : t.reply senv up = some ms) (hc : Uncached c1 c1') (w : Chain.World Unit) (hw : w.1.cache.items = []) :
    SameReply senv ms (Chain.serve senv c1' up remote sni msg w).1 := by
  have hs : OrderlySys S c up s0 := by
    refine ⟨namesSound_fresh hs0.1, fun e he => ?_, fun t ht => ?_⟩
    · rw [hs0.2.1] at he; cases he
    · rw [hs0.2.2] at ht; cases ht
  obtain ⟨h1, _, h3⟩ := (orderly_execute senv h hr0 es hs hes).threads t ht
  have hv : SoundRun S c up { todo := t.made } := ⟨h3, fun _ hx => (nomatch hx)⟩
  rw [hj] at h1
  have h1 : SameUpstreams S c c1 := h1
  unfold Thread.reply at hms
  split at hms
  · cases hms
  · cases hms
    unfold Thread.run
    rw [hj]
    rw [← h1.sound] at hv
    exact serve_showsT senv hc (SameBehind.world (h1.behind (up := up)) h) (by rw [h1.condRewrite]; exact hr0) remote sni msg hm _ w hv
      (namesSound_fresh hw)

/-! ### An execution -/

/-- An upstream that answers names under `broken` with an error and all others with an address. -/
def bareUp : Dns.Resolver Unit := fun r _ => ((steadyUp r 0).1, ())

/-- The sample server with that upstream, also for `office`. -/
def threadsConfig (maxTime : Int) : Chain.Config prefixEngine Unit :=
  { steadyConfig maxTime with
    namesLookup := some (fun ip w => (match ip with
      | .v4 1#32 => some [{ name := str! "1.", rtype := 12, ttl := 60, data := .ptr (str! "laptop.") }]
      | _ => none, w))
    condMapping := [(str! "office", bareUp)] }

theorem bareUp_firm : Firm bareUp := fun r _ hq => steadyUp_firm r 0 hq

theorem bareUp_steady : Steady S bareUp := fun r r' _ _ q q' a hq hq' hp hp' hs ha => steadyUp_steady r r' 0 0 q q' a hq hq' hp hp' hs ha

theorem threadsConfig_world (maxTime : Int) : SteadyWorld AnyCase (threadsConfig maxTime) bareUp where
  manner := anyCase
  steady := by
    refine C120_steady _ _ rfl rfl bareUp_steady ?_
    intro z r h
    have hm := AMap.get_eq_some_mem h
    simp only [threadsConfig, List.mem_singleton, Prod.mk.injEq] at hm
    rw [hm.2]
    exact bareUp_steady
  memoryless := fun _ _ _ => rfl
  condMemoryless := fun _ _ _ _ _ _ => rfl
  firm := bareUp_firm
  condFirm := by
    intro z r h
    have hm := AMap.get_eq_some_mem h
    simp only [threadsConfig, List.mem_singleton, Prod.mk.injEq] at hm
    rw [hm.2]
    exact bareUp_firm
  addresses := unaryText_inj
  names := by
    intro ask h ip v v'
    cases h
    rfl
  kept := by
    intro ask h ip v
    cases h
    rfl
  aliases := (steadyConfig_world maxTime).aliases

/-- What is planned: an event, or a step of the i-th goroutine, an upstream answering with this TTL. -/
inductive Plan where
  | event (e : Threads.Ev prefixEngine)
  | go (i : Nat) (ttl : UInt32)

/-- An answer with another TTL. -/
def otherTTL (ttl : UInt32) : Outcome → Outcome
  | .ok a => .ok { a with res := { a.res with answer := a.res.answer.map (fun r => { r with ttl := ttl }) } }
  | o => o

theorem like_otherTTL (ttl : UInt32) (o : Outcome) : LikeOut (otherTTL ttl o) o := by
  cases o with
  | ok a => exact ⟨rfl, bare_setTTL _ _, rfl, rfl⟩
  | _ => rfl

/-- A step of the i-th goroutine, its upstream answering as always. -/
def stepOf (s : Sys prefixEngine) (i : Nat) (ttl : UInt32) : Threads.Ev prefixEngine :=
  match (s.threads[i]?).bind (fun t => t.next sampleServer bareUp) with
  | some (.ask z r) => .move i (otherTTL ttl (expected (threadsConfig 0) bareUp z r)) none
  | some (.askNames ip) => .move i .noResponse ((threadsConfig 0).namesLookup.bind (fun l => (l ip (noCache, ())).1))
  | _ => .move i .noResponse none

/-- The plan in events. -/
def planned : Sys prefixEngine → List Plan → List (Threads.Ev prefixEngine)
  | _, [] => []
  | s, .event e :: ps => e :: planned (advance sampleServer bareUp s e) ps
  | s, .go i ttl :: ps => stepOf s i ttl :: planned (advance sampleServer bareUp s (stepOf s i ttl)) ps

theorem regular_step (s : Sys prefixEngine) (i : Nat) (ttl : UInt32) :
    Regular AnyCase sampleServer (threadsConfig 0) bareUp s (stepOf s i ttl) := by
  unfold stepOf
  cases ht : s.threads[i]? with
  | none => exact fun t h => by rw [ht] at h; cases h
  | some t =>
    simp only [Option.bind_some]
    cases hn : t.next sampleServer bareUp with
    | none =>
      intro t' h
      rw [ht] at h
      cases h
      exact ⟨fun _ _ h => (by rw [hn] at h; cases h), fun _ _ h => (by rw [hn] at h; cases h)⟩
    | some op =>
      cases op with
      | ask z r =>
        intro t' h
        rw [ht] at h
        cases h
        refine ⟨fun z' r' h => ?_, fun _ _ h => (by rw [hn] at h; cases h)⟩
        rw [hn] at h
        cases h
        exact like_otherTTL _ _
      | askNames ip =>
        intro t' h
        rw [ht] at h
        cases h
        refine ⟨fun _ _ h => (by rw [hn] at h; cases h), fun ip' l h hl => ?_⟩
        rw [hn] at h
        cases h
        rw [hl]
        rfl
      | _ =>
        intro t' h
        rw [ht] at h
        cases h
        exact ⟨fun _ _ h => (by rw [hn] at h; cases h), fun _ _ h => (by rw [hn] at h; cases h)⟩

theorem regular_planned (ps : List Plan) (hps : ∀ e, Plan.event e ∈ ps → ∀ s, Regular AnyCase sampleServer (threadsConfig 0) bareUp s e) :
    ∀ s, RegularRun AnyCase sampleServer (threadsConfig 0) bareUp s (planned s ps) := by
  induction ps with
  | nil => exact fun _ => trivial
  | cons p ps ih =>
    intro s
    have ih := ih (fun e he => hps e (List.mem_cons_of_mem _ he))
    cases p with
    | event e => exact ⟨hps e (List.mem_cons_self ..) s, ih _⟩
    | go i ttl => exact ⟨regular_step s i ttl, ih _⟩

/-- A query by the client with this address. -/
def asks (ip : BitVec 32) (name : Str) : Plan := .event (.query (threadsConfig 0) (.udp (some (.v4 ip))) none (query name))

/-- Nothing cached. -/
def freshSys : Sys prefixEngine := { names := ⟨⟨10, []⟩, 0⟩, queue := {}, cache := ⟨⟨⟨10, []⟩, 0⟩, ⟨10, []⟩⟩ }

/-- Two clients ask for the same name at the same time; both do not find it in the cache, both ask the upstream, that gives a lower TTL to the
second one; the second one is done first. Meanwhile a third query for another, blocked name. Later the first
client asks again, and the entry is refreshed. -/
def overlapping : List Plan :=
  [asks 1#32 (str! "www.org."), asks 2#32 (str! "WWW.Org."), asks 1#32 (str! "ads.org.")] ++
  [.go 0 0, .go 0 0, .go 1 0, .go 0 0, .go 1 0, .go 1 0] ++ [.go 0 0, .go 1 0, .go 0 60] ++ [.go 2 0, .go 1 45, .go 1 0, .go 1 0] ++
  [.event (.pass 10000), .go 0 0, .go 0 0, .go 2 0, .event .take, .event (.refresh (threadsConfig 0) (Caching.questionKey ⟨str! "www.org.", 1, 1⟩))] ++
  [asks 1#32 (str! "www.ORG."), .go 3 20, .event (.pass 5000), .go 4 0, .go 4 0, .go 4 0, .go 3 0, .event .written]

instance : DecidableEq (Option (List (Nat × List (Str × UInt32 × RData)))) := inferInstance

/-- What the clients have got: codes, and names, TTLs and addresses. -/
def gotten (s : Sys prefixEngine) : List (Option (List (Nat × List (Str × UInt32 × RData)))) :=
  s.threads.map (fun t => (t.reply sampleServer bareUp).map (fun ms => ms.map (fun m => (m.rcode, m.answer.map (fun r => (r.name, r.ttl, r.data))))))

-- Everybody gets the address, with the TTL of their own answer, or with what is left of the first client's, stored last.
example : gotten (execute sampleServer bareUp freshSys (planned freshSys overlapping)) =
    [some [(0, [(str! "www.org.", 60, .a (.v4 0x01020304#32))])], some [(0, [(str! "www.org.", 45, .a (.v4 0x01020304#32))])],
      some [(0, [(str! "ads.org.", 60, .a (.v4 0x00000000#32))])], some [], some [(0, [(str! "www.org.", 55, .a (.v4 0x01020304#32))])]] := by
  decide +kernel

/-- All hypotheses of `C121_undisturbed_partial` are met: by every plan like this one. -/
example (t : Thread prefixEngine) (ht : t ∈ (execute sampleServer bareUp freshSys (planned freshSys overlapping)).threads)
    (remote : Server.Addr) (name : Str) (hn : AnyCase ⟨name, 1, 1⟩) (hj : t.job = .query (threadsConfig 0) remote none (query name)) (ms : List Msg)
    (hms : t.reply sampleServer bareUp = some ms) (w : Chain.World Unit) (hw : w.1.cache.items = []) :
    SameReply sampleServer ms (Chain.serve sampleServer (threadsConfig (-1)) bareUp remote none (query name) w).1 := by
  have hsame : SameUpstreams AnyCase (threadsConfig 0) (threadsConfig 0) := ⟨rfl, rfl, rfl, rfl, rfl, rfl, (threadsConfig_world 0).aliases⟩
  refine C121_undisturbed_partial sampleServer (threadsConfig 0) bareUp (threadsConfig_world 0) rfl freshSys ⟨rfl, rfl, rfl⟩ _
    (regular_planned overlapping ?_ freshSys) t ht _ _ remote none _ hj ⟨_, rfl, hn⟩ ms hms ⟨rfl, by decide⟩ w hw
  intro e he s
  simp only [overlapping, asks, List.cons_append, List.nil_append, List.mem_cons, List.not_mem_nil, or_false, reduceCtorEq, false_or, Plan.event.injEq] at he
  rcases he with rfl | rfl | rfl | rfl | rfl | rfl | rfl | rfl | rfl
  · exact ⟨hsame, .inl ⟨_, rfl, by unfold AnyCase; decide⟩⟩
  · exact ⟨hsame, .inl ⟨_, rfl, by unfold AnyCase; decide⟩⟩
  · exact ⟨hsame, .inl ⟨_, rfl, by unfold AnyCase; decide⟩⟩
  · trivial
  · trivial
  · exact hsame
  · exact ⟨hsame, .inl ⟨_, rfl, by unfold AnyCase; decide⟩⟩
  · trivial
  · trivial

end Verif.Props
