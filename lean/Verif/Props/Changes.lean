/-
C133: changes of the data of upstreams are seen by clients after the caching time.
-/
import Verif.Props.Lifetimes

namespace Verif.Props
open Verif.Dns Verif.ExpCache Verif.StringCache Verif.Spec

variable {E : RegexEngine} {V W : Type}

/-! ### Specification -/

/-- Data that come from the server itself: records of custom DNS and hosts files, addresses for blocked names,
the addresses of localhost. -/
inductive LocalData (c : Chain.Config E W) : RData → Prop
  | record {z es e t x} : AMap.get c.customMapping z = some es → e ∈ es → Gives t e x → LocalData c x
  | reverse {k us u} : AMap.get c.customReverse k = some us → u ∈ us → LocalData c (.ptr (fqdn u))
  | host {t name ip} : c.hosts.getIP t name = some ip → LocalData c (addressData t ip)
  | hostReverse {host ip aliases u} : (host, (ip, aliases)) ∈ c.hostsOrder4 ++ c.hostsOrder6 → u ∈ host :: aliases →
      LocalData c (.ptr (fqdn u))
  | sink {t ip} : Sink c.blockState.handler ip → LocalData c (addressData t ip)
  | localhost4 : c.sudn.enable = true → LocalData c (.a (.v4 0x7f000001#32))
  | localhost6 : c.sudn.enable = true → LocalData c (.aaaa (.v6 1#128))

/-- All data of an answer are of the kind. -/
def OnlyData (D : RData → Prop) (o : Outcome) : Prop := ∀ y, o = .ok y → ∀ rr ∈ y.res.answer, D rr.data

/-- The time that passes in a history, in milliseconds. -/
def elapsed : List Event → Nat
  | [] => 0
  | .pass ms :: es => ms + elapsed es
  | _ :: es => elapsed es

/-! ### Behind the cache -/

theorem cond_data (c : Chain.Config E W) (up : Resolver W) (D : RData → Prop) (hup : ∀ r w, OnlyData D (up r w).1)
    (hcond : ∀ k reso, AMap.get c.condMapping k = some reso → ∀ r w, OnlyData D (reso r w).1) (r : Request) (w : Msg × W) :
    OnlyData (fun d => D d ∨ LocalData c d) (Chain.cond c up r w).1 := by
  have htail : ∀ r (v : W), OnlyData (fun d => D d ∨ LocalData c d) (Chain.toM (Chain.tail c up) r v).1 := by
    intro r v
    unfold Chain.toM Chain.tail Small.sudn
    have hu : OnlyData (fun d => D d ∨ LocalData c d) (Chain.liftUp up r (r.req, v)).1 := fun y hy rr hr => .inl (hup r v y hy rr hr)
    split
    · exact hu
    · rename_i hen
      have hen : c.sudn.enable = true := by simpa using hen
      cases r.req.question with
      | nil => exact fun _ h => nomatch h
      | cons q _ =>
        simp only
        cases hs : (Small.sudnHandler q.name).bind (Small.callSudn c.sudn r q) with
        | none => exact hu
        | some y =>
          intro z hz
          cases hz
          obtain ⟨hd, _, hcall⟩ := Option.bind_eq_some_iff.1 hs
          unfold Small.callSudn at hcall
          cases hd with
          | nxdomain => cases hcall; exact fun _ h => nomatch h
          | localhost =>
            cases hcall
            unfold Small.sudnLocalhost
            intro rr hr
            split at hr
            · simp only [List.mem_singleton] at hr
              subst hr
              exact .inr (.localhost4 hen)
            · split at hr
              · simp only [List.mem_singleton] at hr
                subst hr
                exact .inr (.localhost6 hen)
              · cases hr
          | pass => cases hcall
          | appendixG =>
            simp only at hcall
            split at hcall
            · cases hcall
            · cases hcall; exact fun _ h => nomatch h
          | homeArpa =>
            simp only at hcall
            split at hcall
            · cases hcall
            · cases hcall; exact fun _ h => nomatch h
  have hin : ∀ (next : Cond.MResolver W), (∀ r v, OnlyData (fun d => D d ∨ LocalData c d) (next r v).1) →
      ∀ r v, OnlyData (fun d => D d ∨ LocalData c d) (Cond.conditional c.condMapping next r v).1 := by
    intro next hnext r v
    unfold Cond.conditional
    split
    · cases r.req.question with
      | nil => exact fun _ h => nomatch h
      | cons q _ =>
        simp only
        cases hl : Cond.lookup c.condMapping (extractDomain q.name) with
        | none => exact hnext r v
        | some reso =>
          have hk : ∃ k, AMap.get c.condMapping k = some reso := by
            unfold Cond.lookup at hl
            split at hl
            · obtain ⟨x, hx, rfl⟩ := Option.map_eq_some_iff.1 hl
              exact ⟨x.1, (walk_some hx).2.2.1⟩
            · exact ⟨_, hl⟩
          obtain ⟨k, hk⟩ := hk
          simp only
          unfold Cond.internalResolve
          simp only
          have hg := hcond k reso hk { r with req := { r.req with question := Cond.setName (fqdn (extractDomain q.name)) r.req.question } } v
          generalize reso { r with req := { r.req with question := Cond.setName (fqdn (extractDomain q.name)) r.req.question } } v = x at hg
          obtain ⟨o, v'⟩ := x
          cases o with
          | ok y => exact fun z hz rr hr => by cases hz; exact .inl (hg y rfl rr hr)
          | noResponse => exact fun _ h => nomatch h
          | err e => exact fun _ h => nomatch h
          | panic => exact fun _ h => nomatch h
    · exact hnext r v
  unfold Chain.cond Chain.ofM Cond.newRewriter
  simp only
  split
  · exact hin _ htail _ _
  · have hin' := hin (fun request w => (.noResponse, request.req, w)) (fun _ _ _ h => nomatch h)
    unfold Cond.rewriter
    generalize Cond.rewriteQuestions c.condOrder 0 r.req.question [] = x
    obtain ⟨questions, rewritten, names⟩ := x
    simp only
    have hg := hin' (if rewritten = true then { r with req := { r.req with question := questions } } else r) w.2
    generalize Cond.conditional c.condMapping (fun request w => (.noResponse, request.req, w))
      (if rewritten = true then { r with req := { r.req with question := questions } } else r) w.2 = y at hg
    obtain ⟨o, msg, v⟩ := y
    cases o with
    | panic => exact fun _ h => nomatch h
    | err e =>
      simp only
      split
      · exact htail _ _
      · exact fun _ h => nomatch h
    | noResponse => exact htail _ _
    | ok y =>
      simp only
      split
      · exact htail _ _
      · split
        · intro z hz rr hr
          cases hz
          obtain ⟨a, ha, rfl⟩ := List.mem_map.1 hr
          exact hg y rfl a ha
        · exact fun z hz => by cases hz; exact hg y rfl

/-! ### The cache -/

/-- The clock shows `t`; every entry expires, and it has data of the kind or (if `old`) expires by the limit. -/
structure Renewed (D : RData → Prop) (old : Prop) (limit t : Int) (s : St Msg) : Prop where
  now : s.now = t
  positive : 0 < t
  entries : ∀ x ∈ s.cache.items, 0 < x.2.expires ∧ ((old ∧ x.2.expires ≤ limit) ∨ ∀ rr ∈ x.2.val.answer, D rr.data)

variable {D : RData → Prop} {old : Prop} {limit t : Int}

theorem Renewed.sub {s s' : St Msg} (h : Renewed D old limit t s) (hn : s'.now = s.now)
    (hs : ∀ x ∈ s'.cache.items, x ∈ s.cache.items) : Renewed D old limit t s' :=
  ⟨hn.trans h.now, h.positive, fun x hx => h.entries x (hs x hx)⟩

theorem renewed_store {s : Caching.CState} (h : Renewed D old limit t s.main) (env : Caching.Env) (cfg : Caching.Cfg) (k : Str)
    (r : Response) (hr : ∀ rr ∈ r.res.answer, D rr.data) : Renewed D old limit t (Caching.store env cfg s k r).main := by
  have hdata : ∀ rr ∈ (removeEdns0Record (Caching.adjusted cfg r).res).answer, D rr.data := by
    intro rr hm
    have hm : rr ∈ (Caching.adjustTTLs cfg r.res.answer).1 := hm
    obtain ⟨a, ha, hd⟩ := adjust_data cfg r.res.answer rr hm
    rw [← hd]
    exact hr a ha
  have key : ∀ ttl, Renewed D old limit t (step s.main (.put k (removeEdns0Record (Caching.adjusted cfg r).res) ttl)) := by
    intro ttl
    refine ⟨h.now, h.positive, ?_⟩
    intro x hx
    by_cases hz : ttl ≤ 0
    · have : (step s.main (.put k (removeEdns0Record (Caching.adjusted cfg r).res) ttl)).cache.items = s.main.cache.items := by
        show (s.main.cache.put s.main.now k _ ttl).items = _
        unfold Cache.put
        rw [if_pos hz]
      rw [this] at hx
      exact h.entries x hx
    · rcases put_entries _ _ _ _ _ x hx with hx | rfl
      · exact h.entries x hx
      · refine ⟨?_, .inr hdata⟩
        have h1 := h.now
        have h2 := h.positive
        show 0 < s.main.now + ttl / 1000000
        generalize s.main.now = now at h1
        omega
  unfold Caching.store Caching.putOps
  simp only
  split
  · split
    · exact key _
    · split
      · split
        · exact key _
        · exact h
      · exact h
  · exact h

theorem brief_renewed (env : Caching.Env) (cfg : Caching.Cfg) {next : Chain.MR W} (hnext : ∀ r w, OnlyData D (next r w).1)
    {T : UInt32 → RData → Prop} (hT : old ∨ ∀ ttl d, D d → T ttl d) (hT' : old → ∀ ttl d, T ttl d) :
    Brief (ForAll false) T (fun x : Caching.CState × W => Renewed D old limit t x.1.main) (Chain.caching env cfg next) := by
  intro r w hi
  have hDT : ∀ rr : RR, D rr.data → T rr.ttl rr.data := fun rr hd => hT.elim (fun h => hT' h _ _) (fun h => h _ _ hd)
  have loop : ∀ (qs : List Question) (last : Outcome) (s : Caching.CState) (v : Msg × W), Short T last → Renewed D old limit t s.main →
      Renewed D old limit t (Caching.resolveLoop env cfg next r qs last s v).2.1.main ∧ Short T (Caching.resolveLoop env cfg next r qs last s v).1 := by
    intro qs
    induction qs with
    | nil => intro last s v hl hs; exact ⟨hs, hl⟩
    | cons q qs ih =>
      intro last s v _ hs
      unfold Caching.resolveLoop
      have hsub := cacheGet_sub cfg s (Caching.questionKey q)
      have hnow : (Caching.cacheGet cfg s (Caching.questionKey q)).2.main.now = s.main.now := by
        unfold Caching.cacheGet
        cases cfg.prefetching <;> rfl
      have hfound : ∀ m t, (Caching.cacheGet cfg s (Caching.questionKey q)).1 = some (m, t) →
          ∃ el, (Caching.questionKey q, el) ∈ s.main.cache.items ∧ el.val = m := by
        intro m t h
        have key : (s.main.cache.get s.main.now (Caching.questionKey q)).1 = some (m, t) := by
          unfold Caching.cacheGet at h
          cases hp : cfg.prefetching <;> rw [hp] at h <;> exact h
        unfold Cache.get at key
        split at key
        · rename_i el hp
          cases key
          exact ⟨el, AMap.get_eq_some_mem hp, rfl⟩
        · cases key
      generalize Caching.cacheGet cfg s (Caching.questionKey q) = x at hsub hnow hfound
      obtain ⟨found, s1⟩ := x
      have hs1 : Renewed D old limit t s1.main := hs.sub hnow hsub
      cases found with
      | some mt =>
        obtain ⟨m, ttl⟩ := mt
        refine ⟨hs1, Short.ok ?_⟩
        obtain ⟨el, g1, g2⟩ := hfound m ttl rfl
        intro rr hr
        have hr' : rr ∈ Caching.setTTLs m.answer ttl := hr
        simp only [Caching.setTTLs, List.mem_map] at hr'
        obtain ⟨a, ha, rfl⟩ := hr'
        rcases (hs.entries _ g1).2 with ⟨ho, _⟩ | hd
        · exact hT' ho _ _
        · exact hDT _ (hd a (by rw [g2]; exact ha))
      | none =>
        simp only
        have hn := hnext r v
        generalize next r v = y at hn
        obtain ⟨o, v1⟩ := y
        cases o with
        | ok y =>
          refine ih _ _ _ (Short.ok fun rr hr => ?_) (renewed_store hs1 env cfg _ y (hn y rfl))
          obtain ⟨a, ha, hd⟩ := adjust_data cfg y.res.answer rr hr
          exact hDT rr (by rw [← hd]; exact hn y rfl a ha)
        | err e => exact ih _ _ _ Short.err hs1
        | noResponse => exact ⟨hs1, Short.panic⟩
        | panic => exact ⟨hs1, Short.panic⟩
  unfold Chain.caching Caching.resolve
  by_cases hc : (!cfg.enabled || !Caching.isRequestCacheable r.req) = true
  · rw [if_pos hc]
    exact ⟨hi, fun _ y hy rr hr => hDT rr (hnext r (w.1, w.2.2) y hy rr hr)⟩
  · rw [if_neg hc]
    have := loop r.req.question .noResponse w.2.1 (w.1, w.2.2) Short.noResponse hi
    exact ⟨this.1, fun _ => this.2⟩

theorem brief_changed (c : Chain.Config E W) (up : Resolver W) (hn : NamesLeaveAnswers c) (D : RData → Prop)
    (hup : ∀ r w, OnlyData D (up r w).1) (hcond : ∀ k reso, AMap.get c.condMapping k = some reso → ∀ r w, OnlyData D (reso r w).1)
    (old : Prop) (limit t : Int) :
    Brief (fun r => ∀ r1, Ecs.transform c.ecs r = some r1 → ForAll false r1) (fun _ d => old ∨ D d ∨ LocalData c d)
      (fun x => Renewed (fun d => D d ∨ LocalData c d) old limit t x.2.2.1.main) (Chain.whole c up) :=
  brief_chain c up hn (fun s => Renewed (fun d => D d ∨ LocalData c d) old limit t s.main)
    (fun _ _ hz _ he _ _ hg => .inr (.inr (.record hz he hg))) (fun _ _ hk _ hu => .inr (.inr (.reverse hk hu)))
    (fun _ _ _ hg => .inr (.inr (.host hg))) (fun _ _ _ _ hm hu => .inr (.inr (.hostReverse hm hu)))
    (fun _ _ _ _ hs => .inr (.inr (.sink hs)))
    (brief_renewed _ _ (cond_data c up D hup hcond) (.inr (fun _ _ h => .inr h)) (fun h _ _ => .inl h))

/-! ### Cleaning up -/

theorem removes_gone (del : List Str) : ∀ (s : St Msg), ∀ x ∈ (run s (del.map Op.remove)).cache.items, x.1 ∉ del := by
  induction del with
  | nil => exact fun _ _ _ h => nomatch h
  | cons k ks ih =>
    intro s x hx h
    rcases List.mem_cons.1 h with h | h
    · have := removes_sub ks (step s (.remove k)) x hx
      have := (List.mem_filter.1 this).2
      simp [h] at this
    · exact ih (step s (.remove k)) x hx h

theorem cleanUp_state (env : Caching.Env) (cfg : Caching.Cfg) (hp : cfg.prefetching = false) {next : Chain.MR W}
    (s s' : Caching.CState) (w w' : Msg × W) (hr : Caching.cleanUpCache env cfg next s w = (some s', w')) :
    s'.main = run s.main ((s.main.cache.expiredKeys s.main.now).map Op.remove) := by
  have hloop : ∀ (ks del : List Str) (s s1 : Caching.CState) (del1 : List Str) (w w1 : Msg × W),
      Caching.reloadLoop env cfg next ks del s w = (some (del1, s1), w1) → s1 = s ∧ del1 = del ++ ks := by
    intro ks
    induction ks with
    | nil => intro del s s1 del1 w w1 h; cases h; exact ⟨rfl, by simp⟩
    | cons k ks ih =>
      intro del s s1 del1 w w1 h
      unfold Caching.reloadLoop Caching.onExpired at h
      rw [hp] at h
      obtain ⟨h1, h2⟩ := ih _ _ _ _ _ _ h
      exact ⟨h1, by rw [h2]; simp⟩
  unfold Caching.cleanUpCache at hr
  split at hr
  · rename_i del s1 w1 hx
    cases hr
    obtain ⟨h1, h2⟩ := hloop _ _ _ _ _ _ _ hx
    rw [h1, h2]
    rfl
  · cases hr

theorem removes_clock (del : List Str) : ∀ (s : St Msg), (run s (del.map Op.remove)).now = s.now := by
  induction del with
  | nil => exact fun _ => rfl
  | cons k ks ih => exact fun s => ih (step s (.remove k))

theorem cleanUp_renews {s : St Msg} (h : Renewed D old limit t s) (hl : limit < t) :
    Renewed D False limit t (run s ((s.cache.expiredKeys s.now).map Op.remove)) := by
  refine ⟨(removes_clock _ _).trans h.now, h.positive, ?_⟩
  intro x hx
  have hx0 := removes_sub _ _ x hx
  obtain ⟨h1, h2⟩ := h.entries x hx0
  refine ⟨h1, .inr (h2.elim (fun ⟨_, h2⟩ => ?_) id)⟩
  exfalso
  refine removes_gone _ _ x hx ?_
  unfold Cache.expiredKeys
  refine List.mem_map.2 ⟨x, ?_, rfl⟩
  refine List.mem_filter.2 ⟨by simpa using hx0, ?_⟩
  unfold isExpired
  rw [h.now]
  simp
  omega

/-! ### Histories -/

theorem elapsed_append (es es' : List Event) : elapsed (es ++ es') = elapsed es + elapsed es' := by
  induction es with
  | nil => simp [elapsed]
  | cons e es ih => cases e <;> simp [elapsed, ih]; omega

theorem reached_renewed {senv : Server.Env} {len : Msg → Nat} (ht : TruncContract len senv.trunc) (herr : OnlyFailures senv)
    {c : Chain.Config E W} {up : Resolver W} (hn : NamesLeaveAnswers c) (hp : c.cache.prefetching = false)
    (hup : ∀ r w, OnlyData D (up r w).1) (hcond : ∀ k reso, AMap.get c.condMapping k = some reso → ∀ r w, OnlyData D (reso r w).1)
    {w0 w : Chain.World W} {es : List Event} (hr : ReachedBy senv c up w0 es w)
    (h0 : Renewed (fun d => D d ∨ LocalData c d) old limit t w0.2.2.1.main) :
    Renewed (fun d => D d ∨ LocalData c d) old limit (t + elapsed es) w.2.2.1.main := by
  induction hr with
  | start => simpa [elapsed] using h0
  | @step es w e w' _ hw ih =>
    rw [elapsed_append]
    cases e with
    | query remote sni msg =>
      cases hw
      have := (serve_brief (J := fun s => Renewed (fun d => D d ∨ LocalData c d) old limit (t + elapsed es) s.main) ht herr
        (brief_changed c up hn D hup hcond old limit (t + elapsed es)) remote sni msg w ih).1
      simpa [elapsed] using this
    | pass ms =>
      cases hw
      have hn : (step w.2.2.1.main (.tick ms)).now = w.2.2.1.main.now + ms := rfl
      refine ⟨?_, ?_, ih.entries⟩
      · show (step w.2.2.1.main (.tick ms)).now = _
        rw [hn, ih.now]
        simp [elapsed]
        omega
      · have := ih.positive
        simp [elapsed]
        omega
    | cleanUp =>
      unfold happen at hw
      simp only at hw
      have hc := fun s mw => cleanUp_state c.cacheEnv c.cache hp (next := Chain.cond c up) w.2.2.1 s ({}, w.2.2.2) mw
      generalize Caching.cleanUpCache c.cacheEnv c.cache (Chain.cond c up) w.2.2.1 ({}, w.2.2.2) = x at hw hc
      obtain ⟨s, mw⟩ := x
      cases s with
      | none => cases hw
      | some s =>
        cases hw
        have := hc s mw rfl
        show Renewed _ old limit _ s.main
        rw [this]
        have := ih.sub (removes_clock _ _) (removes_sub (w.2.2.1.main.cache.expiredKeys w.2.2.1.main.now) _)
        simpa [elapsed] using this

/-- All entries expire at a time after 1970. -/
theorem reached_positive {senv : Server.Env} {len : Msg → Nat} (ht : TruncContract len senv.trunc) (herr : OnlyFailures senv)
    {c : Chain.Config E W} {up : Resolver W} (hn : NamesLeaveAnswers c) (hp : c.cache.prefetching = false)
    {w0 w : Chain.World W} {es : List Event} (h0 : w0.2.2.1.main.cache.items = []) (hpos : 0 < w0.2.2.1.main.now)
    (hr : ReachedBy senv c up w0 es w) :
    0 < w.2.2.1.main.now ∧ ∀ x ∈ w.2.2.1.main.cache.items, 0 < x.2.expires := by
  have := reached_renewed (D := fun _ => True) (old := False) (limit := 0) ht herr hn hp (fun _ _ _ _ _ _ => trivial)
    (fun _ _ _ _ _ _ _ _ _ => trivial) hr ⟨rfl, hpos, fun x hx => by rw [h0] at hx; cases hx⟩
  exact ⟨by rw [this.now]; exact this.positive, fun x hx => (this.entries x hx).1⟩

/-- **C133.** Upstreams have answered anything so far (`up1`, with a configuration that has the same caching times).
Now they answer with data of the kind `D` only. When more time has passed than the maximum caching time and than
the time of negative answers, and then the cache has been cleaned up, every record that a client gets has data of that
kind or of the server itself - whatever has been asked and answered before, in between and since then. -/
theorem C133_changes_seen {senv : Server.Env} {len : Msg → Nat} (ht : TruncContract len senv.trunc) (herr : OnlyFailures senv)
    {c c1 : Chain.Config E W} {up up1 : Resolver W} (hsame : c1.cache = c.cache) (hmax : 0 < c.cache.maxTime)
    (hp : c.cache.prefetching = false) (hn : NamesLeaveAnswers c) (hn1 : NamesLeaveAnswers c1)
    {D : RData → Prop} (hup : ∀ r w, OnlyData D (up r w).1)
    (hcond : ∀ k reso, AMap.get c.condMapping k = some reso → ∀ r w, OnlyData D (reso r w).1)
    {w0 w1 w2 w3 w : Chain.World W} {es1 es2 es3 : List Event}
    (h0 : w0.2.2.1.main.cache.items = []) (hpos : 0 < w0.2.2.1.main.now)
    (hr1 : ReachedBy senv c1 up1 w0 es1 w1) (hr2 : ReachedBy senv c up w1 es2 w2)
    (htime : c.cache.maxTime < elapsed es2 * 1000000) (htime' : c.cache.negTime < elapsed es2 * 1000000)
    (hclean : (happen senv c up w2 .cleanUp).2 = some w3) (hr3 : ReachedBy senv c up w3 es3 w)
    (remote : Server.Addr) (sni : Option Str) (msg : Msg) :
    ∀ m ∈ (Chain.serve senv c up remote sni msg w).1, m.rcode ≠ 2 → ∀ rr ∈ m.answer, D rr.data ∨ LocalData c rr.data := by
  have hp1 : c1.cache.prefetching = false := by rw [hsame]; exact hp
  have hmax1 : 0 < c1.cache.maxTime := by rw [hsame]; exact hmax
  have hs := secondsU32_le c1.cache.maxTime
  have hent := reached_entries ht herr hp1 (brief_whole c1 up1 hmax1 hn1 True (wholeSeconds c1.cache.maxTime + wholeSeconds c1.cache.negTime)
    (.inl trivial) (by omega) (fun _ => by omega)) hr1 h0
  obtain ⟨hpos1, hexp⟩ := reached_positive ht herr hn1 hp1 h0 hpos hr1
  have hstart : Renewed (fun d => D d ∨ LocalData c d) True (w1.2.2.1.main.now + elapsed es2 - 1) w1.2.2.1.main.now w1.2.2.1.main := by
    refine ⟨rfl, hpos1, ?_⟩
    intro x hx
    refine ⟨hexp x hx, ?_⟩
    obtain ⟨g1, g2⟩ := hent x hx
    cases ha : x.2.val.answer with
    | nil => exact .inr (fun _ h => nomatch h)
    | cons a as =>
      left
      refine ⟨trivial, ?_⟩
      have ham : a ∈ x.2.val.answer := by rw [ha]; exact List.mem_cons_self
      have h1 := g1 a ham
      have h2 := Caching.minTTL_le ham
      rw [hsame] at h1 hs g2
      unfold wholeSeconds at hs
      generalize (Caching.minTTL x.2.val.answer).toNat = mn at h2 g2
      generalize (Caching.secondsU32 c.cache.maxTime).toNat = mx at h1 hs
      generalize w1.2.2.1.main.now = now at *
      rcases g2 with g | g | ⟨_, g⟩
      · rw [ha] at g; cases g
      · omega
      · omega
  have hmid := reached_renewed ht herr hn hp hup hcond hr2 hstart
  have hw3 : Renewed (fun d => D d ∨ LocalData c d) False (w1.2.2.1.main.now + elapsed es2 - 1) (w1.2.2.1.main.now + elapsed es2) w3.2.2.1.main := by
    unfold happen at hclean
    simp only at hclean
    have hc := fun s mw => cleanUp_state c.cacheEnv c.cache hp (next := Chain.cond c up) w2.2.2.1 s ({}, w2.2.2.2) mw
    generalize Caching.cleanUpCache c.cacheEnv c.cache (Chain.cond c up) w2.2.2.1 ({}, w2.2.2.2) = x at hclean hc
    obtain ⟨s, mw⟩ := x
    cases s with
    | none => cases hclean
    | some s =>
      cases hclean
      have := hc s mw rfl
      show Renewed _ False _ _ s.main
      rw [this]
      exact cleanUp_renews hmid (by omega)
  have hlast := reached_renewed ht herr hn hp hup hcond hr3 hw3
  intro m hm hrc rr hrr
  have := (serve_brief (J := fun s => Renewed (fun d => D d ∨ LocalData c d) False _ _ s.main) ht herr
    (brief_changed c up hn D hup hcond False _ _) remote sni msg w hlast).2 (fun h => nomatch h) m hm hrc rr hrr
  exact this.resolve_left id

/-! ### Samples -/

/-- An upstream that has moved the name to another address. -/
def movedUp : Resolver Nat := fun request n =>
  (.ok { res := { ({} : Msg).setReply request.req with
      answer := request.req.question.map (fun q =>
        { name := q.name, rtype := typeA, ttl := 86400, data := .a (.v4 0x05060708#32) }) } }, n + 1)

/-- The sample server, all names asked of that upstream. -/
def movedConfig : Chain.Config prefixEngine Nat := { hourConfig with condMapping := [] }

/-- The empty cache at a later time. -/
def laterWorld : Chain.World Nat := (⟨⟨10, []⟩, 0⟩, {}, ⟨⟨⟨10, []⟩, 1000⟩, ⟨10, []⟩⟩, 0)

/-- The data in the answers of a history, after another one with another upstream. -/
def dataOf (c : Chain.Config prefixEngine Nat) (up1 up : Resolver Nat) (es1 es2 : List Event) : List (List RData) :=
  match es1.foldl (fun w e => w.bind (fun w => (happen sampleServer c up1 w e).2)) (some laterWorld) with
  | some w1 => (answersOf sampleServer c up es2 w1).map (fun ms => ms.flatMap (fun m => m.answer.map RR.data))
  | none => []

-- after half a minute the old addresses, after an hour and cleaning up the new one
example : dataOf movedConfig longUp movedUp [ttlQuery (str! "www.org.")]
      [.pass 30000, ttlQuery (str! "www.org."), .pass 3600000, .cleanUp, ttlQuery (str! "www.org.")] =
    [[], [.a (.v4 0x01020304#32), .a (.v4 0x01020305#32)], [], [], [.a (.v4 0x05060708#32)]] := by decide +kernel

/-- **C133** needs the cleaning up: until then, also an expired answer is given, here after two hours. -/
theorem C133_uncleaned_false : dataOf movedConfig longUp movedUp [ttlQuery (str! "www.org.")] [.pass 7200000, ttlQuery (str! "www.org.")] =
    [[], [.a (.v4 0x01020304#32), .a (.v4 0x01020305#32)]] := by decide +kernel

/-- The sample server with prefetching, without minimum caching time. -/
def prefetchingConfig : Chain.Config prefixEngine Nat :=
  { movedConfig with cache := { maxTime := 3600000000000, prefetching := true, prefetchThreshold := 0 } }

/-- The upstream with the new address, with TTLs of zero. -/
def movedZeroUp : Resolver Nat := fun request n =>
  (.ok { res := { ({} : Msg).setReply request.req with
      answer := request.req.question.map (fun q =>
        { name := q.name, rtype := typeA, ttl := 0, data := .a (.v4 0x05060708#32) }) } }, n + 1)

/-- **C133** is false with prefetching: if the new records have TTLs of zero, the old ones stay, however long and however often
the cache is cleaned up. -/
theorem C133_prefetching_false : dataOf prefetchingConfig countingUp movedZeroUp [ttlQuery (str! "www.org.")]
      [.pass 7200000, .cleanUp, .pass 7200000, .cleanUp, ttlQuery (str! "www.org.")] =
    [[], [], [], [], [.a (.v4 0x01020304#32)]] := by decide +kernel

-- what C133 needs
example : (∀ r w, OnlyData (fun d => d = .a (.v4 0x05060708#32)) (movedUp r w).1) ∧
    (∀ k reso, AMap.get movedConfig.condMapping k = some reso → ∀ r w, OnlyData (fun d => d = .a (.v4 0x05060708#32)) (reso r w).1) ∧
    ∃ w1 w2 w3, ReachedBy sampleServer movedConfig longUp laterWorld [ttlQuery (str! "www.org.")] w1 ∧
      ReachedBy sampleServer movedConfig movedUp w1 [.pass 30000, ttlQuery (str! "www.org."), .pass 3600000] w2 ∧
      (happen sampleServer movedConfig movedUp w2 .cleanUp).2 = some w3 ∧
      movedConfig.cache.maxTime < elapsed [.pass 30000, ttlQuery (str! "www.org."), .pass 3600000] * 1000000 ∧
      0 < laterWorld.2.2.1.main.now := by
  refine ⟨?_, (fun _ _ h => nomatch h), _, _, _, .step .start rfl, .step (.step (.step .start rfl) rfl) rfl, rfl, by decide, by decide⟩
  intro r w y hy rr hr
  cases hy
  obtain ⟨q, _, rfl⟩ := List.mem_map.1 hr
  rfl

end Verif.Props
