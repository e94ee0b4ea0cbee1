/-
C134: names that come into existence, and whole new answers, are seen after the caching time.
-/
import Verif.Props.Changes
import Verif.Props.Forwarding

namespace Verif.Props
open Verif.Dns Verif.ExpCache Verif.StringCache Verif.Spec

variable {E : RegexEngine} {W : Type}

/-! ### Specification -/

/-- The data of the records of an answer, in order. -/
def dataList (m : Msg) : List RData := m.answer.map RR.data

/-- `K key code data`: this is an answer to a question with that key (type and name) as it is to be now. Every answer is one to
each question of its request. -/
def AnswersNow (K : Str → Nat → List RData → Prop) (r : Request) (o : Outcome) : Prop :=
  ∀ y, o = .ok y → ∀ q ∈ r.req.question, K (Caching.questionKey q) y.res.rcode (dataList y.res)

/-! ### The cache -/

/-- The clock shows `t`; every entry expires, within `life`, and it holds an answer as it is to be now or (if `old`) expires by the limit. -/
structure UpToDate (K : Str → Nat → List RData → Prop) (old : Prop) (life limit t : Int) (s : St Msg) : Prop where
  now : s.now = t
  positive : 0 < t
  entries : ∀ x ∈ s.cache.items, 0 < x.2.expires ∧ x.2.expires ≤ t + life ∧
    ((old ∧ x.2.expires ≤ limit) ∨ K x.1 x.2.val.rcode (dataList x.2.val))

variable {K : Str → Nat → List RData → Prop} {old : Prop} {life limit t : Int}

theorem UpToDate.sub {s s' : St Msg} (h : UpToDate K old life limit t s) (hn : s'.now = s.now)
    (hs : ∀ x ∈ s'.cache.items, x ∈ s.cache.items) : UpToDate K old life limit t s' :=
  ⟨hn.trans h.now, h.positive, fun x hx => h.entries x (hs x hx)⟩

theorem adjusted_dataList (cfg : Caching.Cfg) (r : Response) : dataList (Caching.adjusted cfg r).res = dataList r.res := by
  show ((Caching.adjustTTLs cfg r.res.answer).1).map RR.data = _
  rw [Caching.adjustTTLs_answer, List.map_map]
  rfl

theorem life_of (cfg : Caching.Cfg) (hmax : 0 < cfg.maxTime) (h1 : cfg.maxTime / 1000000 ≤ life) (h2 : cfg.negTime / 1000000 ≤ life) (a : List RR) :
    (Caching.adjustTTLs cfg a).2 / 1000000 ≤ life := by
  cases a with
  | nil => exact h2
  | cons a as =>
    rw [Caching.adjustTTLs_ttl cfg (by simp)]
    have hm : ∃ b, b ∈ (Caching.adjustTTLs cfg (a :: as)).1 := by
      rw [Caching.adjustTTLs_answer]
      exact ⟨_, List.mem_cons_self⟩
    obtain ⟨b, hb⟩ := hm
    have g1 := adjusted_le cfg hmax _ b hb
    have g2 := Caching.minTTL_le hb
    have g3 := secondsU32_le cfg.maxTime
    unfold wholeSeconds at g3
    generalize (Caching.minTTL (Caching.adjustTTLs cfg (a :: as)).1).toNat = mn at g2
    generalize (Caching.secondsU32 cfg.maxTime).toNat = mx at g1 g3
    generalize b.ttl.toNat = bt at g1 g2
    omega

theorem current_store {cfg : Caching.Cfg} (hmax : 0 < cfg.maxTime) (h1 : cfg.maxTime / 1000000 ≤ life) (h2 : cfg.negTime / 1000000 ≤ life)
    {s : Caching.CState} (h : UpToDate K old life limit t s.main) (env : Caching.Env) (k : Str)
    (r : Response) (hr : K k r.res.rcode (dataList r.res)) : UpToDate K old life limit t (Caching.store env cfg s k r).main := by
  have hdata : K k (removeEdns0Record (Caching.adjusted cfg r).res).rcode (dataList (removeEdns0Record (Caching.adjusted cfg r).res)) := by
    have e : dataList (removeEdns0Record (Caching.adjusted cfg r).res) = dataList (Caching.adjusted cfg r).res := rfl
    rw [e, adjusted_dataList]
    exact hr
  have hlife := life_of cfg hmax h1 h2 r.res.answer
  have key : ∀ ttl, ttl / 1000000 ≤ life →
      UpToDate K old life limit t (step s.main (.put k (removeEdns0Record (Caching.adjusted cfg r).res) ttl)) := by
    intro ttl hl
    refine ⟨h.now, h.positive, ?_⟩
    intro x hx
    by_cases hz : ttl ≤ 0
    · have : (step s.main (.put k (removeEdns0Record (Caching.adjusted cfg r).res) ttl)).cache.items = s.main.cache.items := by
        show (s.main.cache.put s.main.now k _ ttl).items = _
        unfold Cache.put
        rw [if_pos hz]
      rw [this] at hx
      exact h.entries x hx
    · rcases put_entries _ _ _ _ _ x hx with hx | rfl
      · exact h.entries x hx
      · have g1 := h.now
        have g2 := h.positive
        refine ⟨?_, ?_, .inr hdata⟩
        · show 0 < s.main.now + ttl / 1000000
          generalize s.main.now = now at g1
          omega
        · show s.main.now + ttl / 1000000 ≤ t + life
          generalize s.main.now = now at g1
          omega
  unfold Caching.store Caching.putOps
  simp only
  split
  · split
    · exact key _ hlife
    · split
      · split
        · exact key _ h2
        · exact h
      · exact h
  · exact h

/-- What the cache resolver does to the entries, and what it answers to a single question when nothing old is left. -/
theorem caching_current (env : Caching.Env) {cfg : Caching.Cfg} (hmax : 0 < cfg.maxTime) (h1 : cfg.maxTime / 1000000 ≤ life)
    (h2 : cfg.negTime / 1000000 ≤ life) {next : Chain.MR W} (r : Request) (hnext : ∀ w, AnswersNow K r (next r w).1)
    (w : Msg × (Caching.CState × W)) (hi : UpToDate K old life limit t w.2.1.main) :
    UpToDate K old life limit t (Chain.caching env cfg next r w).2.2.1.main ∧
    (¬ old → ∀ q, r.req.question = [q] → AnswersNow K r (Chain.caching env cfg next r w).1) := by
  have hfound : ∀ (s : Caching.CState) q, UpToDate K old life limit t s.main → ∀ m u, (Caching.cacheGet cfg s (Caching.questionKey q)).1 = some (m, u) →
      ¬ old → K (Caching.questionKey q) m.rcode (dataList m) := by
    intro s q hs m u h ho
    have key : (s.main.cache.get s.main.now (Caching.questionKey q)).1 = some (m, u) := by
      unfold Caching.cacheGet at h
      cases hp : cfg.prefetching <;> rw [hp] at h <;> exact h
    unfold Cache.get at key
    split at key
    · rename_i el hp
      cases key
      exact (hs.entries _ (AMap.get_eq_some_mem hp)).2.2.resolve_left (fun h => ho h.1)
    · cases key
  have hsub : ∀ (s : Caching.CState) q, UpToDate K old life limit t s.main → UpToDate K old life limit t (Caching.cacheGet cfg s (Caching.questionKey q)).2.main := by
    intro s q hs
    refine hs.sub ?_ (cacheGet_sub cfg s (Caching.questionKey q))
    unfold Caching.cacheGet
    cases cfg.prefetching <;> rfl
  have loop : ∀ (qs : List Question) (last : Outcome) (s : Caching.CState) (v : Msg × W), (∀ q ∈ qs, q ∈ r.req.question) →
      UpToDate K old life limit t s.main → UpToDate K old life limit t (Caching.resolveLoop env cfg next r qs last s v).2.1.main := by
    intro qs
    induction qs with
    | nil => intro last s v _ hs; exact hs
    | cons q qs ih =>
      intro last s v hqs hs
      unfold Caching.resolveLoop
      have hs1 := hsub s q hs
      generalize Caching.cacheGet cfg s (Caching.questionKey q) = x at hs1
      obtain ⟨found, s1⟩ := x
      cases found with
      | some mt => exact hs1
      | none =>
        simp only
        have hn := hnext v
        generalize next r v = y at hn
        obtain ⟨o, v1⟩ := y
        have hqs' : ∀ q ∈ qs, q ∈ r.req.question := fun q h => hqs q (List.mem_cons_of_mem _ h)
        cases o with
        | ok y => exact ih _ _ _ hqs' (current_store hmax h1 h2 hs1 env _ y (hn y rfl q (hqs q List.mem_cons_self)))
        | err e => exact ih _ _ _ hqs' hs1
        | noResponse => exact hs1
        | panic => exact hs1
  unfold Chain.caching Caching.resolve
  by_cases hc : (!cfg.enabled || !Caching.isRequestCacheable r.req) = true
  · rw [if_pos hc]
    exact ⟨hi, fun _ _ _ => hnext (w.1, w.2.2)⟩
  · rw [if_neg hc]
    refine ⟨loop r.req.question .noResponse w.2.1 (w.1, w.2.2) (fun _ h => h) hi, ?_⟩
    intro ho q hq y hy q' hq'
    rw [hq] at hq' hy
    cases List.mem_singleton.1 hq'
    unfold Caching.resolveLoop at hy
    have hf := hfound w.2.1 q hi
    generalize Caching.cacheGet cfg w.2.1 (Caching.questionKey q) = x at hf hy
    obtain ⟨found, s1⟩ := x
    cases found with
    | some mt =>
      obtain ⟨m, u⟩ := mt
      cases hy
      have := hf m u rfl ho
      have e : dataList (Caching.hitResponse r.req m u).res = dataList m := by
        unfold dataList
        show (Caching.setTTLs m.answer u).map RR.data = _
        unfold Caching.setTTLs
        rw [List.map_map]
        rfl
      rw [e]
      exact this
    | none =>
      simp only at hy
      have hn := hnext (w.1, w.2.2)
      generalize next r (w.1, w.2.2) = z at hn hy
      obtain ⟨o, v1⟩ := z
      cases o with
      | ok z =>
        simp only [Caching.resolveLoop] at hy
        cases hy
        rw [adjusted_dataList]
        exact hn z rfl q (by rw [hq]; exact List.mem_cons_self)
      | err e => simp only [Caching.resolveLoop] at hy; cases hy
      | noResponse => cases hy
      | panic => cases hy

/-! ### Histories -/

theorem brief_current {c : Chain.Config E W} {up : Resolver W} (hn : NamesLeaveAnswers c) (hmax : 0 < c.cache.maxTime)
    (h1 : c.cache.maxTime / 1000000 ≤ life) (h2 : c.cache.negTime / 1000000 ≤ life) (hnow : ∀ r w, AnswersNow K r (Chain.cond c up r w).1) :
    Brief (fun r => ∀ r1, Ecs.transform c.ecs r = some r1 → ForAll false r1) (fun _ _ => True)
      (fun x => UpToDate K old life limit t x.2.2.1.main) (Chain.whole c up) :=
  brief_chain c up hn (fun s => UpToDate K old life limit t s.main) (fun _ _ _ _ _ _ _ _ => trivial) (fun _ _ _ _ _ => trivial)
    (fun _ _ _ _ => trivial) (fun _ _ _ _ _ _ => trivial) (fun _ _ _ _ _ => trivial)
    (fun r w hi => ⟨(caching_current _ hmax h1 h2 r (hnow r) w hi).1, fun _ _ _ _ _ => trivial⟩)

/-- Handling such a message keeps the cache up to date. -/
def KeepsUpToDate (K : Str → Nat → List RData → Prop) (life : Int) (senv : Server.Env) (c : Chain.Config E W) (up : Resolver W)
    (M : Msg → Prop) : Prop :=
  ∀ old limit t remote sni msg w, M msg → UpToDate K old life limit t w.2.2.1.main →
    UpToDate K old life limit t (Chain.serve senv c up remote sni msg w).2.2.2.1.main

theorem keeps_any {senv : Server.Env} {len : Msg → Nat} (ht : TruncContract len senv.trunc) (herr : OnlyFailures senv)
    {c : Chain.Config E W} {up : Resolver W} (hn : NamesLeaveAnswers c) (hmax : 0 < c.cache.maxTime)
    (h1 : c.cache.maxTime / 1000000 ≤ life) (h2 : c.cache.negTime / 1000000 ≤ life) (hnow : ∀ r w, AnswersNow K r (Chain.cond c up r w).1) :
    KeepsUpToDate K life senv c up (fun _ => True) :=
  fun old limit t remote sni msg w _ hi => (serve_brief (J := fun s => UpToDate K old life limit t s.main) ht herr
    (brief_current hn hmax h1 h2 hnow) remote sni msg w hi).1

/-- Messages with one question, if what is behind the cache answers such requests properly. -/
theorem keeps_one {senv : Server.Env} {c : Chain.Config E W} {up : Resolver W} (hn : NamesLeaveAnswers c) (hmax : 0 < c.cache.maxTime)
    (h1 : c.cache.maxTime / 1000000 ≤ life) (h2 : c.cache.negTime / 1000000 ≤ life)
    (hnow : ∀ r q, r.req.question = [q] → ∀ w, AnswersNow K r (Chain.cond c up r w).1) :
    KeepsUpToDate K life senv c up OneQuestion := by
  intro old limit t remote sni msg w hm hi
  have hrec : ∀ u : Resolver W, Records (fun _ => none) (fun _ _ _ _ => True) u := fun u =>
    ⟨fun _ _ _ _ _ h => h, fun _ _ _ _ _ _ _ _ => trivial, fun _ _ _ _ _ _ _ _ _ _ => trivial⟩
  have hcaching : Tells c (fun _ => none) (fun _ _ _ _ => True) Prod.snd
      (fun x : Caching.CState × W => UpToDate K old life limit t x.1.main) (fun t => t < 65536)
      (Chain.caching c.cacheEnv c.cache (Chain.cond c up)) := by
    intro request w q hq hD hw hi
    have hg := tells_caching c.cacheEnv c.cache (tells_cond (c := c) (hrec up) (fun _ r _ => hrec r)) request w q hq hD hw
      (fun _ _ _ _ _ _ _ => .upstream .self trivial)
    exact ⟨fun _ _ _ h => h, (caching_current c.cacheEnv hmax h1 h2 request (hnow request q hq) w hi).1, hg.ok, hg.err, hg.msg⟩
  have hwhole : Tells c (fun _ => none) (fun _ _ _ _ => True) (fun x => x.2.2.2)
      (fun x => UpToDate K old life limit t x.2.2.1.main) (fun t => t < 65536) (Chain.whole c up) := by
    refine tells_filtering _ (tells_fqdnOnly _ (tells_ecs _ ?_))
    refine tells_clientNames (proj := fun (x : QueryLog.Queue × Caching.CState × W) => x.2.2)
      (I := fun x => UpToDate K old life limit t x.2.1.main) c.names _ ?_
      (tells_ede _ (tells_queryLog (proj := Prod.snd) (I := fun x : Caching.CState × W => UpToDate K old life limit t x.1.main) _ _ _ _
        (tells_metrics _ (tells_ofM (tells_newRewriter _ _ (fun h _ _ _ hm => .custom .self h hm)
          (fun h => tells_toM (tells_customDns _ (fun _ => rfl) rfl _ (tells_ofM h)))
          (tells_toM (tells_hosts _ (tells_blocking _ hcaching))))))))
    intro ask ha ip v hv
    cases hl : c.namesLookup with
    | none => rw [hl] at ha; cases ha
    | some l =>
      rw [hl] at ha
      cases ha
      refine ⟨?_, fun _ _ _ h => h⟩
      show UpToDate K old life limit t (l ip v.2).2.1.main
      rw [hn l hl ip v.2]
      exact hv
  have hreq : (Server.newRequestFromDNS remote sni msg).req = msg := rfl
  cases hq : msg.question with
  | nil =>
    unfold Chain.serve Server.onRequest Server.handleReq Server.resolve
    rw [hreq, hq]
    exact hi
  | cons q qs =>
    obtain ⟨g1, g2⟩ := hm q (by rw [hq]; exact List.mem_cons_self)
    have hqs : qs = [] := by rw [hq] at g1; simpa using g1
    subst hqs
    have hg := (hwhole (Server.newRequestFromDNS remote sni msg) (msg, w) q hq g2 rfl hi).inv
    unfold Chain.serve Server.onRequest Server.handleReq Server.resolve
    rw [hreq, hq]
    simp only
    have hto : Chain.toM (Chain.whole c up) (Server.newRequestFromDNS remote sni msg) w =
      Chain.whole c up (Server.newRequestFromDNS remote sni msg) (msg, w) := rfl
    rw [hto]
    generalize Chain.whole c up (Server.newRequestFromDNS remote sni msg) (msg, w) = x at hg
    obtain ⟨o, m', w'⟩ := x
    cases o with
    | err e =>
      simp only
      cases senv.asUpstream e <;> exact hg
    | _ => exact hg

/-- All queries of a history are such messages. -/
def AllAsked (M : Msg → Prop) (es : List Event) : Prop := ∀ e ∈ es, ∀ remote sni msg, e = .query remote sni msg → M msg

theorem reached_current {senv : Server.Env} {c : Chain.Config E W} {up : Resolver W} {M : Msg → Prop}
    (hk : KeepsUpToDate K life senv c up M) (hp : c.cache.prefetching = false)
    {w0 w : Chain.World W} {es : List Event} (hr : ReachedBy senv c up w0 es w) (hes : AllAsked M es)
    (h0 : UpToDate K old life limit t w0.2.2.1.main) :
    UpToDate K old life limit (t + elapsed es) w.2.2.1.main := by
  induction hr with
  | start => simpa [elapsed] using h0
  | @step es w e w' _ hw ih =>
    have ih := ih (fun e he => hes e (List.mem_append_left _ he))
    rw [elapsed_append]
    cases e with
    | query remote sni msg =>
      cases hw
      have := hk _ _ _ remote sni msg w (hes (.query remote sni msg) (by simp) _ _ _ rfl) ih
      simpa [elapsed] using this
    | pass ms =>
      cases hw
      have hn : (step w.2.2.1.main (.tick ms)).now = w.2.2.1.main.now + ms := rfl
      refine ⟨?_, ?_, ?_⟩
      · show (step w.2.2.1.main (.tick ms)).now = _
        rw [hn, ih.now]
        simp [elapsed]
        omega
      · have := ih.positive
        simp [elapsed]
        omega
      · intro x hx
        obtain ⟨g1, g2, g3⟩ := ih.entries x hx
        refine ⟨g1, ?_, g3⟩
        simp [elapsed]
        omega
    | cleanUp =>
      unfold happen at hw
      simp only at hw
      have hc := fun s mw => cleanUp_state c.cacheEnv c.cache hp (next := Chain.cond c up) w.2.2.1 s ({}, w.2.2.2) mw
      generalize Caching.cleanUpCache c.cacheEnv c.cache (Chain.cond c up) w.2.2.1 ({}, w.2.2.2) = x at hw hc
      obtain ⟨s, mw⟩ := x
      cases s with
      | none => cases hw
      | some s =>
        cases hw
        have := hc s mw rfl
        show UpToDate _ old _ limit _ s.main
        rw [this]
        have := ih.sub (removes_clock _ _) (removes_sub (w.2.2.1.main.cache.expiredKeys w.2.2.1.main.now) _)
        simpa [elapsed] using this

theorem cleanUp_current {s : St Msg} (h : UpToDate K old life limit t s) (hl : limit < t) :
    UpToDate K False life limit t (run s ((s.cache.expiredKeys s.now).map Op.remove)) := by
  refine ⟨(removes_clock _ _).trans h.now, h.positive, ?_⟩
  intro x hx
  have hx0 := removes_sub _ _ x hx
  obtain ⟨h1, h2, h3⟩ := h.entries x hx0
  refine ⟨h1, h2, .inr (h3.elim (fun ⟨_, h3⟩ => ?_) id)⟩
  exfalso
  refine removes_gone _ _ x hx ?_
  unfold Cache.expiredKeys
  refine List.mem_map.2 ⟨x, ?_, rfl⟩
  refine List.mem_filter.2 ⟨by simpa using hx0, ?_⟩
  unfold isExpired
  rw [h.now]
  simp
  omega

/-- After the caching times and a clean-up, nothing old is left. -/
theorem nothing_old {senv : Server.Env} {len : Msg → Nat} (ht : TruncContract len senv.trunc) (herr : OnlyFailures senv)
    {c c1 : Chain.Config E W} {up up1 : Resolver W} (hsame : c1.cache = c.cache) (hmax : 0 < c.cache.maxTime)
    (hp : c.cache.prefetching = false) (hn1 : NamesLeaveAnswers c1)
    {w0 w1 w2 w3 : Chain.World W} {es1 es2 es3 : List Event}
    (h0 : w0.2.2.1.main.cache.items = []) (hpos : 0 < w0.2.2.1.main.now)
    (hr1 : ReachedBy senv c1 up1 w0 es1 w1) (hr2 : ReachedBy senv c up w1 es2 w2)
    (htime : c.cache.maxTime < elapsed es2 * 1000000) (htime' : c.cache.negTime < elapsed es2 * 1000000)
    (hclean : (happen senv c up w2 .cleanUp).2 = some w3)
    {w : Chain.World W} (hr3 : ReachedBy senv c up w3 es3 w)
    {M : Msg → Prop} (hk : KeepsUpToDate K ((elapsed es2 : Int) - 1) senv c up M) (hes2 : AllAsked M es2) (hes3 : AllAsked M es3) :
    ∃ life limit t, c.cache.maxTime / 1000000 ≤ life ∧ c.cache.negTime / 1000000 ≤ life ∧ UpToDate K False life limit t w.2.2.1.main := by
  have hp1 : c1.cache.prefetching = false := by rw [hsame]; exact hp
  have hmax1 : 0 < c1.cache.maxTime := by rw [hsame]; exact hmax
  have hl1 : c.cache.maxTime / 1000000 ≤ (elapsed es2 : Int) - 1 := by omega
  have hl2 : c.cache.negTime / 1000000 ≤ (elapsed es2 : Int) - 1 := by omega
  have hfirst := reached_current (K := fun _ _ _ => True) (old := False) (limit := 0) (keeps_any ht herr hn1 hmax1 (by rw [hsame]; exact hl1)
    (by rw [hsame]; exact hl2) (fun _ _ _ _ _ _ => trivial)) hp1 hr1 (fun _ _ _ _ _ _ => trivial) ⟨rfl, hpos, fun x hx => by rw [h0] at hx; cases hx⟩
  have hstart : UpToDate K True ((elapsed es2 : Int) - 1) (w1.2.2.1.main.now + ((elapsed es2 : Int) - 1)) w1.2.2.1.main.now w1.2.2.1.main := by
    refine ⟨rfl, by rw [hfirst.now]; exact hfirst.positive, ?_⟩
    intro x hx
    obtain ⟨g1, g2, _⟩ := hfirst.entries x hx
    rw [← hfirst.now] at g2
    exact ⟨g1, g2, .inl ⟨trivial, g2⟩⟩
  have hmid := reached_current hk hp hr2 hes2 hstart
  have hw3 : UpToDate K False ((elapsed es2 : Int) - 1) (w1.2.2.1.main.now + ((elapsed es2 : Int) - 1)) (w1.2.2.1.main.now + elapsed es2) w3.2.2.1.main := by
    unfold happen at hclean
    simp only at hclean
    have hc := fun s mw => cleanUp_state c.cacheEnv c.cache hp (next := Chain.cond c up) w2.2.2.1 s ({}, w2.2.2.2) mw
    generalize Caching.cleanUpCache c.cacheEnv c.cache (Chain.cond c up) w2.2.2.1 ({}, w2.2.2.2) = x at hclean hc
    obtain ⟨s, mw⟩ := x
    cases s with
    | none => cases hclean
    | some s =>
      cases hclean
      have := hc s mw rfl
      show UpToDate _ False _ _ _ s.main
      rw [this]
      exact cleanUp_current hmid (by omega)
  exact ⟨_, _, _, hl1, hl2, reached_current hk hp hr3 hes3 hw3⟩

/-- A query while nothing old is in the cache. -/
theorem query_new {c : Chain.Config E W} {up : Resolver W} (hmax : 0 < c.cache.maxTime) (hn : NamesLeaveAnswers c)
    (hnow : ∀ r q, r.req.question = [q] → ∀ w, AnswersNow K r (Chain.cond c up r w).1)
    (hl1 : c.cache.maxTime / 1000000 ≤ life) (hl2 : c.cache.negTime / 1000000 ≤ life)
    {cn cn' : St (List Str)} {queue : QueryLog.Queue} {v v' : Caching.CState × W} (hlast : UpToDate K False life limit t v.1.main)
    (s : Setup E) (request r1 r2 : Request) (hint : request.internal = false) (q : Question) (hq : request.req.question = [q])
    (ht1 : Ecs.transform c.ecs request = some r1) (ht2 : ClientNames.withNames c.names c.namesLookup r1 cn v = (r2, cn', v'))
    (hu : Unconfigured s c r2 q) (hfree : ∀ code answer, K (Caching.questionKey q) code (answer.map RR.data) → ¬ s.AnswerBlocked r2 answer)
    (m : Msg) :
    ∀ y, (Chain.whole c up request (m, (cn, queue, v))).1 = .ok y → K (Caching.questionKey q) y.res.rcode (dataList y.res) := by
  have hv' : UpToDate K False life limit t v'.1.main := by
    have := withNames_keeps c.names c.namesLookup (fun x : Caching.CState × W => UpToDate K False life limit t x.1.main)
      (fun l hl ip v hv => by simp only [hn l hl ip v]; exact hv) r1 cn v hlast
    rw [ht2] at this
    exact this
  have hw := whole_front_names c up request r1 r2 q hq hu.type hu.labels ht1 m cn cn' queue v v' ht2
  have hr2' : r2.req = r1.req := by
    have := withNames_req c.names c.namesLookup r1 cn v
    rw [ht2] at this
    exact this
  have hq1 : r2.req.question = [q] := by rw [hr2']; exact (ecs_question ht1).trans hq
  have hi1 : r2.internal = false := by
    have : r2.internal = r1.internal := by
      have h3 : (ClientNames.withNames c.names c.namesLookup r1 cn v).1.internal = r1.internal := by
        unfold ClientNames.withNames
        rfl
      rw [ht2] at h3
      exact h3
    exact this.trans ((transform_internal ht1).trans hint)
  have hne : r2.req.question ≠ [] := by rw [hq1]; simp
  have hloc := local_passes c hu.depth up r2 hi1 q hq1 hu.notLocal v'
  obtain ⟨queue', hobs⟩ := observed_eq c up r2 hne r1.req queue v'
  have hopen : ∀ q' ∈ r2.req.question, s.Open r2 q' := by
    rw [hq1]
    intro q' h
    rw [List.mem_singleton.1 h]
    exact hu.open
  have hans := (caching_current c.cacheEnv hmax hl1 hl2 r2 (hnow r2 q hq1) (r2.req, v') hv').2 id q hq1
  have hblock : Chain.block c up r2 (r2.req, v') = Chain.caching c.cacheEnv c.cache (Chain.cond c up) r2 (r2.req, v') := by
    unfold Chain.block
    rw [hu.env, hu.state, C15_passed s _ r2 _ hopen]
    intro y hy
    exact hfree _ _ (hans y hy q (by rw [hq1]; exact List.mem_cons_self))
  rw [hw, hobs, hloc, hblock]
  intro y hy
  simp only at hy
  generalize (Chain.caching c.cacheEnv c.cache (Chain.cond c up) r2 (r2.req, v')).1 = o at hy hans
  cases o with
  | ok z =>
    have hz := hans z rfl q (by rw [hq1]; exact List.mem_cons_self)
    simp only [observedAnswer] at hy
    cases hy
    split
    · unfold Small.addExtraReasoning
      split
      · exact hz
      · have hsame := (C29_only_opt_changes z.res (.ede (Small.toExtendedErrorCode z.rtype) z.reason) 0).1.1
        unfold SameOutsideExtra at hsame
        have e1 := congrArg Msg.answer hsame
        have e2 := congrArg Msg.rcode hsame
        simp only at e1 e2
        unfold dataList
        simp only
        rw [e1, e2]
        exact hz
    · exact hz
  | noResponse => cases hy
  | err e => cases hy
  | panic => cases hy

/-- What the client gets of it. -/
theorem serve_new {senv : Server.Env} {len : Msg → Nat} (ht : TruncContract len senv.trunc) (herr : OnlyFailures senv)
    {c : Chain.Config E W} {up : Resolver W} {cn : St (List Str)} {queue : QueryLog.Queue} {v : Caching.CState × W}
    (remote : Server.Addr) (sni : Option Str) (msg : Msg) (q : Question) (hq : msg.question = [q])
    (hg : ∀ y, (Chain.whole c up (Server.newRequestFromDNS remote sni msg) (msg, (cn, queue, v))).1 = .ok y →
      K (Caching.questionKey q) y.res.rcode (dataList y.res)) :
    ∀ m ∈ (Chain.serve senv c up remote sni msg (cn, queue, v)).1, m.rcode ≠ 2 →
      ∃ data, K (Caching.questionKey q) m.rcode data ∧ dataList m <+: data ∧ (m.truncated = false → dataList m = data) := by
  have hcode : ∀ req p m, (Server.finish senv req p m).rcode = m.rcode := by
    intro req p m
    obtain ⟨tc, a, ns, e, he⟩ := ht.header (Server.getMaxResponseSize req p) { m with recursionAvailable := req.recursionDesired }
    unfold Server.finish
    rw [he]
  have hreq : (Server.newRequestFromDNS remote sni msg).req = msg := rfl
  unfold Chain.serve Server.onRequest Server.handleReq Server.resolve
  rw [hreq, hq]
  simp only
  have hto : Chain.toM (Chain.whole c up) (Server.newRequestFromDNS remote sni msg) (cn, queue, v) =
    Chain.whole c up (Server.newRequestFromDNS remote sni msg) (msg, (cn, queue, v)) := rfl
  rw [hto]
  generalize Chain.whole c up (Server.newRequestFromDNS remote sni msg) (msg, (cn, queue, v)) = x at hg
  obtain ⟨o, m', w'⟩ := x
  cases o with
  | ok y =>
    intro m hm hrc
    simp only [List.mem_singleton] at hm
    subst hm
    refine ⟨dataList y.res, by rw [hcode]; exact hg y rfl, ?_⟩
    constructor
    · exact (ht.sections _ _).1.map RR.data
    · intro htc
      refine congrArg (List.map RR.data) (Classical.byContradiction fun hne => ?_)
      have := ht.flagged (Server.getMaxResponseSize m' (Server.newRequestFromDNS remote sni msg).protocol)
        { y.res with recursionAvailable := m'.recursionDesired } hne
      exact absurd (htc.symm.trans this) (by decide)
  | err e =>
    simp only
    cases hum : senv.asUpstream e with
    | none =>
      intro m hm hrc
      simp only [List.mem_singleton] at hm
      subst hm
      exact absurd rfl hrc
    | some um =>
      intro m hm hrc
      simp only [List.mem_singleton] at hm
      subst hm
      exact absurd (by rw [hcode]; exact herr e um hum) hrc
  | noResponse =>
    intro m hm hrc
    simp only [List.mem_singleton] at hm
    subst hm
    exact absurd rfl hrc
  | panic =>
    intro m hm hrc
    simp only [List.mem_singleton] at hm
    subst hm
    exact absurd rfl hrc

/-- **C134.** What is behind the answer cache has answered anything so far (`up1`); now its answers are those of `K`: codes and
data that depend on the question, for example "code 0 and this address" for a name that has not existed before. When more
time has passed than both caching times, and then the cache has been cleaned up, a client that asks for a name about which
nothing is configured gets such an answer or an error, whatever has been asked and answered before, in between and since then. -/
theorem C134_new_answers {senv : Server.Env} {len : Msg → Nat} (ht : TruncContract len senv.trunc) (herr : OnlyFailures senv)
    {c c1 : Chain.Config E W} {up up1 : Resolver W} (hsame : c1.cache = c.cache) (hmax : 0 < c.cache.maxTime)
    (hp : c.cache.prefetching = false) (hn : NamesLeaveAnswers c) (hn1 : NamesLeaveAnswers c1)
    (hnow : ∀ r w, AnswersNow K r (Chain.cond c up r w).1)
    {w0 w1 w2 w3 : Chain.World W} {es1 es2 es3 : List Event}
    (h0 : w0.2.2.1.main.cache.items = []) (hpos : 0 < w0.2.2.1.main.now)
    (hr1 : ReachedBy senv c1 up1 w0 es1 w1) (hr2 : ReachedBy senv c up w1 es2 w2)
    (htime : c.cache.maxTime < elapsed es2 * 1000000) (htime' : c.cache.negTime < elapsed es2 * 1000000)
    (hclean : (happen senv c up w2 .cleanUp).2 = some w3)
    {cn cn' : St (List Str)} {queue : QueryLog.Queue} {v v' : Caching.CState × W} (hr3 : ReachedBy senv c up w3 es3 (cn, queue, v))
    (s : Setup E) (request r1 r2 : Request) (hint : request.internal = false) (q : Question) (hq : request.req.question = [q])
    (ht1 : Ecs.transform c.ecs request = some r1) (ht2 : ClientNames.withNames c.names c.namesLookup r1 cn v = (r2, cn', v'))
    (hu : Unconfigured s c r2 q) (hfree : ∀ code answer, K (Caching.questionKey q) code (answer.map RR.data) → ¬ s.AnswerBlocked r2 answer)
    (m : Msg) :
    ∀ y, (Chain.whole c up request (m, (cn, queue, v))).1 = .ok y → K (Caching.questionKey q) y.res.rcode (dataList y.res) := by
  have hl1 : c.cache.maxTime / 1000000 ≤ (elapsed es2 : Int) - 1 := by omega
  have hl2 : c.cache.negTime / 1000000 ≤ (elapsed es2 : Int) - 1 := by omega
  obtain ⟨_, _, _, g1, g2, g3⟩ := nothing_old ht herr hsame hmax hp hn1 h0 hpos hr1 hr2 htime htime' hclean hr3
    (keeps_any ht herr hn hmax hl1 hl2 hnow) (fun _ _ _ _ _ _ => trivial) (fun _ _ _ _ _ _ => trivial)
  exact query_new hmax hn (fun r _ _ => hnow r) g1 g2 g3 s request r1 r2 hint q hq ht1 ht2 hu hfree m

/-- **C134**, for messages: the client gets the code of a new answer and its data, all of them or (if the message says it is truncated) the
first ones, or a server failure. -/
theorem C134_client {senv : Server.Env} {len : Msg → Nat} (ht : TruncContract len senv.trunc) (herr : OnlyFailures senv)
    {c c1 : Chain.Config E W} {up up1 : Resolver W} (hsame : c1.cache = c.cache) (hmax : 0 < c.cache.maxTime)
    (hp : c.cache.prefetching = false) (hn : NamesLeaveAnswers c) (hn1 : NamesLeaveAnswers c1)
    (hnow : ∀ r w, AnswersNow K r (Chain.cond c up r w).1)
    {w0 w1 w2 w3 : Chain.World W} {es1 es2 es3 : List Event}
    (h0 : w0.2.2.1.main.cache.items = []) (hpos : 0 < w0.2.2.1.main.now)
    (hr1 : ReachedBy senv c1 up1 w0 es1 w1) (hr2 : ReachedBy senv c up w1 es2 w2)
    (htime : c.cache.maxTime < elapsed es2 * 1000000) (htime' : c.cache.negTime < elapsed es2 * 1000000)
    (hclean : (happen senv c up w2 .cleanUp).2 = some w3)
    {cn cn' : St (List Str)} {queue : QueryLog.Queue} {v v' : Caching.CState × W} (hr3 : ReachedBy senv c up w3 es3 (cn, queue, v))
    (s : Setup E) (remote : Server.Addr) (sni : Option Str) (msg : Msg) (r1 r2 : Request) (q : Question) (hq : msg.question = [q])
    (ht1 : Ecs.transform c.ecs (Server.newRequestFromDNS remote sni msg) = some r1)
    (ht2 : ClientNames.withNames c.names c.namesLookup r1 cn v = (r2, cn', v'))
    (hu : Unconfigured s c r2 q) (hfree : ∀ code answer, K (Caching.questionKey q) code (answer.map RR.data) → ¬ s.AnswerBlocked r2 answer) :
    ∀ m ∈ (Chain.serve senv c up remote sni msg (cn, queue, v)).1, m.rcode ≠ 2 →
      ∃ data, K (Caching.questionKey q) m.rcode data ∧ dataList m <+: data ∧ (m.truncated = false → dataList m = data) := by
  exact serve_new ht herr remote sni msg q hq (C134_new_answers ht herr hsame hmax hp hn hn1 hnow h0 hpos hr1 hr2 htime htime' hclean hr3 s
    (Server.newRequestFromDNS remote sni msg) r1 r2 rfl q hq ht1 ht2 hu hfree msg)

/-- **C134**, if clients ask one question per message since the change: then it is enough that requests with one question are
answered as they are to be. -/
theorem C134_one_question {senv : Server.Env} {len : Msg → Nat} (ht : TruncContract len senv.trunc) (herr : OnlyFailures senv)
    {c c1 : Chain.Config E W} {up up1 : Resolver W} (hsame : c1.cache = c.cache) (hmax : 0 < c.cache.maxTime)
    (hp : c.cache.prefetching = false) (hn : NamesLeaveAnswers c) (hn1 : NamesLeaveAnswers c1)
    (hnow : ∀ r q, r.req.question = [q] → ∀ w, AnswersNow K r (Chain.cond c up r w).1)
    {w0 w1 w2 w3 : Chain.World W} {es1 es2 es3 : List Event}
    (h0 : w0.2.2.1.main.cache.items = []) (hpos : 0 < w0.2.2.1.main.now)
    (hr1 : ReachedBy senv c1 up1 w0 es1 w1) (hr2 : ReachedBy senv c up w1 es2 w2)
    (htime : c.cache.maxTime < elapsed es2 * 1000000) (htime' : c.cache.negTime < elapsed es2 * 1000000)
    (hclean : (happen senv c up w2 .cleanUp).2 = some w3)
    {cn cn' : St (List Str)} {queue : QueryLog.Queue} {v v' : Caching.CState × W} (hr3 : ReachedBy senv c up w3 es3 (cn, queue, v))
    (hone2 : OneEach es2) (hone3 : OneEach es3)
    (s : Setup E) (remote : Server.Addr) (sni : Option Str) (msg : Msg) (r1 r2 : Request) (q : Question) (hq : msg.question = [q])
    (ht1 : Ecs.transform c.ecs (Server.newRequestFromDNS remote sni msg) = some r1)
    (ht2 : ClientNames.withNames c.names c.namesLookup r1 cn v = (r2, cn', v'))
    (hu : Unconfigured s c r2 q) (hfree : ∀ code answer, K (Caching.questionKey q) code (answer.map RR.data) → ¬ s.AnswerBlocked r2 answer) :
    ∀ m ∈ (Chain.serve senv c up remote sni msg (cn, queue, v)).1, m.rcode ≠ 2 →
      ∃ data, K (Caching.questionKey q) m.rcode data ∧ dataList m <+: data ∧ (m.truncated = false → dataList m = data) := by
  have hl1 : c.cache.maxTime / 1000000 ≤ (elapsed es2 : Int) - 1 := by omega
  have hl2 : c.cache.negTime / 1000000 ≤ (elapsed es2 : Int) - 1 := by omega
  obtain ⟨_, _, _, g1, g2, g3⟩ := nothing_old ht herr hsame hmax hp hn1 h0 hpos hr1 hr2 htime htime' hclean hr3
    (keeps_one hn hmax hl1 hl2 hnow) hone2 hone3
  exact serve_new ht herr remote sni msg q hq (query_new hmax hn hnow g1 g2 g3 s
    (Server.newRequestFromDNS remote sni msg) r1 r2 rfl q hq ht1 ht2 hu hfree msg)

/-! ### Samples -/

/-- An upstream that knows no names. -/
def nowhereUp : Resolver Nat := fun request n =>
  (.ok { res := { ({} : Msg).setReply request.req with rcode := rcodeNXDomain } }, n + 1)

/-- The sample server with half an hour for negative answers, without zones and special-use names. -/
def freshConfig : Chain.Config prefixEngine Nat :=
  { movedConfig with
    cache := { maxTime := 3600000000000, negTime := 1800000000000 }
    condRewrite := ⟨[], false⟩, condOrder := fun _ => [], sudn := ⟨false, false⟩ }

/-- The codes and data in the answers of a history, after another one with another upstream. -/
def codesOf (c : Chain.Config prefixEngine Nat) (up1 up : Resolver Nat) (es1 es2 : List Event) : List (List (Nat × List RData)) :=
  match es1.foldl (fun w e => w.bind (fun w => (happen sampleServer c up1 w e).2)) (some laterWorld) with
  | some w1 => (answersOf sampleServer c up es2 w1).map (fun ms => ms.map (fun m => (m.rcode, dataList m)))
  | none => []

-- the name is unknown for half a minute more, and known after an hour
example : codesOf freshConfig nowhereUp movedUp [ttlQuery (str! "www.org.")]
      [.pass 30000, ttlQuery (str! "www.org."), .pass 3600000, .cleanUp, ttlQuery (str! "www.org.")] =
    [[], [(3, [])], [], [], [(0, [.a (.v4 0x05060708#32)])]] := by decide +kernel

/-- **C134** needs answers to all questions of a request: with special-use names switched on, a client that asks for such a
name and for another one makes the other one unknown to all clients, although the upstream knows it. -/
theorem C134_two_questions_false : codesOf { freshConfig with sudn := ⟨true, true⟩ } movedUp movedUp [ttlQuery (str! "www.org.")]
      [.pass 7200000, .cleanUp,
       .query (.udp (some (.v4 1#32))) none { query (str! "a.invalid.") with question := [⟨str! "a.invalid.", typeA, 1⟩, ⟨str! "www.org.", typeA, 1⟩] },
       ttlQuery (str! "www.org.")] =
    [[], [], [(3, [])], [(3, [])]] := by decide +kernel

/-- The answers of the upstream that knows the name. -/
def KnownNow (_ : Str) (code : Nat) (data : List RData) : Prop := code = 0 ∧ data ≠ [] ∧ ∀ d ∈ data, d = .a (.v4 0x05060708#32)

theorem fresh_known (r : Request) (w : Msg × Nat) : AnswersNow KnownNow r (Chain.cond freshConfig movedUp r w).1 := by
  intro y hy q hq
  have key : Chain.cond freshConfig movedUp r w = Chain.tail freshConfig movedUp r (r.req, w.2) := by
    unfold Chain.cond Chain.ofM Cond.newRewriter
    unfold Cond.conditional
    rfl
  rw [key] at hy
  cases hy
  refine ⟨rfl, ?_, ?_⟩
  · intro h
    have : r.req.question = [] := by simpa [dataList] using h
    rw [this] at hq
    cases hq
  · intro d hd
    simp only [dataList, List.map_map, List.mem_map] at hd
    obtain ⟨_, _, rfl⟩ := hd
    rfl

-- what C134 needs
example : (∀ r w, AnswersNow KnownNow r (Chain.cond freshConfig movedUp r w).1) ∧
    freshConfig.cache.maxTime < elapsed [.pass 30000, ttlQuery (str! "www.org."), .pass 3600000] * 1000000 ∧
    freshConfig.cache.negTime < elapsed [.pass 30000, ttlQuery (str! "www.org."), .pass 3600000] * 1000000 ∧
    NamesLeaveAnswers freshConfig ∧
    ∃ w1 w2 w3, ReachedBy sampleServer freshConfig nowhereUp laterWorld [ttlQuery (str! "www.org.")] w1 ∧
      ReachedBy sampleServer freshConfig movedUp w1 [.pass 30000, ttlQuery (str! "www.org."), .pass 3600000] w2 ∧
      (happen sampleServer freshConfig movedUp w2 .cleanUp).2 = some w3 ∧
      ∃ r1, Ecs.transform freshConfig.ecs (sampleRequest (str! "www.org.")) = some r1 ∧
        Unconfigured demoSetup freshConfig (seen freshConfig r1 w3.1) ⟨str! "www.org.", typeA, 1⟩ := by
  refine ⟨fresh_known, by decide, by decide, (fun _ h => nomatch h), _, _, _, .step .start rfl, .step (.step (.step .start rfl) rfl) rfl, rfl,
    _, rfl, ?_⟩
  constructor
  · decide
  · exact .inl rfl
  · decide
  · refine ⟨(walk_eq_none _ 8 _ (by decide)).1 (by decide), (fun h => nomatch h), .inr ⟨rfl, rfl⟩⟩
  · rfl
  · rfl
  · refine ⟨?_, ?_, ?_⟩
    · rw [← demoSetup.allow_iff]
      decide +kernel
    · rw [← demoSetup.only_iff]
      decide +kernel
    · rw [← demoSetup.deny_iff]
      decide +kernel
  · rintro (⟨_, z, _, _, hs⟩ | ⟨_, hs⟩) <;> cases hs
  · exact fun h => nomatch h

-- the new address is on no list
example : ∃ r1, Ecs.transform freshConfig.ecs (sampleRequest (str! "www.org.")) = some r1 ∧
    ∀ code answer, KnownNow (Caching.questionKey ⟨str! "www.org.", typeA, 1⟩) code (answer.map RR.data) →
      ¬ demoSetup.AnswerBlocked (seen freshConfig r1 laterWorld.1) answer := by
  refine ⟨_, rfl, ?_⟩
  rintro code answer ⟨_, _, hk⟩ ⟨rr, hr, x, hx, _, hd⟩
  have hrr := hk rr.data (List.mem_map.2 ⟨rr, hr, rfl⟩)
  rw [← demoSetup.deny_iff] at hd
  unfold Checked at hx
  rw [hrr] at hx
  rcases hx.2 with ⟨ip, h, rfl⟩ | ⟨_, h, _⟩ | ⟨_, h, _⟩
  · cases h
    revert hd
    decide +kernel
  · cases h
  · cases h

/-- The sample server with special-use names. -/
def reservedConfig : Chain.Config prefixEngine Nat := { freshConfig with sudn := ⟨true, true⟩ }

/-- The answers to queries for the addresses of "www.org", in any letter case. -/
def WwwKnown (key : Str) (code : Nat) (data : List RData) : Prop :=
  key = Caching.questionKey ⟨str! "www.org.", typeA, 1⟩ → KnownNow key code data

theorem www_plain (n : Str) (h : extractDomain n = str! "www.org") (ds : Bool) : ¬ SpecialUse true n ds := by
  have hcases : lower n = str! "www.org" ∨ lower n = str! "www.org." := by
    unfold extractDomain at h
    generalize lower n = l at h
    unfold trimSuffixDot at h
    split at h
    · rename_i hl
      right
      obtain ⟨ys, rfl⟩ := List.getLast?_eq_some_iff.1 hl
      rw [List.dropLast_concat] at h
      rw [h]
      rfl
    · exact .inl h
  have key : ∀ m, (Small.sudn (W := Unit) ⟨true, true⟩ (fun _ w => (.panic, w)) { req := query m (if ds then 43 else 1) } ()).1 = .panic →
      lower m = m → ¬ SpecialUse true m ds := by
    intro m hm hl hs
    have := (C30_special_use_partial (W := Unit) ⟨true, true⟩ rfl { req := query m (if ds then 43 else 1) } ⟨m, if ds then 43 else 1, 1⟩ [] rfl hl).1
      (by cases ds <;> exact hs)
    obtain ⟨r, _, _, _, _, hr⟩ := this
    rw [hr] at hm
    cases hm
  intro hs
  have hs' : SpecialUse true (lower n) ds := by
    unfold SpecialUse at hs ⊢
    rcases hcases with e | e <;> rw [e] at hs ⊢ <;> exact hs
  rcases hcases with e | e <;> rw [e] at hs'
  · exact key _ (by cases ds <;> decide +kernel) (by decide) hs'
  · exact key _ (by cases ds <;> decide +kernel) (by decide) hs'

-- what the version for one question needs, with special-use names
example : ∀ (r : Request) q, r.req.question = [q] → ∀ w, AnswersNow WwwKnown r (Chain.cond reservedConfig movedUp r w).1 := by
  intro r q hq w y hy q' hq' hk
  rw [hq] at hq'
  cases List.mem_singleton.1 hq'
  have hd : extractDomain q.name = str! "www.org" := by
    have h1 := congrArg (List.drop 2) hk
    have h2 : lower (extractDomain q.name) = str! "www.org" := h1
    rwa [lower_extractDomain] at h2
  have := cond_unconfigured reservedConfig movedUp r q hq (by rintro (⟨_, z, _, _, hs⟩ | ⟨_, hs⟩) <;> cases hs)
    (fun _ => www_plain q.name hd _) w.2
  have he : Chain.cond reservedConfig movedUp r w = Chain.cond reservedConfig movedUp r (r.req, w.2) := rfl
  rw [he, this] at hy
  cases hy
  refine ⟨rfl, ?_, ?_⟩
  · intro h
    have : r.req.question = [] := by simpa [dataList] using h
    rw [hq] at this
    cases this
  · intro d hd
    simp only [dataList, List.map_map, List.mem_map] at hd
    obtain ⟨_, _, rfl⟩ := hd
    rfl

end Verif.Props
