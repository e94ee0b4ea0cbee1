/-
C88: repeated queries are answered from the cache. Whole chain.
-/
import Verif.Props.Forwarding
import Verif.Props.CacheHistory

namespace Verif.Props
open Dns ExpCache StringCache
open Spec (Overrides Uses clockAfter)

variable {E : RegexEngine} {W V : Type}

/-! ### An entry stays in the cache until enough others were used -/

/-- The entry is in the cache, and everything used more recently is among `others`. -/
def Recent (k : Str) (el : Element V) (others : List Str) (s : St V) : Prop :=
  (s.cache.items.map Prod.fst).Nodup ∧
  ∃ pre post, s.cache.items = pre ++ (k, el) :: post ∧ ∀ x ∈ pre, x.1 ∈ others

theorem Recent.peek {k : Str} {el : Element V} {others : List Str} {s : St V} (h : Recent k el others s) :
    AMap.get s.cache.items k = some el := by
  obtain ⟨hn, pre, post, hi, -⟩ := h
  rw [hi] at hn ⊢
  clear hi
  induction pre with
  | nil => simp [AMap.get]
  | cons x pre ih =>
    simp only [List.cons_append, List.map_cons, List.nodup_cons] at hn
    have : x.1 ≠ k := by
      intro h
      apply hn.1
      rw [h]
      simp
    simp only [List.cons_append, AMap.get, this, if_false]
    exact ih hn.2

theorem filter_ne_keys (l : List (Str × Element V)) (k : Str) (h : (l.map Prod.fst).Nodup) :
    ((l.filter (fun e => e.1 ≠ k)).map Prod.fst).Nodup ∧ k ∉ (l.filter (fun e => e.1 ≠ k)).map Prod.fst := by
  constructor
  · exact (List.Sublist.map Prod.fst List.filter_sublist).nodup h
  · simp

/-- Using another key of `others`. -/
theorem Recent.front {k k' : Str} {el el' : Element V} {others : List Str} {items : List (Str × Element V)}
    (hn : (items.map Prod.fst).Nodup) {pre post : List (Str × Element V)} (hi : items = pre ++ (k, el) :: post)
    (hp : ∀ x ∈ pre, x.1 ∈ others) (hk : k' ≠ k) (ho : k' ∈ others) :
    (((k', el') :: items.filter (fun e => e.1 ≠ k')).map Prod.fst).Nodup ∧
    ∃ pre post, (k', el') :: items.filter (fun e => e.1 ≠ k') = pre ++ (k, el) :: post ∧ ∀ x ∈ pre, x.1 ∈ others := by
  obtain ⟨h1, h2⟩ := filter_ne_keys items k' hn
  refine ⟨by rw [List.map_cons, List.nodup_cons]; exact ⟨h2, h1⟩, ?_⟩
  refine ⟨(k', el') :: pre.filter (fun e => e.1 ≠ k'), post.filter (fun e => e.1 ≠ k'), ?_, ?_⟩
  · rw [hi, List.filter_append, List.filter_cons]
    have : decide ((k, el).1 ≠ k') = true := by simpa using fun h => hk h.symm
    rw [if_pos this]
    rfl
  · intro x hx
    rcases List.mem_cons.1 hx with rfl | hx
    · exact ho
    · exact hp x (List.mem_filter.1 hx).1

theorem Recent.step {k : Str} {el : Element V} {others : List Str} {s : St V} (h : Recent k el others s)
    (hroom : others.length < s.cache.cap) (o : Op V) (ho : ¬ Overrides k o)
    (hu : ∀ k', k' ≠ k → Uses k' o → k' ∈ others) :
    Recent k el others (step s o) ∧ (ExpCache.step s o).cache.cap = s.cache.cap ∧
      (ExpCache.step s o).now = clockAfter s.now [o] := by
  obtain ⟨hn, pre, post, hi, hp⟩ := h
  cases o with
  | tick d => exact ⟨⟨hn, pre, post, hi, hp⟩, rfl, rfl⟩
  | clear => exact absurd trivial ho
  | remove k' =>
    refine ⟨⟨(filter_ne_keys _ k' hn).1, pre.filter (fun e => e.1 ≠ k'), post.filter (fun e => e.1 ≠ k'), ?_, ?_⟩, rfl, rfl⟩
    · simp only [ExpCache.step, Cache.remove]
      rw [hi, List.filter_append, List.filter_cons]
      have : decide ((k, el).1 ≠ k') = true := by simpa using fun h => ho h.symm
      rw [if_pos this]
    · intro x hx
      exact hp x (List.mem_filter.1 hx).1
  | get k' =>
    simp only [ExpCache.step, Cache.get]
    cases hpk : s.cache.peek k' with
    | none => exact ⟨⟨hn, pre, post, hi, hp⟩, rfl, rfl⟩
    | some el' =>
      simp only [Cache.touch, hpk]
      refine ⟨?_, by trivial, by trivial⟩
      by_cases hk : k' = k
      · subst hk
        have hpk' := (Recent.peek (s := s) ⟨hn, pre, post, hi, hp⟩)
        have : el' = el := by
          unfold Cache.peek at hpk
          rw [hpk] at hpk'
          exact Option.some.inj hpk'
        subst this
        obtain ⟨h1, h2⟩ := filter_ne_keys s.cache.items k' hn
        exact ⟨by rw [List.map_cons, List.nodup_cons]; exact ⟨h2, h1⟩, [], _, rfl, (fun _ h => nomatch h)⟩
      · exact Recent.front hn hi hp hk (hu k' hk rfl)
  | put k' v ttl =>
    simp only [ExpCache.step, Cache.put]
    by_cases ht : ttl ≤ 0
    · rw [if_pos ht]
      exact ⟨⟨hn, pre, post, hi, hp⟩, rfl, rfl⟩
    · rw [if_neg ht]
      have hk : k' ≠ k := fun h => ho ⟨h, by omega⟩
      have hin := hu k' hk ⟨rfl, by omega⟩
      unfold Cache.add
      by_cases hm : k' ∈ s.cache.items.map Prod.fst
      · rw [if_pos hm]
        exact ⟨Recent.front hn hi hp hk hin, rfl, rfl⟩
      · rw [if_neg hm]
        have hnd : ((k' :: pre.map Prod.fst)).Nodup := by
          rw [List.nodup_cons]
          rw [hi] at hm hn
          rw [List.map_append] at hm hn
          exact ⟨fun h => hm (List.mem_append_left _ h), (List.nodup_append.1 hn).1⟩
        have hlen := nodup_length_le hnd (m := others) (by
          intro x hx
          rcases List.mem_cons.1 hx with rfl | hx
          · exact hin
          · obtain ⟨y, hy, rfl⟩ := List.mem_map.1 hx
            exact hp y hy)
        simp only [List.length_cons, List.length_map] at hlen
        have hn' : (((k', (⟨v, s.now + ttl / 1000000⟩ : Element V)) :: s.cache.items).map Prod.fst).Nodup := by
          rw [List.map_cons, List.nodup_cons]
          exact ⟨hm, hn⟩
        have hp' : ∀ x ∈ ((k', (⟨v, s.now + ttl / 1000000⟩ : Element V)) :: pre), x.1 ∈ others := by
          intro x hx
          rcases List.mem_cons.1 hx with rfl | hx
          · exact hin
          · exact hp x hx
        split
        · rename_i hfull
          refine ⟨⟨?_, (k', ⟨v, s.now + ttl / 1000000⟩) :: pre, post.dropLast, ?_, hp'⟩, rfl, rfl⟩
          · exact (List.Sublist.map Prod.fst (List.dropLast_sublist _)).nodup hn'
          · simp only
            rw [hi] at hfull ⊢
            have hpost : post ≠ [] := by
              rintro rfl
              simp only [List.length_append, List.length_cons, List.length_nil] at hfull
              omega
            rw [← List.cons_append, List.dropLast_append_of_ne_nil (by simp), List.dropLast_cons_of_ne_nil hpost]
        · exact ⟨⟨hn', (k', ⟨v, s.now + ttl / 1000000⟩) :: pre, post, by simp only; rw [hi]; rfl, hp'⟩, rfl, rfl⟩

theorem clockAfter_cons (t : Int) (o : Op V) (ops : List (Op V)) : clockAfter t (o :: ops) = clockAfter (clockAfter t [o]) ops := by
  cases o <;> rfl

theorem Recent.run {k : Str} {el : Element V} {others : List Str} (ops : List (Op V)) (s : St V) (h : Recent k el others s)
    (hroom : others.length < s.cache.cap) (ho : ∀ o ∈ ops, ¬ Overrides k o)
    (hu : ∀ o ∈ ops, ∀ k', k' ≠ k → Uses k' o → k' ∈ others) :
    Recent k el others (ExpCache.run s ops) ∧ (ExpCache.run s ops).now = clockAfter s.now ops := by
  induction ops generalizing s with
  | nil => exact ⟨h, rfl⟩
  | cons o ops ih =>
    rw [run_cons, clockAfter_cons]
    obtain ⟨h1, h2, h3⟩ := h.step hroom o (ho o (by simp)) (hu o (by simp))
    have := ih (ExpCache.step s o) h1 (by rw [h2]; exact hroom) (fun o' h' => ho o' (by simp [h'])) (fun o' h' => hu o' (by simp [h']))
    rw [h3] at this
    exact this

/-! ### Storing and serving -/

theorem add_recent (s : Cache V) (hn : (s.items.map Prod.fst).Nodup) (k : Str) (el : Element V) (hcap : 0 < s.cap) :
    ((s.add k el).items.map Prod.fst).Nodup ∧ (∃ post, (s.add k el).items = (k, el) :: post) ∧ (s.add k el).cap = s.cap := by
  unfold Cache.add
  split
  · obtain ⟨h1, h2⟩ := filter_ne_keys s.items k hn
    exact ⟨by rw [List.map_cons, List.nodup_cons]; exact ⟨h2, h1⟩, ⟨_, rfl⟩, rfl⟩
  · rename_i hm
    have hn' : (((k, el) :: s.items).map Prod.fst).Nodup := by
      rw [List.map_cons, List.nodup_cons]
      exact ⟨hm, hn⟩
    split
    · rename_i hfull
      refine ⟨(List.Sublist.map Prod.fst (List.dropLast_sublist _)).nodup hn', ?_, rfl⟩
      simp only
      have : s.items ≠ [] := by
        intro h
        rw [h] at hfull
        simp only [List.length_nil] at hfull
        omega
      exact ⟨_, List.dropLast_cons_of_ne_nil this⟩
    · exact ⟨hn', ⟨_, rfl⟩, rfl⟩

theorem touch_nodup (s : Cache V) (hn : (s.items.map Prod.fst).Nodup) (k : Str) :
    ((s.touch k).items.map Prod.fst).Nodup ∧ (s.touch k).cap = s.cap := by
  unfold Cache.touch
  split
  · exact ⟨hn, rfl⟩
  · obtain ⟨h1, h2⟩ := filter_ne_keys s.items k hn
    exact ⟨by rw [List.map_cons, List.nodup_cons]; exact ⟨h2, h1⟩, rfl⟩

theorem cacheGet_state (cfg : Caching.Cfg) (s : Caching.CState) (k : Str) (hn : (s.main.cache.items.map Prod.fst).Nodup) :
    ((Caching.cacheGet cfg s k).2.main.cache.items.map Prod.fst).Nodup ∧ (Caching.cacheGet cfg s k).2.main.cache.cap = s.main.cache.cap ∧
      (Caching.cacheGet cfg s k).2.main.now = s.main.now := by
  have : ∀ s1 : Caching.CState, s1.main = s.main →
      (((s1.main.cache.get s1.main.now k).2.items.map Prod.fst).Nodup ∧ (s1.main.cache.get s1.main.now k).2.cap = s.main.cache.cap) := by
    intro s1 h1
    rw [h1]
    unfold Cache.get
    split
    · exact touch_nodup _ hn k
    · exact ⟨hn, rfl⟩
  unfold Caching.cacheGet
  simp only
  split
  · exact ⟨(this _ rfl).1, (this _ rfl).2, rfl⟩
  · exact ⟨(this _ rfl).1, (this _ rfl).2, rfl⟩

/-- How long (in milliseconds) the answer may be served from the cache: the smallest TTL (2^31 − 1 seconds at most), and
for answers without records and for unknown names the time configured for negative answers. -/
def FreshFor (cfg : Caching.Cfg) (m : Msg) (ms : Int) : Prop :=
  (m.rcode = rcodeSuccess ∧ m.truncated = false ∧ m.checkingDisabled = false ∧
    ((m.answer ≠ [] ∧ (∀ a ∈ m.answer, 0 < a.ttl.toNat ∧ ms ≤ a.ttl.toNat * 1000) ∧ ms ≤ 2147483647 * 1000) ∨
     (m.answer = [] ∧ 0 < cfg.negTime ∧ ms * 1000000 ≤ cfg.negTime))) ∨
  (m.rcode = rcodeNXDomain ∧ 0 < cfg.negTime ∧ ms * 1000000 ≤ cfg.negTime)

/-- The lifetime, in milliseconds. -/
def lifeMs (cfg : Caching.Cfg) (m : Msg) : Int :=
  if m.rcode = rcodeSuccess ∧ m.answer ≠ [] then (Caching.minTTL m.answer).toNat * 1000 else cfg.negTime / 1000000

theorem fresh_stored (env : Caching.Env) (cfg : Caching.Cfg) (key : Str) (u : Response) {ms : Int} (h0 : 0 ≤ ms)
    (hf : FreshFor cfg (Caching.adjusted cfg u).res ms) (hp : env.packs (removeEdns0Record (Caching.adjusted cfg u).res) = true) :
    ms ≤ lifeMs cfg (Caching.adjusted cfg u).res ∧
    ∃ ttl, 0 < ttl ∧ ttl / 1000000 = lifeMs cfg (Caching.adjusted cfg u).res ∧
      Caching.putOps env cfg key (Caching.adjusted cfg u).res (Caching.adjustTTLs cfg u.res.answer).2 =
        [.put key (removeEdns0Record (Caching.adjusted cfg u).res) ttl] := by
  have hans : (Caching.adjusted cfg u).res.answer = (Caching.adjustTTLs cfg u.res.answer).1 := rfl
  generalize hm : (Caching.adjusted cfg u).res = m at *
  unfold Caching.putOps
  simp only [hp, if_true]
  rcases hf with ⟨h1, h2, h3, h4⟩ | ⟨h1, h2, h3⟩
  · have hc : (m.rcode == rcodeSuccess && Caching.isResponseCacheable m) = true := by
      simp [Caching.isResponseCacheable, h1, h2, h3]
    rw [if_pos hc]
    rcases h4 with ⟨hne, hall, hbig⟩ | ⟨he, hneg, hms⟩
    · have hne' : u.res.answer ≠ [] := by
        intro h
        rw [h] at hans
        exact hne (by rw [hans]; rfl)
      have hlife : lifeMs cfg m = (Caching.minTTL m.answer).toNat * 1000 := by
        unfold lifeMs
        rw [if_pos ⟨h1, hne⟩]
      have hat := Caching.minTTL_attained m.answer
      have httl : (Caching.adjustTTLs cfg u.res.answer).2 = (Caching.minTTL m.answer).toNat * 1000000000 := by
        rw [Caching.adjustTTLs_ttl cfg hne', hans]
      rw [hlife, httl]
      refine ⟨?_, _, ?_, ?_, rfl⟩
      · rcases hat with h | ⟨a, ha, h⟩
        · omega
        · have := (hall a ha).2
          omega
      · rcases hat with h | ⟨a, ha, h⟩
        · omega
        · have := (hall a ha).1
          omega
      · omega
    · have he' : u.res.answer = [] := by
        rw [he, Caching.adjustTTLs_answer] at hans
        exact List.map_eq_nil_iff.1 hans.symm
      have hlife : lifeMs cfg m = cfg.negTime / 1000000 := by
        unfold lifeMs
        rw [if_neg (fun h => h.2 he)]
      have httl : (Caching.adjustTTLs cfg u.res.answer).2 = cfg.negTime := by rw [he']; rfl
      rw [hlife, httl]
      exact ⟨by omega, _, hneg, rfl, rfl⟩
  · have hc : (m.rcode == rcodeSuccess && Caching.isResponseCacheable m) = false := by
      rw [h1]; rfl
    have hc2 : (m.rcode == rcodeNXDomain) = true := by rw [h1]; rfl
    rw [hc, hc2]
    simp only [Bool.false_eq_true, if_false, if_true, if_pos h2]
    have hlife : lifeMs cfg m = cfg.negTime / 1000000 := by
      unfold lifeMs
      rw [if_neg]
      rintro ⟨h, _⟩
      rw [h1] at h
      exact absurd h (by decide)
    rw [hlife]
    exact ⟨by omega, _, h2, rfl, rfl⟩

theorem caching_stores (env : Caching.Env) (cfg : Caching.Cfg) (next : Resolver W) (r : Request) (s : Caching.CState) (w w' : W)
    (q : Question) (u : Response) (hen : cfg.enabled = true) (hcb : Caching.isRequestCacheable r.req = true)
    (hq : r.req.question = [q]) (hmiss : AMap.get s.main.cache.items (Caching.questionKey q) = none) (hnext : next r w = (.ok u, w'))
    (hn : (s.main.cache.items.map Prod.fst).Nodup) (hcap : 0 < s.main.cache.cap) (hpack : ∀ m, env.packs m = true)
    (hf : FreshFor cfg (Caching.adjusted cfg u).res 0) :
    ∃ s', Caching.resolve env cfg next r s w = (.ok (Caching.adjusted cfg u), s', w') ∧
      Recent (Caching.questionKey q) ⟨removeEdns0Record (Caching.adjusted cfg u).res, s'.main.now + lifeMs cfg (Caching.adjusted cfg u).res⟩ [] s'.main ∧
      s'.main.cache.cap = s.main.cache.cap := by
  have hm := cacheGet_none cfg s _ hmiss
  obtain ⟨g1, g2, g3⟩ := cacheGet_state cfg s (Caching.questionKey q) hn
  have hres : Caching.resolve env cfg next r s w =
      (.ok (Caching.adjusted cfg u), Caching.store env cfg (Caching.cacheGet cfg s (Caching.questionKey q)).2 (Caching.questionKey q) u, w') := by
    simp only [Caching.resolve, hen, hcb, hq, Bool.not_true, Bool.or_self, Bool.false_eq_true, if_false, Caching.resolveLoop]
    cases hg : Caching.cacheGet cfg s (Caching.questionKey q) with
    | mk o s1 =>
      rw [hg] at hm
      simp only at hm
      subst hm
      simp only [hnext]
  refine ⟨_, hres, ?_⟩
  obtain ⟨_, ttl, h1, h2, h3⟩ := fresh_stored env cfg (Caching.questionKey q) u (Int.le_refl 0) hf (hpack _)
  generalize hs1 : (Caching.cacheGet cfg s (Caching.questionKey q)).2 = s1 at *
  have hput : ∀ (m : Msg), ExpCache.run s1.main [.put (Caching.questionKey q) m ttl] =
      { s1.main with cache := s1.main.cache.add (Caching.questionKey q) ⟨m, s1.main.now + lifeMs cfg (Caching.adjusted cfg u).res⟩ } := by
    intro m
    simp only [ExpCache.run, List.foldl_cons, List.foldl_nil, ExpCache.step, Cache.put]
    rw [if_neg (by omega), h2]
  unfold Caching.store
  rw [h3, hput]
  obtain ⟨f1, ⟨post, f2⟩, f3⟩ := add_recent s1.main.cache g1 (Caching.questionKey q)
    ⟨removeEdns0Record (Caching.adjusted cfg u).res, s1.main.now + lifeMs cfg (Caching.adjusted cfg u).res⟩ (by rw [g2]; exact hcap)
  exact ⟨⟨f1, [], post, f2, (fun _ h => nomatch h)⟩, f3.trans g2⟩

theorem caching_serves (env : Caching.Env) (cfg : Caching.Cfg) (next : Resolver W) (r : Request) (s : Caching.CState) (w : W)
    (q : Question) (hen : cfg.enabled = true) (hcb : Caching.isRequestCacheable r.req = true)
    (hq : r.req.question = [q]) {m : Msg} {exp : Int}
    (hhit : AMap.get s.main.cache.items (Caching.questionKey q) = some ⟨m, exp⟩) :
    ∃ s', Caching.resolve env cfg next r s w = (.ok (Caching.hitResponse r.req m (remainTTL s.main.now exp)), s', w) := by
  have hm : (Caching.cacheGet cfg s (Caching.questionKey q)).1 = some (m, remainTTL s.main.now exp) := by
    have : ∀ s1 : Caching.CState, s1.main = s.main →
        (s1.main.cache.get s1.main.now (Caching.questionKey q)).1 = some (m, remainTTL s.main.now exp) := by
      intro s1 h1
      rw [h1]
      unfold Cache.get Cache.peek
      rw [hhit]
    unfold Caching.cacheGet
    simp only
    split
    · exact this _ rfl
    · exact this _ rfl
  simp only [Caching.resolve, hen, hcb, hq, Bool.not_true, Bool.or_self, Bool.false_eq_true, if_false, Caching.resolveLoop]
  cases hg : Caching.cacheGet cfg s (Caching.questionKey q) with
  | mk o s1 =>
    rw [hg] at hm
    simp only at hm
    subst hm
    exact ⟨s1, rfl⟩

/-- The query reaches the cache: nothing filters, answers or blocks it before. -/
structure ReachesCache (s : Setup E) (c : Chain.Config E W) (r : Request) (q : Question) : Prop where
  type : q.qtype ∉ c.filterTypes
  labels : c.fqdnOnly = false ∨ '.' ∈ extractDomain q.name
  depth : 0 < c.customDepth
  notLocal : NotLocal c r q
  env : c.blockEnv = s.env
  state : c.blockState = s.state
  «open» : s.Open r q
  enabled : c.cache.enabled = true
  cacheable : Caching.isRequestCacheable r.req = true

/-- What the whole chain does with such a query, in terms of the cache. -/
theorem whole_caching (s : Setup E) (c : Chain.Config E W) (up : Resolver W) (request r1 r2 : Request) (hint : request.internal = false)
    (q : Question) (hq : request.req.question = [q]) (h1 : Ecs.transform c.ecs request = some r1) (cn cn' : St (List Str))
    (v : Caching.CState × W) (cache cache' : Caching.CState) (w w' : W) (m1 : Msg)
    (h2 : ClientNames.withNames c.names c.namesLookup r1 cn v = (r2, cn', (cache, w))) (hu : ReachesCache s c r2 q) (y : Response)
    (hy : Caching.resolve c.cacheEnv c.cache (Chain.cond c up) r2 cache (r2.req, w) = (.ok y, cache', (m1, w')))
    (hb : ¬ s.AnswerBlocked r2 y.res.answer) (m : Msg) (queue : QueryLog.Queue) :
    ∃ queue', Chain.whole c up request (m, (cn, queue, v)) =
      (.ok (if c.ede then Small.addExtraReasoning y else y), (m1, (cn', queue', cache', w'))) := by
  have hw := whole_front_names c up request r1 r2 q hq hu.type hu.labels h1 m cn cn' queue v (cache, w) h2
  have hr2 : r2.req = r1.req := by
    have := withNames_req c.names c.namesLookup r1 cn v
    rw [h2] at this
    exact this
  have hq1 : r2.req.question = [q] := by rw [hr2]; exact (ecs_question h1).trans hq
  have hi1 : r2.internal = false := by
    have : r2.internal = r1.internal := by
      have h3 : (ClientNames.withNames c.names c.namesLookup r1 cn v).1.internal = r1.internal := by
        unfold ClientNames.withNames
        rfl
      rw [h2] at h3
      exact h3
    exact this.trans ((transform_internal h1).trans hint)
  have hne : r2.req.question ≠ [] := by rw [hq1]; simp
  have hloc := local_passes c hu.depth up r2 hi1 q hq1 hu.notLocal (cache, w)
  obtain ⟨queue', hobs⟩ := observed_eq c up r2 hne r1.req queue (cache, w)
  have hopen : ∀ q' ∈ r2.req.question, s.Open r2 q' := by
    rw [hq1]
    intro q' h
    rw [List.mem_singleton.1 h]
    exact hu.open
  have hch : Chain.caching c.cacheEnv c.cache (Chain.cond c up) r2 (r2.req, (cache, w)) = (.ok y, (m1, (cache', w'))) := by
    unfold Chain.caching
    simp only [hy]
  have hblock : Chain.block c up r2 (r2.req, (cache, w)) = (.ok y, (m1, (cache', w'))) := by
    unfold Chain.block
    rw [hu.env, hu.state, C15_passed s _ r2 _ hopen, hch]
    intro y' hy'
    rw [hch] at hy'
    cases hy'
    exact hb
  refine ⟨queue', ?_⟩
  rw [hw, hobs, hloc, hblock]
  rfl

/-- Extended errors change the additional section only. -/
theorem addExtra_fields (b : Bool) (y : Response) : ((if b then Small.addExtraReasoning y else y).rtype = y.rtype ∧
      (if b then Small.addExtraReasoning y else y).reason = y.reason) ∧
    SameOutsideExtra (if b then Small.addExtraReasoning y else y).res y.res := by
  cases b with
  | false => exact ⟨⟨rfl, rfl⟩, rfl⟩
  | true =>
    simp only [if_true]
    unfold Small.addExtraReasoning
    split
    · exact ⟨⟨rfl, rfl⟩, rfl⟩
    · exact ⟨⟨rfl, rfl⟩, (C29_only_opt_changes y.res (.ede (Small.toExtendedErrorCode y.rtype) y.reason) 0).1.1⟩

theorem clockAfter_shift (ops : List (Op V)) (t : Int) : clockAfter t ops = t + clockAfter 0 ops ∧ 0 ≤ clockAfter 0 ops := by
  induction ops generalizing t with
  | nil => simp [clockAfter]
  | cons o ops ih =>
    cases o with
    | tick d =>
      simp only [clockAfter]
      have h1 := ih (t + d)
      have h2 := ih (0 + (d : Int))
      omega
    | _ => exact ih t

theorem answerBlocked_congr (s : Setup E) (r : Request) {l l' : List RR} (h : Pointwise SameButTTL l l') (hb : ¬ s.AnswerBlocked r l) :
    ¬ s.AnswerBlocked r l' := by
  rintro ⟨rr, hrr, x, hx, hd⟩
  obtain ⟨a, ha, hs⟩ := pointwise_mem h hrr
  refine hb ⟨a, ha, x, ?_, hd⟩
  have hdata : a.data = rr.data := by
    have := congrArg RR.data hs
    simp only at this
    exact this
  unfold Checked at hx ⊢
  rw [hdata]
  exact hx

theorem FreshFor.congr {cfg : Caching.Cfg} {m m' : Msg} {ms : Int} (h : SameOutsideExtra m m') (hf : FreshFor cfg m ms) : FreshFor cfg m' ms := by
  unfold SameOutsideExtra at h
  have e1 := congrArg Msg.rcode h
  have e2 := congrArg Msg.truncated h
  have e3 := congrArg Msg.checkingDisabled h
  have e4 := congrArg Msg.answer h
  simp only at e1 e2 e3 e4
  unfold FreshFor at *
  rw [← e1, ← e2, ← e3, ← e4]
  exact hf

theorem FreshFor.mono {cfg : Caching.Cfg} {m : Msg} {ms ms' : Int} (hf : FreshFor cfg m ms) (h : ms' ≤ ms) : FreshFor cfg m ms' := by
  rcases hf with ⟨h1, h2, h3, ⟨h4, h5, h6⟩ | ⟨h4, h5, h6⟩⟩ | ⟨h1, h2, h3⟩
  · exact .inl ⟨h1, h2, h3, .inl ⟨h4, fun a ha => ⟨(h5 a ha).1, Int.le_trans h (h5 a ha).2⟩, Int.le_trans h h6⟩⟩
  · exact .inl ⟨h1, h2, h3, .inr ⟨h4, h5, by omega⟩⟩
  · exact .inr ⟨h1, h2, by omega⟩

theorem setTTLs_pointwise (l : List RR) (ms : Int) : Pointwise SameButTTL l (Caching.setTTLs l ms) := by
  unfold Caching.setTTLs
  generalize Caching.minTTL l = t
  induction l with
  | nil => exact .nil
  | cons a l ih => exact .cons rfl ih

theorem sameOutside_fields {m m' : Msg} (h : SameOutsideExtra m m') : m.answer = m'.answer ∧ m.rcode = m'.rcode ∧ m.ns = m'.ns ∧
    m.id = m'.id ∧ m.question = m'.question ∧ m.response = m'.response := by
  unfold SameOutsideExtra at h
  have e1 := congrArg Msg.answer h
  have e2 := congrArg Msg.rcode h
  have e3 := congrArg Msg.ns h
  have e4 := congrArg Msg.id h
  have e5 := congrArg Msg.question h
  have e6 := congrArg Msg.response h
  simp only at e1 e2 e3 e4 e5 e6
  exact ⟨e1, e2, e3, e4, e5, e6⟩

theorem questionKey_congr {q q2 : Question} (ht : q2.qtype = q.qtype) (hl : lower q2.name = lower q.name) :
    Caching.questionKey q2 = Caching.questionKey q := by
  simp only [Caching.questionKey, extractDomain, ht, hl]

/-- **C88.** A query that reaches the cache without finding its answer there, and whose answer `y` may be cached, is followed by
another query for the same type and the same name in any letter case, of any client for which nothing filters, answers
or blocks it before the cache. In between the cache was used in any way (`ops`: queries, clean-ups, answers from redis,
passing time) that did not replace or delete this entry, with fewer other names than the cache holds; and the answer's
lifetime has not passed. Then the second query is answered from the cache: with type and reason saying so, with its own id and question, the same
code, the same authority records, and the same records in the same order; for a positive answer each TTL is lower by
the time passed, in whole seconds rounded up. Neither the upstreams nor anything else behind the cache is asked: the world is unchanged, and
`up2` may be anything. -/
theorem C88_repeated (s : Setup E) (c : Chain.Config E W) (hpack : ∀ m, c.cacheEnv.packs m = true)
    (up : Resolver W) (request r1 r2 : Request) (hint : request.internal = false) (q : Question) (hq : request.req.question = [q])
    (h1 : Ecs.transform c.ecs request = some r1) (cn cn' : St (List Str)) (v : Caching.CState × W) (cache : Caching.CState) (w w' : W)
    (m1 : Msg) (h2 : ClientNames.withNames c.names c.namesLookup r1 cn v = (r2, cn', (cache, w))) (hu : ReachesCache s c r2 q)
    (hn : (cache.main.cache.items.map Prod.fst).Nodup) (hcap : 0 < cache.main.cache.cap)
    (hmiss : AMap.get cache.main.cache.items (Caching.questionKey q) = none) (u : Response)
    (hup : Chain.cond c up r2 (r2.req, w) = (.ok u, (m1, w'))) (hb : ¬ s.AnswerBlocked r2 u.res.answer)
    (m : Msg) (queue : QueryLog.Queue) :
    ∃ y queue' cache', Chain.whole c up request (m, (cn, queue, v)) = (.ok y, (m1, (cn', queue', cache', w'))) ∧
      (∀ (s2 : Setup E) (c2 : Chain.Config E W), c2.cache = c.cache →
      ∀ (up2 : Resolver W) (request2 r1' r2' : Request), request2.internal = false →
      ∀ (q2 : Question), request2.req.question = [q2] → q2.qtype = q.qtype → lower q2.name = lower q.name →
        Ecs.transform c2.ecs request2 = some r1' →
      ∀ (cn2 cn2' : St (List Str)) (v2 : Caching.CState × W) (cache2 : Caching.CState) (w2 : W),
        ClientNames.withNames c2.names c2.namesLookup r1' cn2 v2 = (r2', cn2', (cache2, w2)) → ReachesCache s2 c2 r2' q2 →
        ¬ s2.AnswerBlocked r2' y.res.answer →
      ∀ (ops : List (Op Msg)) (others : List Str), cache2.main = ExpCache.run cache'.main ops →
        (∀ o ∈ ops, ¬ Overrides (Caching.questionKey q) o) → others.length < cache.main.cache.cap →
        (∀ o ∈ ops, ∀ k', k' ≠ Caching.questionKey q → Uses k' o → k' ∈ others) →
        FreshFor c.cache y.res (clockAfter 0 ops) →
      ∀ (m2 : Msg) (queue2 : QueryLog.Queue),
      ∃ y2 queue2' cache2', Chain.whole c2 up2 request2 (m2, (cn2, queue2, v2)) = (.ok y2, (r2'.req, (cn2', queue2', cache2', w2))) ∧
        y2.rtype = .cached ∧ y2.reason = (if y.res.rcode = rcodeSuccess then str! "CACHED" else str! "CACHED NEGATIVE") ∧ y2.res.id = request2.req.id ∧ y2.res.question = [q2] ∧ y2.res.response = true ∧
        y2.res.rcode = y.res.rcode ∧ y2.res.ns = y.res.ns ∧
        Pointwise SameButTTL y.res.answer y2.res.answer ∧
        (y.res.rcode = rcodeSuccess → Pointwise (fun a a' => (a'.ttl.toNat : Int) = a.ttl.toNat - ceilSeconds (clockAfter 0 ops))
          y.res.answer y2.res.answer)) := by
  have hr2q : r2.req.question = [q] := by
    have := withNames_req c.names c.namesLookup r1 cn v
    rw [h2] at this
    rw [this]
    exact (ecs_question h1).trans hq
  have hadj : Pointwise SameButTTL u.res.answer (Caching.adjusted c.cache u).res.answer := pointwise_adjust c.cache _
  have hb' := answerBlocked_congr s r2 hadj hb
  by_cases hF : FreshFor c.cache (Caching.adjusted c.cache u).res 0
  · obtain ⟨cache', g1, g2, g3⟩ := caching_stores c.cacheEnv c.cache (Chain.cond c up) r2 cache (r2.req, w) (m1, w') q u hu.enabled hu.cacheable hr2q
      hmiss hup hn hcap hpack hF
    obtain ⟨queue', hw1⟩ := whole_caching s c up request r1 r2 hint q hq h1 cn cn' v cache cache' w w' m1 h2 hu _ g1 hb' m queue
    obtain ⟨_, hsame⟩ := addExtra_fields c.ede (Caching.adjusted c.cache u)
    refine ⟨_, queue', cache', hw1, ?_⟩
    generalize (if c.ede = true then Small.addExtraReasoning (Caching.adjusted c.cache u) else Caching.adjusted c.cache u) = y at hsame
    have hfc : ∀ ms, FreshFor c.cache y.res ms → FreshFor c.cache (Caching.adjusted c.cache u).res ms := fun ms h => h.congr hsame
    generalize hA : Caching.adjusted c.cache u = a at *
    intro s2 c2 hc2 up2 request2 r1' r2' hint2 q2 hq2 ht hl h1' cn2 cn2' v2 cache2 w2 h2' hu2 hb2 ops others hrun hov hlen huse hfresh m2 queue2
    have hr2q' : r2'.req.question = [q2] := by
      have := withNames_req c2.names c2.namesLookup r1' cn2 v2
      rw [h2'] at this
      rw [this]
      exact (ecs_question h1').trans hq2
    have hrec : Recent (Caching.questionKey q) ⟨removeEdns0Record a.res, cache'.main.now + lifeMs c.cache a.res⟩ others cache'.main := by
      obtain ⟨f1, pre, post, f2, f3⟩ := g2
      exact ⟨f1, pre, post, f2, fun x hx => absurd (f3 x hx) (by simp)⟩
    obtain ⟨hrec2, hnow⟩ := hrec.run ops cache'.main (by rw [g3]; exact hlen) hov huse
    rw [← hrun] at hrec2 hnow
    have hpk := hrec2.peek
    rw [← questionKey_congr ht hl] at hpk
    obtain ⟨cache2', hs⟩ := caching_serves c2.cacheEnv c2.cache (Chain.cond c2 up2) r2' cache2 (r2'.req, w2) q2 hu2.enabled hu2.cacheable hr2q' hpk
    have hsc := clockAfter_shift ops cache'.main.now
    have hlive := (fresh_stored c.cacheEnv c.cache [] u (ms := clockAfter 0 ops) hsc.2 (by rw [hA]; exact hfc _ hfresh) (hpack _)).1
    rw [hA] at hlive
    have hrem : remainTTL cache2.main.now (cache'.main.now + lifeMs c.cache a.res) = lifeMs c.cache a.res - clockAfter 0 ops := by
      unfold remainTTL
      rw [hnow]
      split <;> omega
    rw [hrem] at hs
    obtain ⟨e0, e1, e2, _⟩ := sameOutside_fields hsame
    have hpw : Pointwise SameButTTL y.res.answer (Caching.hitResponse r2'.req (removeEdns0Record a.res) (lifeMs c.cache a.res - clockAfter 0 ops)).res.answer := by
      rw [e0]
      exact setTTLs_pointwise _ _
    obtain ⟨queue2', hw2⟩ := whole_caching s2 c2 up2 request2 r1' r2' hint2 q2 hq2 h1' cn2 cn2' v2 cache2 cache2' w2 w2 r2'.req h2' hu2 _ hs
      (answerBlocked_congr s2 r2' hpw hb2) m2 queue2
    obtain ⟨k1, k2⟩ := addExtra_fields c2.ede (Caching.hitResponse r2'.req (removeEdns0Record a.res) (lifeMs c.cache a.res - clockAfter 0 ops))
    refine ⟨_, queue2', cache2', hw2, ?_⟩
    generalize (if c2.ede = true then Small.addExtraReasoning (Caching.hitResponse r2'.req (removeEdns0Record a.res) (lifeMs c.cache a.res - clockAfter 0 ops))
      else Caching.hitResponse r2'.req (removeEdns0Record a.res) (lifeMs c.cache a.res - clockAfter 0 ops)) = y2 at k1 k2
    have hid : r2'.req.id = request2.req.id := by
      have := withNames_req c2.names c2.namesLookup r1' cn2 v2
      rw [h2'] at this
      rw [this]
      exact (sameOutside_fields (C28_rest_unchanged c2.ecs request2 r1' h1').1).2.2.2.1
    obtain ⟨e3, j2, j3, j4, j5, j6⟩ := sameOutside_fields k2
    refine ⟨k1.1, ?_, j4.trans hid, ?_, j6, ?_, ?_, ?_, ?_⟩
    · rw [k1.2, e1]
      show (if a.res.rcode == rcodeSuccess then _ else _) = _
      by_cases hz : a.res.rcode = rcodeSuccess
      · rw [if_pos (beq_iff_eq.2 hz), if_pos hz]
      · rw [if_neg (fun h => hz (beq_iff_eq.1 h)), if_neg hz]
    · refine j5.trans ?_
      simp only [Caching.hitResponse, Msg.setRcode, Msg.setReply, hr2q']
    · rw [e1]
      exact j2
    · rw [e2]
      exact j3
    · rw [e3]
      exact hpw
    · intro hok
      rw [e3, e0]
      by_cases hne : a.res.answer = []
      · have : Caching.setTTLs a.res.answer (lifeMs c.cache a.res - clockAfter 0 ops) = [] := by rw [hne]; rfl
        have h3 : (Caching.hitResponse r2'.req (removeEdns0Record a.res) (lifeMs c.cache a.res - clockAfter 0 ops)).res.answer = [] := this
        rw [h3, hne]
        exact .nil
      · have hlife : lifeMs c.cache a.res = (Caching.minTTL a.res.answer).toNat * 1000 := by
          unfold lifeMs
          rw [if_pos ⟨e1.symm.trans hok, hne⟩]
        rw [hlife] at hlive ⊢
        exact ((C10_countdown a.res.answer (clockAfter 0 ops) hsc.2 hlive).1).imp (fun _ _ h => h.2)
  · have hg : ∃ cache', Caching.resolve c.cacheEnv c.cache (Chain.cond c up) r2 cache (r2.req, w) =
        (.ok (Caching.adjusted c.cache u), cache', (m1, w')) := by
      have hm := cacheGet_none c.cache cache _ hmiss
      simp only [Caching.resolve, hu.enabled, hu.cacheable, hr2q, Bool.not_true, Bool.or_self, Bool.false_eq_true, if_false, Caching.resolveLoop]
      cases hg : Caching.cacheGet c.cache cache (Caching.questionKey q) with
      | mk o s1 =>
        rw [hg] at hm
        simp only at hm
        subst hm
        simp only [hup]
        exact ⟨_, rfl⟩
    obtain ⟨cache', g1⟩ := hg
    obtain ⟨queue', hw1⟩ := whole_caching s c up request r1 r2 hint q hq h1 cn cn' v cache cache' w w' m1 h2 hu _ g1 hb' m queue
    obtain ⟨_, hsame⟩ := addExtra_fields c.ede (Caching.adjusted c.cache u)
    refine ⟨_, queue', cache', hw1, ?_⟩
    intro s2 c2 hc2 up2 request2 r1' r2' hint2 q2 hq2 ht hl h1' cn2 cn2' v2 cache2 w2 h2' hu2 hb2 ops others hrun hov hlen huse hfresh
    exact absurd ((hfresh.congr hsame).mono (clockAfter_shift ops 0).2) hF

/-- The sample server without client subnets. -/
def repeatConfig : Chain.Config prefixEngine Nat := { sampleConfig with ecs := {}, condRewrite := ⟨[], false⟩ }

theorem repeat_reaches (name : Str) (client : IP) (hc : client = .v4 0x0a0b0c0d#32 ∨ client = .v4 7#32)
    (h : name = str! "www.org." ∨ name = str! "WWW.Org.") :
    ReachesCache demoSetup repeatConfig (seen repeatConfig { clientIP := some client, req := query name } sampleWorld.1) ⟨name, typeA, 1⟩ := by
  have hd : extractDomain name = str! "www.org" := by rcases h with rfl | rfl <;> decide
  constructor
  · show typeA ∉ repeatConfig.filterTypes
    decide
  · exact .inl rfl
  · decide
  · refine ⟨?_, (fun h => nomatch h), .inr ⟨?_, ?_⟩⟩
    · rw [show customName repeatConfig name = name from rfl, hd]
      exact (walk_eq_none _ 8 _ (by decide)).1 (by decide)
    · rcases h with rfl | rfl <;> rfl
    · rfl
  · rfl
  · rfl
  · refine ⟨?_, ?_, ?_⟩
    · rw [← demoSetup.allow_iff]
      rcases h with rfl | rfl <;> rcases hc with rfl | rfl <;> decide +kernel
    · rw [← demoSetup.only_iff]
      rcases h with rfl | rfl <;> rcases hc with rfl | rfl <;> decide +kernel
    · rw [← demoSetup.deny_iff]
      rcases h with rfl | rfl <;> rcases hc with rfl | rfl <;> decide +kernel
  · rfl
  · rcases h with rfl | rfl <;> rfl

/-- What is looked at in the concrete run. -/
def repeatView (r : Outcome × Msg × Chain.World Nat) : Option (RType × Str × List Question × List UInt32 × Nat) :=
  match r with
  | (.ok y, x) => some (y.rtype, y.reason, y.res.question, y.res.answer.map RR.ttl, x.2.2.2.2)
  | _ => none

/-- The sample server after one query for `www.org`. -/
def afterFirst : Chain.World Nat :=
  (Chain.whole repeatConfig countingUp { clientIP := some (.v4 0x0a0b0c0d#32), req := query (str! "www.org.") } (query (str! "www.org."), sampleWorld)).2.2

/-- The same, later. -/
def laterOn : Chain.World Nat :=
  (afterFirst.1, afterFirst.2.1, { afterFirst.2.2.1 with main := ExpCache.run afterFirst.2.2.1.main [.tick 12000, .put (str! "x") {} 1000, .get (str! "x"), .put (str! "y") {} 5000000, .remove (str! "x"), .tick 5200] },
    afterFirst.2.2.2)

-- Concrete: the second query comes 17.2 s later, from another client, in other letters, after two other names were
-- looked up; the upstreams must not be asked any more.
example : afterFirst.2.2.2 = 1 ∧
    repeatView (Chain.whole repeatConfig forbidden { clientIP := some (.v4 7#32), req := query (str! "WWW.Org.") } (query (str! "WWW.Org."), laterOn)) =
      some (.cached, str! "CACHED", [⟨str! "WWW.Org.", typeA, 1⟩], [42], 1) := by
  decide +kernel

end Verif.Props
