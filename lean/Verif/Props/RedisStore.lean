/-
C101: answers kept in redis over a restart.
-/
import Verif.Model.RedisStore
import Verif.Props.Redis

namespace Verif.Props
open Dns RedisStore

/-- Name, type and data of a record. -/
def rrData (r : RR) : Str × Nat × RData := (r.name, r.rtype, r.data)

/-- The answers instances gave to redis in a history that starts at time `now`: time, key and message. -/
def keptAnswers : Nat → List RedisStore.Ev → List (Nat × Str × Msg)
  | _, [] => []
  | now, .keep key res :: evs => (now, key, res) :: keptAnswers now evs
  | now, .pass ms :: evs => keptAnswers (now + ms) evs
  | now, .load _ wait :: evs => keptAnswers (now + wait) evs

/-- No key is loaded in the last half second before it expires. -/
def LoadedInTime (env : Caching.Env) (c : Caching.Cfg) : RedisStore.World → List RedisStore.Ev → Prop
  | _, [] => True
  | w, e :: evs =>
    (match e with
      | .load k wait => ∀ entry, AMap.get w.store k = some entry → ∀ t, entry.expires = some t → w.now ≤ t → w.now + wait + 500 ≤ t
      | _ => True) ∧ LoadedInTime env c (RedisStore.step env c w e) evs

theorem cleanKey_prefixKey (key : Str) : cleanKey (prefixKey key) = key := by
  unfold cleanKey prefixKey
  rw [if_pos (by simp [List.isPrefixOf_iff_prefix])]
  exact List.drop_left

theorem getTTL_ms (m : Msg) (r : RR) (hr : r ∈ m.answer) :
    (Redis.getTTL m / 1000000).toNat ≤ max 1 r.ttl.toNat * 1000 := by
  unfold Redis.getTTL
  have h := Caching.minTTL_le hr
  simp only
  split
  · have : ((1000000000 : Int) / 1000000).toNat = 1000 := by decide
    omega
  · omega

theorem getTTL_exact (m : Msg) (low : Nat) (h : (Caching.minTTL m.answer).toNat = low) :
    (Redis.getTTL m / 1000000).toNat = max 1 low * 1000 := by
  unfold Redis.getTTL
  simp only
  split
  · rename_i h0
    rw [h0] at h
    have : low = 0 := h.symm
    subst this
    decide
  · rename_i h0
    have : (Caching.minTTL m.answer).toNat ≠ 0 := fun h => h0 (UInt32.toNat_inj.1 h)
    omega

theorem getTTL_max (m : Msg) : (Redis.getTTL m / 1000000).toNat ≤ 2147483647000 := by
  unfold Redis.getTTL
  have h := Caching.minTTL_le_max m.answer
  simp only
  split
  · decide
  · omega

theorem mem_cache_put {V : Type} {c : ExpCache.Cache V} {now : Int} {k : Str} {v : V} {ttl : Int} {x : Str × ExpCache.Element V}
    (h : x ∈ (c.put now k v ttl).items) : x ∈ c.items ∨ x = (k, ⟨v, now + ttl / 1000000⟩) := by
  unfold ExpCache.Cache.put at h
  split at h
  · exact .inl h
  · unfold ExpCache.Cache.add at h
    split at h
    · rcases List.mem_cons.1 h with h | h
      · exact .inr h
      · exact .inl (List.mem_filter.1 h).1
    · split at h
      · rcases List.mem_cons.1 ((List.dropLast_sublist _).subset h) with h | h
        · exact .inr h
        · exact .inl h
      · rcases List.mem_cons.1 h with h | h
        · exact .inr h
        · exact .inl h

/-- An entry is an answer that was given to redis, with the same data, and expires at most half a second after it. -/
def FromRedis (P : List (Nat × Str × Msg)) (k : Str) (el : ExpCache.Element Msg) : Prop :=
  ∃ t m, (t, k, m) ∈ P ∧ m.rcode = el.val.rcode ∧ el.val.answer.map rrData = m.answer.map rrData ∧
    ∀ r ∈ m.answer, el.expires ≤ ((t + max 1 r.ttl.toNat * 1000 + 500 : Nat) : Int)

/-- What holds of redis and the server in a history. -/
structure FreshInv (P : List (Nat × Str × Msg)) (w : RedisStore.World) : Prop where
  clock : w.cache.main.now = (w.now : Int)
  store : ∀ k e, AMap.get w.store k = some e → ∃ t key m, (t, key, m) ∈ P ∧ k = prefixKey key ∧ e.msg = removeEdns0Record m ∧
    ∃ x, e.expires = some x ∧ x ≤ w.now + 2147483647000 ∧ ∀ r ∈ m.answer, x ≤ t + max 1 r.ttl.toNat * 1000
  cache : ∀ k el, (k, el) ∈ w.cache.main.cache.items → el.val.rcode = rcodeSuccess → el.val.answer ≠ [] → FromRedis P k el

theorem FreshInv.mono {P P' : List (Nat × Str × Msg)} {w : RedisStore.World} (h : FreshInv P w) (hp : ∀ x ∈ P, x ∈ P') : FreshInv P' w where
  clock := h.clock
  store := by
    intro k e he
    obtain ⟨t, key, m, hm, rest⟩ := h.store k e he
    exact ⟨t, key, m, hp _ hm, rest⟩
  cache := by
    intro k el hm hr hn
    obtain ⟨t, m, hx, rest⟩ := h.cache k el hm hr hn
    exact ⟨t, m, hp _ hx, rest⟩

theorem clampTTL_le {c : Caching.Cfg} (h : c.minTime ≤ 0) (t : UInt32) : (Caching.clampTTL c t).toNat ≤ t.toNat := by
  unfold Caching.clampTTL
  simp only
  rw [if_neg (show ¬ c.minTime > 0 by omega)]
  split
  · split
    · rename_i h
      exact Nat.le_of_lt (UInt32.lt_iff_toNat_lt.1 h)
    · exact Nat.le_refl _
  · exact Nat.le_refl _

/-- What a message from redis with `secs` seconds left can put into the cache. -/
theorem mem_onCacheMessage (env : Caching.Env) (c : Caching.Cfg) (hmin : c.minTime ≤ 0) (cs : Caching.CState) (key : Str) (msg : Msg)
    (secs : Nat) (h0 : 0 < secs) (hs : secs < 4294967296) (x : Str × ExpCache.Element Msg)
    (hx : x ∈ (Redis.onCacheMessage env c cs key (Redis.convertMessage msg (secs * 1000000000))).main.cache.items)
    (hr : x.2.val.rcode = rcodeSuccess) (hn : x.2.val.answer ≠ []) :
    x ∈ cs.main.cache.items ∨ x.1 = key ∧ msg.rcode = rcodeSuccess ∧ x.2.val.answer.map rrData = msg.answer.map rrData ∧
      x.2.expires ≤ cs.main.now + secs * 1000 := by
  have hdiv : ((secs : Int) * 1000000000 / 1000000000).toNat = secs := by
    rw [Int.mul_ediv_cancel _ (by decide)]; rfl
  have hto : (UInt32.ofNat secs).toNat = secs := by
    rw [UInt32.toNat_ofNat']; omega
  have hconv : (Redis.convertMessage msg (secs * 1000000000)).res =
      { msg with answer := msg.answer.map (fun r => { r with ttl := UInt32.ofNat secs }) } := by
    unfold Redis.convertMessage
    simp only
    rw [if_pos (by omega), hdiv]
  unfold Redis.onCacheMessage Caching.store at hx
  simp only [Caching.adjusted, hconv] at hx
  unfold Caching.putOps at hx
  simp only at hx
  have hdata : ∀ l : List RR, (Caching.adjustTTLs c l).1.map rrData = l.map rrData := by
    intro l
    unfold Caching.adjustTTLs
    split
    · rfl
    · simp only [List.map_map]
      rfl
  split at hx
  · split at hx
    · rename_i hok
      rcases mem_cache_put hx with h | h
      · exact .inl h
      · refine .inr ⟨by rw [h], ?_, ?_, ?_⟩
        · simp only [Bool.and_eq_true, beq_iff_eq] at hok
          exact hok.1
        · rw [h]
          simp only [removeEdns0Record, hdata, List.map_map]
          rfl
        · rw [h] at hn ⊢
          simp only [removeEdns0Record] at hn ⊢
          unfold Caching.adjustTTLs at hn ⊢
          cases hm : msg.answer with
          | nil => rw [hm] at hn; exact absurd rfl hn
          | cons a as =>
            simp only [List.map_cons, List.isEmpty_cons, Bool.false_eq_true, if_false]
            have hle := Caching.minTTL_le (l := { a with ttl := Caching.clampTTL c (UInt32.ofNat secs) } ::
              (as.map (fun r => { r with ttl := UInt32.ofNat secs })).map (fun r => { r with ttl := Caching.clampTTL c r.ttl }))
              (List.mem_cons_self ..)
            have h2 := clampTTL_le hmin (UInt32.ofNat secs)
            rw [hto] at h2
            simp only at hle
            omega
    · split at hx
      · rename_i _ hnx
        split at hx
        · rcases mem_cache_put hx with h | h
          · exact .inl h
          · rw [h] at hr
            simp only [removeEdns0Record, beq_iff_eq] at hr hnx
            rw [hr] at hnx
            exact absurd hnx (by decide)
        · exact .inl hx
      · exact .inl hx
  · exact .inl hx

theorem freshInv_step (env : Caching.Env) (c : Caching.Cfg) (hmin : c.minTime ≤ 0) (P : List (Nat × Str × Msg)) (w : RedisStore.World)
    (hi : FreshInv P w) (e : RedisStore.Ev)
    (hl : ∀ k wait, e = .load k wait → ∀ entry, AMap.get w.store k = some entry → ∀ t, entry.expires = some t → w.now ≤ t → w.now + wait + 500 ≤ t) :
    FreshInv (P ++ keptAnswers w.now [e]) (RedisStore.step env c w e) := by
  cases e with
  | pass ms =>
    refine FreshInv.mono (P := P) ?_ (fun x h => List.mem_append_left _ h)
    refine ⟨by simp only [RedisStore.step, RedisStore.tick, ExpCache.step, hi.clock]; omega, ?_, hi.cache⟩
    intro k e he
    obtain ⟨t, key, m, hm, hk, hem, x, hx, hb, hle⟩ := hi.store k e he
    exact ⟨t, key, m, hm, hk, hem, x, hx, Nat.le_trans hb (by simp only [RedisStore.step]; omega), hle⟩
  | keep key res =>
    refine ⟨hi.clock, ?_, ?_⟩
    · intro k e he
      simp only [RedisStore.step] at he
      unfold keep at he
      split at he
      · rw [AMap.get_put] at he
        split at he
        · rename_i hk
          cases he
          refine ⟨w.now, key, res, List.mem_append_right _ (by simp [keptAnswers]), hk.symm, rfl, _, rfl, ?_, ?_⟩
          · have := getTTL_max (removeEdns0Record res)
            simp only [RedisStore.step]
            omega
          intro r hr
          have := getTTL_ms (removeEdns0Record res) r hr
          omega
        · obtain ⟨t, key', m, hm, rest⟩ := hi.store k e he
          exact ⟨t, key', m, List.mem_append_left _ hm, rest⟩
      · obtain ⟨t, key', m, hm, rest⟩ := hi.store k e he
        exact ⟨t, key', m, List.mem_append_left _ hm, rest⟩
    · intro k el hm hr hn
      obtain ⟨t, m, hx, rest⟩ := hi.cache k el hm hr hn
      exact ⟨t, m, List.mem_append_left _ hx, rest⟩
  | load k wait =>
    refine FreshInv.mono (P := P) ?_ (fun x h => List.mem_append_left _ h)
    have hnow : ∀ cs : Caching.CState, ∀ key r, (Redis.onCacheMessage env c cs key r).main.now = cs.main.now := by
      intro cs key r
      unfold Redis.onCacheMessage Caching.store Caching.putOps
      simp only
      split
      · split
        · rfl
        · split
          · split <;> rfl
          · rfl
      · rfl
    have htick : (RedisStore.tick w.cache wait).main.now = ((w.now + wait : Nat) : Int) := by
      simp only [RedisStore.tick, ExpCache.step, hi.clock]; omega
    refine ⟨?_, ?_, ?_⟩
    rotate_left
    · intro k e he
      obtain ⟨t, key, m, hm, hk, hem, x, hx, hb, hle⟩ := hi.store k e he
      exact ⟨t, key, m, hm, hk, hem, x, hx, Nat.le_trans hb (by simp only [RedisStore.step]; omega), hle⟩
    rotate_left
    · simp only [RedisStore.step]
      unfold loadKey
      split
      · split
        · rw [hnow]; exact htick
        · exact htick
      · exact htick
    · intro k' el hm hr hn
      simp only [RedisStore.step] at hm
      have hold : (k', el) ∈ (RedisStore.tick w.cache wait).main.cache.items → FromRedis P k' el := fun h => hi.cache k' el h hr hn
      unfold loadKey getResponse fetch at hm
      split at hm
      · cases hg : AMap.get w.store k with
        | none => rw [hg] at hm; exact hold hm
        | some e =>
          rw [hg] at hm
          obtain ⟨t, key, m, hP, hk, he, x, hx, hb, hle⟩ := hi.store k e hg
          by_cases hlive : e.live w.now = true
          · have hxl : w.now ≤ x := by
              unfold Entry.live at hlive
              rw [hx] at hlive
              simpa using hlive
            have hlater := hl k wait rfl e hg x hx hxl
            have httl : ttl w.store (w.now + wait) k = (((x - (w.now + wait) + 500) / 1000 : Nat) : Int) * 1000000000 := by
              unfold ttl fetch Entry.live
              rw [hg]
              simp only [hx]
              rw [if_pos (by simp; omega)]
              simp only [hx]
            simp only [hlive, if_true] at hm
            rw [httl, hk, cleanKey_prefixKey] at hm
            by_cases hbig : (x - (w.now + wait) + 500) / 1000 < 4294967296
            · rcases mem_onCacheMessage env c hmin _ key e.msg _ (by omega) hbig (k', el) hm hr hn with h | ⟨h1, h2, h3, h4⟩
              · exact hold h
              · simp only at h1 h3 h4
                subst h1
                refine ⟨t, m, hP, ?_, ?_, ?_⟩
                · rw [hr, ← h2, he]; rfl
                · rw [h3, he]; rfl
                · intro r hr'
                  have := hle r hr'
                  rw [htick] at h4
                  refine Int.le_trans h4 ?_
                  omega
            · omega
          · simp only [hlive, Bool.false_eq_true, if_false] at hm
            exact hold hm
      · exact hold hm

/-- **C101.** Whatever instances keep in redis and whenever a server loads it: if no key is loaded in the last half second
before it expires, every answer with records in the server's cache is one that was given to redis, under the same key and with the same
data, and it expires at most half a second after the TTLs that it had then (a TTL of 0 counts as one second). -/
theorem C101_fresh_partial (env : Caching.Env) (c : Caching.Cfg) (hmin : c.minTime ≤ 0) (evs : List RedisStore.Ev) (w : RedisStore.World)
    (hs : w.store = []) (hc : w.cache.main.cache.items = []) (hn : w.cache.main.now = w.now) (hl : LoadedInTime env c w evs)
    (key : Str) (el : ExpCache.Element Msg) (he : (key, el) ∈ (RedisStore.run env c w evs).cache.main.cache.items)
    (hr : el.val.rcode = 0) (ha : el.val.answer ≠ []) :
    ∃ t m, (t, key, m) ∈ keptAnswers w.now evs ∧ m.rcode = 0 ∧
      el.val.answer.map (fun r => (r.name, r.rtype, r.data)) = m.answer.map (fun r => (r.name, r.rtype, r.data)) ∧
      ∀ r ∈ m.answer, el.expires ≤ ((t + max 1 r.ttl.toNat * 1000 + 500 : Nat) : Int) := by
  have main : ∀ (evs : List RedisStore.Ev) (P : List (Nat × Str × Msg)) (w : RedisStore.World), FreshInv P w → LoadedInTime env c w evs →
      FreshInv (P ++ keptAnswers w.now evs) (RedisStore.run env c w evs) := by
    intro evs
    induction evs with
    | nil => intro P w h _; simpa [keptAnswers, RedisStore.run] using h
    | cons e evs ih =>
      intro P w h hl
      have h1 := freshInv_step env c hmin P w h e (by rintro k wait rfl; exact hl.1)
      have h2 := ih _ _ h1 hl.2
      refine h2.mono ?_
      intro x hx
      cases e <;> simpa [keptAnswers, RedisStore.step] using hx
  have h := main evs [] w ⟨hn, by rw [hs]; intro k e h; simp [AMap.get] at h, by rw [hc]; simp⟩ hl
  obtain ⟨t, m, hm, h1, h2, h3⟩ := h.cache key el he hr ha
  exact ⟨t, m, by simpa using hm, h1.trans hr, h2, h3⟩

theorem peek_after_put {V : Type} (c : ExpCache.Cache V) (hcap : 0 < c.cap) (now : Int) (k : Str) (v : V) (ttl : Int) (h : 0 < ttl) :
    (c.put now k v ttl).peek k = some ⟨v, now + ttl / 1000000⟩ := by
  unfold ExpCache.Cache.put ExpCache.Cache.peek
  rw [if_neg (by omega)]
  unfold ExpCache.Cache.add
  split
  · simp [AMap.get]
  · split
    · rename_i hlen
      simp only
      cases hi : c.items with
      | nil => rw [hi] at hlen; simp at hlen; omega
      | cons x xs => simp [AMap.get]
    · simp [AMap.get]

/-- The next question for a cached entry is answered from it. -/
theorem hit_after_put {V : Type} (env : Caching.Env) (c : Caching.Cfg) (hmax : c.maxTime = 0) (hpre : c.prefetching = false) (req : Request)
    (q : Question) (hq : req.req.question = [q]) (hc : Caching.isRequestCacheable req.req = true) (next : Resolver V) (v : V)
    (cs : Caching.CState) (m : Msg) (D L : Int) (hD : 0 < D) (hcap : 0 < cs.main.cache.cap) (hL : D / 1000000 = L) (h0 : 0 < L) :
    ∃ cs', Caching.resolve env c next req { cs with main := ExpCache.step cs.main (.put (Caching.questionKey q) m D) } v =
      (.ok (Caching.hitResponse req.req m L), cs', v) := by
  have hpk' := peek_after_put cs.main.cache hcap cs.main.now (Caching.questionKey q) m D hD
  have hrem : ∀ n : Int, ExpCache.remainTTL n (n + D / 1000000) = L := by
    intro n
    unfold ExpCache.remainTTL
    rw [if_pos (by omega)]
    omega
  unfold Caching.resolve
  have hen : c.enabled = true := by
    unfold Caching.Cfg.enabled
    rw [hmax]
    rfl
  simp only [hen, hc, Bool.not_true, Bool.or_self, Bool.false_eq_true, if_false, hq]
  unfold Caching.resolveLoop Caching.cacheGet
  simp only [hpre, Bool.false_eq_true, if_false, ExpCache.step]
  unfold ExpCache.Cache.get
  rw [hpk']
  simp only [hrem]
  exact ⟨_, rfl⟩

/-- **C101.** A server that loads the key of a question at least half a second before it expires answers the question from its
cache: with the data that was given to redis, and TTLs of the time that is left, rounded to whole seconds. -/
theorem C101_loaded {V : Type} (env : Caching.Env) (hpk : ∀ m, env.packs m = true) (c : Caching.Cfg) (hmin : c.minTime = 0) (hmax : c.maxTime = 0)
    (hpre : c.prefetching = false)
    (w : RedisStore.World) (q : Question) (res : Msg) (hok : res.rcode = 0) (ht : res.truncated = false)
    (hcd : res.checkingDisabled = false) (low : Nat) (hlow : ∃ r ∈ res.answer, r.ttl.toNat = low) (hmn : ∀ r ∈ res.answer, low ≤ r.ttl.toNat)
    (hlmax : low ≤ 2147483647) (hcap : 0 < w.cache.main.cache.cap) (age wait : Nat)
    (hlive : age + wait + 500 ≤ max 1 low * 1000) (req : Request) (hq : req.req.question = [q])
    (hc : Caching.isRequestCacheable req.req = true) (next : Resolver V) (v : V) :
    ∃ m cs, Caching.resolve env c next req
        (RedisStore.run env c w [.keep (Caching.questionKey q) res, .pass age, .load (str! "blocky:cache:" ++ Caching.questionKey q) wait]).cache v =
        (.ok { res := m, rtype := .cached, reason := str! "CACHED" }, cs, v) ∧
      m.id = req.req.id ∧ m.rcode = 0 ∧
      m.answer.map (fun r => (r.name, r.rtype, r.data)) = res.answer.map (fun r => (r.name, r.rtype, r.data)) ∧
      ∀ r ∈ m.answer, r.ttl.toNat = (max 1 low * 1000 - (age + wait) + 500) / 1000 := by
  have hpref : (str! "blocky:cache:" ++ Caching.questionKey q) = prefixKey (Caching.questionKey q) := rfl
  rw [hpref]
  have hminl : (Caching.minTTL res.answer).toNat = low := by
    obtain ⟨r, hr, hrl⟩ := hlow
    have h1 := Caching.minTTL_le hr
    rcases Caching.minTTL_attained res.answer with h | ⟨x, hx, h⟩
    · omega
    · have := hmn x hx
      omega
  have hget : (Redis.getTTL (removeEdns0Record res) / 1000000).toNat = max 1 low * 1000 := by
    exact getTTL_exact (removeEdns0Record res) low hminl
  have hkey : 0 < (Caching.questionKey q).length := by
    unfold Caching.questionKey Caching.cacheKey
    simp
  have hne : res.answer ≠ [] := by
    obtain ⟨r, hr, _⟩ := hlow
    intro h
    rw [h] at hr
    cases hr
  generalize hk : Caching.questionKey q = k at hkey
  generalize hsecs : (max 1 low * 1000 - (age + wait) + 500) / 1000 = secs
  have hs0 : 0 < secs := by omega
  have hs1 : secs ≤ 2147483647 := by omega
  obtain ⟨m, e1, e2, e3, e4⟩ := C38_loaded_lifetime env c hmin hmax (removeEdns0Record res) secs hs0 hs1 hne k
    (RedisStore.tick (RedisStore.tick w.cache age) wait) hok ht hcd hpk
  have hrun : (RedisStore.run env c w [.keep k res, .pass age, .load (prefixKey k) wait]).cache =
      Redis.onCacheMessage env c (RedisStore.tick (RedisStore.tick w.cache age) wait) k
        (Redis.convertMessage (removeEdns0Record res) ((secs : Int) * 1000000000)) := by
    simp only [RedisStore.run, List.foldl_cons, List.foldl_nil, RedisStore.step]
    unfold keep
    rw [if_pos ⟨hkey, hpk _⟩]
    unfold loadKey
    rw [if_pos (by simp [prefixKey, List.isPrefixOf_iff_prefix])]
    unfold getResponse ttl fetch Entry.live
    simp only [AMap.get_put_self, hget]
    rw [if_pos (by simp; omega), if_pos (by simp; omega)]
    simp only [cleanKey_prefixKey]
    have : (w.now + max 1 low * 1000 - (w.now + age + wait) + 500) / 1000 = secs := by omega
    rw [this]
  rw [hrun, e1]
  have hto : (UInt32.ofNat secs).toNat = secs := by
    rw [UInt32.toNat_ofNat']; omega
  have hm1 : m.rcode = 0 := by rw [e4]; exact hok
  obtain ⟨cs, hcs⟩ := hit_after_put env c hmax hpre req q hq hc next v (RedisStore.tick (RedisStore.tick w.cache age) wait) m
    ((secs : Int) * 1000000000) (secs * 1000) (by omega) hcap (by omega) (by omega)
  refine ⟨(Caching.hitResponse req.req m (secs * 1000)).res, cs, ?_, rfl, hm1, ?_, ?_⟩
  · rw [← hk, hcs]
    unfold Caching.hitResponse
    rw [hm1]
    rfl
  · simp only [Caching.hitResponse, Caching.setTTLs, List.map_map]
    exact e3
  · intro r hr
    simp only [Caching.hitResponse, Caching.setTTLs] at hr
    obtain ⟨x, hx, rfl⟩ := List.mem_map.1 hr
    have hxs := e2 x hx
    have hmin' : (Caching.minTTL m.answer).toNat = secs := by
      have h1 := Caching.minTTL_le hx
      rcases Caching.minTTL_attained m.answer with h | ⟨y, hy, h⟩
      · omega
      · have := e2 y hy
        omega
    have heq : x.ttl = Caching.minTTL m.answer := UInt32.toNat_inj.1 (hxs.trans hmin'.symm)
    have hd : ((secs : Int) * 1000 / 1000).toNat = secs := by omega
    simp only [hd, heq, UInt32.sub_self, UInt32.zero_add]
    exact hto

/-! ### Examples -/

/-- Nothing in redis, nothing cached. -/
def emptyRedis : RedisStore.World := ⟨[], 1000, ⟨⟨⟨10, []⟩, 1000⟩, ⟨10, []⟩⟩⟩

/-- Everything packs. -/
def packingEnv : Caching.Env := ⟨fun _ => true, 0⟩

/-- An answer with an address, to be kept for `ttl` seconds. -/
def timedAnswer (ttl : UInt32) : Msg :=
  { response := true, answer := [{ name := str! "www.org.", rtype := typeA, ttl := ttl, data := .a (.v4 0x01020304#32) }] }

/-- Keys, TTLs and expiry times in the cache. -/
def cachedEntries (w : RedisStore.World) : List (Str × List Nat × Int) :=
  w.cache.main.cache.items.map (fun e => (e.1, e.2.val.answer.map (fun r => r.ttl.toNat), e.2.expires))

-- Loaded 100.4 s after it was kept: 199.6 s are left, rounded to 200, so the entry expires 0.4 s too late.
example : cachedEntries (RedisStore.run packingEnv {} emptyRedis
    [.keep (str! "k") (timedAnswer 300), .pass 100000, .load (str! "blocky:cache:k") 400]) =
    [(str! "k", [200], 301400)] := by decide +kernel

example : LoadedInTime packingEnv {} emptyRedis
    [.keep (str! "k") (timedAnswer 300), .pass 100000, .load (str! "blocky:cache:k") 400] := by
  refine ⟨trivial, trivial, ?_, trivial⟩
  intro entry h t ht hle
  have : entry = ⟨timedAnswer 300, some 301000⟩ := by
    have h' : some (⟨timedAnswer 300, some 301000⟩ : Entry) = some entry := h
    exact (Option.some.inj h').symm
  subst this
  cases ht
  decide

-- The hypotheses of `C101_loaded` hold.
example : ∃ m cs, Caching.resolve packingEnv {} (fun _ (n : Nat) => (.err (str! "asked"), n + 1))
      { req := { id := 9, question := [⟨str! "www.org.", typeA, 1⟩] } }
      (RedisStore.run packingEnv {} emptyRedis [.keep (Caching.questionKey ⟨str! "www.org.", typeA, 1⟩) (timedAnswer 300), .pass 100000,
        .load (str! "blocky:cache:" ++ Caching.questionKey ⟨str! "www.org.", typeA, 1⟩) 400]).cache 0 =
      (.ok { res := m, rtype := .cached, reason := str! "CACHED" }, cs, 0) ∧ m.id = 9 ∧ m.rcode = 0 ∧
    m.answer.map (fun r => (r.name, r.rtype, r.data)) = [(str! "www.org.", typeA, .a (.v4 0x01020304#32))] ∧
    ∀ r ∈ m.answer, r.ttl.toNat = 200 :=
  C101_loaded packingEnv (fun _ => rfl) {} rfl rfl rfl emptyRedis ⟨str! "www.org.", typeA, 1⟩ (timedAnswer 300) rfl rfl rfl 300
    ⟨_, List.mem_singleton_self _, rfl⟩ (by intro r hr; rw [List.mem_singleton.1 hr]; decide) (by decide) (by decide) 100000 400 (by decide) _ rfl
    (by decide) _ 0

/-- **C101 is false as stated.** Redis rounds to whole seconds: of an answer with less than half a second left nothing is left, and then
its TTLs are not changed at all. An answer given for 300 s that is loaded after 299.7 s is served for another 300 s. -/
theorem C101_half_second_false :
    cachedEntries (RedisStore.run packingEnv {} emptyRedis
      [.keep (str! "k") (timedAnswer 300), .pass 299700, .load (str! "blocky:cache:k") 0]) = [(str! "k", [300], 600700)] := by
  decide +kernel

/-- The same if it expires while it is loaded, between the commands GET and TTL. -/
theorem C101_between_false :
    cachedEntries (RedisStore.run packingEnv {} emptyRedis
      [.keep (str! "k") (timedAnswer 300), .pass 299999, .load (str! "blocky:cache:k") 5]) = [(str! "k", [300], 601004)] := by
  decide +kernel

/-- Answers without records - the name does not exist, say - are loaded as new, even years after (here: 20). -/
theorem C101_negative_false :
    cachedEntries (RedisStore.run packingEnv {} emptyRedis
      [.keep (str! "k") { response := true, rcode := 3 }, .pass 630720000000, .load (str! "blocky:cache:k") 0]) =
      [(str! "k", [], 1000 + 630720000000 + 1800000)] := by
  decide +kernel

/-- Strings under other keys are not loaded. -/
theorem C101_other_keys (env : Caching.Env) (c : Caching.Cfg) (s : Store) (now later : Nat) (k : Str) (cs : Caching.CState)
    (h : ¬ str! "blocky:cache:" <+: k) : loadKey env c s now later k cs = cs := by
  unfold loadKey
  rw [if_neg]
  intro h'
  exact h (List.isPrefixOf_iff_prefix.1 h')

end Verif.Props
