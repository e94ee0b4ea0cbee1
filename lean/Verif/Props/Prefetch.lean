/-
C14: prefetching.
-/
import Verif.Props.CacheBugs

namespace Verif.Props
open Caching Dns ExpCache Spec

/-! ### Query counting -/

/-- What happens to the query counters: a query for a name, the passing of time, the clean-up of
expired counters, a flush, and the reading of a counter. -/
inductive NEv where
  | query (k : Str)
  | tick (ms : Nat)
  | cleanUp
  | clear
  | read (k : Str)
  deriving DecidableEq

/-- prefetching_cache.go 63-71, 90-98, 128-131 and expiration_cache.go 113-141 on the counters. -/
def nstep (c : Cfg) (s : St Nat) : NEv → St Nat
  | .query k => { s with cache := (track c ⟨⟨⟨0, []⟩, s.now⟩, s.cache⟩ k).names }
  | .tick d => step s (.tick d)
  | .cleanUp => cleanUp s (fun _ => none)
  | .clear => step s .clear
  | .read k => step s (.get k)

/-- The counters after a history. -/
def nrun (c : Cfg) (s : St Nat) (evs : List NEv) : St Nat := evs.foldl (nstep c) s

/-- Number of queries for a name in a history. -/
def queries (k : Str) (evs : List NEv) : Nat := evs.countP (fun e => e == .query k)

/-- Time that passes in a history (ms). -/
def duration : List NEv → Nat
  | [] => 0
  | .tick d :: es => d + duration es
  | _ :: es => duration es

/-- The names queried in a history. -/
def queried (evs : List NEv) : List Str :=
  evs.filterMap (fun | .query k => some k | _ => none)

/-- Would an expired entry of this name be reloaded? -/
def prefetches (c : Cfg) (s : St Nat) (k : Str) : Bool :=
  (shouldPrefetch c ⟨⟨⟨0, []⟩, s.now⟩, s.cache⟩ k).1

/-! ### Lookups after each operation -/

theorem get_filter_ne {V : Type} (l : List (Str × V)) (k k' : Str) :
    AMap.get (l.filter (fun e => e.1 ≠ k)) k' = if k' = k then none else AMap.get l k' := by
  have := AMap.get_del l k k'
  have e : AMap.del l k = l.filter (fun e => e.1 ≠ k) := by
    unfold AMap.del; congr 1
  rw [e] at this
  rw [this]
  by_cases h : k = k'
  · simp [h]
  · simp [h, Ne.symm h]

theorem get_cons {V : Type} (l : List (Str × V)) (k k' : Str) (v : V) :
    AMap.get ((k, v) :: l) k' = if k' = k then some v else AMap.get l k' := by
  simp only [AMap.get]
  by_cases h : k = k'
  · simp [h]
  · simp [h, Ne.symm h]

theorem get_dropLast {V : Type} (l : List (Str × V)) (k : Str) (v : V)
    (h : AMap.get l.dropLast k = some v) : AMap.get l k = some v := by
  induction l with
  | nil => simp at h
  | cons a l ih =>
    cases l with
    | nil => simp at h
    | cons b l =>
      obtain ⟨ka, va⟩ := a
      rw [List.dropLast_cons_of_ne_nil (by simp), get_cons] at h
      rw [get_cons]
      split
      · rename_i hk; simpa [hk] using h
      · rename_i hk; exact ih (by simpa [hk] using h)

theorem peek_touch (c : Cache Nat) (k k' : Str) : (c.touch k).peek k' = c.peek k' := by
  unfold Cache.touch
  cases hp : c.peek k with
  | none => rfl
  | some el =>
    unfold Cache.peek at hp ⊢
    simp only [get_cons, get_filter_ne]
    split
    · rename_i h; rw [h, hp]
    · rfl

theorem peek_get (c : Cache Nat) (now : Int) (k k' : Str) : (c.get now k).2.peek k' = c.peek k' := by
  unfold Cache.get
  split
  · exact peek_touch c k k'
  · rfl

theorem peek_put {c : Cache Nat} {now : Int} {k k' : Str} {n : Nat} {ttl : Int} {el : Element Nat}
    (h : (c.put now k n ttl).peek k' = some el) :
    (k' = k ∧ el = ⟨n, now + ttl / 1000000⟩) ∨ c.peek k' = some el := by
  unfold Cache.put at h
  split at h
  · exact .inr h
  · unfold Cache.add at h
    split at h
    · unfold Cache.peek at h ⊢
      simp only [get_cons, get_filter_ne] at h
      by_cases hk : k' = k
      · simp only [hk, if_true, Option.some.injEq] at h; exact .inl ⟨hk, h.symm⟩
      · simp only [hk, if_false] at h; exact .inr h
    · have : AMap.get ((k, (⟨n, now + ttl / 1000000⟩ : Element Nat)) :: c.items) k' = some el := by
        split at h
        · exact get_dropLast _ _ _ h
        · exact h
      rw [get_cons] at this
      by_cases hk : k' = k
      · simp only [hk, if_true, Option.some.injEq] at this; exact .inl ⟨hk, this.symm⟩
      · simp only [hk, if_false] at this; exact .inr this

theorem peek_removals (ks : List Str) (s : St Nat) (k : Str) :
    (run s (ks.map Op.remove)).cache.peek k = if k ∈ ks then none else s.cache.peek k := by
  induction ks generalizing s with
  | nil => rfl
  | cons k0 ks ih =>
    rw [List.map_cons, run_cons, ih]
    simp only [step, Cache.remove, Cache.peek, get_filter_ne, List.mem_cons]
    by_cases h : k ∈ ks <;> by_cases h' : k = k0 <;> simp [h, h']

theorem cleanUp_eq (s : St Nat) :
    cleanUp s (fun _ => none) = run s ((s.cache.expiredKeys s.now).map Op.remove) := by
  unfold cleanUp cleanUpOps
  congr 1
  simp only [Option.map_none, Option.isNone_none]
  rw [List.filter_eq_self.2 (by simp)]
  have : List.filterMap (fun _ : Str => (none : Option (Op Nat))) (s.cache.expiredKeys s.now) = [] := by
    induction s.cache.expiredKeys s.now with
    | nil => rfl
    | cons a l => simp
  rw [this]; rfl

theorem cleanUp_now (s : St Nat) : (cleanUp s (fun _ => none)).now = s.now := by
  rw [cleanUp_eq]
  generalize s.cache.expiredKeys s.now = ks
  induction ks generalizing s with
  | nil => rfl
  | cons k ks ih => rw [List.map_cons, run_cons, ih]; rfl

/-- `track` unfolded: a lookup, then a store of the incremented counter. -/
theorem nstep_query (c : Cfg) (s : St Nat) (k : Str) :
    ∃ n, (nstep c s (.query k)).cache = (s.cache.touch k).put s.now k n c.prefetchExpires ∧
      ((∃ el, s.cache.peek k = some el ∧ n = el.val + 1) ∨ (s.cache.peek k = none ∧ n = 1)) := by
  simp only [nstep, track, Cache.get]
  cases hp : s.cache.peek k with
  | none =>
    refine ⟨1, ?_, .inr ⟨rfl, rfl⟩⟩
    simp only [Cache.touch, hp]
  | some el => exact ⟨el.val + 1, rfl, .inl ⟨el, rfl, rfl⟩⟩

theorem queries_append (k : Str) (a b : List NEv) : queries k (a ++ b) = queries k a + queries k b := by
  simp [queries]

theorem queries_query (k k' : Str) : queries k [.query k'] = if k' = k then 1 else 0 := by
  by_cases h : k' = k <;> simp [queries, h]

/-- A counter is at most the number of queries for that name since some moment after the last
flush. -/
theorem counter_sound (c : Cfg) (maxSize : Nat) (t0 : Int) (evs : List NEv) (k : Str) (el : Element Nat)
    (h : (nrun c (freshCache maxSize t0) evs).cache.peek k = some el) :
    ∃ pre post, evs = pre ++ post ∧ NEv.clear ∉ post ∧ el.val ≤ queries k post := by
  suffices ∀ (evs done : List NEv) (s : St Nat),
      (∀ k el, s.cache.peek k = some el →
        ∃ pre post, done = pre ++ post ∧ NEv.clear ∉ post ∧ el.val ≤ queries k post) →
      ∀ k el, (nrun c s evs).cache.peek k = some el →
        ∃ pre post, done ++ evs = pre ++ post ∧ NEv.clear ∉ post ∧ el.val ≤ queries k post by
    exact this evs [] _ (by simp [freshCache, newCache, Cache.peek]) k el h
  intro evs
  induction evs with
  | nil => intro done s hs k el hk; simpa [nrun] using hs k el hk
  | cons ev evs ih =>
    intro done s hs k el hk
    have := ih (done ++ [ev]) (nstep c s ev) ?_ k el hk
    · simpa using this
    intro k el hm
    have keep : s.cache.peek k = some el → ev ≠ .clear →
        ∃ pre post, done ++ [ev] = pre ++ post ∧ NEv.clear ∉ post ∧ el.val ≤ queries k post := by
      intro hin hnc
      obtain ⟨pre, post, h1, h2, h3⟩ := hs k el hin
      refine ⟨pre, post ++ [ev], by simp [h1], ?_, ?_⟩
      · simp only [List.mem_append, List.mem_singleton, not_or]
        exact ⟨h2, fun h => hnc h.symm⟩
      · rw [queries_append]; omega
    cases ev with
    | tick d => exact keep hm (by simp)
    | cleanUp =>
      simp only [nstep, cleanUp_eq, peek_removals] at hm
      split at hm
      · cases hm
      · exact keep hm (by simp)
    | clear => simp [nstep, step, Cache.peek] at hm
    | read k' =>
      simp only [nstep, step, peek_get] at hm
      exact keep hm (by simp)
    | query k' =>
      obtain ⟨n, h1, h2⟩ := nstep_query c s k'
      rw [h1] at hm
      rcases peek_put hm with ⟨rfl, rfl⟩ | hin
      · rcases h2 with ⟨el', hp, hn⟩ | ⟨_, hn⟩
        · obtain ⟨pre, post, g1, g2, g3⟩ := hs k el' hp
          refine ⟨pre, post ++ [.query k], by simp [g1], by simp [g2], ?_⟩
          rw [queries_append, queries_query, if_pos rfl]
          simp only; omega
        · exact ⟨done, [.query k], rfl, by simp, by rw [queries_query, if_pos rfl]; simp only; omega⟩
      · rw [peek_touch] at hin
        exact keep hin (by simp)

/-- **C14, never without demand.** With a positive threshold, an expired entry is reloaded only if
its name has been asked for more often than the threshold since the last flush. -/
theorem C14_reload_needs_demand (c : Cfg) (maxSize : Nat) (t0 : Int) (evs : List NEv) (k : Str)
    (hthr : c.prefetchThreshold > 0)
    (h : prefetches c (nrun c (freshCache maxSize t0) evs) k = true) :
    ∃ pre post, evs = pre ++ post ∧ NEv.clear ∉ post ∧ c.prefetchThreshold < queries k post := by
  unfold prefetches shouldPrefetch at h
  rw [if_neg (by omega)] at h
  simp only [Cache.get] at h
  cases hp : (nrun c (freshCache maxSize t0) evs).cache.peek k with
  | none => simp [hp] at h
  | some el =>
    simp only [hp, decide_eq_true_eq] at h
    obtain ⟨pre, post, h1, h2, h3⟩ := counter_sound c maxSize t0 evs k el hp
    exact ⟨pre, post, h1, h2, by omega⟩

/-- **C14 (defaults).** If only `prefetching` is switched on, more than five queries are needed. -/
theorem C14_default_threshold (maxSize : Nat) (t0 : Int) (evs : List NEv) (k : Str)
    (h : prefetches { prefetching := true } (nrun { prefetching := true } (freshCache maxSize t0) evs) k = true) :
    ∃ pre post, evs = pre ++ post ∧ NEv.clear ∉ post ∧ 6 ≤ queries k post := by
  obtain ⟨pre, post, h1, h2, h3⟩ := C14_reload_needs_demand _ maxSize t0 evs k (by decide) h
  exact ⟨pre, post, h1, h2, h3⟩

/-- **C14, flushing.** A flush forgets the answers and the query counts: nothing is served from the
cache afterwards, and (with a positive threshold) nothing is reloaded until asked for again. -/
theorem C14_flush_forgets (c : Cfg) (s : CState) (k : Str) :
    (cacheGet c (flush s) k).1 = none ∧
    (c.prefetchThreshold > 0 → (shouldPrefetch c (flush s) k).1 = false) := by
  constructor
  · unfold cacheGet flush
    by_cases hp : c.prefetching = true <;> simp [hp, track, step, Cache.get, Cache.peek]
  · intro h
    unfold shouldPrefetch
    rw [if_neg (by omega)]
    simp [flush, Cache.get, Cache.peek]

/-! ### Every demand is seen -/

theorem keys_nodup_put (c : Cache Nat) (now : Int) (k : Str) (n : Nat) (ttl : Int)
    (h : (c.items.map Prod.fst).Nodup) : ((c.put now k n ttl).items.map Prod.fst).Nodup := by
  unfold Cache.put Cache.add
  split
  · exact h
  · split
    · rename_i hk
      simp only [List.map_cons, filter_keys, List.nodup_cons]
      exact ⟨by simp, List.Nodup.sublist List.filter_sublist h⟩
    · rename_i hk
      have hn : (((k, (⟨n, now + ttl / 1000000⟩ : Element Nat)) :: c.items).map Prod.fst).Nodup := by
        simp only [List.map_cons, List.nodup_cons]; exact ⟨hk, h⟩
      split
      · exact List.Nodup.sublist ((List.dropLast_sublist _).map _) hn
      · exact hn

theorem keys_touch (c : Cache Nat) (k : Str) (h : (c.items.map Prod.fst).Nodup) :
    ((c.touch k).items.map Prod.fst).Nodup ∧ (c.touch k).cap = c.cap := by
  unfold Cache.touch
  cases hp : c.peek k with
  | none => exact ⟨h, rfl⟩
  | some el =>
    refine ⟨?_, rfl⟩
    simp only [List.map_cons, filter_keys, List.nodup_cons]
    exact ⟨by simp, List.Nodup.sublist List.filter_sublist h⟩

theorem mem_keys_iff_peek {c : Cache Nat} {k : Str} :
    k ∈ c.items.map Prod.fst ↔ ∃ el, c.peek k = some el := by
  have := AMap.get_isSome_iff (m := c.items) (k := k)
  unfold AMap.keys at this
  rw [← this, Option.isSome_iff_exists]; rfl

/-- Storing when there is room stores, and keeps every other counter. -/
theorem peek_put_room {c : Cache Nat} {now : Int} {k : Str} {n : Nat} {ttl : Int} (httl : ttl > 0)
    (all : List Str) (hn : (c.items.map Prod.fst).Nodup) (hall : all.length ≤ c.cap)
    (hin : ∀ k' ∈ c.items.map Prod.fst, k' ∈ all) (hk : k ∈ all) (k' : Str) :
    (c.put now k n ttl).peek k' = if k' = k then some ⟨n, now + ttl / 1000000⟩ else c.peek k' := by
  unfold Cache.put
  rw [if_neg (by omega)]
  unfold Cache.add
  split
  · unfold Cache.peek
    simp only [get_cons, get_filter_ne]
    split <;> simp_all
  · rename_i hnk
    have hlen : c.items.length + 1 ≤ all.length := by
      have : (k :: c.items.map Prod.fst).Nodup := List.nodup_cons.2 ⟨hnk, hn⟩
      have := nodup_length_le this (m := all) (by
        intro x hx
        rcases List.mem_cons.1 hx with rfl | hx
        · exact hk
        · exact hin _ hx)
      simpa using this
    rw [if_neg (by omega)]
    unfold Cache.peek
    simp only [get_cons]

/-- State facts kept by every event. -/
structure NInv (maxSize : Nat) (all : List Str) (s : St Nat) : Prop where
  cap : s.cache.cap = maxSize
  nodup : (s.cache.items.map Prod.fst).Nodup
  sub : ∀ k ∈ s.cache.items.map Prod.fst, k ∈ all

theorem removals_nodup (ks : List Str) (s : St Nat) (h : (s.cache.items.map Prod.fst).Nodup) :
    ((run s (ks.map Op.remove)).cache.items.map Prod.fst).Nodup ∧
    (run s (ks.map Op.remove)).cache.cap = s.cache.cap := by
  induction ks generalizing s with
  | nil => exact ⟨h, rfl⟩
  | cons k ks ih =>
    rw [List.map_cons, run_cons]
    have := ih (step s (.remove k)) (by
      simp only [step, Cache.remove, filter_keys]
      exact List.Nodup.sublist List.filter_sublist h)
    exact this

theorem NInv.step {maxSize : Nat} {all : List Str} {c : Cfg} {s : St Nat} (h : NInv maxSize all s)
    (ev : NEv) (hev : ∀ k, ev = .query k → k ∈ all) : NInv maxSize all (nstep c s ev) := by
  cases ev with
  | tick d => exact ⟨h.cap, h.nodup, h.sub⟩
  | clear => exact ⟨h.cap, by simp [nstep, ExpCache.step], by simp [nstep, ExpCache.step]⟩
  | cleanUp =>
    simp only [nstep, cleanUp_eq]
    have := removals_nodup (s.cache.expiredKeys s.now) s h.nodup
    refine ⟨this.2.trans h.cap, this.1, fun k hk => ?_⟩
    obtain ⟨el, he⟩ := mem_keys_iff_peek.1 hk
    rw [peek_removals] at he
    split at he
    · cases he
    · exact h.sub k (mem_keys_iff_peek.2 ⟨el, he⟩)
  | read k' =>
    simp only [nstep, ExpCache.step]
    refine ⟨?_, ?_, fun k hk => ?_⟩
    · unfold Cache.get; split
      · exact (keys_touch _ _ h.nodup).2.trans h.cap
      · exact h.cap
    · unfold Cache.get; split
      · exact (keys_touch _ _ h.nodup).1
      · exact h.nodup
    · obtain ⟨el, he⟩ := mem_keys_iff_peek.1 hk
      rw [peek_get] at he
      exact h.sub k (mem_keys_iff_peek.2 ⟨el, he⟩)
  | query k' =>
    obtain ⟨n, h1, -⟩ := nstep_query c s k'
    rw [show (nstep c s (.query k')) = ⟨(nstep c s (.query k')).cache, s.now⟩ from rfl, h1]
    have ht := keys_touch s.cache k' h.nodup
    refine ⟨?_, keys_nodup_put _ _ _ _ _ ht.1, fun k hk => ?_⟩
    · rw [← h.cap, ← ht.2]
      simp only [Cache.put, Cache.add]
      repeat' split
      all_goals rfl
    · obtain ⟨el, he⟩ := mem_keys_iff_peek.1 hk
      rcases peek_put he with ⟨rfl, -⟩ | he
      · exact hev _ rfl
      · rw [peek_touch] at he
        exact h.sub k (mem_keys_iff_peek.2 ⟨el, he⟩)

theorem nrun_cons (c : Cfg) (s : St Nat) (e : NEv) (es : List NEv) :
    nrun c s (e :: es) = nrun c (nstep c s e) es := rfl

theorem nrun_append (c : Cfg) (s : St Nat) (a b : List NEv) :
    nrun c s (a ++ b) = nrun c (nrun c s a) b := by simp [nrun]

theorem NInv.run {maxSize : Nat} {all : List Str} {c : Cfg} (evs : List NEv)
    (hev : ∀ k ∈ queried evs, k ∈ all) (s : St Nat) (h : NInv maxSize all s) :
    NInv maxSize all (nrun c s evs) := by
  induction evs generalizing s with
  | nil => exact h
  | cons e es ih =>
    rw [nrun_cons]
    refine ih (fun k hk => hev k ?_) _ (h.step e ?_)
    · cases e <;> simp_all [queried]
    · rintro k rfl; exact hev k (by simp [queried])

/-- Within a period no longer than the tracking time, a counter is at least the number of queries of
that period (invariant form: `n` queries have been seen, the period started at `t`). -/
theorem counter_complete (c : Cfg) (maxSize : Nat) (all : List Str) (hall : all.length ≤ maxSize)
    (hexp : c.prefetchExpires > 0) (k : Str) (t : Int) :
    ∀ (evs : List NEv) (s : St Nat) (n : Nat), NInv maxSize all s → (∀ k ∈ queried evs, k ∈ all) →
      NEv.clear ∉ evs → t ≤ s.now → s.now + duration evs ≤ t + c.prefetchExpires / 1000000 →
      (n = 0 ∨ ∃ el, s.cache.peek k = some el ∧ n ≤ el.val ∧ t + c.prefetchExpires / 1000000 ≤ el.expires) →
      n + queries k evs = 0 ∨
        ∃ el, (nrun c s evs).cache.peek k = some el ∧ n + queries k evs ≤ el.val := by
  intro evs
  induction evs with
  | nil =>
    rintro s n _ _ _ _ _ (rfl | ⟨el, h1, h2, _⟩)
    · exact .inl rfl
    · exact .inr ⟨el, h1, by simpa [queries] using h2⟩
  | cons e es ih =>
    intro s n inv hq hc hlo hhi hn
    have hinv' : NInv maxSize all (nstep c s e) :=
      inv.step e (by rintro k rfl; exact hq k (by simp [queried]))
    have hq' : ∀ k ∈ queried es, k ∈ all := fun k hk => hq k (by cases e <;> simp_all [queried])
    have hc' : NEv.clear ∉ es := fun h => hc (by simp [h])
    rw [nrun_cons]
    have hE : queries k (e :: es) = queries k [e] + queries k es := by
      rw [← queries_append]; rfl
    -- events that are not queries for `k`
    have other : e ≠ .query k → (nstep c s e).cache.peek k = s.cache.peek k →
        t ≤ (nstep c s e).now → (nstep c s e).now + duration es ≤ t + c.prefetchExpires / 1000000 →
        n + queries k (e :: es) = 0 ∨
          ∃ el, (nrun c (nstep c s e) es).cache.peek k = some el ∧ n + queries k (e :: es) ≤ el.val := by
      intro hne hp h1 h2
      have h0 : queries k [e] = 0 := by simp [queries, hne]
      rw [hE, h0, Nat.zero_add]
      refine ih _ n hinv' hq' hc' h1 h2 ?_
      rw [hp]; exact hn
    cases e with
    | clear => exact absurd (by simp) hc
    | tick d =>
      simp only [duration] at hhi
      exact other (by simp) rfl (by simp only [nstep, ExpCache.step]; omega)
        (by simp only [nstep, ExpCache.step]; omega)
    | read k' =>
      exact other (by simp) (by simp only [nstep, ExpCache.step, peek_get]) hlo hhi
    | cleanUp =>
      simp only [duration] at hhi
      rcases hn with rfl | ⟨el, h1, h2, h3⟩
      · have h0 : queries k [NEv.cleanUp] = 0 := by simp [queries]
        rw [hE, h0, Nat.zero_add]
        refine ih _ 0 hinv' hq' hc' ?_ ?_ (.inl rfl) <;> simp only [nstep, cleanUp_now] <;> assumption
      · refine other (by simp) ?_ (by simp only [nstep, cleanUp_now]; exact hlo)
          (by simp only [nstep, cleanUp_now]; exact hhi)
        simp only [nstep, cleanUp_eq, peek_removals]
        rw [if_neg]
        intro hmem
        simp only [Cache.expiredKeys, List.mem_map, List.mem_filter, List.mem_reverse] at hmem
        obtain ⟨⟨k', el'⟩, ⟨hm, hx⟩, rfl⟩ := hmem
        have : s.cache.peek k' = some el' := AMap.Uniq.get_of_mem inv.nodup hm
        rw [h1] at this
        cases this
        simp only [isExpired, Bool.and_eq_true, decide_eq_true_eq] at hx
        omega
    | query k' =>
      simp only [duration] at hhi
      obtain ⟨m, h1, h2⟩ := nstep_query c s k'
      have htouch := keys_touch s.cache k' inv.nodup
      have hroom := peek_put_room (c := s.cache.touch k') (now := s.now) (k := k') (n := m) hexp all
        htouch.1 (by rw [htouch.2, inv.cap]; exact hall)
        (fun x hx => by
          obtain ⟨el, he⟩ := mem_keys_iff_peek.1 hx
          rw [peek_touch] at he
          exact inv.sub x (mem_keys_iff_peek.2 ⟨el, he⟩))
        (hq k' (by simp [queried])) k
      rw [← h1, peek_touch] at hroom
      by_cases hk : k' = k
      · subst hk
        rw [if_pos rfl] at hroom
        rw [hE, queries_query, if_pos rfl, ← Nat.add_assoc]
        refine ih _ (n + 1) hinv' hq' hc' hlo hhi (.inr ⟨_, hroom, ?_, ?_⟩)
        · rcases h2 with ⟨el', hp, rfl⟩ | ⟨hp, rfl⟩
          · rcases hn with rfl | ⟨el, g1, g2, _⟩
            · simp only; omega
            · rw [hp] at g1; cases g1; simp only; omega
          · rcases hn with rfl | ⟨el, g1, g2, _⟩
            · simp only; omega
            · rw [hp] at g1; cases g1
        · simp only; omega
      · exact other (by simpa using hk) (by rw [hroom, if_neg (Ne.symm hk)]) hlo hhi

/-- **C14, demand is honoured.** If a name was asked for more often than the threshold during the
last tracking period, its expired entry is reloaded - as long as no more different names were ever
asked for than counters fit, and the cache was not flushed during that period. -/
theorem C14_demand_reloads_partial (c : Cfg) (maxSize : Nat) (hmax : maxSize > 0) (t0 : Int)
    (hexp : c.prefetchExpires > 0) (all : List Str) (hall : all.length ≤ maxSize)
    (pre post : List NEv) (hq : ∀ k ∈ queried (pre ++ post), k ∈ all)
    (hc : NEv.clear ∉ post) (hdur : (duration post : Int) ≤ c.prefetchExpires / 1000000)
    (k : Str) (hk : c.prefetchThreshold < queries k post) :
    prefetches c (nrun c (freshCache maxSize t0) (pre ++ post)) k = true := by
  have inv0 : NInv maxSize all (freshCache maxSize t0) :=
    ⟨by simp [freshCache, newCache, hmax], by simp [freshCache, newCache], by simp [freshCache, newCache]⟩
  have hnow : ∀ (evs : List NEv) (s : St Nat), s.now ≤ (nrun c s evs).now := by
    intro evs
    induction evs with
    | nil => intro s; exact Int.le_refl _
    | cons e es ih =>
      intro s
      refine Int.le_trans ?_ (ih (nstep c s e))
      cases e with
      | tick d => simp only [nstep, step]; omega
      | cleanUp => simp only [nstep, cleanUp_now]; omega
      | _ => exact Int.le_refl _
  have hq1 : ∀ k ∈ queried pre, k ∈ all := fun k h => hq k (by simp [queried] at h ⊢; exact .inl h)
  have hq2 : ∀ k ∈ queried post, k ∈ all := fun k h => hq k (by simp [queried] at h ⊢; exact .inr h)
  have h1 := hnow pre (freshCache maxSize t0)
  have h2 : (freshCache maxSize t0 : St Nat).now = t0 := rfl
  have := counter_complete c maxSize all hall hexp k (nrun c (freshCache maxSize t0) pre).now
    post (nrun c (freshCache maxSize t0) pre) 0 (NInv.run pre hq1 _ inv0) hq2 hc
    (Int.le_refl _) (by omega) (.inl rfl)
  rw [← nrun_append] at this
  unfold prefetches shouldPrefetch
  split
  · rfl
  · rcases this with h | ⟨el, hp, hle⟩
    · omega
    · simp only [Cache.get, hp, decide_eq_true_eq]; omega

/-- Tracking time two hours, threshold two queries. -/
def twoHours : Cfg := { prefetching := true, prefetchExpires := 7200000000000, prefetchThreshold := 2 }

/-- 1 h 59 min in milliseconds. -/
def almostTwoHours : Nat := 7140000

/-- **C14 (defaults).** If only `prefetching` is switched on, six queries within two hours are enough. -/
theorem C14_default_demand_partial (maxSize : Nat) (hmax : maxSize > 0) (t0 : Int) (all : List Str) (hall : all.length ≤ maxSize)
    (pre post : List NEv) (hq : ∀ k ∈ queried (pre ++ post), k ∈ all) (hc : NEv.clear ∉ post)
    (hdur : duration post ≤ 2 * 60 * 60 * 1000) (k : Str) (hk : 6 ≤ queries k post) :
    prefetches { prefetching := true } (nrun { prefetching := true } (freshCache maxSize t0) (pre ++ post)) k = true :=
  C14_demand_reloads_partial _ maxSize hmax t0 (by decide) all hall pre post hq hc (by simp only; omega) k hk

-- Six queries in an hour.
example : prefetches { prefetching := true } (nrun { prefetching := true } (freshCache 10 0)
    ([] ++ (List.replicate 6 [NEv.query (str! "a"), NEv.tick 600000]).flatten)) (str! "a") = true := by
  apply C14_default_demand_partial 10 (by decide) 0 [str! "a"] (by decide) [] _ ?_ ?_ ?_ _ ?_ <;> decide

/-- **C14 is false as stated (sliding window).** Three queries, each almost two hours after the one
before: no period of two hours contains more than two queries, and the threshold is two; but the
entry is reloaded, since each query restarts the tracking time of the counter. -/
theorem C14_window_slides :
    prefetches twoHours (nrun twoHours (freshCache 0 1000)
      [.query (str! "a"), .tick almostTwoHours, .cleanUp, .query (str! "a"), .tick almostTwoHours,
       .cleanUp, .query (str! "a")]) (str! "a") = true ∧
    2 * almostTwoHours > 7200000 := by
  decide

/-- Instance for `C14_demand_reloads_partial` and `C14_reload_needs_demand`. -/
example : prefetches twoHours (nrun twoHours (freshCache 5 1000)
      [.query (str! "a"), .query (str! "b"), .tick 60000, .query (str! "a"), .cleanUp,
       .query (str! "a")]) (str! "a") = true ∧
    prefetches twoHours (nrun twoHours (freshCache 5 1000)
      [.query (str! "a"), .query (str! "b"), .tick 60000, .query (str! "a"), .cleanUp,
       .query (str! "a")]) (str! "b") = false := by
  decide

/-! ### The reload itself -/

/-- **C14, what a reload does.** When an entry expires, the next resolver is called exactly once if
prefetching is on and the demand is there, with a fresh query for the same name and type; otherwise
it is not called and the entry is dropped. -/
theorem C14_on_expired {W : Type} (env : Env) (c : Cfg) (next : Resolver W) (s : CState) (w : W)
    (t : Nat) (name : Str) (key : Str) (hkey : extractKey key = some (t, name)) :
    (onExpired env c next s w key).2.2 =
      (if c.prefetching = true ∧ (shouldPrefetch c s key).1 = true
       then (next (reloadRequest env t name) w).2 else w) ∧
    (¬ (c.prefetching = true ∧ (shouldPrefetch c s key).1 = true) →
      (onExpired env c next s w key).1 = some none) := by
  unfold onExpired
  by_cases hp : c.prefetching = true
  · by_cases hs : (shouldPrefetch c s key).1 = true
    · simp only [hp, hs, if_true, and_self, not_true_eq_false, false_implies, and_true]
      unfold reload
      rw [hkey]
      simp only
      rcases next (reloadRequest env t name) w with ⟨_ | _ | _ | _, w1⟩ <;> simp only
      split
      · split <;> rfl
      · rfl
    · simp [hp, hs]
  · simp [hp]

/-- **C14 (defaults).** Without configuration, cleaning up asks for nothing; it only drops. -/
theorem C14_default_off {W : Type} (env : Env) (next : Resolver W) (s : CState) (w : W) :
    cleanUpCache env {} next s w =
      (some { s with main := run s.main ((s.main.cache.expiredKeys s.main.now).map Op.remove) }, w) := by
  have key : ∀ (ks del : List Str), reloadLoop env {} next ks del s w = (some (del ++ ks, s), w) := by
    intro ks
    induction ks with
    | nil => intro del; simp [reloadLoop]
    | cons k ks ih =>
      intro del
      have e : onExpired env {} next s w k = (some none, s, w) := by
        unfold onExpired
        simp
      unfold reloadLoop
      rw [e]
      simp only
      rw [ih]
      simp
  unfold cleanUpCache
  rw [key]
  simp

/-- A reload that fails or is not a success drops the entry. -/
theorem C14_failed_reload_drops {W : Type} (env : Env) (c : Cfg) (next : Resolver W) (key : Str) (w : W)
    (t : Nat) (name : Str) (hkey : extractKey key = some (t, name))
    (h : (∃ e, (next (reloadRequest env t name) w).1 = .err e) ∨
      ∃ r, (next (reloadRequest env t name) w).1 = .ok r ∧ r.res.rcode ≠ rcodeSuccess) :
    (reload env c next key w).1 = some none := by
  unfold reload
  rw [hkey]
  simp only
  generalize next (reloadRequest env t name) w = x at h
  obtain ⟨o, w1⟩ := x
  rcases h with ⟨e, rfl⟩ | ⟨r, rfl, h2⟩
  · rfl
  · simp [h2]

/-- The request of a reload asks for the name (in lower case) and type of the stored answer, with recursion desired and
nothing else: no EDNS record, no flags of the query that brought the answer. -/
theorem C14_reload_question (env : Env) (t : Nat) (ht : t < 65536) (name : Str) :
    extractKey (cacheKey t name) = some (t, lower name) ∧
    (reloadRequest env t (lower name)).req.question = [{ name := fqdn (lower name), qtype := t }] ∧
    (reloadRequest env t (lower name)).req.recursionDesired = true ∧ (reloadRequest env t (lower name)).req.opcode = 0 ∧
    (reloadRequest env t (lower name)).req.checkingDisabled = false ∧ (reloadRequest env t (lower name)).req.extra = [] := by
  refine ⟨C08_key_roundtrip t ht name, ?_⟩
  have : ∀ s : Str, fqdn (fqdn s) = fqdn s := by
    intro s
    unfold fqdn
    by_cases h : s.getLast? = some '.' <;> simp [h]
  simp [reloadRequest, newMsgWithQuestion, this]

/-- An upstream with a short-lived and a long-lived record. -/
def shortAndLong : Resolver Unit := fun req _ =>
  (.ok { res := { ({} : Msg).setReply req.req with
      answer := [recA (str! "a.") 300 1, recA (str! "a.") 100000 2] } }, ())

/-- At most one hour. -/
def oneHourCfg : Cfg := { prefetchCfg with maxTime := 3600000000000 }

/-- The state after a query, six minutes, and a clean-up with reload. -/
def afterReload : Option CState :=
  (cleanUpCache okEnv oneHourCfg shortAndLong
    (wait (ask oneHourCfg shortAndLong (mkReq 1 [qA (str! "a.")]) emptyCache).2 360000) ()).1

/-- **C14 is false as stated (TTL bounds).** Maximum caching time one hour. The first answer is
served with TTLs 300 and 3600, but after a reload in the background the record is served with a TTL
of more than a day. -/
theorem C14_reload_ignores_bounds :
    (answerOf (ask oneHourCfg shortAndLong (mkReq 1 [qA (str! "a.")]) emptyCache).1).map
      (·.map (·.ttl)) = some [300, 3600] ∧
    ∃ s, afterReload = some s ∧
      (answerOf (ask oneHourCfg shortAndLong (mkReq 2 [qA (str! "a.")]) s).1).map (·.map (·.ttl))
        = some [300, 100000] := by
  refine ⟨by decide, _, rfl, by decide⟩

end Verif.Props
