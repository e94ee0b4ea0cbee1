/-
C115: the metrics of the answer cache count what they are said to count.
-/
import Verif.Model.CacheMetrics
import Verif.Lemmas.MapOrder

namespace Verif.Props
open ExpCache CacheMetrics

variable {V : Type}

/-! ### What happened -/

/-- What can be seen of the operations of a cache. -/
inductive Seen where
  | found (key : Str)
  | missing (key : Str)
  /-- An answer was put into the cache because a client had asked. -/
  | stored (key : Str)
  /-- An expired answer was asked for again, successfully; was it put into the cache (its lifetime is positive)? -/
  | reloaded (key : Str) (kept : Bool)

/-- The last answer put into the cache for the key was a prefetched one. The latest event comes first. -/
inductive LastPrefetched (key : Str) : List Seen → Prop
  | here (t : List Seen) : LastPrefetched key (.reloaded key true :: t)
  | later (e : Seen) (t : List Seen) (h1 : e ≠ .stored key) (h2 : e ≠ .reloaded key true) (h : LastPrefetched key t) : LastPrefetched key (e :: t)

/-- How often a key was found whose last answer was a prefetched one. -/
inductive PrefetchHits : List Seen → Nat → Prop
  | nil : PrefetchHits [] 0
  | hit (key : Str) (t : List Seen) (n : Nat) (h : LastPrefetched key t) (ht : PrefetchHits t n) : PrefetchHits (.found key :: t) (n + 1)
  | plain (key : Str) (t : List Seen) (n : Nat) (h : ¬ LastPrefetched key t) (ht : PrefetchHits t n) : PrefetchHits (.found key :: t) n
  | other (e : Seen) (t : List Seen) (n : Nat) (h : ∀ key, e ≠ .found key) (ht : PrefetchHits t n) : PrefetchHits (e :: t) n

/-- What is seen of the reloading of expired keys. -/
def seenReloads (c : Caching.Cfg) (reload : Str → Option (V × Int)) : List Str → State V → List Seen
  | [], _ => []
  | k :: ks, s =>
    let r := expire true c reload s {} k
    seenReloads c reload ks r.2.1 ++ (if r.1 then [] else match reload k with
      | some (_, ttl) => [.reloaded k (decide (0 < ttl))]
      | none => [])

/-- What is seen of a step, the latest first. -/
def seenOf (c : Caching.Cfg) (s : State V) : Act V → List Seen
  | .lookup key => match (lookup true c s {} key).1 with
    | some _ => [.found key]
    | none => [.missing key]
  | .store key _ ttl => if 0 < ttl then [.stored key] else []
  | .cleanUp reload => seenReloads c reload (s.main.cache.expiredKeys s.main.now) s
  | .clear => []
  | .tick _ => []

/-- A history of both caches (`true`: the server's) with what was seen of each. -/
def observe (c cb : Caching.Cfg) : List (Bool × Act V) → Both V × List Seen × List Seen → Both V × List Seen × List Seen
  | [], x => x
  | (true, a) :: as, (b, t, tb) => observe c cb as (bothAct c cb b (true, a), seenOf c b.server a ++ t, tb)
  | (false, a) :: as, (b, t, tb) => observe c cb as (bothAct c cb b (false, a), t, seenOf cb b.bootstrap a ++ tb)

def isFound : Seen → Bool
  | .found _ => true
  | _ => false

def isMissing : Seen → Bool
  | .missing _ => true
  | _ => false

def isReloaded : Seen → Bool
  | .reloaded .. => true
  | _ => false

/-! ### The marks in the cache -/

/-- Every entry is marked as prefetched exactly if the last answer put there was. -/
def Marked (s : State V) (t : List Seen) : Prop :=
  ∀ k el, (k, el) ∈ s.main.cache.items → (el.val.prefetch = true ↔ LastPrefetched k t)

theorem add_mem {T : Type} {c : Cache T} {k k' : Str} {el el' : Element T} (h : (k', el') ∈ (c.add k el).items) :
    (k' = k ∧ el' = el) ∨ (k' ≠ k ∧ (k', el') ∈ c.items) := by
  have hc : ∀ l : List (Str × Element T), (∀ e ∈ l, e.1 ≠ k ∧ e ∈ c.items) → (k', el') ∈ (k, el) :: l →
      (k' = k ∧ el' = el) ∨ (k' ≠ k ∧ (k', el') ∈ c.items) := by
    intro l hl hm
    rcases List.mem_cons.1 hm with hm | hm
    · cases hm
      exact .inl ⟨rfl, rfl⟩
    · exact .inr (hl _ hm)
  unfold Cache.add at h
  split at h
  · refine hc _ (fun e he => ?_) h
    have := List.mem_filter.1 he
    exact ⟨by simpa using this.2, this.1⟩
  · rename_i hk
    have hl : ∀ e ∈ c.items, e.1 ≠ k ∧ e ∈ c.items := by
      intro e he
      refine ⟨fun hek => hk (List.mem_map.2 ⟨e, he, hek⟩), he⟩
    split at h
    · exact hc _ hl (List.dropLast_subset _ h)
    · exact hc _ hl h

theorem put_mem {T : Type} {c : Cache T} {now ttl : Int} {k k' : Str} {v : T} {el' : Element T} (h : (k', el') ∈ (c.put now k v ttl).items) :
    (0 < ttl ∧ k' = k ∧ el'.val = v) ∨ ((0 < ttl → k' ≠ k) ∧ (k', el') ∈ c.items) := by
  unfold Cache.put at h
  split at h
  · exact .inr ⟨fun hp => by omega, h⟩
  · rcases add_mem h with ⟨h1, h2⟩ | h1
    · exact .inl ⟨by omega, h1, by rw [h2]⟩
    · exact .inr ⟨fun _ => h1.1, h1.2⟩

theorem get_mem {T : Type} {c : Cache T} {now : Int} {k k' : Str} {el' : Element T} (h : (k', el') ∈ (c.get now k).2.items) : (k', el') ∈ c.items := by
  unfold Cache.get Cache.touch at h
  cases hp : c.peek k with
  | none => rw [hp] at h; exact h
  | some el =>
    rw [hp] at h
    simp only at h
    rcases List.mem_cons.1 h with h | h
    · cases h
      exact AMap.get_eq_some_mem hp
    · exact (List.mem_filter.1 h).1

theorem lastPrefetched_other {k : Str} {e : Seen} {t : List Seen} (h1 : e ≠ .stored k) (h2 : e ≠ .reloaded k true) :
    LastPrefetched k (e :: t) ↔ LastPrefetched k t := by
  refine ⟨fun h => ?_, .later e t h1 h2⟩
  cases h with
  | here => exact absurd rfl h2
  | later _ _ _ _ h => exact h

theorem lastPrefetched_stored (k : Str) (t : List Seen) : ¬ LastPrefetched k (.stored k :: t) := by
  intro h
  cases h with
  | later _ _ h1 _ _ => exact h1 rfl

theorem marked_store {s : State V} {t : List Seen} (h : Marked s t) (k : Str) (v : V) (ttl : Int) :
    Marked (store s k v ttl) ((if 0 < ttl then [.stored k] else []) ++ t) := by
  intro k' el hm
  rcases put_mem (c := s.main.cache) hm with ⟨hp, rfl, hv⟩ | ⟨hn, hm⟩
  · rw [if_pos hp, hv]
    exact ⟨fun h => (nomatch h), fun h => absurd h (lastPrefetched_stored _ _)⟩
  · split
    · rename_i hp
      rw [h k' el hm]
      exact (lastPrefetched_other (e := .stored k) (fun h => by injection h with h; exact hn hp h.symm) (fun h => nomatch h)).symm
    · exact h k' el hm

theorem marked_reload {s : State V} {t : List Seen} (h : Marked s t) (k : Str) (v : V) (ttl : Int) :
    Marked { s with main := step s.main (.put k ⟨v, true⟩ ttl) } (.reloaded k (decide (0 < ttl)) :: t) := by
  intro k' el hm
  rcases put_mem (c := s.main.cache) hm with ⟨hp, rfl, hv⟩ | ⟨hn, hm⟩
  · rw [hv, decide_eq_true hp]
    exact ⟨fun _ => .here _, fun _ => rfl⟩
  · rw [h k' el hm]
    refine (lastPrefetched_other (e := .reloaded k _) (fun h => nomatch h) (fun h => ?_)).symm
    injection h with h1 h2
    exact hn (of_decide_eq_true h2) h1.symm

theorem marked_sub {s s' : State V} {t : List Seen} (h : Marked s t) (hs : ∀ x ∈ s'.main.cache.items, x ∈ s.main.cache.items) : Marked s' t :=
  fun k el hm => h k el (hs _ hm)

theorem marked_seen {s : State V} {t : List Seen} (h : Marked s t) (e : Seen) (h1 : ∀ k, e ≠ .stored k) (h2 : ∀ k, e ≠ .reloaded k true) :
    Marked s (e :: t) := fun k el hm => (h k el hm).trans (lastPrefetched_other (h1 k) (h2 k)).symm

theorem tracked_main (c : Caching.Cfg) (s : State V) (k : Str) : (if c.prefetching then track c s k else s).main = s.main := by
  split <;> rfl

/-! ### Steps -/

/-- The counters agree with what was seen of the server's cache (`t`) and of the bootstrap's (`tb`). -/
structure Agrees (t tb : List Seen) (m : Counts) : Prop where
  hits : m.hits = t.countP isFound + tb.countP isFound
  misses : m.misses = t.countP isMissing + tb.countP isMissing
  prefetches : m.prefetches = t.countP isReloaded
  prefetchHits : PrefetchHits t m.prefetchHits

theorem lookup_fst (emit : Bool) (c : Caching.Cfg) (s : State V) (m m' : Counts) (k : Str) :
    (lookup emit c s m k).1 = (lookup true c s m' k).1 ∧ (lookup emit c s m k).2.1 = (lookup true c s m' k).2.1 := by
  unfold lookup
  simp only
  generalize Cache.get _ _ k = y
  obtain ⟨o, cache⟩ := y
  cases o with
  | none => exact ⟨rfl, rfl⟩
  | some x => exact ⟨rfl, rfl⟩

theorem server_lookup {c : Caching.Cfg} {s : State V} {t tb : List Seen} {m : Counts} (hm : Marked s t) (ha : Agrees t tb m) (k : Str) :
    Marked (lookup true c s m k).2.1 (seenOf c s (.lookup k) ++ t) ∧ Agrees (seenOf c s (.lookup k) ++ t) tb (lookup true c s m k).2.2 := by
  have hl := lookup_fst true c s {} m k
  unfold seenOf
  simp only
  rw [hl.1]
  unfold lookup
  simp only [tracked_main]
  have hsub : ∀ x ∈ (s.main.cache.get s.main.now k).2.items, x ∈ s.main.cache.items := fun x hx => get_mem (k' := x.1) (el' := x.2) hx
  have hfound : ∀ v ttl, (s.main.cache.get s.main.now k).1 = some (v, ttl) → (v.prefetch = true ↔ LastPrefetched k t) := by
    intro v ttl hg
    unfold Cache.get at hg
    cases hp : s.main.cache.peek k with
    | none => rw [hp] at hg; cases hg
    | some el =>
      rw [hp] at hg
      cases hg
      exact hm k el (AMap.get_eq_some_mem hp)
  revert hsub hfound
  generalize s.main.cache.get s.main.now k = y
  obtain ⟨o, cache⟩ := y
  intro hsub hfound
  cases o with
  | none =>
    refine ⟨marked_seen (marked_sub hm hsub) _ (fun _ h => nomatch h) (fun _ h => nomatch h), ?_, ?_, ?_, ?_⟩
    · simpa [isFound] using ha.hits
    · have := ha.misses
      simp [List.countP_cons, isMissing]
      omega
    · simpa [isReloaded] using ha.prefetches
    · exact .other _ _ _ (fun _ h => nomatch h) ha.prefetchHits
  | some x =>
    obtain ⟨v, ttl⟩ := x
    refine ⟨marked_seen (marked_sub hm hsub) _ (fun _ h => nomatch h) (fun _ h => nomatch h), ?_⟩
    have hf := hfound v ttl rfl
    simp only [publish, if_true]
    have h1 := ha.hits
    have h2 := ha.misses
    have h3 := ha.prefetches
    cases hv : v.prefetch with
    | true =>
      refine ⟨?_, ?_, ?_, ?_⟩
      · simp [List.countP_cons, isFound]; omega
      · simpa [isMissing] using h2
      · simpa [isReloaded] using h3
      · exact .hit k t _ (hf.1 hv) ha.prefetchHits
    | false =>
      refine ⟨?_, ?_, ?_, ?_⟩
      · simp [List.countP_cons, isFound]; omega
      · simpa [isMissing] using h2
      · simpa [isReloaded] using h3
      · exact .plain k t _ (fun h => by rw [hf.2 h] at hv; cases hv) ha.prefetchHits

theorem agrees_quiet {t tb : List Seen} {m : Counts} (ha : Agrees t tb m) (e : Seen) (h1 : isFound e = false) (h2 : isMissing e = false)
    (h3 : isReloaded e = false) : Agrees (e :: t) tb m := by
  refine ⟨?_, ?_, ?_, ?_⟩
  · simpa [h1] using ha.hits
  · simpa [h2] using ha.misses
  · simpa [h3] using ha.prefetches
  · exact .other _ _ _ (fun k h => by rw [h] at h1; cases h1) ha.prefetchHits

theorem agrees_reloaded {t tb : List Seen} {m : Counts} (ha : Agrees t tb m) (k : Str) (kept : Bool) :
    Agrees (.reloaded k kept :: t) tb { m with prefetches := m.prefetches + 1 } := by
  have h3 := ha.prefetches
  refine ⟨?_, ?_, ?_, ?_⟩
  · simpa [isFound] using ha.hits
  · simpa [isMissing] using ha.misses
  · simp [List.countP_cons, isReloaded]; omega
  · exact .other _ _ _ (fun _ h => nomatch h) ha.prefetchHits

theorem should_main (c : Caching.Cfg) (s : State V) (k : Str) : (shouldPrefetch c s k).2.main = s.main := by
  unfold shouldPrefetch
  split <;> rfl

/-- What reloading one key does. -/
theorem expire_cases (emit : Bool) (c : Caching.Cfg) (reload : Str → Option (V × Int)) (s : State V) (m m' : Counts) (k : Str) :
    (∃ s' : State V, s'.main = s.main ∧ expire emit c reload s m k = (true, s', m) ∧ expire true c reload s m' k = (true, s', m')) ∨
    (∃ (s' : State V) (v : V) (ttl : Int), s'.main = s.main ∧ reload k = some (v, ttl) ∧
      expire emit c reload s m k = (false, { s' with main := step s'.main (.put k ⟨v, true⟩ ttl) },
        if emit then { m with prefetches := m.prefetches + 1 } else m) ∧
      expire true c reload s m' k = (false, { s' with main := step s'.main (.put k ⟨v, true⟩ ttl) }, { m' with prefetches := m'.prefetches + 1 })) := by
  unfold expire
  split
  · have hs := should_main c s k
    revert hs
    generalize shouldPrefetch c s k = y
    obtain ⟨should, s1⟩ := y
    intro hs
    cases should with
    | false => exact .inl ⟨s1, hs, rfl, rfl⟩
    | true =>
      cases hr : reload k with
      | none => exact .inl ⟨s1, hs, by simp, by simp⟩
      | some x =>
        obtain ⟨v, ttl⟩ := x
        exact .inr ⟨s1, v, ttl, hs, rfl, by simp [publish], by simp [publish]⟩
  · exact .inl ⟨s, rfl, rfl, rfl⟩

theorem server_expireAll {c : Caching.Cfg} (reload : Str → Option (V × Int)) {tb : List Seen} (ks : List Str) :
    ∀ (del : List Str) (s : State V) (m : Counts) (t : List Seen), Marked s t → Agrees t tb m →
      Marked (expireAll true c reload ks del s m).2.1 (seenReloads c reload ks s ++ t) ∧
      Agrees (seenReloads c reload ks s ++ t) tb (expireAll true c reload ks del s m).2.2 := by
  induction ks with
  | nil => exact fun _ _ _ _ h1 h2 => ⟨h1, h2⟩
  | cons k ks ih =>
    intro del s m t hm ha
    unfold expireAll seenReloads
    simp only
    rcases expire_cases true c reload s m {} k with ⟨s', h1, h2, h3⟩ | ⟨s', v, ttl, h1, hr, h2, h3⟩
    · rw [h2, h3]
      simp only [if_true, List.append_nil]
      exact ih _ _ _ _ (by unfold Marked; rw [h1]; exact hm) ha
    · rw [h2, h3, hr]
      simp only [if_true, Bool.false_eq_true, if_false, List.append_assoc, List.singleton_append]
      refine ih _ _ _ _ (marked_reload (s := s') ?_ k v ttl) (agrees_reloaded ha k _)
      unfold Marked
      rw [h1]
      exact hm

theorem removes_kept {T : Type} (del : List Str) : ∀ (s : St T), ∀ x ∈ (run s (del.map Op.remove)).cache.items, x ∈ s.cache.items := by
  induction del with
  | nil => exact fun _ _ h => h
  | cons k ks ih => exact fun s x hx => (List.mem_filter.1 (ih (step s (.remove k)) x hx)).1

theorem server_act {c : Caching.Cfg} {s : State V} {t tb : List Seen} {m : Counts} (hm : Marked s t) (ha : Agrees t tb m) (a : Act V) :
    Marked (act true c s m a).1 (seenOf c s a ++ t) ∧ Agrees (seenOf c s a ++ t) tb (act true c s m a).2 := by
  cases a with
  | lookup k => exact server_lookup hm ha k
  | store k v ttl =>
    refine ⟨marked_store hm k v ttl, ?_⟩
    unfold seenOf
    simp only
    split
    · exact agrees_quiet ha _ rfl rfl rfl
    · exact ha
  | cleanUp reload =>
    have h := server_expireAll (c := c) reload (tb := tb) (s.main.cache.expiredKeys s.main.now) [] s m t hm ha
    unfold act CacheMetrics.cleanUp seenOf
    simp only
    revert h
    generalize expireAll true c reload (s.main.cache.expiredKeys s.main.now) [] s m = y
    obtain ⟨del, s', m'⟩ := y
    intro h
    exact ⟨marked_sub h.1 (removes_kept del s'.main), h.2⟩
  | clear => exact ⟨fun _ _ h => (nomatch h), ha⟩
  | tick ms => exact ⟨hm, ha⟩

theorem bootstrap_expireAll {c : Caching.Cfg} (reload : Str → Option (V × Int)) (ks : List Str) :
    ∀ (del : List Str) (s : State V) (m : Counts), (expireAll false c reload ks del s m).2.2 = m ∧
      ∀ e ∈ seenReloads c reload ks s, isFound e = false ∧ isMissing e = false := by
  induction ks with
  | nil => exact fun _ _ _ => ⟨rfl, fun _ h => nomatch h⟩
  | cons k ks ih =>
    intro del s m
    unfold expireAll seenReloads
    simp only
    rcases expire_cases false c reload s m {} k with ⟨s', h1, h2, h3⟩ | ⟨s', v, ttl, h1, hr, h2, h3⟩
    · rw [h2, h3]
      simp only [if_true, List.append_nil]
      exact ih _ _ _
    · rw [h2, h3, hr]
      simp only [Bool.false_eq_true, if_false]
      have := ih del { s' with main := step s'.main (.put k ⟨v, true⟩ ttl) } m
      refine ⟨this.1, fun e he => ?_⟩
      rcases List.mem_append.1 he with he | he
      · exact this.2 e he
      · rcases List.mem_singleton.1 he with rfl
        exact ⟨rfl, rfl⟩

theorem bootstrap_act {c : Caching.Cfg} {s : State V} {t tb : List Seen} {m : Counts} (ha : Agrees t tb m) (a : Act V) :
    Agrees t (seenOf c s a ++ tb) (act false c s m a).2 := by
  obtain ⟨h1, h2, h3, h4⟩ := ha
  cases a with
  | lookup k =>
    have hl := lookup_fst false c s m {} k
    show Agrees t (seenOf c s (.lookup k) ++ tb) (lookup false c s m k).2.2
    unfold seenOf
    simp only
    rw [← hl.1]
    unfold lookup
    simp only
    generalize Cache.get _ _ k = y
    obtain ⟨o, cache⟩ := y
    cases o with
    | none => exact ⟨by simpa [isFound] using h1, by simp [List.countP_cons, isMissing]; omega, h3, h4⟩
    | some x =>
      simp only [publish, Bool.false_eq_true, if_false, ite_self]
      exact ⟨by simp [List.countP_cons, isFound]; omega, by simpa [isMissing] using h2, h3, h4⟩
  | store k v ttl =>
    show Agrees t (seenOf c s (.store k v ttl) ++ tb) m
    unfold seenOf
    simp only
    split
    · exact ⟨by simpa [isFound] using h1, by simpa [isMissing] using h2, h3, h4⟩
    · exact ⟨h1, h2, h3, h4⟩
  | cleanUp reload =>
    have h := bootstrap_expireAll (c := c) reload (s.main.cache.expiredKeys s.main.now) [] s m
    unfold act CacheMetrics.cleanUp seenOf
    simp only
    revert h
    generalize expireAll false c reload (s.main.cache.expiredKeys s.main.now) [] s m = y
    obtain ⟨del, s', m'⟩ := y
    rintro ⟨hmm, h⟩
    simp only at hmm
    have hf : (seenReloads c reload (s.main.cache.expiredKeys s.main.now) s).countP isFound = 0 :=
      List.countP_eq_zero.2 (fun e he => by rw [(h e he).1]; exact Bool.false_ne_true)
    have hi : (seenReloads c reload (s.main.cache.expiredKeys s.main.now) s).countP isMissing = 0 :=
      List.countP_eq_zero.2 (fun e he => by rw [(h e he).2]; exact Bool.false_ne_true)
    simp only [hmm]
    exact ⟨by simp only [List.countP_append, hf]; omega, by simp only [List.countP_append, hi]; omega, h3, h4⟩
  | clear => exact ⟨h1, h2, h3, h4⟩
  | tick ms => exact ⟨h1, h2, h3, h4⟩

theorem observe_agrees (c cb : Caching.Cfg) (as : List (Bool × Act V)) : ∀ (b : Both V) (t tb : List Seen),
    Marked b.server t → Agrees t tb b.counts →
      Agrees (observe c cb as (b, t, tb)).2.1 (observe c cb as (b, t, tb)).2.2 (observe c cb as (b, t, tb)).1.counts := by
  induction as with
  | nil => exact fun _ _ _ _ h => h
  | cons x as ih =>
    intro b t tb hm ha
    obtain ⟨which, a⟩ := x
    cases which with
    | true =>
      have := server_act (c := c) hm ha a
      exact ih _ _ _ this.1 this.2
    | false => exact ih _ _ _ hm (bootstrap_act (c := cb) ha a)

/-! ### The claims -/

/-- Nothing cached, nothing counted. -/
def NothingYet (b : Both V) : Prop := b.server.main.cache.items = [] ∧ b.counts = {}

/-- **C115.** After any history of the server's answer cache and that of the bootstrap - lookups, answers stored, clean-ups with any results of
prefetching, flushes: `blocky_cache_hits_total` is the number of lookups that found an answer, `blocky_cache_misses_total` the number of
those that did not, `blocky_prefetches_total` the number of expired answers that were fetched again, and `blocky_prefetch_hits_total` the
number of lookups that found an answer which was, for its name and type, last put there by prefetching. Missing: the hits and misses are
not those of queries alone (`C115_own_lookups_false`). -/
theorem C115_counted_partial (c cb : Caching.Cfg) (as : List (Bool × Act V)) (b : Both V) (hb : NothingYet b) :
    let r := observe c cb as (b, [], [])
    r.1.counts.hits = r.2.1.countP isFound + r.2.2.countP isFound ∧
    r.1.counts.misses = r.2.1.countP isMissing + r.2.2.countP isMissing ∧
    r.1.counts.prefetches = r.2.1.countP isReloaded ∧
    PrefetchHits r.2.1 r.1.counts.prefetchHits := by
  have hm : Marked b.server [] := by
    intro k el h
    rw [hb.1] at h
    cases h
  have ha : Agrees [] [] b.counts := by
    rw [hb.2]
    exact ⟨rfl, rfl, rfl, .nil⟩
  have h := observe_agrees c cb as b [] [] hm ha
  exact ⟨h.hits, h.misses, h.prefetches, h.prefetchHits⟩

/-- The number of prefetch hits is determined by what was seen. -/
theorem prefetchHits_unique {t : List Seen} {n n' : Nat} (h : PrefetchHits t n) (h' : PrefetchHits t n') : n = n' := by
  induction h generalizing n' with
  | nil => cases h'; rfl
  | hit key t n hl _ ih =>
    cases h' with
    | hit _ _ k _ h => rw [ih h]
    | plain _ _ _ hn _ => exact absurd hl hn
    | other _ _ _ hn _ => exact absurd rfl (hn key)
  | plain key t n hn _ ih =>
    cases h' with
    | hit _ _ _ hl _ => exact absurd hl hn
    | plain _ _ _ _ h => exact ih h
    | other _ _ _ hn _ => exact absurd rfl (hn key)
  | other e t n hn _ ih =>
    cases h' with
    | hit key _ _ _ _ => exact absurd rfl (hn key)
    | plain key _ _ _ _ => exact absurd rfl (hn key)
    | other _ _ _ _ h => exact ih h

/-! ### It is the same cache -/

/-- Values replaced, entry by entry. -/
def mapped {T U : Type} (f : T → U) (c : Cache T) : Cache U := ⟨c.cap, c.items.map (fun e => (e.1, ⟨f e.2.val, e.2.expires⟩))⟩

theorem mapped_peek {T U : Type} (f : T → U) (c : Cache T) (k : Str) : (mapped f c).peek k = (c.peek k).map (fun el => ⟨f el.val, el.expires⟩) := by
  unfold mapped Cache.peek
  simp only
  generalize c.items = items
  induction items with
  | nil => rfl
  | cons e items ih =>
    obtain ⟨k', el⟩ := e
    simp only [List.map_cons, AMap.get]
    by_cases h : k' = k
    · simp [h]
    · simpa [h] using ih

theorem mapped_keys {T U : Type} (f : T → U) (c : Cache T) : (mapped f c).items.map Prod.fst = c.items.map Prod.fst := by
  simp [mapped, Function.comp_def]

theorem mapped_filter {T U : Type} (f : T → U) (items : List (Str × Element T)) (k : Str) :
    (items.map (fun e => (e.1, (⟨f e.2.val, e.2.expires⟩ : Element U)))).filter (fun e => e.1 ≠ k) =
      (items.filter (fun e => e.1 ≠ k)).map (fun e => (e.1, ⟨f e.2.val, e.2.expires⟩)) := by
  rw [List.filter_map]
  rfl

theorem mapped_add {T U : Type} (f : T → U) (c : Cache T) (k : Str) (v : T) (x : Int) : (mapped f c).add k ⟨f v, x⟩ = mapped f (c.add k ⟨v, x⟩) := by
  unfold Cache.add
  rw [mapped_keys]
  have hl : (mapped f c).items.length = c.items.length := by simp [mapped]
  rw [hl]
  split
  · simp only [mapped, mapped_filter, List.map_cons]
  · split
    · rename_i h
      rw [if_pos (show c.items.length + 1 > c.cap from h)]
      simp only [mapped, List.map_dropLast, List.map_cons]
    · rename_i h
      rw [if_neg (show ¬ c.items.length + 1 > c.cap from h)]
      simp only [mapped, List.map_cons]

theorem mapped_put {T U : Type} (f : T → U) (c : Cache T) (now : Int) (k : Str) (v : T) (ttl : Int) :
    (mapped f c).put now k (f v) ttl = mapped f (c.put now k v ttl) := by
  unfold Cache.put
  split
  · rfl
  · exact mapped_add f c k v _

theorem mapped_get {T U : Type} (f : T → U) (c : Cache T) (now : Int) (k : Str) :
    (mapped f c).get now k = ((c.get now k).1.map (fun x => (f x.1, x.2)), mapped f (c.get now k).2) := by
  unfold Cache.get Cache.touch
  rw [mapped_peek]
  cases c.peek k with
  | none => rfl
  | some el => simp only [Option.map_some, mapped, mapped_filter, List.map_cons]

theorem mapped_expired {T U : Type} (f : T → U) (c : Cache T) (now : Int) : (mapped f c).expiredKeys now = c.expiredKeys now := by
  unfold Cache.expiredKeys mapped
  simp only [← List.map_reverse, List.filter_map, List.map_map]
  rfl

theorem mapped_removes {T U : Type} (f : T → U) (del : List Str) : ∀ (s : St T),
    run ⟨mapped f s.cache, s.now⟩ (del.map Op.remove) = ⟨mapped f (run s (del.map Op.remove)).cache, (run s (del.map Op.remove)).now⟩ := by
  induction del with
  | nil => exact fun _ => rfl
  | cons k ks ih =>
    intro s
    have := ih (step s (.remove k))
    simp only [List.map_cons, run, List.foldl_cons] at this ⊢
    rw [← this]
    simp only [step, Cache.remove, mapped, mapped_filter]

/-- The cache without the marks. -/
def unmark (s : State Dns.Msg) : Caching.CState := ⟨⟨mapped (·.element) s.main.cache, s.main.now⟩, s.names⟩

theorem unmark_tracked (c : Caching.Cfg) (s : State Dns.Msg) (k : Str) :
    unmark (if c.prefetching then track c s k else s) = if c.prefetching then Caching.track c (unmark s) k else unmark s := by
  split <;> rfl

/-- **C115.** The answers of that cache, and what it holds afterwards, are those of the cache that the other claims are about. -/
theorem C115_same_lookup (c : Caching.Cfg) (s : State Dns.Msg) (m : Counts) (emit : Bool) (k : Str) :
    (lookup emit c s m k).1 = (Caching.cacheGet c (unmark s) k).1 ∧ unmark (lookup emit c s m k).2.1 = (Caching.cacheGet c (unmark s) k).2 := by
  unfold lookup Caching.cacheGet
  simp only
  rw [← unmark_tracked]
  generalize (if c.prefetching then track c s k else s) = s1
  have h := mapped_get (fun v : Value Dns.Msg => v.element) s1.main.cache s1.main.now k
  show _ = (Cache.get (mapped _ s1.main.cache) s1.main.now k).1 ∧ _ = Caching.CState.mk ⟨(Cache.get (mapped _ s1.main.cache) s1.main.now k).2, s1.main.now⟩ s1.names
  rw [h]
  generalize s1.main.cache.get s1.main.now k = y
  obtain ⟨o, cache⟩ := y
  cases o <;> exact ⟨rfl, rfl⟩

theorem unmark_put (s : State Dns.Msg) (k : Str) (v : Dns.Msg) (p : Bool) (ttl : Int) :
    unmark { s with main := step s.main (.put k ⟨v, p⟩ ttl) } = { unmark s with main := step (unmark s).main (.put k v ttl) } := by
  have h := mapped_put (fun v : Value Dns.Msg => v.element) s.main.cache s.main.now k ⟨v, p⟩ ttl
  show Caching.CState.mk ⟨mapped _ (s.main.cache.put _ k ⟨v, p⟩ ttl), _⟩ _ = Caching.CState.mk ⟨(mapped _ s.main.cache).put _ k v ttl, _⟩ _
  rw [← h]
  rfl

theorem unmark_should (c : Caching.Cfg) (s : State Dns.Msg) (k : Str) :
    Caching.shouldPrefetch c (unmark s) k = ((shouldPrefetch c s k).1, unmark (shouldPrefetch c s k).2) := by
  unfold Caching.shouldPrefetch shouldPrefetch
  split <;> rfl

theorem expireAll_congr {emit : Bool} {c : Caching.Cfg} {r r' : Str → Option (V × Int)} (ks : List Str) : ∀ (del : List Str) (s : State V) (m : Counts),
    (∀ k ∈ ks, r k = r' k) → expireAll emit c r ks del s m = expireAll emit c r' ks del s m := by
  induction ks with
  | nil => exact fun _ _ _ _ => rfl
  | cons k ks ih =>
    intro del s m h
    have he : expire emit c r s m k = expire emit c r' s m k := by
      unfold expire
      rw [h k List.mem_cons_self]
    unfold expireAll
    rw [he]
    split
    · exact ih _ _ _ (fun k' hk => h k' (List.mem_cons_of_mem _ hk))
    · exact ih _ _ _ (fun k' hk => h k' (List.mem_cons_of_mem _ hk))

theorem reloadLoop_same {W : Type} (env : Caching.Env) (c : Caching.Cfg) (next : Dns.Resolver W) (emit : Bool) (ks : List Str) :
    ∀ (del : List Str) (s : State Dns.Msg) (m : Counts) (w w' : W) (del' : List Str) (s' : Caching.CState), ks.Nodup →
      Caching.reloadLoop env c next ks del (unmark s) w = (some (del', s'), w') →
      ∃ reload, (expireAll emit c reload ks del s m).1 = del' ∧ unmark (expireAll emit c reload ks del s m).2.1 = s' := by
  induction ks with
  | nil =>
    intro del s m w w' del' s' _ h
    cases h
    exact ⟨fun _ => none, rfl, rfl⟩
  | cons k ks ih =>
    intro del s m w w' del' s' hn h
    obtain ⟨hk, hn⟩ := List.nodup_cons.1 hn
    have key : ∀ (x : Option (Dns.Msg × Int)) (s1 : State Dns.Msg) (m1 : Counts) (del1 : List Str) (w1 : W),
        (∀ reload, reload k = x → expireAll emit c reload (k :: ks) del s m = expireAll emit c reload ks del1 s1 m1) →
        Caching.reloadLoop env c next ks del1 (unmark s1) w1 = (some (del', s'), w') →
        ∃ reload, (expireAll emit c reload (k :: ks) del s m).1 = del' ∧ unmark (expireAll emit c reload (k :: ks) del s m).2.1 = s' := by
      intro x s1 m1 del1 w1 he hr
      obtain ⟨r, h1, h2⟩ := ih del1 s1 m1 w1 w' del' s' hn hr
      refine ⟨fun k' => if k' = k then x else r k', ?_⟩
      rw [he _ (if_pos rfl)]
      rw [expireAll_congr (r' := r) ks _ _ _ (fun k' hk' => if_neg (fun (e : k' = k) => hk (e ▸ hk')))]
      exact ⟨h1, h2⟩
    unfold Caching.reloadLoop Caching.onExpired at h
    rw [unmark_should] at h
    cases hp : c.prefetching with
    | false =>
      rw [hp] at h
      exact key none s m (del ++ [k]) w (fun reload _ => by simp only [expireAll, expire, hp, Bool.false_eq_true, if_false]) h
    | true =>
      rw [hp] at h
      simp only [if_true] at h
      cases hs : (shouldPrefetch c s k).1 with
      | false =>
        rw [hs] at h
        exact key none (shouldPrefetch c s k).2 m (del ++ [k]) w (fun reload _ => by simp only [expireAll, expire, hp, hs, Bool.false_eq_true, if_false, if_true]) h
      | true =>
        rw [hs] at h
        simp only [if_true] at h
        revert h
        generalize Caching.reload env c next k w = y
        obtain ⟨o, w1⟩ := y
        intro h
        rcases o with _ | _ | ⟨msg, ttl⟩
        · cases h
        · exact key none (shouldPrefetch c s k).2 m (del ++ [k]) w1
            (fun reload hr => by simp only [expireAll, expire, hp, hs, hr, if_true]) h
        · refine key (some (msg, ttl)) { (shouldPrefetch c s k).2 with main := step (shouldPrefetch c s k).2.main (.put k ⟨msg, true⟩ ttl) }
            (publish emit (fun m => { m with prefetches := m.prefetches + 1 }) m) del w1
            (fun reload hr => by simp only [expireAll, expire, hp, hs, hr, if_true]) ?_
          rw [unmark_put]
          exact h

/-- **C115.** Every clean-up of the cache that the other claims are about is one of this cache. -/
theorem C115_same_cleanUp {W : Type} (env : Caching.Env) (c : Caching.Cfg) (next : Dns.Resolver W) (emit : Bool) (s : State Dns.Msg) (m : Counts) (w w' : W)
    (s' : Caching.CState) (hn : (s.main.cache.items.map Prod.fst).Nodup) (h : Caching.cleanUpCache env c next (unmark s) w = (some s', w')) :
    ∃ reload, unmark (CacheMetrics.cleanUp emit c reload s m).1 = s' := by
  have he : (unmark s).main.cache.expiredKeys (unmark s).main.now = s.main.cache.expiredKeys s.main.now := mapped_expired _ _ _
  have hnd : (s.main.cache.expiredKeys s.main.now).Nodup := by
    unfold Cache.expiredKeys
    have h1 : (s.main.cache.items.reverse.map Prod.fst).Nodup := by
      rw [List.map_reverse]
      exact (List.reverse_perm _).nodup_iff.2 hn
    exact h1.sublist (List.filter_sublist.map _)
  unfold Caching.cleanUpCache at h
  rw [he] at h
  cases hr : Caching.reloadLoop env c next (s.main.cache.expiredKeys s.main.now) [] (unmark s) w with
  | mk o w1 =>
    rw [hr] at h
    cases o with
    | none => cases h
    | some x =>
      obtain ⟨del, s1⟩ := x
      cases h
      obtain ⟨reload, h1, h2⟩ := reloadLoop_same env c next emit _ [] s m w _ _ _ hnd hr
      refine ⟨reload, ?_⟩
      unfold CacheMetrics.cleanUp
      revert h1 h2
      generalize expireAll emit c reload (s.main.cache.expiredKeys s.main.now) [] s m = y
      obtain ⟨d, s2, m2⟩ := y
      rintro rfl rfl
      show Caching.CState.mk _ _ = Caching.CState.mk _ _
      rw [show (unmark s2).main = ⟨mapped (·.element) s2.main.cache, s2.main.now⟩ from rfl, mapped_removes]
      rfl

/-! ### What the counters are not -/

/-- An answer cache with prefetching of every answer, holding at most a hundred. -/
def emptyState : State Str := ⟨⟨⟨100, []⟩, 0⟩, ⟨100, []⟩⟩

def eager : Caching.Cfg := { prefetching := true, prefetchThreshold := 0 }

/-- Nobody asks for a, it is stored, expires, is fetched again and found twice; the bootstrap misses b once. -/
def sampleHistory : List (Bool × Act Str) :=
  [(true, .lookup (str! "a")), (true, .store (str! "a") (str! "1") 1000000000), (true, .lookup (str! "a")), (true, .tick 1001),
   (true, .cleanUp (fun _ => some (str! "2", 1000000000))), (true, .lookup (str! "a")), (false, .lookup (str! "b")), (true, .lookup (str! "a"))]

/-- Four lookups of the server's cache and one of the bootstrap's: three hits, two of them prefetch hits, two misses, one prefetch. -/
example : (observe eager {} sampleHistory (⟨emptyState, emptyState, {}⟩, [], [])).1.counts = ⟨3, 2, 1, 2⟩ := by decide

example : NothingYet (⟨emptyState, emptyState, {}⟩ : Both Str) := ⟨rfl, rfl⟩

/-- **C115.** Hits and misses are not those of queries: lookups of addresses of blocky's own (of upstreams, of list servers), made through the bootstrap's
cache, "no metrics" in the words of bootstrap.go 104, count as well. After this history of lookups for blocky itself the metrics show a hit and a miss
though no query was made. -/
theorem C115_own_lookups_false :
    ∃ (c cb : Caching.Cfg) (as : List (Bool × Act Str)) (b : Both Str), NothingYet b ∧ (∀ x ∈ as, x.1 = false) ∧
      (observe c cb as (b, [], [])).1.counts.hits = 1 ∧ (observe c cb as (b, [], [])).1.counts.misses = 1 :=
  ⟨{}, {}, [(false, .lookup (str! "b")), (false, .store (str! "b") (str! "1") 1000000000), (false, .lookup (str! "b"))],
    ⟨emptyState, emptyState, {}⟩, ⟨rfl, rfl⟩, by decide, by decide, by decide⟩

/-- **C115.** Prefetching in the bootstrap's cache is counted nowhere: the counters of prefetching are those of the server's cache. -/
theorem C115_own_prefetches (c cb : Caching.Cfg) (as : List (Bool × Act V)) (b : Both V) (hb : NothingYet b) (h : ∀ x ∈ as, x.1 = false) :
    (observe c cb as (b, [], [])).1.counts.prefetches = 0 ∧ (observe c cb as (b, [], [])).1.counts.prefetchHits = 0 := by
  have key : ∀ (as : List (Bool × Act V)) (x : Both V × List Seen × List Seen), (∀ y ∈ as, y.1 = false) → (observe c cb as x).2.1 = x.2.1 := by
    intro as
    induction as with
    | nil => exact fun _ _ => rfl
    | cons y as ih =>
      intro x hx
      obtain ⟨w, a⟩ := y
      obtain ⟨b, t, tb⟩ := x
      cases w with
      | true => cases hx _ List.mem_cons_self
      | false => exact ih _ (fun y hy => hx y (List.mem_cons_of_mem _ hy))
  obtain ⟨_, _, h3, h4⟩ := C115_counted_partial c cb as b hb
  rw [key as _ h] at h3 h4
  exact ⟨h3, prefetchHits_unique h4 .nil⟩

/-- The metrics that docs/prometheus_grafana.md 11-28 says are exported. -/
def documentedMetrics : List Str :=
  [str! "blocky_denylist_cache_entries", str! "blocky_allowlist_cache_entries", str! "blocky_error_total", str! "blocky_query_total",
   str! "blocky_blocky_request_duration_seconds", str! "blocky_response_total", str! "blocky_blocking_enabled", str! "blocky_cache_entries",
   str! "blocky_cache_hits_total", str! "blocky_cache_miss_count", str! "blocky_last_list_group_refresh_timestamp_seconds",
   str! "blocky_prefetches_total", str! "blocky_prefetch_hits_total", str! "blocky_prefetch_domain_name_cache_entries", str! "blocky_failed_downloads_total"]

/-- **C115.** Two of the documentedMetrics metrics do not exist; the others do, once each. -/
theorem C115_names_false :
    documentedMetrics.filter (fun n => decide (n ∉ metricNames)) = [str! "blocky_blocky_request_duration_seconds", str! "blocky_cache_miss_count"] ∧
      metricNames.Nodup := by
  decide +kernel

end Verif.Props
