/-
Lemmas about the expiring LRU cache.
-/
import Verif.Spec.TimedMap
import Verif.Base.ListLemmas

namespace Verif.ExpCache
open Spec

variable {V : Type}

theorem run_cons (s : St V) (o : Op V) (ops : List (Op V)) :
    run s (o :: ops) = run (step s o) ops := rfl

theorem run_append (s : St V) (a b : List (Op V)) : run s (a ++ b) = run (run s a) b := by
  simp [run]

theorem clockAfter_append (t0 : Int) (a b : List (Op V)) :
    clockAfter t0 (a ++ b) = clockAfter (clockAfter t0 a) b := by
  induction a generalizing t0 with
  | nil => rfl
  | cons o a ih => cases o <;> simp only [List.cons_append, clockAfter, ih]

theorem _root_.Verif.Spec.LastStored.snoc {t0 : Int} {ops : List (Op V)} {k : Str} {v : V} {t ttl : Int}
    (h : LastStored t0 ops k v t ttl) {o : Op V} (ho : ¬ Overrides k o) :
    LastStored t0 (ops ++ [o]) k v t ttl := by
  obtain ⟨pre, post, h1, h2, h3, h4⟩ := h
  refine ⟨pre, post ++ [o], by simp [h1], h2, h3, ?_⟩
  intro o' ho'
  rcases List.mem_append.1 ho' with h | h
  · exact h4 o' h
  · rw [List.mem_singleton.1 h]; exact ho

theorem _root_.Verif.Spec.LastStored.put {t0 : Int} {ops : List (Op V)} {k : Str} {v : V} {ttl : Int}
    (h : ttl > 0) : LastStored t0 (ops ++ [.put k v ttl]) k v (clockAfter t0 ops) ttl :=
  ⟨ops, [], rfl, h, rfl, by simp⟩

theorem _root_.Verif.Spec.UsedAfter.snoc {ops : List (Op V)} {k1 k2 : Str} (h : UsedAfter ops k1 k2) {o : Op V}
    (ho : ¬ Uses k2 o) : UsedAfter (ops ++ [o]) k1 k2 := by
  obtain ⟨pre, o1, post, h1, h2, h3⟩ := h
  refine ⟨pre, o1, post ++ [o], by simp [h1], h2, ?_⟩
  intro o' ho'
  simp only [List.mem_cons, List.mem_append, List.not_mem_nil, or_false] at ho'
  rcases ho' with h | h | h
  · exact h3 o' (by simp [h])
  · exact h3 o' (by simp [h])
  · rw [h]; exact ho

theorem _root_.Verif.Spec.UsedAfter.now {ops : List (Op V)} {k1 k2 : Str} {o : Op V} (h1 : Uses k1 o)
    (h2 : ¬ Uses k2 o) : UsedAfter (ops ++ [o]) k1 k2 :=
  ⟨ops, o, [], rfl, h1, by simpa using h2⟩

/-- Facts that hold after every history. -/
structure Inv (cap : Nat) (t0 : Int) (ops : List (Op V)) (s : St V) : Prop where
  capEq : s.cache.cap = cap
  clock : s.now = clockAfter t0 ops
  nodup : (s.cache.items.map Prod.fst).Nodup
  size : s.cache.items.length ≤ cap
  stored : ∀ k el, (k, el) ∈ s.cache.items →
    ∃ t ttl, LastStored t0 ops k el.val t ttl ∧ el.expires = t + ttl / 1000000
  recency : (s.cache.items.map Prod.fst).Pairwise (UsedAfter ops)

theorem Inv.init (cap : Nat) (t0 : Int) : Inv cap t0 ([] : List (Op V)) ⟨⟨cap, []⟩, t0⟩ where
  capEq := rfl
  clock := rfl
  nodup := by simp
  size := by simp
  stored := by simp
  recency := by simp

theorem filter_keys (l : List (Str × Element V)) (k : Str) :
    (l.filter (fun e => e.1 ≠ k)).map Prod.fst = (l.map Prod.fst).filter (fun x => x ≠ k) := by
  induction l with
  | nil => rfl
  | cons e l ih =>
    by_cases h : e.1 = k
    · simp only [ne_eq, h, not_true, decide_false, Bool.false_eq_true, not_false_eq_true,
        List.filter_cons_of_neg, List.map_cons]
      simpa using ih
    · simp only [ne_eq, h, not_false_eq_true, decide_true, List.filter_cons_of_pos, List.map_cons]
      rw [List.cons.injEq]
      exact ⟨rfl, by simpa using ih⟩

/-- Moving a (used) key to the front of a list of other keys. -/
theorem recency_front {ops : List (Op V)} {o : Op V} {k : Str} {ks : List Str}
    (hk : Uses k o) (hu : ∀ k', Uses k' o → k' = k) (hp : ks.Pairwise (UsedAfter ops))
    (hn : k ∉ ks) : (k :: ks).Pairwise (UsedAfter (ops ++ [o])) := by
  rw [List.pairwise_cons]
  refine ⟨fun k' hk' => UsedAfter.now hk (fun h => hn (hu k' h ▸ hk')), ?_⟩
  refine List.Pairwise.imp_of_mem ?_ hp
  intro a b _ hb hab
  exact hab.snoc (fun h => hn (hu b h ▸ hb))

theorem recency_other {ops : List (Op V)} {o : Op V} {ks : List Str}
    (hu : ∀ k ∈ ks, ¬ Uses k o) (hp : ks.Pairwise (UsedAfter ops)) :
    ks.Pairwise (UsedAfter (ops ++ [o])) := by
  refine List.Pairwise.imp_of_mem ?_ hp
  intro a b _ hb hab
  exact hab.snoc (hu b hb)

theorem mem_front {l : List (Str × Element V)} {k k' : Str} {el el' : Element V}
    (h : (k', el') ∈ (k, el) :: l.filter (fun e => e.1 ≠ k)) :
    (k' = k ∧ el' = el) ∨ (k' ≠ k ∧ (k', el') ∈ l) := by
  rcases List.mem_cons.1 h with h | h
  · cases h; exact .inl ⟨rfl, rfl⟩
  · rw [List.mem_filter] at h
    exact .inr ⟨by simpa using h.2, h.1⟩

theorem length_filter_lt {l : List (Str × Element V)} {k : Str} (h : k ∈ l.map Prod.fst) :
    (l.filter (fun e => e.1 ≠ k)).length < l.length := by
  induction l with
  | nil => simp at h
  | cons e l ih =>
    by_cases he : e.1 = k
    · have := List.length_filter_le (fun e => decide (e.1 ≠ k)) l
      rw [List.filter_cons_of_neg (by simpa using he), List.length_cons]
      omega
    · have := ih (by simpa [Ne.symm he] using h)
      rw [List.filter_cons_of_pos (by simpa using he), List.length_cons, List.length_cons]
      omega

theorem Inv.step {cap : Nat} {t0 : Int} {ops : List (Op V)} {s : St V}
    (h : Inv cap t0 ops s) (o : Op V) : Inv cap t0 (ops ++ [o]) (step s o) := by
  cases o with
  | tick d =>
    refine ⟨h.capEq, ?_, h.nodup, h.size, ?_, ?_⟩
    · simp only [ExpCache.step, h.clock, clockAfter_append, clockAfter]
    · intro k el hm
      obtain ⟨t, ttl, h1, h2⟩ := h.stored k el hm
      exact ⟨t, ttl, h1.snoc (fun h => h), h2⟩
    · exact recency_other (fun _ _ h => h) h.recency
  | clear =>
    refine ⟨h.capEq, ?_, by simp [ExpCache.step], by simp [ExpCache.step], by simp [ExpCache.step],
      by simp [ExpCache.step]⟩
    simp only [ExpCache.step, h.clock, clockAfter_append, clockAfter]
  | remove k =>
    refine ⟨h.capEq, ?_, ?_, ?_, ?_, ?_⟩
    · simp only [ExpCache.step, h.clock, clockAfter_append, clockAfter]
    · simp only [ExpCache.step, Cache.remove, filter_keys]
      exact h.nodup.filter _
    · simp only [ExpCache.step, Cache.remove]
      exact Nat.le_trans (List.length_filter_le _ _) h.size
    · intro k' el hm
      simp only [ExpCache.step, Cache.remove, List.mem_filter] at hm
      obtain ⟨t, ttl, h1, h2⟩ := h.stored k' el hm.1
      refine ⟨t, ttl, h1.snoc (fun ho => ?_), h2⟩
      have : k' ≠ k := by simpa using hm.2
      exact this ho.symm
    · simp only [ExpCache.step, Cache.remove, filter_keys]
      exact recency_other (fun _ _ h => h) (h.recency.filter _)
  | get k =>
    have hclock : s.now = clockAfter t0 (ops ++ [Op.get k]) := by
      simp only [h.clock, clockAfter_append, clockAfter]
    cases hp : s.cache.peek k with
    | none =>
      have hs : ExpCache.step s (.get k) = s := by simp [ExpCache.step, Cache.get, hp]
      rw [hs]
      refine ⟨h.capEq, hclock, h.nodup, h.size, ?_, ?_⟩
      · intro k' el hm
        obtain ⟨t, ttl, h1, h2⟩ := h.stored k' el hm
        exact ⟨t, ttl, h1.snoc (fun h => h), h2⟩
      · refine recency_other (fun k' hk' hu => ?_) h.recency
        have : k = k' := hu
        subst this
        exact (AMap.get_eq_none_iff.1 hp) hk'
    | some el =>
      have hs : ExpCache.step s (.get k) = { s with cache :=
          { s.cache with items := (k, el) :: s.cache.items.filter (fun e => e.1 ≠ k) } } := by
        simp [ExpCache.step, Cache.get, hp, Cache.touch]
      have hmem := AMap.get_eq_some_mem hp
      have hkin : k ∈ s.cache.items.map Prod.fst := List.mem_map.2 ⟨_, hmem, rfl⟩
      rw [hs]
      refine ⟨h.capEq, hclock, ?_, ?_, ?_, ?_⟩
      · simp only [List.map_cons, filter_keys, List.nodup_cons]
        exact ⟨by simp, h.nodup.filter _⟩
      · have := length_filter_lt hkin
        have := h.size
        simp only [List.length_cons]
        omega
      · intro k' el' hm
        rcases mem_front hm with ⟨rfl, rfl⟩ | ⟨_, hm⟩
        · obtain ⟨t, ttl, h1, h2⟩ := h.stored k' el' hmem
          exact ⟨t, ttl, h1.snoc (fun h => h), h2⟩
        · obtain ⟨t, ttl, h1, h2⟩ := h.stored k' el' hm
          exact ⟨t, ttl, h1.snoc (fun h => h), h2⟩
      · simp only [List.map_cons, filter_keys]
        exact recency_front (o := Op.get k) rfl (fun k' h => h.symm) (h.recency.filter _) (by simp)
  | put k v ttl =>
    have hclock : s.now = clockAfter t0 (ops ++ [Op.put k v ttl]) := by
      simp only [h.clock, clockAfter_append, clockAfter]
    by_cases ht : ttl ≤ 0
    · have hs : ExpCache.step s (.put k v ttl) = s := by simp [ExpCache.step, Cache.put, ht]
      rw [hs]
      refine ⟨h.capEq, hclock, h.nodup, h.size, ?_, ?_⟩
      · intro k' el hm
        obtain ⟨t, ttl', h1, h2⟩ := h.stored k' el hm
        refine ⟨t, ttl', h1.snoc (fun ho => ?_), h2⟩
        have : ttl > 0 := ho.2
        omega
      · refine recency_other (fun k' _ hu => ?_) h.recency
        have : ttl > 0 := hu.2
        omega
    · have hpos : ttl > 0 := by omega
      have hnow : ∀ (k' : Str) (el' : Element V),
          ((k' = k ∧ el' = ⟨v, s.now + ttl / 1000000⟩) ∨ (k' ≠ k ∧ (k', el') ∈ s.cache.items)) →
          ∃ t ttl', LastStored t0 (ops ++ [Op.put k v ttl]) k' el'.val t ttl' ∧
            el'.expires = t + ttl' / 1000000 := by
        rintro k' el' (⟨rfl, rfl⟩ | ⟨hne, hm⟩)
        · exact ⟨_, ttl, LastStored.put hpos, by simp [h.clock]⟩
        · obtain ⟨t, ttl', h1, h2⟩ := h.stored k' el' hm
          exact ⟨t, ttl', h1.snoc (fun ho => hne ho.1.symm), h2⟩
      have hsize := h.size
      by_cases hin : k ∈ s.cache.items.map Prod.fst
      · have hs : ExpCache.step s (.put k v ttl) = { s with cache :=
            { s.cache with items := (k, ⟨v, s.now + ttl / 1000000⟩) ::
              s.cache.items.filter (fun e => e.1 ≠ k) } } := by
          simp only [ExpCache.step, Cache.put, if_neg ht, Cache.add, if_pos hin]
        rw [hs]
        refine ⟨h.capEq, hclock, ?_, ?_, ?_, ?_⟩
        · simp only [List.map_cons, filter_keys, List.nodup_cons]
          exact ⟨by simp, h.nodup.filter _⟩
        · have := length_filter_lt hin
          simp only [List.length_cons]
          omega
        · intro k' el' hm
          exact hnow k' el' (mem_front hm)
        · simp only [List.map_cons, filter_keys]
          exact recency_front (o := Op.put k v ttl) ⟨rfl, hpos⟩ (fun k' h => h.1.symm)
            (h.recency.filter _) (by simp)
      · have hnd : (((k, (⟨v, s.now + ttl / 1000000⟩ : Element V)) :: s.cache.items).map
            Prod.fst).Nodup := by
          simp only [List.map_cons, List.nodup_cons]
          exact ⟨hin, h.nodup⟩
        have hrec : (((k, (⟨v, s.now + ttl / 1000000⟩ : Element V)) :: s.cache.items).map
            Prod.fst).Pairwise (UsedAfter (ops ++ [Op.put k v ttl])) := by
          simp only [List.map_cons]
          exact recency_front (o := Op.put k v ttl) ⟨rfl, hpos⟩ (fun k' h => h.1.symm)
            h.recency hin
        have hst : ∀ k' el', (k', el') ∈ (k, (⟨v, s.now + ttl / 1000000⟩ : Element V)) ::
            s.cache.items → (k' = k ∧ el' = ⟨v, s.now + ttl / 1000000⟩) ∨
              (k' ≠ k ∧ (k', el') ∈ s.cache.items) := by
          intro k' el' hm
          rcases List.mem_cons.1 hm with hm | hm
          · cases hm; exact .inl ⟨rfl, rfl⟩
          · refine .inr ⟨?_, hm⟩
            intro hk
            exact hin (List.mem_map.2 ⟨_, hm, hk⟩)
        by_cases hfull : s.cache.items.length + 1 > s.cache.cap
        · have hs : ExpCache.step s (.put k v ttl) = { s with cache :=
              { s.cache with items := ((k, ⟨v, s.now + ttl / 1000000⟩) ::
                s.cache.items).dropLast } } := by
            simp only [ExpCache.step, Cache.put, if_neg ht, Cache.add, if_neg hin, if_pos hfull]
          rw [hs]
          refine ⟨h.capEq, hclock, ?_, ?_, ?_, ?_⟩
          · simp only [List.map_dropLast]
            exact hnd.sublist (List.dropLast_sublist _)
          · simp only [List.length_dropLast, List.length_cons]
            omega
          · intro k' el' hm
            exact hnow k' el' (hst k' el' ((List.dropLast_sublist _).mem hm))
          · simp only [List.map_dropLast]
            exact hrec.sublist (List.dropLast_sublist _)
        · have hs : ExpCache.step s (.put k v ttl) = { s with cache :=
              { s.cache with items := ((k, ⟨v, s.now + ttl / 1000000⟩) :: s.cache.items) } } := by
            simp only [ExpCache.step, Cache.put, if_neg ht, Cache.add, if_neg hin, if_neg hfull]
          rw [hs]
          refine ⟨h.capEq, hclock, hnd, ?_, ?_, hrec⟩
          · have := h.capEq
            simp only [List.length_cons]
            omega
          · intro k' el' hm
            exact hnow k' el' (hst k' el' hm)

theorem Inv.run (cap : Nat) (t0 : Int) (ops : List (Op V)) :
    Inv cap t0 ops (run ⟨⟨cap, []⟩, t0⟩ ops) := by
  suffices ∀ done s, Inv cap t0 done s → Inv cap t0 (done ++ ops) (ExpCache.run s ops) by
    simpa using this [] _ (Inv.init cap t0)
  induction ops with
  | nil => intro done s h; simpa [ExpCache.run] using h
  | cons o ops ih =>
    intro done s h
    have := ih (done ++ [o]) _ (h.step o)
    simpa [run_cons] using this

theorem Inv.peek_some {cap : Nat} {t0 : Int} {ops : List (Op V)} {s : St V}
    (h : Inv cap t0 ops s) {k : Str} {el : Element V} (hm : (k, el) ∈ s.cache.items) :
    s.cache.peek k = some el :=
  AMap.Uniq.get_of_mem h.nodup hm

end Verif.ExpCache
