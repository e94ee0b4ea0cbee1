/-
Go maps as association lists (`get` reads the first binding; `put` replaces or appends, so keys
stay unique when they were).
-/

namespace Verif

/-- A Go `map[K]V`. -/
abbrev AMap (K V : Type) := List (K × V)

namespace AMap
variable {K V : Type} [DecidableEq K]

/-- `v, ok := m[k]`. -/
def get : AMap K V → K → Option V
  | [], _ => none
  | (k', v) :: m, k => if k' = k then some v else get m k

/-- `m[k] = v`. -/
def put : AMap K V → K → V → AMap K V
  | [], k, v => [(k, v)]
  | (k', v') :: m, k, v => if k' = k then (k', v) :: m else (k', v') :: put m k v

/-- `delete(m, k)`. -/
def del (m : AMap K V) (k : K) : AMap K V := m.filter (fun e => e.1 ≠ k)

/-- `maps.Keys(m)` (some order). -/
def keys (m : AMap K V) : List K := m.map Prod.fst

@[simp] theorem get_nil (k : K) : get ([] : AMap K V) k = none := rfl

theorem get_put (m : AMap K V) (k k' : K) (v : V) :
    get (put m k v) k' = if k = k' then some v else get m k' := by
  induction m with
  | nil => simp [put, get]
  | cons x xs ih =>
    obtain ⟨a, b⟩ := x
    unfold put
    by_cases ha : a = k
    · subst ha
      rw [if_pos rfl]
      simp only [get]
      split <;> rfl
    · rw [if_neg ha]
      simp only [get, ih]
      by_cases hk : k = k'
      · subst hk; simp [ha]
      · simp [hk]

@[simp] theorem get_put_self (m : AMap K V) (k : K) (v : V) : get (put m k v) k = some v := by
  simp [get_put]

theorem get_put_ne (m : AMap K V) {k k' : K} (v : V) (h : k ≠ k') :
    get (put m k v) k' = get m k' := by simp [get_put, h]

theorem get_del (m : AMap K V) (k k' : K) :
    get (del m k) k' = if k = k' then none else get m k' := by
  induction m with
  | nil => simp [del, get]
  | cons x xs ih =>
    obtain ⟨a, b⟩ := x
    simp only [del, List.filter_cons] at ih ⊢
    by_cases ha : a = k
    · subst ha
      simp only [ne_eq, not_true_eq_false, decide_false, Bool.false_eq_true, if_false, ih, get]
      split <;> simp_all
    · simp only [ne_eq, ha, not_false_eq_true, decide_true, if_true, get, ih]
      by_cases hk : k = k'
      · subst hk; simp [ha]
      · simp [hk]

theorem get_eq_some_mem {m : AMap K V} {k : K} {v : V} (h : get m k = some v) : (k, v) ∈ m := by
  induction m with
  | nil => simp at h
  | cons x xs ih =>
    obtain ⟨a, b⟩ := x
    simp only [get] at h
    split at h
    · next e => subst e; cases h; simp
    · simp [ih h]

theorem get_isSome_iff {m : AMap K V} {k : K} : (get m k).isSome ↔ k ∈ keys m := by
  induction m with
  | nil => simp [keys]
  | cons x xs ih =>
    obtain ⟨a, b⟩ := x
    simp only [get, keys, List.map_cons, List.mem_cons] at ih ⊢
    split
    · next e => simp [e]
    · next e => rw [ih]; constructor
                · exact .inr
                · rintro (h | h)
                  · exact absurd h.symm e
                  · exact h

theorem get_eq_none_iff {m : AMap K V} {k : K} : get m k = none ↔ k ∉ keys m := by
  rw [← get_isSome_iff]; simp

/-- Keys are pairwise different. -/
def Uniq (m : AMap K V) : Prop := (keys m).Nodup

omit [DecidableEq K] in
theorem uniq_nil : Uniq ([] : AMap K V) := by simp [Uniq, keys]

theorem mem_keys_put {m : AMap K V} {k k' : K} {v : V} :
    k' ∈ keys (put m k v) ↔ k' = k ∨ k' ∈ keys m := by
  rw [← get_isSome_iff, get_put, ← get_isSome_iff]
  split
  · next h => simp [h]
  · next h => simp [Ne.symm h]

theorem Uniq.put {m : AMap K V} (h : Uniq m) (k : K) (v : V) : Uniq (put m k v) := by
  induction m with
  | nil => simp [AMap.put, Uniq, keys]
  | cons x xs ih =>
    obtain ⟨a, b⟩ := x
    have h' : a ∉ keys xs ∧ Uniq xs := by simpa [Uniq, keys] using h
    unfold AMap.put
    split
    · simpa [Uniq, keys] using h
    · next hk =>
      have := ih h'.2
      simp only [Uniq, keys, List.map_cons, List.nodup_cons] at this ⊢
      refine ⟨?_, this⟩
      have hm := mem_keys_put (m := xs) (k := k) (k' := a) (v := v)
      simp only [keys] at hm
      rw [hm]
      rintro (h | h)
      · exact hk h
      · exact h'.1 h

theorem Uniq.del {m : AMap K V} (h : Uniq m) (k : K) : Uniq (del m k) := by
  unfold Uniq keys AMap.del
  exact List.Nodup.sublist (List.Sublist.map _ List.filter_sublist) h

theorem Uniq.get_of_mem {m : AMap K V} (h : Uniq m) {k : K} {v : V} (hm : (k, v) ∈ m) :
    get m k = some v := by
  induction m with
  | nil => simp at hm
  | cons x xs ih =>
    obtain ⟨a, b⟩ := x
    have h' : a ∉ keys xs ∧ Uniq xs := by simpa [Uniq, keys] using h
    simp only [get]
    rcases List.mem_cons.1 hm with e | e
    · cases e; simp
    · have : a ≠ k := by
        rintro rfl
        exact h'.1 (by simpa [keys] using ⟨v, e⟩)
      rw [if_neg this]
      exact ih h'.2 e

end AMap
end Verif
