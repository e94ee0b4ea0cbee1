/-
C06 / C07: the expiring cache.
-/
import Verif.Lemmas.ExpCache

namespace Verif.Props
open ExpCache Spec

variable {V : Type}

/-- A fresh cache with the configured maximum size, at time `t0`. -/
def freshCache (maxSize : Nat) (t0 : Int) : St V := ⟨newCache maxSize, t0⟩

/-- What a lookup of `k` returns in a state. -/
def lookup (s : St V) (k : Str) : Option (V × Int) := (s.cache.get s.now k).1

theorem fresh_inv (maxSize : Nat) (t0 : Int) (ops : List (Op V)) :
    Inv (if maxSize > 0 then maxSize else 10000) t0 ops (run (freshCache maxSize t0) ops) :=
  Inv.run _ t0 ops

theorem lookup_eq (s : St V) (k : Str) :
    lookup s k = (s.cache.peek k).map (fun el => (el.val, remainTTL s.now el.expires)) := by
  unfold lookup Cache.get
  cases s.cache.peek k <;> rfl

/-- The specification determines value, time and lifetime: there is at most one "last stored". -/
theorem C06_last_stored_unique {t0 : Int} {ops : List (Op V)} {k : Str} {v v' : V}
    {t t' ttl ttl' : Int} (h : LastStored t0 ops k v t ttl) (h' : LastStored t0 ops k v' t' ttl') :
    v = v' ∧ t = t' ∧ ttl = ttl' := by
  obtain ⟨pre, post, e, hpos, ht, hno⟩ := h
  obtain ⟨pre', post', e', hpos', ht', hno'⟩ := h'
  rw [e] at e'
  rcases List.append_eq_append_iff.1 e' with ⟨as, h1, h2⟩ | ⟨bs, h1, h2⟩
  · cases as with
    | nil =>
      simp only [List.nil_append, List.cons.injEq, Op.put.injEq] at h2
      simp only [List.append_nil] at h1
      subst h1
      exact ⟨h2.1.2.1, by rw [ht, ht'], h2.1.2.2⟩
    | cons a as =>
      simp only [List.cons_append, List.cons.injEq] at h2
      exact absurd ⟨rfl, hpos'⟩ (hno (.put k v' ttl') (by rw [h2.2]; simp))
  · cases bs with
    | nil =>
      simp only [List.nil_append, List.cons.injEq, Op.put.injEq] at h2
      simp only [List.append_nil] at h1
      subst h1
      exact ⟨h2.1.2.1.symm, by rw [ht, ht'], h2.1.2.2.symm⟩
    | cons a as =>
      simp only [List.cons_append, List.cons.injEq] at h2
      exact absurd ⟨rfl, hpos⟩ (hno' (.put k v ttl) (by rw [h2.2]; simp))

/-- **C06 (latest value, remaining lifetime).** After any history, a lookup that returns something
returns the value most recently stored under that very key, with exactly the part of its lifetime
(in whole milliseconds) that has not passed yet, and 0 if it has passed. -/
theorem C06_get_latest (maxSize : Nat) (t0 : Int) (ops : List (Op V)) (k : Str) (v : V) (r : Int)
    (h : lookup (run (freshCache maxSize t0) ops) k = some (v, r)) :
    ∃ t ttl, LastStored t0 ops k v t ttl ∧
      r = max 0 (t + ttl / 1000000 - clockAfter t0 ops) := by
  have inv := fresh_inv maxSize t0 ops
  rw [lookup_eq] at h
  cases hp : (run (freshCache maxSize t0) ops).cache.peek k with
  | none => simp [hp] at h
  | some el =>
    simp only [hp, Option.map_some, Option.some.injEq, Prod.mk.injEq] at h
    obtain ⟨t, ttl, h1, h2⟩ := inv.stored k el (AMap.get_eq_some_mem hp)
    refine ⟨t, ttl, h.1 ▸ h1, ?_⟩
    rw [← h.2, inv.clock, h2, remainTTL]
    split <;> omega

/-- **C06 (lifetime never prolonged).** The returned lifetime never exceeds the lifetime given when
storing, minus the time passed since (unless both are exhausted, when it is 0). -/
theorem C06_lifetime_bound (maxSize : Nat) (t0 : Int) (ops : List (Op V)) (k : Str) (v : V)
    (r : Int) (h : lookup (run (freshCache maxSize t0) ops) k = some (v, r)) :
    ∃ t ttl, LastStored t0 ops k v t ttl ∧ 0 ≤ r ∧
      (r = 0 ∨ r * 1000000 ≤ ttl - (clockAfter t0 ops - t) * 1000000) := by
  obtain ⟨t, ttl, h1, h2⟩ := C06_get_latest maxSize t0 ops k v r h
  exact ⟨t, ttl, h1, by omega, by omega⟩

/-- Removing and clearing lead to nothing being returned: a key not stored (since) has no value. -/
theorem C06_absent (maxSize : Nat) (t0 : Int) (ops : List (Op V)) (k : Str)
    (h : ¬ ∃ v t ttl, LastStored t0 ops k v t ttl) :
    lookup (run (freshCache maxSize t0) ops) k = none := by
  cases hl : lookup (run (freshCache maxSize t0) ops) k with
  | none => rfl
  | some r =>
    obtain ⟨t, ttl, h1, _⟩ := C06_get_latest maxSize t0 ops k r.1 r.2 hl
    exact absurd ⟨_, _, _, h1⟩ h

/-- Invariant for the no-loss theorem. -/
theorem keep_inv (cap : Nat) (t0 : Int) (all : List Str) (hall : all.length ≤ cap)
    (ops : List (Op V)) (hk : ∀ k ∈ storedKeys ops, k ∈ all) :
    let s := run ⟨⟨cap, []⟩, t0⟩ ops
    (∀ k ∈ s.cache.items.map Prod.fst, k ∈ all) ∧
    ∀ k v t ttl, LastStored t0 ops k v t ttl →
      (k, (⟨v, t + ttl / 1000000⟩ : Element V)) ∈ s.cache.items := by
  suffices ∀ (n : Nat) (ops : List (Op V)), ops.length = n → (∀ k ∈ storedKeys ops, k ∈ all) →
      let s := run ⟨⟨cap, []⟩, t0⟩ ops
      (∀ k ∈ s.cache.items.map Prod.fst, k ∈ all) ∧
      ∀ k v t ttl, LastStored t0 ops k v t ttl →
        (k, (⟨v, t + ttl / 1000000⟩ : Element V)) ∈ s.cache.items from this _ ops rfl hk
  intro n
  induction n with
  | zero =>
    intro ops hn _
    have : ops = [] := List.length_eq_zero_iff.1 hn
    subst this
    refine ⟨by simp [run], ?_⟩
    rintro k v t ttl ⟨pre, post, e, _⟩
    simp at e
  | succ n ih =>
    intro ops hn hk
    rcases List.eq_nil_or_concat ops with rfl | ⟨ops', o, rfl⟩
    · simp at hn
    rw [List.concat_eq_append] at hn hk ⊢
    have hlen : ops'.length = n := by simpa using hn
    obtain ⟨hkeys, hstored⟩ := ih ops' hlen (fun k hm => hk k (by
      simp only [storedKeys, List.filterMap_append, List.mem_append]; exact .inl hm))
    have inv := Inv.run (V := V) cap t0 ops'
    -- the last stored value before `o`, when `o` does not override it
    have hback : ∀ k v t ttl, LastStored t0 (ops' ++ [o]) k v t ttl →
        (o = .put k v ttl ∧ ttl > 0 ∧ t = clockAfter t0 ops') ∨
        (¬ Overrides k o ∧ LastStored t0 ops' k v t ttl) := by
      rintro k v t ttl ⟨pre, post, e, hpos, ht, hno⟩
      rcases List.eq_nil_or_concat post with rfl | ⟨post', o', rfl⟩
      · have := List.append_inj' e rfl
        simp only [List.cons.injEq, and_true] at this
        exact .inl ⟨this.2, hpos, this.1 ▸ ht⟩
      · rw [List.concat_eq_append] at e hno
        have e' : ops' ++ [o] = (pre ++ .put k v ttl :: post') ++ [o'] := by simpa using e
        have := List.append_inj' e' rfl
        simp only [List.cons.injEq, and_true] at this
        refine .inr ⟨this.2 ▸ hno o' (by simp), pre, post', this.1, hpos, ht, ?_⟩
        intro x hx
        exact hno x (by simp [hx])
    simp only [run_append]
    have hs : run (run ⟨⟨cap, []⟩, t0⟩ ops') [o] = step (run ⟨⟨cap, []⟩, t0⟩ ops') o := rfl
    rw [hs]
    generalize run ⟨⟨cap, []⟩, t0⟩ ops' = s at hkeys hstored inv
    cases o with
    | tick d =>
      refine ⟨hkeys, fun k v t ttl hl => ?_⟩
      rcases hback k v t ttl hl with ⟨h, _⟩ | ⟨_, h⟩
      · simp at h
      · exact hstored k v t ttl h
    | clear =>
      refine ⟨by simp [step], fun k v t ttl hl => ?_⟩
      rcases hback k v t ttl hl with ⟨h, _⟩ | ⟨h, _⟩
      · simp at h
      · exact absurd trivial h
    | remove k0 =>
      refine ⟨?_, fun k v t ttl hl => ?_⟩
      · intro k hm
        simp only [step, Cache.remove, filter_keys, List.mem_filter] at hm
        exact hkeys k hm.1
      · rcases hback k v t ttl hl with ⟨h, _⟩ | ⟨h, h'⟩
        · simp at h
        · simp only [step, Cache.remove, List.mem_filter]
          exact ⟨hstored k v t ttl h', decide_eq_true (fun he => h he.symm)⟩
    | get k0 =>
      cases hp : s.cache.peek k0 with
      | none =>
        have hs : step s (.get k0) = s := by simp [step, Cache.get, hp]
        rw [hs]
        refine ⟨hkeys, fun k v t ttl hl => ?_⟩
        rcases hback k v t ttl hl with ⟨h, _⟩ | ⟨_, h⟩
        · simp at h
        · exact hstored k v t ttl h
      | some el =>
        have hs : step s (.get k0) = { s with cache :=
            { s.cache with items := (k0, el) :: s.cache.items.filter (fun e => e.1 ≠ k0) } } := by
          simp [step, Cache.get, hp, Cache.touch]
        have hmem := AMap.get_eq_some_mem hp
        rw [hs]
        refine ⟨?_, fun k v t ttl hl => ?_⟩
        · intro k hm
          simp only [List.map_cons, filter_keys, List.mem_cons, List.mem_filter] at hm
          rcases hm with rfl | hm
          · exact hkeys k (List.mem_map.2 ⟨_, hmem, rfl⟩)
          · exact hkeys k hm.1
        · rcases hback k v t ttl hl with ⟨h, _⟩ | ⟨_, h⟩
          · simp at h
          · have hin := hstored k v t ttl h
            by_cases he : k = k0
            · subst he
              have := inv.peek_some hin
              rw [hp] at this
              cases this
              simp
            · simp only [List.mem_cons, List.mem_filter]
              exact .inr ⟨hin, by simpa using he⟩
    | put k0 v0 ttl0 =>
      by_cases ht : ttl0 ≤ 0
      · have hs : step s (.put k0 v0 ttl0) = s := by simp [step, Cache.put, ht]
        rw [hs]
        refine ⟨hkeys, fun k v t ttl hl => ?_⟩
        rcases hback k v t ttl hl with ⟨h, hpos, _⟩ | ⟨_, h⟩
        · simp only [Op.put.injEq] at h; omega
        · exact hstored k v t ttl h
      · have hk0 : k0 ∈ all := hk k0 (by simp [storedKeys])
        have hnew : ∀ k v t ttl, LastStored t0 (ops' ++ [.put k0 v0 ttl0]) k v t ttl →
            (k, (⟨v, t + ttl / 1000000⟩ : Element V)) =
              (k0, ⟨v0, s.now + ttl0 / 1000000⟩) ∨
            (k ≠ k0 ∧ (k, (⟨v, t + ttl / 1000000⟩ : Element V)) ∈ s.cache.items) := by
          intro k v t ttl hl
          rcases hback k v t ttl hl with ⟨h, hpos, h2⟩ | ⟨h, h'⟩
          · simp only [Op.put.injEq] at h
            obtain ⟨rfl, rfl, rfl⟩ := h
            exact .inl (by rw [h2, inv.clock])
          · refine .inr ⟨fun he => h ⟨he.symm, by omega⟩, hstored k v t ttl h'⟩
        by_cases hin : k0 ∈ s.cache.items.map Prod.fst
        · have hs : step s (.put k0 v0 ttl0) = { s with cache :=
              { s.cache with items := (k0, ⟨v0, s.now + ttl0 / 1000000⟩) ::
                s.cache.items.filter (fun e => e.1 ≠ k0) } } := by
            simp only [step, Cache.put, if_neg ht, Cache.add, if_pos hin]
          rw [hs]
          refine ⟨?_, fun k v t ttl hl => ?_⟩
          · intro k hm
            simp only [List.map_cons, filter_keys, List.mem_cons, List.mem_filter] at hm
            rcases hm with rfl | hm
            · exact hk0
            · exact hkeys k hm.1
          · rcases hnew k v t ttl hl with h | ⟨h, h'⟩
            · rw [h]; simp
            · simp only [List.mem_cons, List.mem_filter]
              exact .inr ⟨h', by simpa using h⟩
        · have hroom : ¬ s.cache.items.length + 1 > s.cache.cap := by
            have hnd : (k0 :: s.cache.items.map Prod.fst).Nodup :=
              List.nodup_cons.2 ⟨hin, inv.nodup⟩
            have := nodup_length_le hnd (m := all) (by
              intro x hx
              rcases List.mem_cons.1 hx with rfl | hx
              · exact hk0
              · exact hkeys x hx)
            have := inv.capEq
            simp only [List.length_cons, List.length_map] at *
            omega
          have hs : step s (.put k0 v0 ttl0) = { s with cache :=
              { s.cache with items := ((k0, ⟨v0, s.now + ttl0 / 1000000⟩) :: s.cache.items) } } := by
            simp only [step, Cache.put, if_neg ht, Cache.add, if_neg hin, if_neg hroom]
          rw [hs]
          refine ⟨?_, fun k v t ttl hl => ?_⟩
          · intro k hm
            simp only [List.map_cons, List.mem_cons] at hm
            rcases hm with rfl | hm
            · exact hk0
            · exact hkeys k hm
          · rcases hnew k v t ttl hl with h | ⟨_, h'⟩
            · rw [h]; simp
            · exact List.mem_cons_of_mem _ h'

/-- **C06 (nothing is lost while there is room).** If a history stores at most as many different
keys as the capacity, then a lookup does return the value last stored, with the remaining
lifetime. -/
theorem C06_no_loss (maxSize : Nat) (hpos : maxSize > 0) (t0 : Int) (ops : List (Op V))
    (all : List Str) (hall : all.length ≤ maxSize) (hk : ∀ k ∈ storedKeys ops, k ∈ all)
    (k : Str) (v : V) (t ttl : Int) (h : LastStored t0 ops k v t ttl) :
    lookup (run (freshCache maxSize t0) ops) k =
      some (v, max 0 (t + ttl / 1000000 - clockAfter t0 ops)) := by
  have hcap : (if maxSize > 0 then maxSize else 10000) = maxSize := if_pos hpos
  have inv := fresh_inv (V := V) maxSize t0 ops
  have hk2 := (keep_inv (V := V) maxSize t0 all hall ops hk).2 k v t ttl h
  have heq : (freshCache maxSize t0 : St V) = ⟨⟨maxSize, []⟩, t0⟩ := by
    simp [freshCache, newCache, hpos]
  rw [← heq] at hk2
  rw [lookup_eq, inv.peek_some hk2]
  simp only [Option.map_some, inv.clock, remainTTL, Option.some.injEq, Prod.mk.injEq, true_and]
  split <;> omega

/-- **C06, last clause is false of the code.** Between its expiry and the next clean-up (every ten
seconds) a value is still returned, with lifetime 0. -/
theorem C06_expired_value_returned :
    lookup (run (freshCache 0 1000) [.put (str! "a") 7 1000000000, .tick 5000]) (str! "a")
      = some (7, 0) := by
  decide

/-- Removing a key leaves it absent until it is stored again. -/
theorem absent_until_put (s : St V) (k : Str) (ops : List (Op V))
    (hs : k ∉ s.cache.items.map Prod.fst) (hops : ∀ v ttl, Op.put k v ttl ∉ ops) :
    k ∉ (run s ops).cache.items.map Prod.fst := by
  induction ops generalizing s with
  | nil => exact hs
  | cons o ops ih =>
    rw [run_cons]
    apply ih _ ?_ (fun v ttl hm => hops v ttl (List.mem_cons_of_mem _ hm))
    cases o with
    | tick d => exact hs
    | clear => simp [step]
    | remove k0 =>
      simp only [step, Cache.remove, filter_keys, List.mem_filter]
      exact fun h => hs h.1
    | get k0 =>
      simp only [step, Cache.get]
      split
      · rename_i el hp
        simp only [Cache.touch, hp, List.map_cons, filter_keys, List.mem_cons, List.mem_filter]
        rintro (rfl | h)
        · exact hs (List.mem_map.2 ⟨_, AMap.get_eq_some_mem hp, rfl⟩)
        · exact hs h.1
      · exact hs
    | put k0 v0 ttl0 =>
      have hne : k ≠ k0 := by
        rintro rfl
        exact hops v0 ttl0 (by simp)
      simp only [step, Cache.put]
      split
      · exact hs
      · simp only [Cache.add]
        split
        · simp only [List.map_cons, filter_keys, List.mem_cons, List.mem_filter]
          rintro (h | h)
          · exact hne h
          · exact hs h.1
        · split
          · intro h
            simp only [List.map_dropLast] at h
            have := (List.dropLast_sublist _).mem h
            simp only [List.map_cons, List.mem_cons] at this
            rcases this with h | h
            · exact hne h
            · exact hs h
          · simp only [List.map_cons, List.mem_cons]
            rintro (h | h)
            · exact hne h
            · exact hs h

theorem removed_after (s : St V) (k : Str) (ops : List (Op V)) (hr : Op.remove k ∈ ops)
    (hops : ∀ v ttl, Op.put k v ttl ∉ ops) : k ∉ (run s ops).cache.items.map Prod.fst := by
  obtain ⟨a, b, rfl⟩ := List.append_of_mem hr
  rw [run_append, run_cons]
  apply absent_until_put
  · simp only [step, Cache.remove, filter_keys, List.mem_filter]
    simp
  · intro v ttl hm
    exact hops v ttl (by simp [hm])

theorem cleanUpOps_no_put {keys : List Str} {pre : Str → Option (V × Int)} {k : Str}
    (h : pre k = none) (v : V) (ttl : Int) : Op.put k v ttl ∉ cleanUpOps keys pre := by
  simp only [cleanUpOps, List.mem_append, List.mem_filterMap, List.mem_map]
  rintro (⟨k', _, h2⟩ | ⟨k', _, h2⟩)
  · cases hp : pre k' with
    | none => simp [hp] at h2
    | some r =>
      simp only [hp, Option.map_some, Option.some.injEq, Op.put.injEq] at h2
      rw [h2.1, h] at hp
      cases hp
  · cases h2

/-- **C06, last clause, provable part.** Once the lifetime has passed and a clean-up has run that
does not reload the key, the value is not returned any more, whatever happens afterwards, until the
key is stored again. (The clock is assumed to be past the epoch, `0 < t`.)
Missing from the full claim: the time between expiry and clean-up, see
`C06_expired_value_returned`. -/
theorem C06_expired_gone_partial (maxSize : Nat) (t0 : Int) (ops later : List (Op V)) (k : Str)
    (pre : Str → Option (V × Int)) (hpre : pre k = none)
    (hexp : ∀ v t ttl, LastStored t0 ops k v t ttl →
      0 < t ∧ clockAfter t0 ops > t + ttl / 1000000)
    (hlater : ∀ v ttl, Op.put k v ttl ∉ later) :
    lookup (run (cleanUp (run (freshCache maxSize t0) ops) pre) later) k = none := by
  have inv := fresh_inv (V := V) maxSize t0 ops
  have key : k ∉ (cleanUp (run (freshCache maxSize t0) ops) pre).cache.items.map Prod.fst := by
    unfold cleanUp
    by_cases hin : k ∈ (run (freshCache maxSize t0) ops).cache.items.map Prod.fst
    · apply removed_after
      · obtain ⟨⟨k', el⟩, hm, hke⟩ := List.mem_map.1 hin
        have hke : k' = k := hke
        subst hke
        obtain ⟨t, ttl, h1, h2⟩ := inv.stored k' el hm
        obtain ⟨h3, h5⟩ := hexp _ _ _ h1
        have h4 : ttl > 0 := by obtain ⟨_, _, _, h, _⟩ := h1; exact h
        rw [← inv.clock] at h5
        simp only [cleanUpOps, List.mem_append, List.mem_map, List.mem_filter]
        refine .inr ⟨k', ⟨?_, by simp [hpre]⟩, rfl⟩
        simp only [Cache.expiredKeys, List.mem_map, List.mem_filter, List.mem_reverse]
        refine ⟨(k', el), ⟨hm, ?_⟩, rfl⟩
        simp only [isExpired, Bool.and_eq_true, decide_eq_true_eq]
        omega
      · exact fun v ttl => cleanUpOps_no_put hpre v ttl
    · exact absent_until_put _ _ _ hin (fun v ttl => cleanUpOps_no_put hpre v ttl)
  have := absent_until_put _ _ later key hlater
  rw [lookup_eq]
  have hn : (run (cleanUp (run (freshCache maxSize t0) ops) pre) later).cache.peek k = none :=
    AMap.get_eq_none_iff.2 this
  rw [hn]; rfl

theorem exp_get_filter_ne (l : List (Str × Element V)) {k k' : Str} (h : k' ≠ k) :
    AMap.get (l.filter (fun e => e.1 ≠ k')) k = AMap.get l k := by
  induction l with
  | nil => rfl
  | cons e l ih =>
    by_cases he : e.1 = k'
    · rw [List.filter_cons_of_neg (by simpa using he), ih]
      simp only [AMap.get]
      rw [if_neg (by rw [he]; exact h)]
    · rw [List.filter_cons_of_pos (by simpa using he)]
      simp only [AMap.get, ih]

/-- Storing under a key that is present, or removing one, does not touch the other keys. -/
theorem peek_other_put {s : St V} {k k' : Str} {v : V} {ttl : Int} (hk : k' ≠ k) (hin : k' ∈ s.cache.items.map Prod.fst) :
    (step s (.put k' v ttl)).cache.peek k = s.cache.peek k ∧
    ∀ x, x ∈ s.cache.items.map Prod.fst → x ∈ (step s (.put k' v ttl)).cache.items.map Prod.fst := by
  simp only [step, Cache.put]
  split
  · exact ⟨rfl, fun _ h => h⟩
  · simp only [Cache.add]
    rw [if_pos hin]
    refine ⟨?_, ?_⟩
    · simp only [Cache.peek, AMap.get]
      rw [if_neg hk]
      exact exp_get_filter_ne _ hk
    · intro x hx
      rw [List.map_cons, filter_keys]
      by_cases he : x = k'
      · exact List.mem_cons.2 (.inl he)
      · exact List.mem_cons.2 (.inr (List.mem_filter.2 ⟨hx, by simpa using he⟩))

theorem peek_other_puts {k : Str} (ops : List (Op V)) (s : St V)
    (h : ∀ o ∈ ops, ∃ k' v ttl, o = .put k' v ttl ∧ k' ≠ k ∧ k' ∈ s.cache.items.map Prod.fst) :
    (run s ops).cache.peek k = s.cache.peek k ∧ (run s ops).now = s.now := by
  induction ops generalizing s with
  | nil => exact ⟨rfl, rfl⟩
  | cons o ops ih =>
    obtain ⟨k', v, ttl, rfl, hk, hin⟩ := h o List.mem_cons_self
    obtain ⟨h1, h2⟩ := peek_other_put (v := v) (ttl := ttl) hk hin
    rw [run_cons]
    have := ih (step s (.put k' v ttl)) (by
      intro o ho
      obtain ⟨k'', v', ttl', e, a, b⟩ := h o (List.mem_cons_of_mem _ ho)
      exact ⟨k'', v', ttl', e, a, h2 _ b⟩)
    exact ⟨this.1.trans h1, this.2⟩

theorem peek_other_removes {k : Str} (ks : List Str) (s : St V) (h : ∀ k' ∈ ks, k' ≠ k) :
    (run s (ks.map Op.remove)).cache.peek k = s.cache.peek k ∧ (run s (ks.map Op.remove)).now = s.now := by
  induction ks generalizing s with
  | nil => exact ⟨rfl, rfl⟩
  | cons k' ks ih =>
    have hk := h k' List.mem_cons_self
    have := ih (step s (.remove k')) (fun x hx => h x (List.mem_cons_of_mem _ hx))
    refine ⟨this.1.trans ?_, this.2⟩
    simp only [step, Cache.remove, Cache.peek]
    exact exp_get_filter_ne _ hk

/-- **C06, clean-up keeps what lives.** A value whose lifetime is not over - the last millisecond included - is
returned after a clean-up exactly as before it, whatever is reloaded meanwhile. -/
theorem C06_cleanup_keeps (maxSize : Nat) (t0 : Int) (ops : List (Op V)) (k : Str) (pre : Str → Option (V × Int))
    (hlive : ∀ v t ttl, LastStored t0 ops k v t ttl → clockAfter t0 ops ≤ t + ttl / 1000000) :
    lookup (cleanUp (run (freshCache maxSize t0) ops) pre) k = lookup (run (freshCache maxSize t0) ops) k := by
  have inv := fresh_inv (V := V) maxSize t0 ops
  generalize hs : run (freshCache maxSize t0) ops = s at inv
  have hkeys : ∀ k' ∈ s.cache.expiredKeys s.now, k' ≠ k ∧ k' ∈ s.cache.items.map Prod.fst := by
    intro k' hk'
    simp only [Cache.expiredKeys, List.mem_map, List.mem_filter, List.mem_reverse] at hk'
    obtain ⟨⟨k'', el⟩, ⟨hm, hx⟩, rfl⟩ := hk'
    refine ⟨?_, List.mem_map.2 ⟨_, hm, rfl⟩⟩
    rintro rfl
    obtain ⟨t, ttl, h1, h2⟩ := inv.stored _ el hm
    have := hlive _ _ _ h1
    rw [← inv.clock] at this
    simp only [isExpired, Bool.and_eq_true, decide_eq_true_eq] at hx
    omega
  have hpeek : (cleanUp s pre).cache.peek k = s.cache.peek k ∧ (cleanUp s pre).now = s.now := by
    unfold cleanUp cleanUpOps
    rw [run_append]
    have h1 := peek_other_puts (k := k) ((s.cache.expiredKeys s.now).filterMap (fun k => (pre k).map (fun r => Op.put k r.1 r.2))) s (by
      intro o ho
      obtain ⟨k', hk', ho⟩ := List.mem_filterMap.1 ho
      cases hp : pre k' with
      | none => rw [hp] at ho; cases ho
      | some r =>
        rw [hp] at ho
        simp only [Option.map_some, Option.some.injEq] at ho
        exact ⟨k', r.1, r.2, ho.symm, hkeys k' hk'⟩)
    have h2 := peek_other_removes (k := k) ((s.cache.expiredKeys s.now).filter (fun k => (pre k).isNone))
      (run s ((s.cache.expiredKeys s.now).filterMap (fun k => (pre k).map (fun r => Op.put k r.1 r.2)))) (by
      intro k' hk'
      exact (hkeys k' (List.mem_filter.1 hk').1).1)
    exact ⟨h2.1.trans h1.1, h2.2.trans h1.2⟩
  rw [lookup_eq, lookup_eq, hpeek.1, hpeek.2]

-- In the very millisecond of its expiry the entry is still there, and is kept by a clean-up.
example : lookup (cleanUp (run (freshCache 0 1000) [.put (str! "a") 7 1000000000, .put (str! "b") 8 5000000, .tick 1000])
    (fun _ => none)) (str! "a") = some (7, 0) ∧
  lookup (cleanUp (run (freshCache 0 1000) [.put (str! "a") 7 1000000000, .put (str! "b") 8 5000000, .tick 1000])
    (fun _ => none)) (str! "b") = none := by decide

/-- Ten seconds pass and a clean-up runs whose reload yields `pre`. -/
def cycle (pre : Str → Option (V × Int)) (s : St V) : St V := cleanUp (step s (.tick 10000)) pre

/-- `n` such rounds. -/
def cycles (pre : Str → Option (V × Int)) : Nat → St V → St V
  | 0, s => s
  | n + 1, s => cycles pre n (cycle pre s)

/-- **C06, a second way it fails.** If the reload of an expired entry yields a value with lifetime 0,
the entry is neither replaced nor removed: the old value is returned for ever. -/
theorem C06_zero_lifetime_reload_keeps_stale (n : Nat) :
    lookup (cycles (fun _ => some (8, 0)) n
      (run (freshCache 0 1000) [.put (str! "a") 7 1000000000, .tick 5000])) (str! "a")
      = some (7, 0) := by
  suffices ∀ (n : Nat) (now : Int), now ≥ 2000 → lookup (cycles (fun _ => some (8, 0)) n
      ⟨⟨10000, [(str! "a", ⟨7, 2000⟩)]⟩, now⟩) (str! "a") = some (7, 0) by
    exact this n 6000 (by decide)
  intro n
  induction n with
  | zero =>
    intro now h
    have hr : remainTTL now 2000 = 0 := by unfold remainTTL; split <;> omega
    rw [cycles, lookup_eq, show Cache.peek (⟨10000, [(str! "a", ⟨7, 2000⟩)]⟩ : Cache Nat) (str! "a")
      = some ⟨7, 2000⟩ from rfl]
    simp only [Option.map_some, hr]
  | succ n ih =>
    intro now h
    rw [cycles]
    have : cycle (fun _ => some (8, 0)) ⟨⟨10000, [(str! "a", ⟨7, 2000⟩)]⟩, now⟩
        = ⟨⟨10000, [(str! "a", ⟨7, 2000⟩)]⟩, now + 10000⟩ := by
      have he : isExpired (now + 10000) (⟨7, 2000⟩ : Element Nat) = true := by
        simp only [isExpired, Bool.and_eq_true, decide_eq_true_eq]; omega
      simp [cycle, cleanUp, step, Cache.expiredKeys, he, cleanUpOps, run, Cache.put]
    rw [this]
    exact ih _ (by omega)

/-- **C07 (size).** After any history the cache holds at most the configured number of entries
(10000 if none is configured), all for different keys. -/
theorem C07_size_bound (maxSize : Nat) (t0 : Int) (ops : List (Op V)) :
    (run (freshCache maxSize t0) ops).cache.totalCount ≤ (if maxSize > 0 then maxSize else 10000) ∧
    ((run (freshCache maxSize t0) ops).cache.items.map Prod.fst).Nodup :=
  ⟨(fresh_inv maxSize t0 ops).size, (fresh_inv maxSize t0 ops).nodup⟩

/-- A key is held by the cache. -/
def Holds (s : St V) (k : Str) : Prop := (lookup s k).isSome

theorem holds_iff (s : St V) (k : Str) : Holds s k ↔ k ∈ s.cache.items.map Prod.fst := by
  unfold Holds
  rw [lookup_eq, Option.isSome_map]
  exact AMap.get_isSome_iff

/-- **C07 (replacement).** After any history, if storing something makes another key disappear, then
the cache was full, the stored key was new, and the key that disappeared was the least recently used
one: every other key held before had been used after it, and is still held. -/
theorem C07_evicts_least_recently_used (maxSize : Nat) (t0 : Int) (ops : List (Op V)) (k : Str)
    (v : V) (ttl : Int) (k' : Str)
    (hbefore : Holds (run (freshCache maxSize t0) ops) k')
    (hafter : ¬ Holds (run (freshCache maxSize t0) (ops ++ [.put k v ttl])) k') :
    (run (freshCache maxSize t0) ops).cache.totalCount =
        (if maxSize > 0 then maxSize else 10000) ∧
    ¬ Holds (run (freshCache maxSize t0) ops) k ∧
    ∀ k'', Holds (run (freshCache maxSize t0) ops) k'' → k'' ≠ k' →
      UsedAfter ops k'' k' ∧ Holds (run (freshCache maxSize t0) (ops ++ [.put k v ttl])) k'' := by
  have inv := fresh_inv (V := V) maxSize t0 ops
  have hcap0 : 0 < (if maxSize > 0 then maxSize else 10000) := by split <;> omega
  simp only [holds_iff, run_append] at *
  have hs : ∀ s : St V, run s [.put k v ttl] = step s (.put k v ttl) := fun _ => rfl
  rw [hs] at *
  generalize run (freshCache maxSize t0) ops = s at *
  generalize (if maxSize > 0 then maxSize else 10000) = cap at *
  by_cases ht : ttl ≤ 0
  · have he : step s (.put k v ttl) = s := by simp [step, Cache.put, ht]
    rw [he] at hafter
    exact absurd hbefore hafter
  by_cases hin : k ∈ s.cache.items.map Prod.fst
  · exfalso
    apply hafter
    simp only [step, Cache.put, if_neg ht, Cache.add, if_pos hin, List.map_cons, filter_keys,
      List.mem_cons, List.mem_filter]
    by_cases he : k' = k
    · exact .inl he
    · exact .inr ⟨hbefore, by simpa using he⟩
  by_cases hfull : s.cache.items.length + 1 > s.cache.cap
  · have he : (step s (.put k v ttl)).cache.items =
        ((k, ⟨v, s.now + ttl / 1000000⟩) :: s.cache.items).dropLast := by
      simp only [step, Cache.put, if_neg ht, Cache.add, if_neg hin, if_pos hfull]
    rw [he, List.map_dropLast, List.map_cons] at hafter ⊢
    have hne : s.cache.items.map Prod.fst ≠ [] := by
      intro h0; rw [h0] at hbefore; simp at hbefore
    rw [List.dropLast_cons_of_ne_nil hne] at hafter ⊢
    have hsplit := List.dropLast_concat_getLast hne
    generalize hlast : (s.cache.items.map Prod.fst).getLast hne = last at hsplit
    generalize (s.cache.items.map Prod.fst).dropLast = ini at hsplit hafter ⊢
    have hk' : k' = last := by
      rw [← hsplit, List.mem_append, List.mem_singleton] at hbefore
      rcases hbefore with h | h
      · exact absurd (List.mem_cons_of_mem _ h) hafter
      · exact h
    refine ⟨?_, hin, ?_⟩
    · have := inv.size
      have := inv.capEq
      simp only [Cache.totalCount]
      omega
    · intro k'' h1 h2
      rw [← hsplit, List.mem_append, List.mem_singleton] at h1
      rcases h1 with h1 | h1
      · have hr := inv.recency
        rw [← hsplit, List.pairwise_append] at hr
        exact ⟨hk' ▸ hr.2.2 k'' h1 last (by simp), List.mem_cons_of_mem _ h1⟩
      · exact absurd (h1.trans hk'.symm) h2
  · exfalso
    apply hafter
    simp only [step, Cache.put, if_neg ht, Cache.add, if_neg hin, if_neg hfull, List.map_cons]
    exact List.mem_cons_of_mem _ hbefore

/-- **C07 (nothing else drops entries).** Lookups and the passing of time drop nothing; a removal
drops only its own key. -/
theorem C07_no_other_loss (s : St V) (k k' : Str) (d : Nat) (h : Holds s k') :
    Holds (step s (.get k)) k' ∧ Holds (step s (.tick d)) k' ∧
    (k' ≠ k → Holds (step s (.remove k)) k') := by
  simp only [holds_iff] at *
  refine ⟨?_, h, ?_⟩
  · simp only [step, Cache.get]
    split
    · rename_i el hp
      simp only [Cache.touch, hp, List.map_cons, filter_keys, List.mem_cons, List.mem_filter]
      by_cases he : k' = k
      · exact .inl he
      · exact .inr ⟨h, by simpa using he⟩
    · exact h
  · intro hne
    simp only [step, Cache.remove, filter_keys, List.mem_filter]
    exact ⟨h, by simpa using hne⟩

/-! Concrete instances: a cache of two entries; "a" is used again before "c" is stored, so "b" is
the one that goes. -/

/-- A sample history. -/
def lruHistory : List (Op Nat) :=
  [.put (str! "a") 1 60000000000, .put (str! "b") 2 60000000000, .tick 2500, .get (str! "a")]

example : lookup (run (freshCache 2 0) lruHistory) (str! "a") = some (1, 57500) := by decide

example : LastStored 0 lruHistory (str! "a") 1 0 60000000000 :=
  ⟨[], [.put (str! "b") 2 60000000000, .tick 2500, .get (str! "a")], rfl, by decide, rfl, by
    intro o ho
    simp only [List.mem_cons, List.not_mem_nil, or_false] at ho
    rcases ho with rfl | rfl | rfl
    · rintro ⟨h, _⟩; exact absurd h (by decide)
    · exact fun h => h
    · exact fun h => h⟩

example : Holds (run (freshCache 2 0) lruHistory) (str! "b") ∧
    ¬ Holds (run (freshCache 2 0) (lruHistory ++ [.put (str! "c") 3 1000000])) (str! "b") := by
  unfold Holds; decide

example : lookup (run (cleanUp (run (freshCache 2 0) (lruHistory ++ [.tick 60000]))
    (fun _ => none)) [.tick 5]) (str! "a") = none := by decide

/-- **C07 (order of a clean-up).** Expired entries are reloaded or dropped beginning with the one not used for longest, so
that reloading leaves the order of use as it is. -/
theorem C07_cleanup_order (maxSize : Nat) (t0 : Int) (ops : List (Op V)) :
    ((run (freshCache maxSize t0) ops).cache.expiredKeys (run (freshCache maxSize t0) ops).now).Pairwise
      (fun a b => UsedAfter ops b a) := by
  have inv := (fresh_inv (V := V) maxSize t0 ops).recency
  generalize run (freshCache maxSize t0) ops = s at inv ⊢
  unfold Cache.expiredKeys
  rw [List.filter_reverse, List.map_reverse, List.pairwise_reverse]
  exact inv.sublist (List.Sublist.map _ List.filter_sublist)

-- Two entries expire; the one used last is looked at last.
example : (run (freshCache 0 1000) [.put (str! "a") 7 1000000, .put (str! "b") 8 1000000, .get (str! "a"), .tick 5]).cache.expiredKeys
    1005 = [str! "b", str! "a"] := by decide

end Verif.Props
