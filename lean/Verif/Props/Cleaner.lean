/-
C89: the clean-up of the cache while the cache is used.
-/
import Verif.Model.Cleaner
import Verif.Props.ExpCache

namespace Verif.Props
open Spec ExpCache

variable {V : Type}

theorem runActs_cons (s : CleanSt V) (a : Act V) (as : List (Act V)) : runActs s (a :: as) = runActs (act s a) as := rfl

theorem runActs_append (s : CleanSt V) (as bs : List (Act V)) : runActs s (as ++ bs) = runActs (runActs s as) bs := by
  simp [runActs]

/-! ### What one operation does to an entry -/

theorem get_dropLast_or (l : List (Str × Element V)) (k : Str) :
    AMap.get l.dropLast k = none ∨ AMap.get l.dropLast k = AMap.get l k := by
  induction l with
  | nil => exact .inl rfl
  | cons e l ih =>
    cases l with
    | nil => exact .inl rfl
    | cons e' l =>
      simp only [List.dropLast_cons_cons, AMap.get] at ih ⊢
      by_cases he : e.1 = k
      · rw [if_pos he, if_pos he]; exact .inr rfl
      · rw [if_neg he, if_neg he]; exact ih

/-- Storing an entry: the key gets the new value (or none if the cache holds nothing), the others keep theirs or lose it. -/
theorem peek_put_cases (s : St V) (k k' : Str) (v : V) (ttl : Int) :
    (step s (.put k' v ttl)).cache.peek k = none ∨ (step s (.put k' v ttl)).cache.peek k = s.cache.peek k ∨
      (k' = k ∧ ttl > 0 ∧ (step s (.put k' v ttl)).cache.peek k = some ⟨v, s.now + ttl / 1000000⟩) := by
  simp only [step, Cache.put]
  by_cases ht : ttl ≤ 0
  · rw [if_pos ht]; exact .inr (.inl rfl)
  rw [if_neg ht]
  have hpos : ttl > 0 := by omega
  have hcons : ∀ l : List (Str × Element V), (k' ≠ k → AMap.get l k = none ∨ AMap.get l k = s.cache.peek k) →
      AMap.get ((k', (⟨v, s.now + ttl / 1000000⟩ : Element V)) :: l) k = none ∨
      AMap.get ((k', (⟨v, s.now + ttl / 1000000⟩ : Element V)) :: l) k = s.cache.peek k ∨
      (k' = k ∧ ttl > 0 ∧ AMap.get ((k', (⟨v, s.now + ttl / 1000000⟩ : Element V)) :: l) k = some ⟨v, s.now + ttl / 1000000⟩) := by
    intro l hl
    by_cases he : k' = k
    · exact .inr (.inr ⟨he, hpos, by simp only [AMap.get]; rw [if_pos he]⟩)
    · simp only [AMap.get]
      rw [if_neg he]
      rcases hl he with h | h
      · exact .inl h
      · exact .inr (.inl h)
  unfold Cache.add
  by_cases hin : k' ∈ s.cache.items.map Prod.fst
  · rw [if_pos hin]
    exact hcons _ (fun he => .inr (exp_get_filter_ne _ he))
  · rw [if_neg hin]
    by_cases hfull : s.cache.items.length + 1 > s.cache.cap
    · rw [if_pos hfull]
      simp only [Cache.peek]
      rcases get_dropLast_or ((k', (⟨v, s.now + ttl / 1000000⟩ : Element V)) :: s.cache.items) k with h | h
      · exact .inl h
      · rw [h]
        exact hcons _ (fun _ => .inr rfl)
    · rw [if_neg hfull]
      exact hcons _ (fun _ => .inr rfl)

theorem get_filter_ne_cases (l : List (Str × Element V)) (k k' : Str) :
    AMap.get (l.filter (fun e => e.1 ≠ k')) k = none ∨ AMap.get (l.filter (fun e => e.1 ≠ k')) k = AMap.get l k := by
  by_cases h : k' = k
  · left
    rw [AMap.get_eq_none_iff, AMap.keys, filter_keys]
    intro hm
    rw [List.mem_filter] at hm
    exact absurd h.symm (by simpa using hm.2)
  · exact .inr (exp_get_filter_ne _ h)

theorem peek_remove_cases (s : St V) (k k' : Str) :
    (step s (.remove k')).cache.peek k = none ∨ (step s (.remove k')).cache.peek k = s.cache.peek k :=
  get_filter_ne_cases _ _ _

theorem peek_removed (s : St V) (k : Str) : (step s (.remove k)).cache.peek k = none := by
  simp only [step, Cache.remove, Cache.peek]
  rw [AMap.get_eq_none_iff, AMap.keys, filter_keys]
  intro hm
  rw [List.mem_filter] at hm
  simp at hm

theorem peek_get_same (s : St V) (k k' : Str) : (step s (.get k')).cache.peek k = s.cache.peek k := by
  simp only [step, Cache.get]
  cases hp : s.cache.peek k' with
  | none => rfl
  | some el =>
    simp only [Cache.touch, hp]
    simp only [Cache.peek, AMap.get]
    by_cases he : k' = k
    · rw [if_pos he, ← hp, he]; rfl
    · rw [if_neg he]; exact exp_get_filter_ne _ he

theorem act_now (s : CleanSt V) (a : Act V) : s.st.now ≤ (act s a).st.now := by
  cases a with
  | put k v ttl => exact Int.le_refl _
  | get k => exact Int.le_refl _
  | clear => exact Int.le_refl _
  | tick d => simp only [act, step]; omega
  | clean pre =>
    obtain ⟨st, pc⟩ := s
    simp only [act, cleanStep]
    split
    all_goals first
      | exact Int.le_refl _
      | (split <;> exact Int.le_refl _)

/-- An action of others: the entry of `k` is dropped, kept, or replaced by what the action stores. -/
theorem peek_act (s : CleanSt V) (a : Act V) (k : Str) :
    (act s a).st.cache.peek k = none ∨ (act s a).st.cache.peek k = s.st.cache.peek k ∨
      (∃ v ttl, a = .put k v ttl ∧ ttl > 0 ∧ (act s a).st.cache.peek k = some ⟨v, s.st.now + ttl / 1000000⟩) ∨
      (∃ pre left doomed v ttl, a = .clean pre ∧ s.pc = .reload (k :: left) doomed ∧ pre k = some (v, ttl) ∧ ttl > 0 ∧
        (act s a).st.cache.peek k = some ⟨v, s.st.now + ttl / 1000000⟩) := by
  cases a with
  | put k' v ttl =>
    rcases peek_put_cases s.st k k' v ttl with h | h | ⟨rfl, h2, h3⟩
    · exact .inl h
    · exact .inr (.inl h)
    · exact .inr (.inr (.inl ⟨v, ttl, rfl, h2, h3⟩))
  | get k' => exact .inr (.inl (peek_get_same s.st k k'))
  | clear => exact .inl rfl
  | tick d => exact .inr (.inl rfl)
  | clean pre =>
    obtain ⟨st, pc⟩ := s
    simp only [act, cleanStep]
    split
    · exact .inr (.inl rfl)
    · exact .inr (.inl rfl)
    · exact .inr (.inl rfl)
    · exact .inr (.inl rfl)
    · next k' left doomed =>
      cases hp : pre k' with
      | none => exact .inr (.inl rfl)
      | some r =>
        rcases peek_put_cases st k k' r.1 r.2 with h | h | ⟨rfl, h2, h3⟩
        · exact .inl h
        · exact .inr (.inl h)
        · exact .inr (.inr (.inr ⟨pre, left, doomed, r.1, r.2, rfl, rfl, hp, h2, h3⟩))
    · exact .inr (.inl rfl)
    · next k' left =>
      rcases peek_remove_cases st k k' with h | h
      · exact .inl h
      · exact .inr (.inl h)

/-! ### The operations performed -/

/-- The operation on the cache that an action amounts to (looking at keys and entries changes nothing). -/
def opsDone (s : CleanSt V) : Act V → List (Op V)
  | .put k v ttl => [.put k v ttl]
  | .get k => [.get k]
  | .clear => [.clear]
  | .tick d => [.tick d]
  | .clean pre =>
    match s.pc with
    | .reload (k :: _) _ => match pre k with | some r => [.put k r.1 r.2] | none => []
    | .delete (k :: _) => [.remove k]
    | _ => []

/-- The operations performed in an execution. -/
def history (s : CleanSt V) : List (Act V) → List (Op V)
  | [] => []
  | a :: as => opsDone s a ++ history (act s a) as

theorem act_run (s : CleanSt V) (a : Act V) : (act s a).st = run s.st (opsDone s a) := by
  cases a with
  | put k v ttl => rfl
  | get k => rfl
  | clear => rfl
  | tick d => rfl
  | clean pre =>
    obtain ⟨st, pc⟩ := s
    simp only [act, cleanStep, opsDone]
    cases pc with
    | idle => rfl
    | scan left expired => cases left <;> rfl
    | reload left doomed =>
      cases left with
      | nil => rfl
      | cons k left => rcases hp : pre k with _ | ⟨v, ttl⟩ <;> simp only [hp] <;> rfl
    | delete left => cases left <;> rfl

theorem runActs_run (s : CleanSt V) (as : List (Act V)) : (runActs s as).st = run s.st (history s as) := by
  induction as generalizing s with
  | nil => rfl
  | cons a as ih => rw [runActs_cons, ih, history, run_append, act_run]

/-- A new cache, its clean-up goroutine waiting. -/
def newCleaner (maxSize : Nat) (t0 : Int) : CleanSt V := ⟨freshCache maxSize t0, .idle⟩

theorem keys_nodup (maxSize : Nat) (t0 : Int) (as : List (Act V)) :
    ((runActs (newCleaner maxSize t0) as : CleanSt V).st.cache.items.map Prod.fst).Nodup := by
  rw [runActs_run]
  exact (fresh_inv maxSize t0 _).nodup

/-- **C89, values.** In every execution, however the clean-up's steps are interleaved with uses of the cache, a lookup returns
the value last stored under the key, with the right remaining lifetime. -/
theorem C89_latest (maxSize : Nat) (t0 : Int) (as : List (Act V)) (k : Str) (v : V) (r : Int)
    (h : lookup (runActs (newCleaner maxSize t0) as).st k = some (v, r)) :
    ∃ t ttl, LastStored t0 (history (newCleaner maxSize t0) as) k v t ttl ∧
      r = max 0 (t + ttl / 1000000 - clockAfter t0 (history (newCleaner maxSize t0) as)) := by
  rw [runActs_run] at h
  exact C06_get_latest maxSize t0 _ k v r h

/-! ### What the clean-up deletes -/

/-- Keys that the clean-up has found expired. -/
def suspects : Pc → List Str
  | .idle => []
  | .scan _ expired => expired
  | .reload left doomed => left ++ doomed
  | .delete left => left

/-- Keys the clean-up still deals with. -/
def pending : Pc → List Str
  | .scan left expired => left ++ expired
  | pc => suspects pc

/-- The clean-up looked at `k` during the execution and found it expired; what is stored under `k` since was put there by
users of the cache. -/
def FoundExpired (s0 : CleanSt V) (as : List (Act V)) (k : Str) : Prop :=
  ∃ a pre b left expired el0, as = a ++ .clean pre :: b ∧ (runActs s0 a).pc = .scan (k :: left) expired ∧
    (runActs s0 a).st.cache.peek k = some el0 ∧ 0 < el0.expires ∧ el0.expires < (runActs s0 a).st.now ∧
    ∀ el, (runActs s0 as).st.cache.peek k = some el → el = el0 ∨ ∃ ttl, .put k el.val ttl ∈ b ∧ ttl > 0

theorem pending_nodup (maxSize : Nat) (t0 : Int) (as : List (Act V)) :
    (pending (runActs (newCleaner maxSize t0) as : CleanSt V).pc).Nodup := by
  suffices ∀ n (as : List (Act V)), as.length = n → (pending (runActs (newCleaner maxSize t0) as : CleanSt V).pc).Nodup from
    this _ as rfl
  intro n
  induction n with
  | zero =>
    intro as h
    rw [List.length_eq_zero_iff.1 h]
    exact List.nodup_nil
  | succ n ih =>
    intro as h
    rcases List.eq_nil_or_concat as with rfl | ⟨as, a, rfl⟩
    · simp at h
    rw [List.concat_eq_append] at *
    have ih := ih as (by simpa using h)
    rw [runActs_append]
    have hk := keys_nodup (V := V) maxSize t0 as
    generalize runActs (newCleaner maxSize t0) as = s at ih hk
    show (pending (act s a).pc).Nodup
    cases a with
    | put k v ttl => exact ih
    | get k => exact ih
    | clear => exact ih
    | tick d => exact ih
    | clean pre =>
      obtain ⟨st, pc⟩ := s
      simp only [act, cleanStep]
      cases pc with
      | idle =>
        simp only [pending, List.append_nil, Cache.keys, List.map_reverse]
        exact (List.reverse_perm _).nodup_iff.2 hk
      | scan left expired =>
        cases left with
        | nil => simpa [pending, suspects] using ih
        | cons k left =>
          simp only [pending] at ih ⊢
          split
          · have : (k :: (left ++ expired)).Perm (left ++ (expired ++ [k])) := by
              rw [← List.append_assoc]
              exact (List.perm_append_singleton k (left ++ expired)).symm
            exact this.nodup_iff.1 (by simpa using ih)
          · exact (List.nodup_cons.1 (by simpa using ih)).2
      | reload left doomed =>
        cases left with
        | nil => simpa [pending, suspects] using ih
        | cons k left =>
          cases hp : pre k with
          | none =>
            simp only [pending, suspects, hp] at ih ⊢
            have : (k :: (left ++ doomed)).Perm (left ++ (doomed ++ [k])) := by
              rw [← List.append_assoc]
              exact (List.perm_append_singleton k (left ++ doomed)).symm
            exact this.nodup_iff.1 (by simpa using ih)
          | some r =>
            obtain ⟨v, ttl⟩ := r
            simp only [pending, suspects, hp] at ih ⊢
            exact (List.nodup_cons.1 (by simpa using ih)).2
      | delete left =>
        cases left with
        | nil => exact ih
        | cons k left => exact (List.nodup_cons.1 ih).2

theorem suspects_found (maxSize : Nat) (t0 : Int) (as : List (Act V)) (k : Str)
    (hk : k ∈ suspects (runActs (newCleaner maxSize t0) as : CleanSt V).pc) : FoundExpired (newCleaner maxSize t0) as k := by
  suffices ∀ n (as : List (Act V)), as.length = n → ∀ k ∈ suspects (runActs (newCleaner maxSize t0) as : CleanSt V).pc,
      FoundExpired (newCleaner maxSize t0) as k from this _ as rfl k hk
  intro n
  induction n with
  | zero =>
    intro as h k hk
    rw [List.length_eq_zero_iff.1 h] at hk
    exact absurd hk List.not_mem_nil
  | succ n ih =>
    intro as h k hk
    rcases List.eq_nil_or_concat as with rfl | ⟨as, a, rfl⟩
    · simp at h
    rw [List.concat_eq_append] at *
    have ih := ih as (by simpa using h) k
    have hnd := pending_nodup (V := V) maxSize t0 as
    have hstep : runActs (newCleaner maxSize t0) (as ++ [a]) = act (runActs (newCleaner maxSize t0) as) a := by
      rw [runActs_append]; rfl
    rw [hstep] at hk
    -- a key that was found expired before stays so
    have keep : k ∈ suspects (runActs (newCleaner maxSize t0) as : CleanSt V).pc →
        (∀ pre left doomed, (runActs (newCleaner maxSize t0) as).pc = .reload (k :: left) doomed → a = .clean pre → pre k = none) →
        FoundExpired (newCleaner maxSize t0) (as ++ [a]) k := by
      intro hm hno
      obtain ⟨x, pre, b, left, expired, el0, e, e1, e2, e3, e4, e5⟩ := ih hm
      refine ⟨x, pre, b ++ [a], left, expired, el0, by rw [e]; simp, e1, e2, e3, e4, ?_⟩
      intro el hel
      rw [hstep] at hel
      rcases peek_act (runActs (newCleaner maxSize t0) as) a k with g | g | ⟨v, ttl, g1, g2, g3⟩ | ⟨pre', left', doomed', v, ttl, g1, g2, g3, _⟩
      · rw [g] at hel; cases hel
      · rw [g] at hel
        rcases e5 el hel with h | ⟨ttl, h, h'⟩
        · exact .inl h
        · exact .inr ⟨ttl, List.mem_append_left _ h, h'⟩
      · rw [g3] at hel
        cases hel
        exact .inr ⟨ttl, List.mem_append_right _ (by rw [g1]; exact List.mem_singleton_self _), g2⟩
      · rw [hno pre' left' doomed' g2 g1] at g3
        cases g3
    generalize hs : (runActs (newCleaner maxSize t0) as : CleanSt V) = s at *
    cases a with
    | put k' v ttl => exact keep hk (fun pre left doomed _ h => nomatch h)
    | get k' => exact keep hk (fun pre left doomed _ h => nomatch h)
    | clear => exact keep hk (fun pre left doomed _ h => nomatch h)
    | tick d => exact keep hk (fun pre left doomed _ h => nomatch h)
    | clean pre =>
      obtain ⟨st, pc⟩ := s
      simp only [act, cleanStep] at hk
      cases pc with
      | idle => exact absurd hk List.not_mem_nil
      | scan left expired =>
        cases left with
        | nil => exact keep (by simpa [suspects] using hk) (fun _ _ _ h => nomatch h)
        | cons k' left =>
          simp only [suspects] at hk
          by_cases hl : looksExpired st k' = true
          · rw [if_pos hl] at hk
            rcases List.mem_append.1 hk with h | h
            · exact keep h (fun _ _ _ h => nomatch h)
            · rw [List.mem_singleton] at h
              subst h
              unfold looksExpired at hl
              cases hp : st.cache.peek k with
              | none => rw [hp] at hl; cases hl
              | some el =>
                rw [hp] at hl
                simp only [isExpired, Bool.and_eq_true, decide_eq_true_eq] at hl
                refine ⟨as, pre, [], left, expired, el, rfl, by rw [hs], by rw [hs]; exact hp, hl.1, by rw [hs]; exact hl.2, ?_⟩
                intro el' hel'
                rw [hstep] at hel'
                exact .inl (Option.some.inj (hel'.symm.trans hp))
          · rw [if_neg hl] at hk
            exact keep hk (fun _ _ _ h => nomatch h)
      | reload left doomed =>
        cases left with
        | nil => exact keep (by simpa [suspects] using hk) (fun _ _ _ h => nomatch h)
        | cons k' left =>
          cases hp : pre k' with
          | none =>
            simp only [hp, suspects, List.mem_append, List.mem_singleton] at hk
            refine keep ?_ ?_
            · simp only [suspects, List.mem_append, List.mem_cons]
              rcases hk with h | h | h
              · exact .inl (.inr h)
              · exact .inr h
              · exact .inl (.inl h)
            · intro pre' left' doomed' e1 e2
              cases e1
              cases e2
              exact hp
          | some r =>
            obtain ⟨v, ttl⟩ := r
            simp only [hp, suspects] at hk
            refine keep ?_ ?_
            · simp only [suspects, List.cons_append]
              exact List.mem_cons_of_mem _ hk
            · intro pre' left' doomed' e1 e2
              cases e1
              simp only [pending, suspects, List.cons_append] at hnd
              exact absurd hk (List.nodup_cons.1 hnd).1
      | delete left =>
        cases left with
        | nil => exact absurd hk List.not_mem_nil
        | cons k' left => exact keep (List.mem_cons_of_mem _ hk) (fun _ _ _ h => nomatch h)

theorem runActs_now (s : CleanSt V) (as : List (Act V)) : s.st.now ≤ (runActs s as).st.now := by
  induction as generalizing s with
  | nil => exact Int.le_refl _
  | cons a as ih => exact Int.le_trans (act_now s a) (ih _)

/-- **C89, deletions (partial).** Whatever the clean-up deletes while its lifetime is not over was stored by a user of the cache after
this clean-up had looked at the key and found an expired entry there. So an entry that is not stored during a clean-up is
only deleted by it when expired. Missing: entries stored meanwhile, see `C89_fresh_entry_deleted`. -/
theorem C89_deletes_expired_partial (maxSize : Nat) (t0 : Int) (as : List (Act V)) (k : Str) (left : List Str) (el : Element V)
    (hpc : (runActs (newCleaner maxSize t0) as).pc = .delete (k :: left))
    (hel : (runActs (newCleaner maxSize t0) as).st.cache.peek k = some el)
    (hlive : (runActs (newCleaner maxSize t0) as).st.now ≤ el.expires) :
    ∃ a pre b left' expired ttl, as = a ++ .clean pre :: b ∧ (runActs (newCleaner maxSize t0 : CleanSt V) a).pc = .scan (k :: left') expired ∧
      .put k el.val ttl ∈ b ∧ ttl > 0 := by
  obtain ⟨a, pre, b, left', expired, el0, e, e1, e2, e3, e4, e5⟩ := suspects_found maxSize t0 as k (by rw [hpc]; exact List.mem_cons_self)
  rcases e5 el hel with h | ⟨ttl, h1, h2⟩
  · subst h
    have := runActs_now (runActs (newCleaner maxSize t0) a) (.clean pre :: b)
    rw [← runActs_append, ← e] at this
    omega
  · exact ⟨a, pre, b, left', expired, ttl, e, e1, h1, h2⟩

/-- **C89, expired entries go.** An entry that is expired when a clean-up starts, which the reload function has nothing for
and nobody stores again, is gone when the clean-up is finished, whatever else is done with the cache meanwhile. -/
theorem C89_expired_gone (s : CleanSt V) (hidle : s.pc = .idle) (k : Str) (el : Element V) (hel : s.st.cache.peek k = some el)
    (h0 : 0 < el.expires) (h1 : el.expires < s.st.now) (pre : Str → Option (V × Int)) (as : List (Act V))
    (hput : ∀ v ttl, Act.put k v ttl ∉ as) (hpre : ∀ pre, Act.clean pre ∈ as → pre k = none)
    (hend : (runActs s (.clean pre :: as)).pc = .idle) :
    (runActs s (.clean pre :: as)).st.cache.peek k = none := by
  -- as long as the entry is there, the clean-up will come to it
  have inv : ∀ (as : List (Act V)) (s : CleanSt V), (∀ v ttl, Act.put k v ttl ∉ as) → (∀ pre, Act.clean pre ∈ as → pre k = none) →
      (s.st.cache.peek k = none ∨ s.st.cache.peek k = some el ∧ el.expires < s.st.now ∧ k ∈ pending s.pc) →
      (runActs s as).st.cache.peek k = none ∨
        (runActs s as).st.cache.peek k = some el ∧ el.expires < (runActs s as).st.now ∧ k ∈ pending (runActs s as).pc := by
    intro as
    induction as with
    | nil => intro s _ _ h; exact h
    | cons a as ih =>
      intro s hput hpre h
      rw [runActs_cons]
      refine ih _ (fun v ttl hm => hput v ttl (List.mem_cons_of_mem _ hm)) (fun pre hm => hpre pre (List.mem_cons_of_mem _ hm)) ?_
      have hnow := act_now s a
      rcases peek_act s a k with g | g | ⟨v, ttl, g1, _, _⟩ | ⟨pre', left', doomed', v, ttl, g1, g2, g3, _⟩
      · exact .inl g
      · rcases h with h | ⟨h, h', hm⟩
        · exact .inl (g.trans h)
        · refine (Classical.em ((act s a).st.cache.peek k = none)).imp_right (fun hne => ⟨g.trans h, by omega, ?_⟩)
          cases a with
          | put k' v ttl => exact hm
          | get k' => exact hm
          | clear => exact absurd rfl hne
          | tick d => exact hm
          | clean pre =>
            have hk := hpre pre List.mem_cons_self
            obtain ⟨st, pc⟩ := s
            simp only [act, cleanStep] at hne ⊢
            cases pc with
            | idle => exact absurd hm List.not_mem_nil
            | scan left expired =>
              cases left with
              | nil => simpa [pending, suspects] using hm
              | cons k' left =>
                simp only [pending, List.cons_append, List.mem_cons, List.mem_append] at hm ⊢
                rcases hm with rfl | hm | hm
                · have hl : looksExpired st k = true := by
                    unfold looksExpired
                    simp only at h
                    rw [h]
                    simp only [isExpired, Bool.and_eq_true, decide_eq_true_eq]
                    exact ⟨h0, h'⟩
                  rw [if_pos hl]
                  exact .inr (List.mem_append_right _ (List.mem_singleton_self _))
                · exact .inl hm
                · split
                  · exact .inr (List.mem_append_left _ hm)
                  · exact .inr hm
            | reload left doomed =>
              cases left with
              | nil => simpa [pending, suspects] using hm
              | cons k' left =>
                simp only [pending, suspects, List.cons_append, List.mem_cons, List.mem_append] at hm
                cases hp : pre k' with
                | none =>
                  simp only [hp, pending, suspects, List.mem_append, List.mem_singleton]
                  rcases hm with rfl | hm | hm
                  · exact .inr (.inr rfl)
                  · exact .inl hm
                  · exact .inr (.inl hm)
                | some r =>
                  obtain ⟨v, ttl⟩ := r
                  simp only [hp, pending, suspects, List.mem_append]
                  rcases hm with rfl | hm
                  · rw [hk] at hp; cases hp
                  · exact hm
            | delete left =>
              cases left with
              | nil => exact absurd hm List.not_mem_nil
              | cons k' left =>
                rcases List.mem_cons.1 hm with rfl | hm
                · exact absurd (peek_removed st k) hne
                · exact hm
      · exact absurd (g1 ▸ List.mem_cons_self) (hput v ttl)
      · have := hpre pre' (g1 ▸ List.mem_cons_self)
        rw [this] at g3
        cases g3
  rw [runActs_cons] at hend ⊢
  have hfirst : act s (.clean pre) = ⟨s.st, .scan s.st.cache.keys []⟩ := by
    simp only [act, cleanStep, hidle]
  rw [hfirst] at hend ⊢
  have hin : k ∈ s.st.cache.keys := by
    have := AMap.get_eq_some_mem hel
    exact List.mem_map.2 ⟨_, List.mem_reverse.2 this, rfl⟩
  rcases inv as ⟨s.st, .scan s.st.cache.keys []⟩ hput hpre (.inr ⟨hel, h1, by simpa [pending] using hin⟩) with h | ⟨_, _, h⟩
  · exact h
  · rw [hend] at h
    exact absurd h List.not_mem_nil

/-- The number of steps a clean-up still takes at most. -/
def stepsLeft : Pc → Nat
  | .idle => 0
  | .scan left expired => 3 * left.length + 2 * expired.length + 3
  | .reload left doomed => 2 * left.length + doomed.length + 2
  | .delete left => left.length + 1

/-- The number of steps the clean-up takes in an execution. -/
def cleanSteps : List (Act V) → Nat
  | [] => 0
  | .clean _ :: as => cleanSteps as + 1
  | _ :: as => cleanSteps as

/-- **C89, the clean-up ends.** A clean-up of a cache with `n` entries is finished after at most `3 n + 4` steps of its own, however many entries
are stored meanwhile. -/
theorem C89_ends (s : CleanSt V) (hidle : s.pc = .idle) (pre : Str → Option (V × Int)) (as : List (Act V))
    (h : 3 * s.st.cache.items.length + 3 ≤ cleanSteps as) :
    ∃ a b, as = a ++ b ∧ (runActs s (.clean pre :: a)).pc = .idle := by
  have key : ∀ (as : List (Act V)) (s : CleanSt V), stepsLeft s.pc ≤ cleanSteps as → ∃ a b, as = a ++ b ∧ (runActs s a).pc = .idle := by
    intro as
    induction as with
    | nil =>
      intro s h
      refine ⟨[], [], rfl, ?_⟩
      show s.pc = .idle
      cases hp : s.pc with
      | idle => rfl
      | scan l e => rw [hp] at h; simp [stepsLeft, cleanSteps] at h
      | reload l e => rw [hp] at h; simp [stepsLeft, cleanSteps] at h
      | delete l => rw [hp] at h; simp [stepsLeft, cleanSteps] at h
    | cons x as ih =>
      intro s h
      by_cases hi : s.pc = .idle
      · exact ⟨[], x :: as, rfl, hi⟩
      have hs : stepsLeft (act s x).pc ≤ cleanSteps as := by
        cases x with
        | put k v ttl => exact h
        | get k => exact h
        | clear => exact h
        | tick d => exact h
        | clean pre =>
          obtain ⟨st, pc⟩ := s
          simp only [cleanSteps] at h
          simp only [act, cleanStep]
          cases pc with
          | idle => exact absurd rfl hi
          | scan left expired =>
            cases left with
            | nil => simp only [stepsLeft, List.length_nil] at h ⊢; omega
            | cons k left =>
              simp only [stepsLeft, List.length_cons] at h ⊢
              split
              · simp only [List.length_append, List.length_cons, List.length_nil]; omega
              · omega
          | reload left doomed =>
            cases left with
            | nil => simp only [stepsLeft, List.length_nil] at h ⊢; omega
            | cons k left =>
              simp only [stepsLeft, List.length_cons] at h
              cases hp : pre k with
              | none => simp only [hp, stepsLeft, List.length_append, List.length_cons, List.length_nil]; omega
              | some r =>
                obtain ⟨v, ttl⟩ := r
                simp only [hp, stepsLeft]; omega
          | delete left =>
            cases left with
            | nil => simp only [stepsLeft]; omega
            | cons k left => simp only [stepsLeft, List.length_cons] at h ⊢; omega
      obtain ⟨a, b, e, h2⟩ := ih _ hs
      exact ⟨x :: a, b, by rw [e]; rfl, h2⟩
  have hfirst : act s (.clean pre) = ⟨s.st, .scan s.st.cache.keys []⟩ := by
    simp only [act, cleanStep, hidle]
  simp only [runActs_cons, hfirst]
  refine key as _ ?_
  simp only [stepsLeft, Cache.keys, List.length_map, List.length_reverse, List.length_nil]
  omega

/-! ### Live entries are lost -/

/-- What others see of a key. -/
def seenAfter (as : List (Act Nat)) (k : Str) : Option (Nat × Int) := lookup (runActs (newCleaner 0 1000) as).st k

/-- The reload function: only the name `slow` is queried often enough to be reloaded. -/
def reloadSlow : Str → Option (Nat × Int) := fun k => if k = str! "slow" then some (5, 60000000000) else none

/-- Two expired entries; the clean-up looks at both, gives up the first and queries the upstreams for the second. -/
def cleaningTwo : List (Act Nat) :=
  [.put (str! "a") 1 1000000000, .put (str! "slow") 2 1000000000, .tick 2000,
   .clean reloadSlow, .clean reloadSlow, .clean reloadSlow, .clean reloadSlow, .clean reloadSlow]

/-- **C89 is false as stated.** While the clean-up waits for an upstream, a query for an expired name gets a new answer, stored for an hour; the
clean-up then deletes it. -/
theorem C89_fresh_entry_deleted :
    seenAfter (cleaningTwo ++ [.put (str! "a") 7 3600000000000]) (str! "a") = some (7, 3600000) ∧
    seenAfter (cleaningTwo ++ [.put (str! "a") 7 3600000000000, .tick 1500, .clean reloadSlow, .clean reloadSlow, .clean reloadSlow]) (str! "a") = none ∧
    seenAfter (cleaningTwo ++ [.put (str! "a") 7 3600000000000, .tick 1500, .clean reloadSlow, .clean reloadSlow, .clean reloadSlow]) (str! "slow") = some (5, 60000) := by
  decide +kernel

/-- **C89, expired entries while the clean-up waits.** As long as the clean-up waits for an upstream, no other clean-up runs, and an
expired value is still returned, however long ago its lifetime ended. -/
theorem C89_stale_unbounded (n : Nat) :
    lookup (runActs (newCleaner 0 1000) (cleaningTwo ++ [.tick n])).st (str! "a") = some (1, 0) := by
  rw [runActs_append, lookup_eq]
  have h : (runActs (runActs (newCleaner 0 1000) cleaningTwo) [.tick n]).st =
      ⟨(runActs (newCleaner 0 1000) cleaningTwo).st.cache, (runActs (newCleaner 0 1000) cleaningTwo).st.now + n⟩ := rfl
  rw [h]
  have hp : (runActs (newCleaner 0 1000) cleaningTwo).st.cache.peek (str! "a") = some ⟨1, 2000⟩ := by decide +kernel
  have hn : (runActs (newCleaner 0 1000) cleaningTwo).st.now = 3000 := by decide +kernel
  simp only [hp, hn, Option.map_some, remainTTL]
  rw [if_neg (by omega)]

-- Concrete executions for the theorems above: the same clean-up run to its end.
example : (runActs (newCleaner 0 1000) (cleaningTwo ++ [.put (str! "a") 7 3600000000000, .tick 1500, .clean reloadSlow, .clean reloadSlow])).pc = .delete [str! "a"] ∧
    (runActs (newCleaner 0 1000) (cleaningTwo ++ [.clean reloadSlow, .clean reloadSlow, .clean reloadSlow, .clean reloadSlow])).pc = .idle ∧
    seenAfter (cleaningTwo ++ [.clean reloadSlow, .clean reloadSlow, .clean reloadSlow, .clean reloadSlow]) (str! "a") = none := by
  decide +kernel

end Verif.Props
