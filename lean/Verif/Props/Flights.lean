/-
C92: flushing the cache while queries are under way.
-/
import Verif.Model.Flights
import Verif.Props.ExpCache

namespace Verif.Props
open Caching ExpCache Dns Flights

/-- An entry in the cache after an operation was there before or is the one just stored. -/
theorem items_step {V : Type} (s : ExpCache.St V) (op : Op V) (x : Str × Element V) (h : x ∈ (ExpCache.step s op).cache.items) :
    x ∈ s.cache.items ∨ ∃ k v ttl, op = .put k v ttl ∧ x.1 = k ∧ x.2.val = v := by
  cases op with
  | put k v ttl =>
    simp only [ExpCache.step, Cache.put] at h
    split at h
    · exact .inl h
    · unfold Cache.add at h
      split at h
      · rcases List.mem_cons.1 h with rfl | h
        · exact .inr ⟨k, v, ttl, rfl, rfl, rfl⟩
        · exact .inl (List.mem_filter.1 h).1
      · split at h
        · have h := List.dropLast_subset _ h
          rcases List.mem_cons.1 h with rfl | h
          · exact .inr ⟨k, v, ttl, rfl, rfl, rfl⟩
          · exact .inl h
        · rcases List.mem_cons.1 h with rfl | h
          · exact .inr ⟨k, v, ttl, rfl, rfl, rfl⟩
          · exact .inl h
  | get k =>
    left
    simp only [ExpCache.step, Cache.get] at h
    split at h
    · next el hp =>
      unfold Cache.touch at h
      rw [hp] at h
      rcases List.mem_cons.1 h with rfl | h
      · exact AMap.get_eq_some_mem hp
      · exact (List.mem_filter.1 h).1
    · exact h
  | remove k => exact .inl (List.mem_filter.1 h).1
  | clear => cases h
  | tick d => exact .inl h

theorem items_run {V : Type} (ops : List (Op V)) (s : ExpCache.St V) (x : Str × Element V) (h : x ∈ (ExpCache.run s ops).cache.items) :
    x ∈ s.cache.items ∨ ∃ k v ttl, Op.put k v ttl ∈ ops ∧ x.1 = k ∧ x.2.val = v := by
  induction ops generalizing s with
  | nil => exact .inl h
  | cons o ops ih =>
    rcases ih _ h with h | ⟨k, v, ttl, h1, h2⟩
    · rcases items_step s o x h with h | ⟨k, v, ttl, rfl, h2⟩
      · exact .inl h
      · exact .inr ⟨k, v, ttl, List.mem_cons_self, h2⟩
    · exact .inr ⟨k, v, ttl, List.mem_cons_of_mem _ h1, h2⟩

/-- Storing an answer stores under the query's key, with the answer's number. -/
theorem stored_tag {env : Env} {c : Cfg} {key : Str} {m : Msg} {ttl : Int} {n : Nat} {k : Str} {v : Msg × Nat} {t : Int}
    (h : Op.put k v t ∈ (putOps env c key m ttl).map (tag n)) : k = key ∧ v.2 = n := by
  obtain ⟨o, ho, he⟩ := List.mem_map.1 h
  unfold putOps at ho
  simp only at ho
  split at ho
  · split at ho
    · cases List.mem_singleton.1 ho
      cases he
      exact ⟨rfl, rfl⟩
    · split at ho
      · split at ho
        · cases List.mem_singleton.1 ho
          cases he
          exact ⟨rfl, rfl⟩
        · cases ho
      · cases ho
  · cases ho

theorem found_mem {s : Flights.St} {k : Str} {v : Msg × Nat} (h : found s k = some v) :
    ∃ el, (k, el) ∈ s.cache.cache.items ∧ el.val = v := by
  unfold found Cache.get at h
  split at h
  · next el hp =>
    cases h
    exact ⟨el, AMap.get_eq_some_mem hp, rfl⟩
  · cases h

/-- What cache and queries under way can hold: answers with property `P`. -/
structure AllFrom (P : Str → Nat → Prop) (s : Flights.St) : Prop where
  entries : ∀ x ∈ s.cache.cache.items, P x.1 x.2.val.2
  flights : ∀ f ∈ s.flights, ∀ r n, f.answer = some (r, n) → P f.key n

theorem AllFrom.step {P : Str → Nat → Prop} {env : Env} {c : Cfg} {s : Flights.St} (h : AllFrom P s) (hnew : ∀ k, P k s.obtained) (e : Ev) :
    AllFrom P (Flights.step env c s e) := by
  have keep : ∀ op : Op (Msg × Nat), (∀ k v ttl, op ≠ .put k v ttl) → ∀ x ∈ (ExpCache.step s.cache op).cache.items, P x.1 x.2.val.2 := by
    intro op hop x hx
    rcases items_step _ _ _ hx with hx | ⟨k, v, ttl, ho, _⟩
    · exact h.entries x hx
    · exact absurd ho (hop k v ttl)
  cases e with
  | query k =>
    unfold Flights.step
    simp only
    split
    · exact ⟨keep _ (fun _ _ _ h => nomatch h), h.flights⟩
    · refine ⟨keep _ (fun _ _ _ h => nomatch h), ?_⟩
      intro f hf r n hn
      rcases List.mem_append.1 hf with hf | hf
      · exact h.flights f hf r n hn
      · cases List.mem_singleton.1 hf
        cases hn
  | answer i r =>
    unfold Flights.step
    simp only
    split
    · next f hf =>
      split
      · exact h
      · refine ⟨h.entries, ?_⟩
        intro g hg r' n hn
        rcases List.mem_or_eq_of_mem_set hg with hg | rfl
        · exact h.flights g hg r' n hn
        · cases hn
          exact hnew _
    · exact h
  | store i =>
    unfold Flights.step
    simp only
    split
    · next f hf =>
      split
      · next r n hn =>
        refine ⟨?_, fun g hg => h.flights g (List.mem_of_mem_eraseIdx hg)⟩
        intro x hx
        rcases items_run _ _ _ hx with hx | ⟨k, v, ttl, ho, h1, h2⟩
        · exact h.entries x hx
        · obtain ⟨rfl, hv⟩ := stored_tag ho
          rw [h1, h2, hv]
          exact h.flights f (List.mem_of_getElem? hf) r n hn
      · exact h
    · exact h
  | fail i =>
    unfold Flights.step
    simp only
    split
    · split
      · exact h
      · exact ⟨h.entries, fun g hg => h.flights g (List.mem_of_mem_eraseIdx hg)⟩
    · exact h
  | drop k => exact ⟨keep _ (fun _ _ _ h => nomatch h), h.flights⟩
  | flush => exact ⟨keep _ (fun _ _ _ h => nomatch h), h.flights⟩
  | tick d => exact ⟨keep _ (fun _ _ _ h => nomatch h), h.flights⟩

theorem obtained_mono (env : Env) (c : Cfg) (s : Flights.St) (e : Ev) : s.obtained ≤ (Flights.step env c s e).obtained := by
  cases e with
  | query k => unfold Flights.step; simp only; split <;> exact Nat.le_refl _
  | answer i r =>
    unfold Flights.step
    simp only
    split
    · split
      · exact Nat.le_refl _
      · exact Nat.le_succ _
    · exact Nat.le_refl _
  | store i => unfold Flights.step; simp only; split <;> (try split) <;> exact Nat.le_refl _
  | fail i => unfold Flights.step; simp only; split <;> (try split) <;> exact Nat.le_refl _
  | drop k => exact Nat.le_refl _
  | flush => exact Nat.le_refl _
  | tick d => exact Nat.le_refl _

theorem AllFrom.run {P : Str → Nat → Prop} {env : Env} {c : Cfg} (es : List Ev) {s : Flights.St} (h : AllFrom P s)
    (hnew : ∀ k n, s.obtained ≤ n → P k n) : AllFrom P (Flights.run env c s es) := by
  induction es generalizing s with
  | nil => exact h
  | cons e es ih =>
    exact ih (h.step (fun k => hnew k _ (Nat.le_refl _)) e) (fun k n hn => hnew k n (Nat.le_trans (obtained_mono env c s e) hn))

theorem flights_run_append (env : Env) (c : Cfg) (s : Flights.St) (a b : List Ev) :
    Flights.run env c s (a ++ b) = Flights.run env c (Flights.run env c s a) b := by
  simp [Flights.run]

/-- **C92 (partial).** Whatever is served from the cache after a flush was obtained after the flush - or it is the answer that a query
under way at the flush had received for that very question and not stored yet. Missing: these, see `C92_flush_outlived`. -/
theorem C92_after_flush_partial (env : Env) (c : Cfg) (maxSize : Nat) (now : Int) (as bs : List Ev) (k : Str) (m : Msg) (n : Nat)
    (h : found (Flights.run env c (Flights.start maxSize now) (as ++ .flush :: bs)) k = some (m, n)) :
    (Flights.run env c (Flights.start maxSize now) as).obtained ≤ n ∨
    ∃ f ∈ (Flights.run env c (Flights.start maxSize now) as).flights, f.key = k ∧ ∃ r, f.answer = some (r, n) := by
  rw [flights_run_append] at h
  generalize Flights.run env c (Flights.start maxSize now) as = s at *
  have h0 : AllFrom (fun k n => s.obtained ≤ n ∨ ∃ f ∈ s.flights, f.key = k ∧ ∃ r, f.answer = some (r, n)) (Flights.step env c s .flush) :=
    ⟨(fun x hx => by cases hx), fun f hf r n hn => .inr ⟨f, hf, rfl, r, hn⟩⟩
  have h1 := AllFrom.run (env := env) (c := c) bs h0 (fun k n hn => .inl hn)
  obtain ⟨el, h2, h3⟩ := found_mem h
  have := h1.entries _ h2
  rw [h3] at this
  exact this

/-- **C92 without queries under way.** If at the time of the flush no query has an answer it has not stored yet, everything served from the cache
afterwards was obtained after the flush. -/
theorem C92_quiet_flush (env : Env) (c : Cfg) (maxSize : Nat) (now : Int) (as bs : List Ev) (k : Str) (m : Msg) (n : Nat)
    (hq : ∀ f ∈ (Flights.run env c (Flights.start maxSize now) as).flights, f.answer = none)
    (h : found (Flights.run env c (Flights.start maxSize now) (as ++ .flush :: bs)) k = some (m, n)) :
    (Flights.run env c (Flights.start maxSize now) as).obtained ≤ n := by
  rcases C92_after_flush_partial env c maxSize now as bs k m n h with h | ⟨f, hf, _, r, hr⟩
  · exact h
  · rw [hq f hf] at hr
    cases hr

/-! ### Never back to an older answer -/

/-- What keeps answers in order: at most one query under way per question. -/
def NoOverlap (k : Str) (s : Flights.St) : Prop := (s.flights.filter (fun f => f.key = k)).length ≤ 1

/-- Order of the answers to one question. -/
structure InOrder (k : Str) (s : Flights.St) : Prop where
  known : ∀ x ∈ s.cache.cache.items, x.2.val.2 < s.obtained
  knownF : ∀ f ∈ s.flights, ∀ r n, f.answer = some (r, n) → n < s.obtained
  newer : ∀ el, (k, el) ∈ s.cache.cache.items → ∀ f ∈ s.flights, f.key = k → ∀ r n, f.answer = some (r, n) → el.val.2 ≤ n

theorem two_flights {k : Str} {l : List Flight} (h : (l.filter (fun f => f.key = k)).length ≤ 1) {i : Nat} {f : Flight} (hi : l[i]? = some f)
    (hk : f.key = k) : ∀ g ∈ l.eraseIdx i, g.key ≠ k := by
  intro g hg hgk
  have h1 : (l.filter (fun f => f.key = k)).length = ((l.eraseIdx i).filter (fun f => f.key = k)).length + 1 := by
    induction l generalizing i with
    | nil => cases hi
    | cons a l ih =>
      cases i with
      | zero =>
        simp only [List.getElem?_cons_zero, Option.some.injEq] at hi
        subst hi
        simp [hk]
      | succ i =>
        simp only [List.getElem?_cons_succ] at hi
        simp only [List.eraseIdx_cons_succ]
        by_cases ha : a.key = k
        · exfalso
          have : f ∈ l.filter (fun f => f.key = k) := List.mem_filter.2 ⟨List.mem_of_getElem? hi, by simpa using hk⟩
          have := List.length_pos_of_mem this
          simp only [ha, List.filter_cons, decide_true, if_true, List.length_cons] at h
          omega
        · simp only [ha, List.filter_cons, decide_false, Bool.false_eq_true, if_false] at h ⊢
          simp only [List.eraseIdx_cons_succ] at hg
          rcases List.mem_cons.1 hg with rfl | hg
          · exact absurd hgk ha
          · exact ih h hi hg
  have h2 : g ∈ (l.eraseIdx i).filter (fun f => f.key = k) := List.mem_filter.2 ⟨hg, by simpa using hgk⟩
  have := List.length_pos_of_mem h2
  omega

theorem InOrder.step {env : Env} {c : Cfg} {k : Str} {s : Flights.St} (h : InOrder k s) (hno : NoOverlap k s) (e : Ev) :
    InOrder k (Flights.step env c s e) := by
  have keep : ∀ op : Op (Msg × Nat), (∀ k v ttl, op ≠ .put k v ttl) → ∀ x ∈ (ExpCache.step s.cache op).cache.items, x ∈ s.cache.cache.items := by
    intro op hop x hx
    rcases items_step _ _ _ hx with hx | ⟨k, v, ttl, ho, _⟩
    · exact hx
    · exact absurd ho (hop k v ttl)
  cases e with
  | query q =>
    unfold Flights.step
    simp only
    have hk := keep (.get q) (fun _ _ _ h => nomatch h)
    split
    · exact ⟨fun x hx => h.known x (hk x hx), h.knownF, fun el hel => h.newer el (hk _ hel)⟩
    · refine ⟨fun x hx => h.known x (hk x hx), ?_, ?_⟩
      · intro f hf r n hn
        rcases List.mem_append.1 hf with hf | hf
        · exact h.knownF f hf r n hn
        · cases List.mem_singleton.1 hf
          cases hn
      · intro el hel f hf hfk r n hn
        rcases List.mem_append.1 hf with hf | hf
        · exact h.newer el (hk _ hel) f hf hfk r n hn
        · cases List.mem_singleton.1 hf
          cases hn
  | answer i r =>
    unfold Flights.step
    simp only
    split
    · next f hf =>
      split
      · exact h
      · refine ⟨fun x hx => Nat.lt_succ_of_lt (h.known x hx), ?_, ?_⟩
        · intro g hg r' n hn
          rcases List.mem_or_eq_of_mem_set hg with hg | rfl
          · exact Nat.lt_succ_of_lt (h.knownF g hg r' n hn)
          · cases hn
            exact Nat.lt_succ_self _
        · intro el hel g hg hgk r' n hn
          rcases List.mem_or_eq_of_mem_set hg with hg | rfl
          · exact h.newer el hel g hg hgk r' n hn
          · cases hn
            exact Nat.le_of_lt (h.known _ hel)
    · exact h
  | store i =>
    unfold Flights.step
    simp only
    split
    · next f hf =>
      split
      · next r n hn =>
        have hmem := List.mem_of_getElem? hf
        have hnew : ∀ x ∈ (ExpCache.run s.cache ((putOps env c f.key (adjusted c r).res (adjustTTLs c r.res.answer).2).map (tag n))).cache.items,
            x ∈ s.cache.cache.items ∨ (x.1 = f.key ∧ x.2.val.2 = n) := by
          intro x hx
          rcases items_run _ _ _ hx with hx | ⟨k', v, ttl, ho, h1, h2⟩
          · exact .inl hx
          · obtain ⟨rfl, hv⟩ := stored_tag ho
            exact .inr ⟨h1, by rw [h2, hv]⟩
        refine ⟨?_, fun g hg => h.knownF g (List.mem_of_mem_eraseIdx hg), ?_⟩
        · intro x hx
          rcases hnew x hx with hx | ⟨_, hx⟩
          · exact h.known x hx
          · rw [hx]; exact h.knownF f hmem r n hn
        · intro el hel g hg hgk r' n' hn'
          rcases hnew _ hel with hel | ⟨hfk, _⟩
          · exact h.newer el hel g (List.mem_of_mem_eraseIdx hg) hgk r' n' hn'
          · exact absurd hgk (two_flights hno hf hfk.symm g hg)
      · exact h
    · exact h
  | fail i =>
    unfold Flights.step
    simp only
    split
    · split
      · exact h
      · exact ⟨h.known, fun g hg => h.knownF g (List.mem_of_mem_eraseIdx hg), fun el hel g hg => h.newer el hel g (List.mem_of_mem_eraseIdx hg)⟩
    · exact h
  | drop q =>
    have hk := keep (.remove q) (fun _ _ _ h => nomatch h)
    exact ⟨fun x hx => h.known x (hk x hx), h.knownF, fun el hel => h.newer el (hk _ hel)⟩
  | flush =>
    have hk := keep .clear (fun _ _ _ h => nomatch h)
    exact ⟨fun x hx => h.known x (hk x hx), h.knownF, fun el hel => h.newer el (hk _ hel)⟩
  | tick d =>
    have hk := keep (.tick d) (fun _ _ _ h => nomatch h)
    exact ⟨fun x hx => h.known x (hk x hx), h.knownF, fun el hel => h.newer el (hk _ hel)⟩

theorem InOrder.start (k : Str) (maxSize : Nat) (now : Int) : InOrder k (Flights.start maxSize now) :=
  ⟨(fun x hx => by cases hx), (fun f hf => by cases hf), (fun el hel => by cases hel)⟩

theorem InOrder.run {env : Env} {c : Cfg} {k : Str} (es : List Ev) {s : Flights.St} (h : InOrder k s)
    (hno : ∀ a b, es = a ++ b → NoOverlap k (Flights.run env c s a)) : InOrder k (Flights.run env c s es) := by
  induction es generalizing s with
  | nil => exact h
  | cons e es ih =>
    exact ih (h.step (hno [] (e :: es) rfl) e) (fun a b hab => hno (e :: a) b (by rw [hab]; rfl))

/-- The cache is the result of a history of operations. -/
theorem flights_cache (env : Env) (c : Cfg) (es : List Ev) (s : Flights.St) :
    ∃ ops, (Flights.run env c s es).cache = ExpCache.run s.cache ops := by
  induction es generalizing s with
  | nil => exact ⟨[], rfl⟩
  | cons e es ih =>
    obtain ⟨ops, h⟩ := ih (Flights.step env c s e)
    have h1 : ∃ ops, (Flights.step env c s e).cache = ExpCache.run s.cache ops := by
      cases e with
      | query k =>
        refine ⟨[.get k], ?_⟩
        unfold Flights.step
        simp only
        split <;> rfl
      | answer i r =>
        refine ⟨[], ?_⟩
        unfold Flights.step
        simp only
        split <;> (try split) <;> rfl
      | store i =>
        unfold Flights.step
        simp only
        split
        · split
          · exact ⟨_, rfl⟩
          · exact ⟨[], rfl⟩
        · exact ⟨[], rfl⟩
      | fail i =>
        refine ⟨[], ?_⟩
        unfold Flights.step
        simp only
        split <;> (try split) <;> rfl
      | drop k => exact ⟨[.remove k], rfl⟩
      | flush => exact ⟨[.clear], rfl⟩
      | tick d => exact ⟨[.tick d], rfl⟩
    obtain ⟨ops1, h1⟩ := h1
    refine ⟨ops1 ++ ops, ?_⟩
    rw [run_append, ← h1, ← h]
    rfl

/-- **C92, order (partial).** As long as there is never more than one query for a question under way, what is served from the cache for it never goes back to
an answer obtained earlier than one served before. Missing: overlapping queries, see `C92_older_answer_returns`. -/
theorem C92_never_back_partial (env : Env) (c : Cfg) (maxSize : Nat) (now : Int) (as bs : List Ev) (k : Str) (m m' : Msg) (n n' : Nat)
    (hno : ∀ a b, as ++ bs = a ++ b → NoOverlap k (Flights.run env c (Flights.start maxSize now) a))
    (h : found (Flights.run env c (Flights.start maxSize now) as) k = some (m, n))
    (h' : found (Flights.run env c (Flights.start maxSize now) (as ++ bs)) k = some (m', n')) : n ≤ n' := by
  have ho : InOrder k (Flights.run env c (Flights.start maxSize now) as) :=
    InOrder.run as (InOrder.start k maxSize now) (fun a b hab => hno a (b ++ bs) (by rw [hab, List.append_assoc]))
  rw [flights_run_append] at h'
  obtain ⟨ops, hops⟩ := flights_cache env c as (Flights.start maxSize now)
  have hnd := (fresh_inv maxSize now ops).nodup
  have hnd : ((Flights.run env c (Flights.start maxSize now) as).cache.cache.items.map Prod.fst).Nodup := by rw [hops]; exact hnd
  generalize Flights.run env c (Flights.start maxSize now) as = s at *
  obtain ⟨el, hel, hv⟩ := found_mem h
  have hn : n < s.obtained := by have := ho.known _ hel; rw [hv] at this; exact this
  have h0 : AllFrom (fun k' m => k' = k → n ≤ m) s := by
    refine ⟨?_, ?_⟩
    · rintro ⟨k', el'⟩ hx rfl
      have h1 : AMap.get s.cache.cache.items k' = some el := AMap.Uniq.get_of_mem hnd hel
      have h2 : AMap.get s.cache.cache.items k' = some el' := AMap.Uniq.get_of_mem hnd hx
      rw [h1] at h2
      cases h2
      rw [hv]
      exact Nat.le_refl _
    · intro f hf r j hj hk
      have := ho.newer el hel f hf hk r j hj
      rw [hv] at this
      exact this
  have h1 := AllFrom.run (env := env) (c := c) bs h0 (fun k' m hm _ => Nat.le_trans (Nat.le_of_lt hn) hm)
  obtain ⟨el', hel', hv'⟩ := found_mem h'
  have := h1.entries _ hel' rfl
  rw [hv'] at this
  exact this

/-! ### Where it fails -/

/-- An answer with one address. -/
def flightAnswer (x : BitVec 32) : Response :=
  { res := { id := 1, rcode := 0, response := true, question := [⟨str! "a.b.", 1, 1⟩], answer := [⟨str! "a.b.", 1, 1, 300, .a (.v4 x)⟩] }, rtype := .resolved, reason := [] }

/-- Everything can be packed. -/
def packsAll : Env := ⟨fun _ => true, 7⟩

/-- The number of the answer a query for `k` would be served from the cache. -/
def servedNumber (es : List Ev) : Option Nat :=
  (found (Flights.run packsAll {} (Flights.start 0 1000) es) (str! "k")).map Prod.snd

/-- **C92 is false as stated**: a query gets its answer before the flush and stores it afterwards; from then on it is served from
the cache. -/
theorem C92_flush_outlived :
    servedNumber [.query (str! "k"), .answer 0 (flightAnswer 1), .flush, .store 0] = some 0 ∧
    (Flights.run packsAll {} (Flights.start 0 1000) [.query (str! "k"), .answer 0 (flightAnswer 1)]).obtained = 1 := by
  decide +kernel

/-- **C92, order is false as stated**: of two queries for the same name the one answered first stores last; its answer replaces the newer
one. -/
theorem C92_older_answer_returns :
    servedNumber [.query (str! "k"), .query (str! "k"), .answer 0 (flightAnswer 1), .answer 1 (flightAnswer 2), .store 1] = some 1 ∧
    servedNumber [.query (str! "k"), .query (str! "k"), .answer 0 (flightAnswer 1), .answer 1 (flightAnswer 2), .store 1, .store 0] = some 0 := by
  decide +kernel

-- Concrete: one query at a time, a flush in between; and the queries under way.
example : servedNumber [.query (str! "k"), .answer 0 (flightAnswer 1), .store 0, .query (str! "k")] = some 0 ∧
    servedNumber [.query (str! "k"), .answer 0 (flightAnswer 1), .store 0, .flush, .query (str! "k"), .answer 0 (flightAnswer 2), .store 0] = some 1 ∧
    servedNumber [.query (str! "k"), .answer 0 (flightAnswer 1), .store 0, .flush] = none ∧
    (Flights.run packsAll {} (Flights.start 0 1000) [.query (str! "k"), .query (str! "k"), .fail 0]).flights.length = 1 := by
  decide +kernel

end Verif.Props
