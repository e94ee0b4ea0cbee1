/-
C47: client names.
-/
import Verif.Model.ClientNames
import Verif.Lemmas.ExpCache

namespace Verif.Props
open Dns ClientNames ExpCache

variable {W : Type}

/-- The names an answer of a reverse lookup contains. -/
def ptrNames (answer : List RR) : List Str :=
  answer.filterMap (fun r => match r.data with | .ptr t => some (trimSuffixDot t) | _ => none)

/-- What the specification allows as result of reducing names to a configured order: without order all
names; otherwise exactly the name at the first listed position that exists. -/
def Reduced (order : List Nat) (names result : List Str) : Prop :=
  (order = [] → result = names) ∧
  (∀ pre i post n, order = pre ++ i :: post → 0 < i → names[i - 1]? = some n →
    (∀ j ∈ pre, j = 0 ∨ names[j - 1]? = none) → result = [n])

/-- The order has a usable position. -/
def Usable (order : List Nat) (names : List Str) : Prop := ∃ i ∈ order, 0 < i ∧ i ≤ names.length

theorem pickName_of (names : List Str) (pre : List Nat) (i : Nat) (post : List Nat) (n : Str) (hi : 0 < i)
    (hn : names[i - 1]? = some n) (hpre : ∀ j ∈ pre, j = 0 ∨ names[j - 1]? = none) :
    pickName names (pre ++ i :: post) = [n] := by
  induction pre with
  | nil => simp only [List.nil_append, pickName, gt_iff_lt, hi, if_true, hn]
  | cons j pre ih =>
    have ih := ih (fun k hk => hpre k (List.mem_cons_of_mem _ hk))
    simp only [List.cons_append, pickName]
    rcases hpre j (List.mem_cons_self ..) with h | h
    · rw [if_neg (by omega)]; exact ih
    · rw [h]; simp only; split <;> exact ih

/-- C47, one lookup: which names a client gets, source by source. `answer` is what the reverse lookup
gives. The last part says what "reduced to the configured order" gives, provided a listed position
exists; missing is the other case, which is `C47_order_out_of_range`. -/
theorem C47_sources_partial (cfg : Cfg) (lookup : Option (Lookup W)) (ip : IP) (w : W) :
    -- configured names
    (∀ n, (∃ ips, (n, ips) ∈ cfg.mapping ∧ ∃ i ∈ ips, cfg.ipString i = cfg.ipString ip) →
      n ∈ (resolveClientNames cfg lookup ip w).1 ∧ (resolveClientNames cfg lookup ip w).2 = w) ∧
    ((∃ n ips, (n, ips) ∈ cfg.mapping ∧ ∃ i ∈ ips, cfg.ipString i = cfg.ipString ip) →
      ∀ n ∈ (resolveClientNames cfg lookup ip w).1,
        ∃ ips, (n, ips) ∈ cfg.mapping ∧ ∃ i ∈ ips, cfg.ipString i = cfg.ipString ip) ∧
    -- otherwise
    ((∀ n ips, (n, ips) ∈ cfg.mapping → ∀ i ∈ ips, cfg.ipString i ≠ cfg.ipString ip) →
      (lookup = none → (resolveClientNames cfg lookup ip w).1 = [cfg.ipString ip]) ∧
      (∀ ask, lookup = some ask →
        ((ask ip w).1 = none → (resolveClientNames cfg lookup ip w).1 = [cfg.ipString ip]) ∧
        (∀ answer, (ask ip w).1 = some answer →
          Reduced cfg.order (if ptrNames answer = [] then [cfg.ipString ip] else ptrNames answer)
            (resolveClientNames cfg lookup ip w).1))) := by
  have hmem : ∀ n, n ∈ fromMapping cfg ip ↔ ∃ ips, (n, ips) ∈ cfg.mapping ∧ ∃ i ∈ ips, cfg.ipString i = cfg.ipString ip := by
    intro n
    unfold fromMapping
    simp only [List.mem_flatMap, List.mem_map, List.mem_filter, beq_iff_eq]
    constructor
    · rintro ⟨⟨n', ips⟩, he, i, ⟨hi, hs⟩, rfl⟩
      exact ⟨ips, he, i, hi, hs.symm⟩
    · rintro ⟨ips, he, i, hi, hs⟩
      exact ⟨(n, ips), he, i, ⟨hi, hs.symm⟩, rfl⟩
  have hpos : (∃ n, n ∈ fromMapping cfg ip) → resolveClientNames cfg lookup ip w = (fromMapping cfg ip, w) := by
    rintro ⟨n, hn⟩
    unfold resolveClientNames
    rw [if_pos (List.length_pos_of_mem hn)]
  refine ⟨?_, ?_, ?_⟩
  · intro n hn
    have := (hmem n).2 hn
    rw [hpos ⟨n, this⟩]
    exact ⟨this, rfl⟩
  · rintro ⟨n0, h0⟩ n hn
    rw [hpos ⟨n0, (hmem n0).2 h0⟩] at hn
    exact (hmem n).1 hn
  · intro hno
    have hnil : ¬ (fromMapping cfg ip).length > 0 := by
      intro h
      obtain ⟨n, hn⟩ := List.exists_mem_of_length_pos h
      obtain ⟨ips, h1, i, h2, h3⟩ := (hmem n).1 hn
      exact hno n ips h1 i h2 h3
    refine ⟨?_, ?_⟩
    · rintro rfl
      unfold resolveClientNames
      rw [if_neg hnil]
    · rintro ask rfl
      refine ⟨?_, ?_⟩
      · intro h
        unfold resolveClientNames
        rw [if_neg hnil]
        cases hx : ask ip w with
        | mk r w' =>
          rw [hx] at h
          simp only at h
          subst h
          simp only [hx]
      · intro answer h
        have hfa : fromAnswer cfg answer ip = if ptrNames answer = [] then [cfg.ipString ip] else ptrNames answer := by
          unfold fromAnswer
          show (if (ptrNames answer).length = 0 then _ else ptrNames answer) = _
          simp only [List.length_eq_zero_iff]
        have hres : (resolveClientNames cfg (some ask) ip w).1 =
            if cfg.order.length > 0 then pickName (fromAnswer cfg answer ip) cfg.order else fromAnswer cfg answer ip := by
          unfold resolveClientNames
          rw [if_neg hnil]
          cases hx : ask ip w with
          | mk r w' =>
            rw [hx] at h
            simp only at h
            subst h
            simp only [hx]
            split <;> rfl
        rw [hres, hfa]
        refine ⟨?_, ?_⟩
        · intro ho
          rw [ho]; simp
        · intro pre i post n ho hi hn hpre
          rw [if_pos (by rw [ho]; simp; omega), ho]
          exact pickName_of _ pre i post n hi hn hpre

/-- C47: with a usable configured order exactly one name is attached. -/
theorem C47_single_name (order : List Nat) (names : List Str) (h : Usable order names) :
    ∃ n ∈ names, pickName names order = [n] := by
  induction order with
  | nil => obtain ⟨i, hi, _⟩ := h; cases hi
  | cons j order ih =>
    unfold pickName
    split
    · cases hn : names[j - 1]? with
      | some n => exact ⟨n, List.mem_of_getElem? hn, rfl⟩
      | none =>
        apply ih
        obtain ⟨i, hi, h0, hl⟩ := h
        rcases List.mem_cons.1 hi with rfl | hi
        · have := List.getElem?_eq_none_iff.1 hn
          omega
        · exact ⟨i, hi, h0, hl⟩
    · rename_i hj
      apply ih
      obtain ⟨i, hi, h0, hl⟩ := h
      rcases List.mem_cons.1 hi with rfl | hi
      · omega
      · exact ⟨i, hi, h0, hl⟩

example : pickName [str! "laptop", str! "laptop.lan"] [3, 2, 1] = [str! "laptop.lan"] := by decide

/-- C47 is false in one case: if no listed position exists - for example order `[2]` and a reverse lookup
with one name, or with none -, the client has no name at all, not even its address. -/
theorem C47_order_out_of_range (order : List Nat) (names : List Str) (h : ¬ Usable order names) :
    pickName names order = [] := by
  induction order with
  | nil => rfl
  | cons j order ih =>
    have ih := ih (fun ⟨i, hi, h'⟩ => h ⟨i, List.mem_cons_of_mem _ hi, h'⟩)
    unfold pickName
    split
    · rename_i hj
      have : names[j - 1]? = none := by
        apply List.getElem?_eq_none_iff.2
        have : ¬ (0 < j ∧ j ≤ names.length) := fun h' => h ⟨j, List.mem_cons_self .., h'⟩
        omega
      rw [this]
      exact ih
    · exact ih

/-- The witness: a failing order with an ordinary answer. -/
theorem C47_no_name_at_all :
    (resolveClientNames (W := Unit) ⟨[], [2], fun _ => str! "192.168.1.7"⟩
      (some (fun _ w => (some [{ name := str! "7.1.168.192.in-addr.arpa.", rtype := 12, ttl := 60, data := .ptr (str! "laptop.") }], w)))
      (.v4 0xc0a80107#32) ()).1 = [] := by decide

/-- C47: the client id comes first, a request without address has no names, and names are looked up if
the cache has none for the address (and then are stored). -/
theorem C47_get_names (cfg : Cfg) (lookup : Option (Lookup W)) (request : Request) (c : St (List Str)) (w : W) :
    (request.requestClientID ≠ [] → getClientNames cfg lookup request c w = ([request.requestClientID], c, w)) ∧
    (request.requestClientID = [] → request.clientIP = none → getClientNames cfg lookup request c w = ([], c, w)) ∧
    (∀ ip, request.requestClientID = [] → request.clientIP = some ip → c.cache.peek (cfg.ipString ip) = none →
      (getClientNames cfg lookup request c w).1 = (resolveClientNames cfg lookup ip w).1 ∧
      (getClientNames cfg lookup request c w).2.2 = (resolveClientNames cfg lookup ip w).2) ∧
    (∀ ip el, request.requestClientID = [] → request.clientIP = some ip → c.cache.peek (cfg.ipString ip) = some el →
      (getClientNames cfg lookup request c w).1 = el.val ∧ (getClientNames cfg lookup request c w).2.2 = w) := by
  refine ⟨?_, ?_, ?_, ?_⟩
  · intro h; unfold getClientNames; rw [if_pos h]
  · intro h1 h2; unfold getClientNames; rw [if_neg (by simp [h1]), h2]
  · intro ip h1 h2 h3
    unfold getClientNames
    rw [if_neg (by simp [h1]), h2]
    simp only [Cache.get, h3, and_self]
  · intro ip el h1 h2 h3
    unfold getClientNames
    rw [if_neg (by simp [h1]), h2]
    simp only [Cache.get, h3, and_self]

/-! #### Histories -/

/-- What happens to the resolver: a request, a clean-up of the cache, time passing, a flush. -/
inductive NameEvent where
  | request (r : Request)
  | cleanUp
  | tick (ms : Nat)
  | flush

/-- State of the resolver and its surroundings. -/
structure NameState (W : Type) where
  cache : St (List Str)
  world : W

/-- One event: the names attached to a request, if it was one. -/
def nameStep (cfg : Cfg) (lookup : Option (Lookup W)) (s : NameState W) : NameEvent → Option (List Str) × NameState W
  | .request r =>
    let (names, c, w) := getClientNames cfg lookup r s.cache s.world
    (some names, ⟨c, w⟩)
  | .cleanUp => (none, { s with cache := cleanUp s.cache (fun _ => none) })
  | .tick d => (none, { s with cache := step s.cache (.tick d) })
  | .flush => (none, { s with cache := step s.cache .clear })

/-- A history. -/
def nameRun (cfg : Cfg) (lookup : Option (Lookup W)) (s : NameState W) (es : List NameEvent) : NameState W :=
  es.foldl (fun s e => (nameStep cfg lookup s e).2) s

/-- The cached names of every address are what some lookup for an address printed that way gave. -/
def NamesSound (cfg : Cfg) (lookup : Option (Lookup W)) (c : St (List Str)) : Prop :=
  ∀ k el, (k, el) ∈ c.cache.items → ∃ ip w, cfg.ipString ip = k ∧ el.val = (resolveClientNames cfg lookup ip w).1

theorem step_items_subset {V : Type} (s : St V) (o : Op V) (x : Str × Element V) (h : x ∈ (step s o).cache.items) :
    x ∈ s.cache.items ∨ ∃ k v ttl, o = .put k v ttl ∧ x.1 = k ∧ x.2.val = v := by
  cases o with
  | get k =>
    left
    simp only [step, Cache.get] at h
    cases hp : s.cache.peek k with
    | none => rw [hp] at h; exact h
    | some el =>
      rw [hp] at h
      simp only [Cache.touch, hp] at h
      rcases List.mem_cons.1 h with rfl | h
      · exact AMap.get_eq_some_mem hp
      · exact (List.mem_filter.1 h).1
  | remove k =>
    left
    simp only [step, Cache.remove] at h
    exact (List.mem_filter.1 h).1
  | clear => simp [step] at h
  | tick d => exact Or.inl h
  | put k v ttl =>
    simp only [step, Cache.put] at h
    split at h
    · exact Or.inl h
    · unfold Cache.add at h
      split at h
      · rcases List.mem_cons.1 h with rfl | h
        · exact Or.inr ⟨k, v, ttl, rfl, rfl, rfl⟩
        · exact Or.inl (List.mem_filter.1 h).1
      · split at h
        · have h := List.dropLast_subset _ h
          rcases List.mem_cons.1 h with rfl | h
          · exact Or.inr ⟨k, v, ttl, rfl, rfl, rfl⟩
          · exact Or.inl h
        · rcases List.mem_cons.1 h with rfl | h
          · exact Or.inr ⟨k, v, ttl, rfl, rfl, rfl⟩
          · exact Or.inl h

theorem run_removes_subset {V : Type} (ks : List Str) : ∀ (s : St V) (x : Str × Element V),
    x ∈ (run s (ks.map Op.remove)).cache.items → x ∈ s.cache.items := by
  induction ks with
  | nil => intro s x h; exact h
  | cons k ks ih =>
    intro s x h
    have := ih (step s (.remove k)) x h
    rcases step_items_subset s (.remove k) x this with h | ⟨_, _, _, h, _⟩
    · exact h
    · cases h

theorem namesSound_step (cfg : Cfg) (lookup : Option (Lookup W)) (s : NameState W)
    (h : NamesSound cfg lookup s.cache) (e : NameEvent) : NamesSound cfg lookup (nameStep cfg lookup s e).2.cache := by
  cases e with
  | tick d => exact h
  | flush => intro k el hm; simp [nameStep, step] at hm
  | cleanUp =>
    intro k el hm
    apply h
    simp only [nameStep, cleanUp, cleanUpOps] at hm
    have hnone : ∀ l : List Str, l.filterMap (fun _ => (none : Option (Op (List Str)))) = [] := by
      intro l; induction l with
      | nil => rfl
      | cons a l ih => simp
    simp only [Option.map_none, hnone, List.nil_append] at hm
    exact run_removes_subset _ _ _ hm
  | request r =>
    simp only [nameStep, getClientNames]
    split
    · exact h
    · split
      · exact h
      · rename_i ip _
        cases hp : s.cache.cache.peek (cfg.ipString ip) with
        | some el =>
          simp only [Cache.get, hp]
          intro k el' hm
          apply h
          simp only [Cache.touch, hp] at hm
          rcases List.mem_cons.1 hm with hm | hm
          · rw [hm]; exact AMap.get_eq_some_mem hp
          · exact (List.mem_filter.1 hm).1
        | none =>
          simp only [Cache.get, hp]
          intro k el hm
          rcases step_items_subset _ _ _ hm with hm | ⟨k', v, ttl, ho, hk, hv⟩
          · exact h k el hm
          · injection ho with h1 h2 h3
            exact ⟨ip, s.world, by rw [h1]; exact hk.symm, by rw [h2]; exact hv⟩

/-- C47 over histories: whatever requests came before and however the cache was cleaned, the names attached
to a request without client id are those that a lookup - now or earlier - gave for its address. -/
theorem C47_history (cfg : Cfg) (lookup : Option (Lookup W)) (hinj : ∀ a b, cfg.ipString a = cfg.ipString b → a = b)
    (maxSize : Nat) (t0 : Int) (w0 : W) (es : List NameEvent) (r : Request) (ip : IP)
    (hid : r.requestClientID = []) (hip : r.clientIP = some ip) :
    ∃ w, (getClientNames cfg lookup r (nameRun cfg lookup ⟨⟨newCache maxSize, t0⟩, w0⟩ es).cache
        (nameRun cfg lookup ⟨⟨newCache maxSize, t0⟩, w0⟩ es).world).1 = (resolveClientNames cfg lookup ip w).1 := by
  have hs : ∀ (es : List NameEvent) (s : NameState W), NamesSound cfg lookup s.cache →
      NamesSound cfg lookup (nameRun cfg lookup s es).cache := by
    intro es
    induction es with
    | nil => intro s h; exact h
    | cons e es ih => intro s h; exact ih _ (namesSound_step cfg lookup s h e)
  have h0 : NamesSound cfg lookup (⟨newCache maxSize, t0⟩ : St (List Str)) := by
    intro k el hm
    unfold newCache at hm
    cases hm
  have hsound := hs es ⟨⟨newCache maxSize, t0⟩, w0⟩ h0
  generalize nameRun cfg lookup ⟨⟨newCache maxSize, t0⟩, w0⟩ es = s at hsound
  have hg := C47_get_names cfg lookup r s.cache s.world
  cases hp : s.cache.cache.peek (cfg.ipString ip) with
  | none => exact ⟨s.world, (hg.2.2.1 ip hid hip hp).1⟩
  | some el =>
    obtain ⟨ip', w, h1, h2⟩ := hsound _ el (AMap.get_eq_some_mem hp)
    have := hinj _ _ h1
    subst this
    exact ⟨w, by rw [(hg.2.2.2 ip' el hid hip hp).1, h2]⟩

/-- A failed reverse lookup is also kept for an hour: the next request gets the address as name although
the lookup would now succeed. -/
theorem C47_failure_is_cached :
    let cfg : Cfg := ⟨[], [], fun _ => str! "192.168.1.7"⟩
    let lookup : Option (Lookup Nat) := some (fun _ w => (if w = 0 then none else
      some [{ name := str! "7.1.168.192.in-addr.arpa.", rtype := 12, ttl := 60, data := .ptr (str! "laptop.") }], w + 1))
    let r : Request := { clientIP := some (.v4 0xc0a80107#32), req := {} }
    let s := nameRun cfg lookup ⟨⟨newCache 0, 0⟩, 0⟩ [.request r, .tick 3000000]
    s.world = 1 ∧ (getClientNames cfg lookup r s.cache s.world).1 = [str! "192.168.1.7"] ∧
      (resolveClientNames cfg lookup (.v4 0xc0a80107#32) s.world).1 = [str! "laptop"] := by decide

theorem peek_after_removes {V : Type} (ks : List Str) (k : Str) : ∀ (s : St V),
    (run s (ks.map Op.remove)).cache.peek k = if k ∈ ks then none else s.cache.peek k := by
  have hrem : ∀ (l : List (Str × Element V)) (j : Str), AMap.get (l.filter (fun e => decide (e.1 ≠ j))) k =
      if k = j then none else AMap.get l k := by
    intro l j
    induction l with
    | nil => simp [AMap.get]
    | cons e l ih =>
      by_cases hj : e.1 = j
      · rw [List.filter_cons_of_neg (by simp [hj]), ih]
        by_cases hk : k = j
        · simp [hk]
        · obtain ⟨a, b⟩ := e
          simp only at hj
          subst hj
          simp only [if_neg hk, AMap.get]
          rw [if_neg (Ne.symm hk)]
      · rw [List.filter_cons_of_pos (by simp [hj])]
        obtain ⟨a, b⟩ := e
        simp only [AMap.get, ih]
        by_cases hk : k = j
        · subst hk
          simp only [if_true]
          rw [if_neg hj]
        · simp only [if_neg hk]
  induction ks with
  | nil => intro s; simp [run]
  | cons j ks ih =>
    intro s
    have := ih (step s (.remove j))
    show (run (step s (.remove j)) (ks.map Op.remove)).cache.peek k = _
    rw [this]
    show (if k ∈ ks then none else AMap.get (s.cache.items.filter (fun e => decide (e.1 ≠ j))) k) = _
    rw [hrem]
    by_cases h1 : k ∈ ks
    · simp [h1]
    · by_cases h2 : k = j
      · simp [h2]
      · simp [h1, h2, Cache.peek]

/-- C47, how long names are kept: after names were looked up, the first clean-up which comes more than
one hour (3 600 000 ms) later forgets them, and no earlier one does. -/
theorem C47_kept_for_an_hour (cfg : Cfg) (lookup : Option (Lookup W)) (r : Request) (ip : IP) (s : NameState W)
    (hcap : 0 < s.cache.cache.cap) (hnow : 0 ≤ s.cache.now)
    (hid : r.requestClientID = []) (hip : r.clientIP = some ip) (hnew : s.cache.cache.peek (cfg.ipString ip) = none)
    (d : Nat) :
    ((nameRun cfg lookup s [.request r, .tick d, .cleanUp]).cache.cache.peek (cfg.ipString ip) ≠ none ↔ d ≤ 3600000) := by
  have h1 : (nameStep cfg lookup s (.request r)).2.cache.now = s.cache.now ∧
      ∃ names, ∃ rest, (nameStep cfg lookup s (.request r)).2.cache.cache.items =
        (cfg.ipString ip, ⟨names, s.cache.now + 3600000⟩) :: rest ∧ ∀ x ∈ rest, x.1 ≠ cfg.ipString ip := by
    have hnk : ∀ x ∈ s.cache.cache.items, x.1 ≠ cfg.ipString ip := by
      intro x hx he
      have : AMap.get s.cache.cache.items (cfg.ipString ip) ≠ none := by
        intro h
        exact AMap.get_eq_none_iff.1 h (by rw [← he]; exact List.mem_map_of_mem hx)
      exact this hnew
    have hnm : cfg.ipString ip ∉ s.cache.cache.items.map Prod.fst := by
      intro h
      obtain ⟨x, hx, he⟩ := List.mem_map.1 h
      exact hnk x hx he
    simp only [nameStep, getClientNames]
    rw [if_neg (by simp [hid]), hip]
    simp only [Cache.get, hnew, step]
    refine ⟨trivial, ?_⟩
    unfold Cache.put
    rw [if_neg (by decide)]
    unfold Cache.add
    rw [if_neg hnm]
    split
    · rename_i hl
      cases hx : s.cache.cache.items with
      | nil => rw [hx] at hl; simp at hl; omega
      | cons a l =>
        refine ⟨_, (a :: l).dropLast, rfl, ?_⟩
        intro x h
        exact hnk x (by rw [hx]; exact List.dropLast_subset _ h)
    · exact ⟨_, _, rfl, hnk⟩
  obtain ⟨hn, names, rest, hitems, hrest⟩ := h1
  have hrun : nameRun cfg lookup s [.request r, .tick d, .cleanUp] =
      (nameStep cfg lookup (nameStep cfg lookup (nameStep cfg lookup s (.request r)).2 (.tick d)).2 .cleanUp).2 := rfl
  rw [hrun]
  generalize (nameStep cfg lookup s (.request r)).2 = s1 at hn hitems
  simp only [nameStep, step, cleanUp, cleanUpOps, Option.map_none, Option.isNone_none]
  have hnone : ∀ l : List Str, l.filterMap (fun _ => (none : Option (Op (List Str)))) = [] := by
    intro l; induction l with
    | nil => rfl
    | cons a l ih => simp
  rw [hnone, List.nil_append, peek_after_removes, List.filter_eq_self.2 (fun _ _ => rfl)]
  have hp : s1.cache.cache.peek (cfg.ipString ip) = some ⟨names, s.cache.now + 3600000⟩ := by
    unfold Cache.peek
    rw [hitems]
    simp [AMap.get]
  have hk : cfg.ipString ip ∈ s1.cache.cache.expiredKeys (s1.cache.now + d) ↔ 3600000 < d := by
    unfold Cache.expiredKeys
    simp only [List.mem_map, List.mem_filter, List.mem_reverse, hitems, List.mem_cons, isExpired, Bool.and_eq_true,
      decide_eq_true_eq]
    constructor
    · rintro ⟨x, ⟨rfl | hx, h1, h2⟩, he⟩
      · simp only at h2; omega
      · exact absurd he (hrest x hx)
    · intro h
      exact ⟨_, ⟨Or.inl rfl, by simp only; omega, by simp only; omega⟩, rfl⟩
  rw [hp]
  by_cases h : 3600000 < d
  · rw [if_pos (hk.2 h)]
    simp only [ne_eq, not_true_eq_false, false_iff]
    omega
  · rw [if_neg (fun h' => h (hk.1 h'))]
    simp only [ne_eq, reduceCtorEq, not_false_eq_true, true_iff]
    omega

/-- Instance: an hour and one millisecond later the clean-up forgets the names. -/
example : (nameRun (W := Unit) ⟨[], [], fun _ => str! "192.168.1.7"⟩ none ⟨⟨newCache 0, 5⟩, ()⟩
    [.request { clientIP := some (.v4 0xc0a80107#32), req := {} }, .tick 3600001, .cleanUp]).cache.cache.items.length = 0 := by decide

end Verif.Props
