/-
C64: clients identified by domain names.
-/
import Verif.Model.FqdnClients
import Verif.Props.Blocking
import Verif.Lemmas.ExpCache

namespace Verif.Props
open Spec Dns ExpCache FqdnClients

/-! ### Specification -/

/-- The records of the successful answers to the two address questions for a name. -/
def addressRecords (ask : Ask) (identifier : Str) : List RR :=
  let of (t : Nat) : List RR := match ask (fqdn identifier) t with
    | some m => if m.rcode = 0 then m.answer else []
    | none => []
  of 1 ++ of 28

/-- The addresses of the name. -/
def IsAddressOf (ask : Ask) (identifier : Str) (ip : IP) : Prop :=
  ∃ r ∈ addressRecords ask identifier, r.data = .a ip ∨ r.data = .aaaa ip

/-- The look-up gives something that is stored: its last record has a lifetime, of `ttl` seconds. -/
def UsableFor (ask : Ask) (identifier : Str) (ttl : Nat) : Prop :=
  ∃ r, (addressRecords ask identifier).getLast? = some r ∧ r.ttl.toNat = ttl ∧ ttl ≠ 0

/-! ### The look-up -/

theorem collect_eq (rs : List RR) : ∀ (ips : List IP) (d : Int),
    (∀ ip, ip ∈ (collect rs (ips, d)).1 ↔ ip ∈ ips ∨ ∃ r ∈ rs, r.data = .a ip ∨ r.data = .aaaa ip) ∧
    (collect rs (ips, d)).2 = match rs.getLast? with | some r => (r.ttl.toNat : Int) * 1000000000 | none => d := by
  induction rs with
  | nil => intro ips d; simp [collect]
  | cons r rs ih =>
    intro ips d
    have hl : ∀ d : Int, (match (r :: rs).getLast? with | some r => (r.ttl.toNat : Int) * 1000000000 | none => d) =
        match rs.getLast? with | some r' => (r'.ttl.toNat : Int) * 1000000000 | none => (r.ttl.toNat : Int) * 1000000000 := by
      intro d
      cases rs with
      | nil => rfl
      | cons a l =>
        rw [List.getLast?_cons_cons]
        cases h : (a :: l).getLast? with
        | none => simp at h
        | some x => rfl
    rw [hl]
    unfold collect
    simp only
    cases hd : r.data with
    | a x =>
      simp only
      obtain ⟨h1, h2⟩ := ih (ips ++ [x]) ((r.ttl.toNat : Int) * 1000000000)
      refine ⟨fun ip => ?_, h2⟩
      rw [h1]
      simp [hd, or_assoc, eq_comm]
    | aaaa x =>
      simp only
      obtain ⟨h1, h2⟩ := ih (ips ++ [x]) ((r.ttl.toNat : Int) * 1000000000)
      refine ⟨fun ip => ?_, h2⟩
      rw [h1]
      simp [hd, or_assoc, eq_comm]
    | _ =>
      simp only
      obtain ⟨h1, h2⟩ := ih ips ((r.ttl.toNat : Int) * 1000000000)
      refine ⟨fun ip => ?_, h2⟩
      rw [h1]
      simp [hd]

theorem collect_append (a b : List RR) : ∀ acc, collect (a ++ b) acc = collect b (collect a acc) := by
  induction a with
  | nil => intro acc; rfl
  | cons r a ih =>
    intro acc
    simp only [List.cons_append, collect]
    split <;> exact ih _

theorem query_eq (ask : Ask) (i : Str) : queryForFQIdentifierIPs ask i = collect (addressRecords ask i) ([], 0) := by
  unfold queryForFQIdentifierIPs addressRecords
  simp only [collectTypes, collect_append, typeA, typeAAAA, rcodeSuccess]
  cases h1 : ask (fqdn i) 1 <;> cases h2 : ask (fqdn i) 28 <;> simp only [collect]
  · rename_i m2; by_cases c2 : m2.rcode = 0 <;> simp [c2, collect]
  · rename_i m1; by_cases c1 : m1.rcode = 0 <;> simp [c1, collect]
  · rename_i m1 m2; by_cases c1 : m1.rcode = 0 <;> by_cases c2 : m2.rcode = 0 <;> simp [c1, c2, collect]

theorem query_addresses (ask : Ask) (i : Str) (ip : IP) :
    ip ∈ (queryForFQIdentifierIPs ask i).1 ↔ IsAddressOf ask i ip := by
  rw [query_eq, (collect_eq _ _ _).1]
  simp [IsAddressOf]

theorem query_ttl (ask : Ask) (i : Str) :
    (∀ ttl, UsableFor ask i ttl → (queryForFQIdentifierIPs ask i).2 = ttl * 1000000000 ∧ 0 < ttl) ∧
    ((∀ ttl, ¬ UsableFor ask i ttl) → (queryForFQIdentifierIPs ask i).2 ≤ 0) := by
  rw [query_eq, (collect_eq _ _ _).2]
  constructor
  · rintro ttl ⟨r, h1, h2, h3⟩
    rw [h1]
    simp only [h2, true_and]
    omega
  · intro h
    cases hl : (addressRecords ask i).getLast? with
    | none => simp
    | some r =>
      by_cases h0 : r.ttl.toNat = 0
      · simp [h0]
      · exact absurd ⟨r, hl, rfl, h0⟩ (h r.ttl.toNat)

/-! ### The cache as a function -/

/-- The cache holds identifiers of the configuration only, each once, and has room for all of them. -/
structure Roomy (ids : List Str) (s : St (List IP)) : Prop where
  room : ids.length ≤ s.cache.cap
  nodup : (s.cache.items.map Prod.fst).Nodup
  sub : ∀ k ∈ s.cache.items.map Prod.fst, k ∈ ids

theorem amap_get_filter_ne {V : Type} (l : List (Str × V)) (j k : Str) (h : k ≠ j) :
    AMap.get (l.filter (fun e => decide (e.1 ≠ j))) k = AMap.get l k := by
  induction l with
  | nil => rfl
  | cons e l ih =>
    obtain ⟨a, b⟩ := e
    by_cases hj : a = j
    · subst hj
      rw [List.filter_cons_of_neg (by simp), ih]
      simp only [AMap.get]
      rw [if_neg (Ne.symm h)]
    · rw [List.filter_cons_of_pos (by simpa using hj)]
      simp only [AMap.get, ih]

theorem roomy_put {ids : List Str} {s : St (List IP)} (h : Roomy ids s) (k : Str) (hk : k ∈ ids) (v : List IP) (ttl : Int) :
    Roomy ids (step s (.put k v ttl)) ∧ (step s (.put k v ttl)).now = s.now ∧
    ∀ k', (step s (.put k v ttl)).cache.peek k' =
      if k' = k ∧ 0 < ttl then some ⟨v, s.now + ttl / 1000000⟩ else s.cache.peek k' := by
  by_cases ht : ttl ≤ 0
  · have hs : step s (.put k v ttl) = s := by simp [step, Cache.put, ht]
    rw [hs]
    refine ⟨h, rfl, fun k' => ?_⟩
    rw [if_neg (by omega)]
  · by_cases hin : k ∈ s.cache.items.map Prod.fst
    · have hs : step s (.put k v ttl) = ⟨⟨s.cache.cap,
          (k, ⟨v, s.now + ttl / 1000000⟩) :: s.cache.items.filter (fun e => decide (e.1 ≠ k))⟩, s.now⟩ := by
        simp only [step, Cache.put, if_neg ht, Cache.add, if_pos hin]
      rw [hs]
      refine ⟨⟨h.room, ?_, ?_⟩, rfl, fun k' => ?_⟩
      · simp only [List.map_cons, List.nodup_cons]
        refine ⟨?_, h.nodup.sublist (List.Sublist.map _ List.filter_sublist)⟩
        intro hm
        obtain ⟨e, he, hek⟩ := List.mem_map.1 hm
        simpa [hek] using (List.mem_filter.1 he).2
      · intro k' hk'
        simp only [List.map_cons, List.mem_cons] at hk'
        rcases hk' with rfl | hk'
        · exact hk
        · obtain ⟨e, he, hek⟩ := List.mem_map.1 hk'
          exact h.sub _ (hek ▸ List.mem_map_of_mem (List.mem_filter.1 he).1)
      · simp only [Cache.peek]
        by_cases he : k' = k
        · subst he
          simp [AMap.get]
          omega
        · simp only [AMap.get]
          rw [if_neg (Ne.symm he), amap_get_filter_ne _ _ _ he, if_neg (fun hc => he hc.1)]
    · have hroom : ¬ s.cache.items.length + 1 > s.cache.cap := by
        have hnd : (k :: s.cache.items.map Prod.fst).Nodup := List.nodup_cons.2 ⟨hin, h.nodup⟩
        have := nodup_length_le hnd (m := ids) (by
          intro x hx
          rcases List.mem_cons.1 hx with rfl | hx
          · exact hk
          · exact h.sub x hx)
        have := h.room
        simp only [List.length_cons, List.length_map] at *
        omega
      have hs : step s (.put k v ttl) = ⟨⟨s.cache.cap, (k, ⟨v, s.now + ttl / 1000000⟩) :: s.cache.items⟩, s.now⟩ := by
        simp only [step, Cache.put, if_neg ht, Cache.add, if_neg hin, if_neg hroom]
      rw [hs]
      refine ⟨⟨h.room, ?_, ?_⟩, rfl, fun k' => ?_⟩
      · exact List.nodup_cons.2 ⟨hin, h.nodup⟩
      · intro k' hk'
        simp only [List.map_cons, List.mem_cons] at hk'
        rcases hk' with rfl | hk'
        · exact hk
        · exact h.sub _ hk'
      · simp only [Cache.peek]
        by_cases he : k' = k
        · subst he
          simp [AMap.get]
          omega
        · simp only [AMap.get]
          rw [if_neg (Ne.symm he), if_neg (fun hc => he hc.1)]

/-- Storing the look-ups of several identifiers. -/
theorem roomy_puts {ids : List Str} (ask : Ask) (ks : List Str) : ∀ {s : St (List IP)}, Roomy ids s → (∀ k ∈ ks, k ∈ ids) →
    let s' := ks.foldl (fun s i => step s (.put i (queryForFQIdentifierIPs ask i).1 (queryForFQIdentifierIPs ask i).2)) s
    Roomy ids s' ∧ s'.now = s.now ∧
    ∀ k, s'.cache.peek k = if k ∈ ks ∧ 0 < (queryForFQIdentifierIPs ask k).2 then
        some ⟨(queryForFQIdentifierIPs ask k).1, s.now + (queryForFQIdentifierIPs ask k).2 / 1000000⟩
      else s.cache.peek k := by
  induction ks with
  | nil => intro s h _; exact ⟨h, rfl, fun k => by simp⟩
  | cons i ks ih =>
    intro s h hk
    obtain ⟨h1, h2, h3⟩ := roomy_put h i (hk i (List.mem_cons_self ..)) (queryForFQIdentifierIPs ask i).1 (queryForFQIdentifierIPs ask i).2
    obtain ⟨g1, g2, g3⟩ := ih h1 (fun k hm => hk k (List.mem_cons_of_mem _ hm))
    simp only [List.foldl_cons]
    refine ⟨g1, g2.trans h2, fun k => ?_⟩
    rw [g3 k, h3 k, h2]
    by_cases ha : k ∈ ks ∧ 0 < (queryForFQIdentifierIPs ask k).2
    · rw [if_pos ha, if_pos ⟨List.mem_cons_of_mem _ ha.1, ha.2⟩]
    · rw [if_neg ha]
      by_cases hb : k = i
      · subst hb
        by_cases hc : 0 < (queryForFQIdentifierIPs ask k).2
        · rw [if_pos ⟨rfl, hc⟩, if_pos ⟨List.mem_cons_self .., hc⟩]
        · rw [if_neg (fun h => hc h.2), if_neg (fun h => hc h.2)]
      · rw [if_neg (fun h => hb h.1), if_neg]
        rintro ⟨hm, hc⟩
        rcases List.mem_cons.1 hm with h | h
        · exact hb h
        · exact ha ⟨h, hc⟩

/-- What a clean-up does to one identifier. -/
theorem roomy_cleanUp {ids : List Str} {s : St (List IP)} (h : Roomy ids s) (ask : Ask) :
    Roomy ids (cleanUpFQDN ask s) ∧ (cleanUpFQDN ask s).now = s.now ∧
    ∀ k, (cleanUpFQDN ask s).cache.peek k =
      if (∃ el, s.cache.peek k = some el ∧ isExpired s.now el = true) ∧ 0 < (queryForFQIdentifierIPs ask k).2 then
        some ⟨(queryForFQIdentifierIPs ask k).1, s.now + (queryForFQIdentifierIPs ask k).2 / 1000000⟩
      else s.cache.peek k := by
  have hops : ∀ ks : List Str, cleanUpOps ks (fun k => some (queryForFQIdentifierIPs ask k)) =
      ks.map (fun k => Op.put k (queryForFQIdentifierIPs ask k).1 (queryForFQIdentifierIPs ask k).2) := by
    intro ks
    unfold cleanUpOps
    have : ks.filter (fun k => ((fun k => some (queryForFQIdentifierIPs ask k)) k).isNone) = [] := by
      simp
    rw [this]
    simp only [List.map_nil, List.append_nil, Option.map_some]
    induction ks with
    | nil => rfl
    | cons k ks ih => simp [List.filterMap_cons]
  have hkeys : ∀ k, k ∈ s.cache.expiredKeys s.now ↔ ∃ el, s.cache.peek k = some el ∧ isExpired s.now el = true := by
    intro k
    unfold Cache.expiredKeys
    simp only [List.mem_map, List.mem_filter, List.mem_reverse]
    constructor
    · rintro ⟨⟨k', el⟩, ⟨hm, he⟩, rfl⟩
      exact ⟨el, AMap.Uniq.get_of_mem h.nodup hm, he⟩
    · rintro ⟨el, hp, he⟩
      exact ⟨(k, el), ⟨AMap.get_eq_some_mem hp, he⟩, rfl⟩
  have hrun : cleanUpFQDN ask s = (s.cache.expiredKeys s.now).foldl
      (fun s i => step s (.put i (queryForFQIdentifierIPs ask i).1 (queryForFQIdentifierIPs ask i).2)) s := by
    unfold cleanUpFQDN cleanUp
    rw [hops]
    unfold run
    rw [List.foldl_map]
  rw [hrun]
  have hsub : ∀ k ∈ s.cache.expiredKeys s.now, k ∈ ids := by
    intro k hk
    obtain ⟨el, hp, _⟩ := (hkeys k).1 hk
    exact h.sub k (List.mem_map_of_mem (AMap.get_eq_some_mem hp))
  obtain ⟨h1, h2, h3⟩ := roomy_puts ask _ h hsub
  refine ⟨h1, h2, fun k => ?_⟩
  rw [h3 k]
  simp only [hkeys]

theorem roomy_get {ids : List Str} {s : St (List IP)} (h : Roomy ids s) (i : Str) :
    Roomy ids (step s (.get i)) ∧ (step s (.get i)).now = s.now ∧ ∀ k, (step s (.get i)).cache.peek k = s.cache.peek k := by
  cases hp : s.cache.peek i with
  | none => simp only [step, Cache.get, hp]; exact ⟨h, trivial, fun _ => trivial⟩
  | some el =>
    have hm := AMap.get_eq_some_mem hp
    simp only [step, Cache.get, hp, Cache.touch]
    refine ⟨⟨h.room, ?_, ?_⟩, trivial, fun k => ?_⟩
    · simp only [List.map_cons, List.nodup_cons]
      refine ⟨?_, h.nodup.sublist (List.Sublist.map _ List.filter_sublist)⟩
      intro hmm
      obtain ⟨e, he, hek⟩ := List.mem_map.1 hmm
      simpa [hek] using (List.mem_filter.1 he).2
    · intro k' hk'
      simp only [List.map_cons, List.mem_cons] at hk'
      rcases hk' with rfl | hk'
      · exact h.sub _ (List.mem_map_of_mem hm)
      · obtain ⟨e, he, hek⟩ := List.mem_map.1 hk'
        exact h.sub _ (hek ▸ List.mem_map_of_mem (List.mem_filter.1 he).1)
    · simp only [Cache.peek, AMap.get]
      by_cases he : i = k
      · subst he
        rw [if_pos rfl]
        exact hp.symm
      · rw [if_neg he, amap_get_filter_ne _ _ _ (Ne.symm he)]

theorem roomy_next {ids : List Str} {s : St (List IP)} (h : Roomy ids s) (e : Event) : Roomy ids (next s e) := by
  cases e with
  | cleanUp ask => exact (roomy_cleanUp h ask).1
  | get i => exact (roomy_get h i).1
  | tick d => exact ⟨h.room, h.nodup, h.sub⟩

theorem roomy_events {ids : List Str} (es : List Event) : ∀ {s : St (List IP)}, Roomy ids s → Roomy ids (es.foldl next s) := by
  induction es with
  | nil => intro s h; exact h
  | cons e es ih => intro s h; exact ih (roomy_next h e)

theorem roomy_empty (ids : List Str) (hl : ids.length ≤ 10000) (t0 : Int) : Roomy ids (⟨newCache 0, t0⟩ : St (List IP)) :=
  ⟨hl, List.nodup_nil, fun _ h => by cases h⟩

theorem roomy_after (ids : List Str) (hl : ids.length ≤ 10000) (t0 : Int) (ask : Ask) (es : List Event) :
    Roomy ids (after ids t0 ask es) :=
  roomy_events es (roomy_puts ask _ (roomy_empty ids hl t0) (fun _ h => (List.mem_filter.1 h).1)).1

/-! ### C64 -/

/-- The identifier has a dot inside. -/
def IsName (i : Str) : Prop := ∃ a b, i = a ++ '.' :: b ∧ (∃ c ∈ a, c ≠ '.') ∧ ∃ c ∈ b, c ≠ '.'

theorem dropWhile_append_keep {p : Char → Bool} (a b : Str) (h : ∃ c ∈ a, p c = false) :
    ∃ a', (a ++ b).dropWhile p = a' ++ b ∧ ∃ c ∈ a', p c = false := by
  induction a with
  | nil => obtain ⟨c, hc, _⟩ := h; cases hc
  | cons x a ih =>
    by_cases hx : p x = true
    · rw [List.cons_append, List.dropWhile_cons, if_pos hx]
      apply ih
      obtain ⟨c, hc, hp⟩ := h
      rcases List.mem_cons.1 hc with rfl | hc
      · rw [hx] at hp; cases hp
      · exact ⟨c, hc, hp⟩
    · rw [List.cons_append, List.dropWhile_cons, if_neg hx]
      exact ⟨x :: a, rfl, h⟩

theorem dropWhile_head {p : Char → Bool} (l : Str) {x : Char} {xs : Str} (h : l.dropWhile p = x :: xs) : p x = false := by
  induction l with
  | nil => cases h
  | cons a l ih =>
    rw [List.dropWhile_cons] at h
    split at h
    · exact ih h
    · rename_i hp
      injection h with h1 _
      subst h1
      simpa using hp

theorem isFQDN_iff (i : Str) : Blocking.isFQDN i = true ↔ IsName i := by
  unfold Blocking.isFQDN trimDots trimRightDots trimLeftDots IsName
  constructor
  · intro h
    have hL : i = i.takeWhile (· == '.') ++ i.dropWhile (· == '.') := List.takeWhile_append_dropWhile.symm
    have hh := @dropWhile_head (· == '.') i
    generalize i.takeWhile (· == '.') = l at hL
    generalize i.dropWhile (· == '.') = L at *
    have hR : L.reverse = L.reverse.takeWhile (· == '.') ++ L.reverse.dropWhile (· == '.') := List.takeWhile_append_dropWhile.symm
    have hr := @dropWhile_head (· == '.') L.reverse
    generalize L.reverse.takeWhile (· == '.') = r at hR
    generalize L.reverse.dropWhile (· == '.') = M at *
    have hM : '.' ∈ M := by simpa using h
    obtain ⟨b, a, rfl⟩ := List.append_of_mem hM
    have hL2 : L = a.reverse ++ '.' :: (b.reverse ++ r.reverse) := by
      have := congrArg List.reverse hR
      simpa using this
    refine ⟨l ++ a.reverse, b.reverse ++ r.reverse, by rw [hL, hL2]; simp, ?_, ?_⟩
    · cases ha : a.reverse with
      | nil => rw [ha] at hL2; exact absurd (hh hL2) (by simp)
      | cons c cs =>
        rw [ha] at hL2
        exact ⟨c, by simp, by simpa using hh hL2⟩
    · cases b with
      | nil => exact absurd (hr rfl) (by simp)
      | cons c cs => exact ⟨c, by simp, by simpa using hr rfl⟩
  · rintro ⟨a, b, rfl, ⟨c, hc, hne⟩, ⟨d, hd, hne'⟩⟩
    obtain ⟨a', ha', _⟩ := dropWhile_append_keep (p := (· == '.')) a ('.' :: b) ⟨c, hc, by simpa using hne⟩
    rw [ha']
    have hrev : (a' ++ '.' :: b).reverse = b.reverse ++ '.' :: a'.reverse := by simp
    rw [hrev]
    obtain ⟨b', hb', _⟩ := dropWhile_append_keep (p := (· == '.')) b.reverse ('.' :: a'.reverse) ⟨d, by simpa using hd, by simpa using hne'⟩
    rw [hb']
    simp

/-- C64: an identifier stands for exactly the addresses that one look-up of its name gave, at the start or at
a later clean-up, never for a mixture or anything else. -/
theorem C64_known_addresses (ids : List Str) (hl : ids.length ≤ 10000) (t0 : Int) (ask : Ask) (es : List Event) (i : Str)
    (ips : List IP) (h : known (after ids t0 ask es) i = some ips) :
    i ∈ ids ∧ ∃ ask', (ask' = ask ∨ .cleanUp ask' ∈ es) ∧ (∃ ttl, UsableFor ask' i ttl) ∧ ∀ ip, ip ∈ ips ↔ IsAddressOf ask' i ip := by
  refine ⟨?_, ?_⟩
  · have hr := roomy_after ids hl t0 ask es
    unfold known at h
    cases hp : (after ids t0 ask es).cache.peek i with
    | none => rw [hp] at h; cases h
    | some el => exact hr.sub i (List.mem_map_of_mem (AMap.get_eq_some_mem hp))
  have hus : ∀ a : Ask, 0 < (queryForFQIdentifierIPs a i).2 → ∃ ttl, UsableFor a i ttl := by
    intro a ha
    apply Classical.byContradiction
    intro hn
    have := (query_ttl a i).2 (fun ttl ht => hn ⟨ttl, ht⟩)
    omega
  have key : ∀ (es : List Event) (s : St (List IP)), Roomy ids s → ∀ ips, known (es.foldl next s) i = some ips →
      known s i = some ips ∨ ∃ ask', .cleanUp ask' ∈ es ∧ (∃ ttl, UsableFor ask' i ttl) ∧ ∀ ip, ip ∈ ips ↔ IsAddressOf ask' i ip := by
    intro es
    induction es with
    | nil => intro s _ ips h; exact Or.inl h
    | cons e es ih =>
      intro s hr ips h
      rcases ih (next s e) (roomy_next hr e) ips h with h | ⟨a, h1, h2⟩
      · cases e with
        | tick d => exact Or.inl h
        | get j =>
          left
          unfold known at h ⊢
          rw [← (roomy_get hr j).2.2 i]
          exact h
        | cleanUp a =>
          unfold known at h
          simp only [next] at h
          rw [(roomy_cleanUp hr a).2.2 i] at h
          split at h
          · rename_i hc
            right
            simp only [Option.map_some, Option.some.injEq] at h
            subst h
            exact ⟨a, List.mem_cons_self .., hus a hc.2, query_addresses a i⟩
          · exact Or.inl h
      · exact Or.inr ⟨a, List.mem_cons_of_mem _ h1, h2⟩
  have h0 := roomy_puts ask (ids.filter Blocking.isFQDN) (roomy_empty ids hl t0) (fun _ h => (List.mem_filter.1 h).1)
  rcases key es (initFQDNIPCache ask ids ⟨newCache 0, t0⟩) h0.1 ips h with h | ⟨a, h1, h2⟩
  · unfold known initFQDNIPCache at h
    rw [h0.2.2 i] at h
    split at h
    · rename_i hc
      simp only [Option.map_some, Option.some.injEq] at h
      subst h
      exact ⟨ask, Or.inl rfl, hus ask hc.2, query_addresses ask i⟩
    · cases h
  · exact ⟨a, Or.inr h1, h2⟩

/-- C64: what the identifier stands for after the start (and when that expires: after the lifetime of
the last record, in ms), and what becomes of it at a clean-up once it has expired. -/
theorem C64_refreshed (ids : List Str) (hl : ids.length ≤ 10000) (t0 : Int) (ask : Ask) (i : Str) (hi : i ∈ ids) (hn : IsName i) :
    (∀ ttl, UsableFor ask i ttl → ∃ ips, known (after ids t0 ask []) i = some ips ∧ (∀ ip, ip ∈ ips ↔ IsAddressOf ask i ip) ∧
      (after ids t0 ask []).cache.peek i = some ⟨ips, t0 + 1000 * ttl⟩) ∧
    (∀ es ask' ttl', UsableFor ask' i ttl' →
      (∃ el, (after ids t0 ask es).cache.peek i = some el ∧ isExpired (after ids t0 ask es).now el = true) →
      ∃ ips, known (after ids t0 ask (es ++ [.cleanUp ask'])) i = some ips ∧ ∀ ip, ip ∈ ips ↔ IsAddressOf ask' i ip) := by
  refine ⟨?_, ?_⟩
  · intro ttl hu
    obtain ⟨h1, h2⟩ := (query_ttl ask i).1 ttl hu
    have h0 := roomy_puts ask (ids.filter Blocking.isFQDN) (roomy_empty ids hl t0) (fun _ h => (List.mem_filter.1 h).1)
    have hp : (after ids t0 ask []).cache.peek i = some ⟨(queryForFQIdentifierIPs ask i).1, t0 + 1000 * ttl⟩ := by
      show (initFQDNIPCache ask ids ⟨newCache 0, t0⟩).cache.peek i = _
      unfold initFQDNIPCache
      rw [h0.2.2 i, if_pos ⟨List.mem_filter.2 ⟨hi, (isFQDN_iff i).2 hn⟩, by omega⟩, h1]
      have : (ttl : Int) * 1000000000 / 1000000 = 1000 * ttl := by omega
      rw [this]
    refine ⟨(queryForFQIdentifierIPs ask i).1, ?_, query_addresses ask i, hp⟩
    unfold known
    rw [hp]
    rfl
  · intro es ask' ttl' hu hex
    obtain ⟨h1, h2⟩ := (query_ttl ask' i).1 ttl' hu
    have hr := roomy_after ids hl t0 ask es
    refine ⟨(queryForFQIdentifierIPs ask' i).1, ?_, query_addresses ask' i⟩
    have : after ids t0 ask (es ++ [.cleanUp ask']) = cleanUpFQDN ask' (after ids t0 ask es) := by
      unfold after
      rw [List.foldl_append]
      rfl
    rw [this]
    unfold known
    rw [(roomy_cleanUp hr ask').2.2 i, if_pos ⟨hex, by omega⟩]
    rfl

/-- C64, the use: a client whose address is one of those the name had at the start is in the groups of
the name, unless they are switched off. -/
theorem C64_client_in_groups (env : Blocking.Env) (c : Blocking.BCfg) (hl : (Blocking.clientGroupsBlock c).keys.length ≤ 10000) (t0 : Int)
    (ask : Ask) (i : Str) (ttl : Nat) (hn : IsName i) (hu : UsableFor ask i ttl) (gs : List Str) (he : HasEntry c i gs) (g : Str) (hg : g ∈ gs)
    (s : Blocking.Status) (hs : g ∉ s.disabledGroups) (request : Request) (ip : IP) (hip : request.clientIP = some ip)
    (ha : IsAddressOf ask i ip) :
    g ∈ Blocking.groupsToCheck env (Blocking.clientGroupsBlock c)
      (known (after (Blocking.clientGroupsBlock c).keys t0 ask [])) s request := by
  rw [C17_groups_of_client]
  have hi : i ∈ (Blocking.clientGroupsBlock c).keys := by
    obtain ⟨l, h1, _⟩ := (clientGroupsBlock_spec c i g).2.2 ⟨gs, he, hg⟩
    exact AMap.get_isSome_iff.1 (by rw [h1]; rfl)
  obtain ⟨ips, h1, h2, _⟩ := (C64_refreshed _ hl t0 ask i hi hn).1 ttl hu
  refine ⟨hs, Or.inl ⟨i, gs, he, Or.inr (Or.inr (Or.inr ⟨(isFQDN_iff i).2 hn, ips, ip, h1, (h2 ip).2 ha, hip⟩)), hg⟩⟩


/-- C64 is false, first: a name whose look-up fails at the start is never looked up again, its clients are never
recognised. -/
theorem C64_never_retried_false (ids : List Str) (hl : ids.length ≤ 10000) (t0 : Int) (ask : Ask) (es : List Event) (i : Str)
    (h : ∀ ttl, ¬ UsableFor ask i ttl) : known (after ids t0 ask es) i = none := by
  have h0 := roomy_puts ask (ids.filter Blocking.isFQDN) (roomy_empty ids hl t0) (fun _ h => (List.mem_filter.1 h).1)
  have key : ∀ (es : List Event) (s : St (List IP)), Roomy ids s → s.cache.peek i = none → (es.foldl next s).cache.peek i = none := by
    intro es
    induction es with
    | nil => intro s _ h; exact h
    | cons e es ih =>
      intro s hr hp
      refine ih (next s e) (roomy_next hr e) ?_
      cases e with
      | tick d => exact hp
      | get j => exact ((roomy_get hr j).2.2 i).trans hp
      | cleanUp a =>
        show (cleanUpFQDN a s).cache.peek i = none
        rw [(roomy_cleanUp hr a).2.2 i, hp]
        simp
  have : (after ids t0 ask es).cache.peek i = none := by
    refine key es _ h0.1 ?_
    unfold initFQDNIPCache
    rw [h0.2.2 i, if_neg]
    · rfl
    · have := (query_ttl ask i).2 h
      omega
  unfold known
  rw [this]
  rfl

/-- C64 is false, second: while look-ups fail, or when the name exists no more, its clients keep the groups - for ever. -/
theorem C64_stale_for_ever_false (ids : List Str) (hl : ids.length ≤ 10000) (t0 : Int) (ask : Ask) (es : List Event) (i : Str)
    (h : ∀ ask', .cleanUp ask' ∈ es → ∀ ttl, ¬ UsableFor ask' i ttl) :
    known (after ids t0 ask es) i = known (after ids t0 ask []) i := by
  have h0 := roomy_puts ask (ids.filter Blocking.isFQDN) (roomy_empty ids hl t0) (fun _ h => (List.mem_filter.1 h).1)
  have key : ∀ (es : List Event), (∀ ask', .cleanUp ask' ∈ es → ∀ ttl, ¬ UsableFor ask' i ttl) → ∀ (s : St (List IP)), Roomy ids s →
      (es.foldl next s).cache.peek i = s.cache.peek i := by
    intro es
    induction es with
    | nil => intro _ s _; rfl
    | cons e es ih =>
      intro hes s hr
      refine (ih (fun a ha => hes a (List.mem_cons_of_mem _ ha)) (next s e) (roomy_next hr e)).trans ?_
      cases e with
      | tick d => rfl
      | get j => exact (roomy_get hr j).2.2 i
      | cleanUp a =>
        show (cleanUpFQDN a s).cache.peek i = _
        rw [(roomy_cleanUp hr a).2.2 i, if_neg]
        have := (query_ttl a i).2 (hes a (List.mem_cons_self ..))
        omega
  unfold known
  rw [show (after ids t0 ask es).cache.peek i = (after ids t0 ask []).cache.peek i from key es h _ h0.1]

/-- A name with one address. -/
def laptopAsk (ttl4 ttl6 : UInt32) : Ask := fun n t =>
  if n = str! "laptop.lan." then
    some { answer := if t = 1 then [{ name := n, rtype := 1, ttl := ttl4, data := .a (.v4 0xc0a80107#32) }]
      else [{ name := n, rtype := 28, ttl := ttl6, data := .aaaa (.v6 7#128) }] }
  else some { rcode := rcodeNXDomain }

example : UsableFor (laptopAsk 60 3600) (str! "laptop.lan") 3600 ∧ IsAddressOf (laptopAsk 60 3600) (str! "laptop.lan") (.v4 0xc0a80107#32) ∧
    IsName (str! "laptop.lan") :=
  ⟨⟨_, rfl, rfl, by decide⟩, ⟨_, List.mem_cons_self .., Or.inl rfl⟩, ⟨str! "laptop", str! "lan", rfl, ⟨'l', by decide, by decide⟩, 'l', by decide, by decide⟩⟩

/-- The name is gone, and ten thousand seconds later the address still stands for it. -/
example : known (after [str! "laptop.lan"] 1000 (laptopAsk 60 60) [.tick 10000000, .cleanUp (fun _ _ => some { rcode := rcodeNXDomain })])
    (str! "laptop.lan") = some [.v4 0xc0a80107#32, .v6 7#128] := by decide

/-- C64 is false, third: the lifetime is that of the last record only. An address record of one minute is kept for an
hour if the other family's record says so, and nothing is stored at all if that one has lifetime 0. -/
theorem C64_lifetime_of_last_record_false :
    known (after [str! "laptop.lan"] 1000 (laptopAsk 60 3600) [.tick 3500000, .cleanUp (fun _ _ => none), .cleanUp (laptopAsk 0 0)])
      (str! "laptop.lan") = some [.v4 0xc0a80107#32, .v6 7#128] ∧
    known (after [str! "laptop.lan"] 1000 (laptopAsk 60 0) []) (str! "laptop.lan") = none := by decide

/-- C64 is false, fourth: identifiers that are addresses or subnets are looked up as names, too. Whatever an upstream
answers to such a question - here the address 8.8.8.8 - is given the groups of the address. -/
theorem C64_addresses_looked_up_false :
    let c : Blocking.BCfg := { clientGroupsBlock := [(str! "192.168.1.7", [str! "kids"]), (str! "default", [str! "ads"])] }
    let ask : Ask := fun n t => if n = str! "192.168.1.7." ∧ t = 1 then
      some { answer := [{ name := n, rtype := 1, ttl := 60, data := .a (.v4 0x08080808#32) }] } else none
    Blocking.groupsToCheck plainEnv (Blocking.clientGroupsBlock c) (known (after (Blocking.clientGroupsBlock c).keys 1000 ask [])) {}
      { clientIP := some (.v4 0x08080808#32), req := {} } = [str! "kids"] := by decide

end Verif.Props
