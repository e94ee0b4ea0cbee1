/-
What does not depend on the order in which Go happens to iterate over a map.
-/
import Verif.Model.Chain
import Verif.Props.Chain

namespace Verif.Props
open Dns Spec

/-! ### Lists in another order -/

/-- If at most one element contributes, the order does not matter. -/
theorem flatMap_of_single {α β : Type} {f : α → List β} {l l' : List α} (h : l.Perm l')
    (hs : ∀ x ∈ l, ∀ y ∈ l, f x ≠ [] → f y ≠ [] → f x = f y) : l.flatMap f = l'.flatMap f := by
  induction h with
  | nil => rfl
  | cons a _ ih =>
    simp only [List.flatMap_cons]
    rw [ih (fun x hx y hy => hs x (.tail _ hx) y (.tail _ hy))]
  | swap a b l =>
    simp only [List.flatMap_cons]
    by_cases ha : f a = []
    · simp [ha]
    · by_cases hb : f b = []
      · simp [hb]
      · rw [hs a (by simp) b (by simp) ha hb]
  | trans h1 _ ih1 ih2 =>
    rw [ih1 hs, ih2 (fun x hx y hy => hs x (h1.mem_iff.2 hx) y (h1.mem_iff.2 hy))]

/-- If at most one element has a property, the first one found does not depend on the order; only the elements
that have it matter. -/
theorem find_of_single {α : Type} {p : α → Bool} {l l' : List α} (h : ∀ x, p x = true → (x ∈ l ↔ x ∈ l'))
    (hs : ∀ x ∈ l, ∀ y ∈ l, p x = true → p y = true → x = y) : l.find? p = l'.find? p := by
  cases hx : l.find? p with
  | none =>
    symm
    rw [List.find?_eq_none] at hx ⊢
    intro x hx' hp
    exact hx x ((h x hp).2 hx') hp
  | some x =>
    have hm := List.mem_of_find?_eq_some hx
    have hp := List.find?_some hx
    cases hy : l'.find? p with
    | none =>
      rw [List.find?_eq_none] at hy
      exact absurd hp (hy x ((h x hp).1 hm))
    | some y =>
      have hm' := List.mem_of_find?_eq_some hy
      have hp' := List.find?_some hy
      rw [hs x hm y ((h y hp').2 hm') hp hp']

/-! ### Rewriting rules -/

theorem rewriteDomain_find (l : List (Str × Str)) (d : Str) :
    Cond.rewriteDomain l d = match l.find? (fun e => (Cond.cutSuffix d ('.' :: e.1)).isSome) with
      | some e => ((Cond.cutSuffix d ('.' :: e.1)).getD []) ++ '.' :: e.2
      | none => d := by
  induction l with
  | nil => rfl
  | cons e l ih =>
    obtain ⟨k, v⟩ := e
    unfold Cond.rewriteDomain
    cases hc : Cond.cutSuffix d ('.' :: k) with
    | some p => simp [hc]
    | none => simp only [List.find?_cons, hc, Option.isSome_none]; exact ih

theorem suffixes_covers {a b d : Str} (ha : ('.' :: a) <:+ d) (hb : ('.' :: b) <:+ d) : InZone b a ∨ InZone a b := by
  have key : ∀ {a b : Str}, ('.' :: a) <:+ ('.' :: b) → InZone b a := by
    intro a b h
    obtain ⟨p, hp⟩ := h
    cases p with
    | nil => simp at hp; exact .inl hp.symm
    | cons c p =>
      simp only [List.cons_append, List.cons.injEq] at hp
      exact .inr ⟨p, hp.2.symm⟩
  rcases List.suffix_or_suffix_of_suffix ha hb with h | h
  · exact .inl (key h)
  · exact .inr (key h)

theorem cutSuffix_isSome {d s : Str} : (Cond.cutSuffix d s).isSome = true ↔ s <:+ d := by
  unfold Cond.cutSuffix
  split
  · rename_i h; simp [List.isSuffixOf_iff_suffix.1 h]
  · rename_i h; simp only [Option.isSome_none, Bool.false_eq_true, false_iff]; exact fun hs => h (List.isSuffixOf_iff_suffix.2 hs)

theorem lower_of_suffix {s d : Str} (h : s <:+ d) (hd : lower d = d) : lower s = s := by
  obtain ⟨p, rfl⟩ := h
  simp only [lower, List.map_append] at hd
  have := List.append_inj_right hd (by simp)
  exact this

/-- The rules that can apply to a name in lower case, whatever the order in which the constructor visits them. -/
theorem lowerRules_mem {rules visited : List (Str × Str)} (hu : AMap.Uniq rules) (hv : visited.Perm rules)
    (hs : ∀ e ∈ rules, ∀ e' ∈ rules, InZone (lower e'.1) (lower e.1) → e = e') {k v : Str} (hk : lower k = k) :
    (k, v) ∈ Cond.lowerRules visited rules ↔ ∃ e ∈ rules, k = lower e.1 ∧ v = lower e.2 := by
  have hu' := lowerRules_uniq visited rules hu
  constructor
  · intro h
    rcases lowerRules_get visited rules k v (hu'.get_of_mem h) with ⟨e, he, h1, rfl⟩ | ⟨h1, h2⟩
    · exact ⟨e, hv.mem_iff.1 he, h1.symm, rfl⟩
    · exact absurd hk (h2 (k, v) (hv.mem_iff.2 (AMap.get_eq_some_mem h1)))
  · rintro ⟨e, he, rfl, rfl⟩
    -- the key is there, and with no other value
    have hkey : ∀ (l : List (Str × Str)) (m : AMap Str Str), (∃ x ∈ l, lower x.1 = lower e.1) ∨ (AMap.get m (lower e.1)).isSome = true →
        (AMap.get (Cond.lowerRules l m) (lower e.1)).isSome = true := by
      intro l
      induction l with
      | nil => rintro m (⟨x, hx, _⟩ | h); cases hx; exact h
      | cons x l ih =>
        rintro m (⟨y, hy, hyx⟩ | h)
        · rcases List.mem_cons.1 hy with rfl | hy
          · exact ih _ (.inr (by rw [hyx]; simp))
          · exact ih _ (.inl ⟨y, hy, hyx⟩)
        · refine ih _ (.inr ?_)
          rw [AMap.get_put]
          split
          · rfl
          · exact h
    have hsome := hkey visited rules (.inl ⟨e, hv.mem_iff.2 he, rfl⟩)
    obtain ⟨v, hv'⟩ := Option.isSome_iff_exists.1 hsome
    rcases lowerRules_get visited rules (lower e.1) v hv' with ⟨e', he', h1, rfl⟩ | ⟨h1, h2⟩
    · have : e' = e := hs e' (hv.mem_iff.1 he') e he (.inl h1.symm)
      subst this
      exact AMap.get_eq_some_mem hv'
    · exact absurd rfl (h2 e (hv.mem_iff.2 he))

theorem rewriteDomain_any_order {rules visited visited' order order' : List (Str × Str)} (hu : AMap.Uniq rules)
    (hv : visited.Perm rules) (hv' : visited'.Perm rules)
    (ho : order.Perm (Cond.lowerRules visited rules)) (ho' : order'.Perm (Cond.lowerRules visited' rules))
    (hs : ∀ e ∈ rules, ∀ e' ∈ rules, InZone (lower e'.1) (lower e.1) → e = e') {d : Str} (hd : lower d = d) :
    Cond.rewriteDomain order d = Cond.rewriteDomain order' d := by
  rw [rewriteDomain_find, rewriteDomain_find]
  have hlow : ∀ k : Str, (Cond.cutSuffix d ('.' :: k)).isSome = true → lower k = k := by
    intro k hk
    have := lower_of_suffix (cutSuffix_isSome.1 hk) hd
    simp only [lower, List.map_cons, List.cons.injEq] at this
    exact this.2
  rw [find_of_single (l := order) (l' := order')]
  · rintro ⟨k, v⟩ hp
    rw [ho.mem_iff, ho'.mem_iff, lowerRules_mem hu hv hs (hlow k hp), lowerRules_mem hu hv' hs (hlow k hp)]
  · rintro ⟨k, v⟩ hx ⟨k', v'⟩ hy hp hp'
    obtain ⟨e, he, rfl, rfl⟩ := (lowerRules_mem hu hv hs (hlow k hp)).1 (ho.mem_iff.1 hx)
    obtain ⟨e', he', rfl, rfl⟩ := (lowerRules_mem hu hv hs (hlow k' hp')).1 (ho.mem_iff.1 hy)
    rcases suffixes_covers (cutSuffix_isSome.1 hp) (cutSuffix_isSome.1 hp') with h | h
    · rw [hs e he e' he' h]
    · rw [hs e' he' e he h]

theorem trimSuffixDot_suffix_lower (s : Str) : lower (trimSuffixDot (lower s)) = trimSuffixDot (lower s) := by
  unfold trimSuffixDot
  split
  · have h : lower ((lower s).dropLast) = (lower (lower s)).dropLast := by simp only [lower, List.map_dropLast]
    rw [h, lower_idem]
  · exact lower_idem s

theorem rewriteQuestions_any_order {order order' : Nat → List (Str × Str)}
    (h : ∀ i d, lower d = d → Cond.rewriteDomain (order i) d = Cond.rewriteDomain (order' i) d)
    (i : Nat) (qs : List Question) (names : AMap Str Str) :
    Cond.rewriteQuestions order i qs names = Cond.rewriteQuestions order' i qs names := by
  induction qs generalizing i names with
  | nil => rfl
  | cons q qs ih =>
    unfold Cond.rewriteQuestions
    have hl : lower (extractDomain q.name) = extractDomain q.name := by
      exact trimSuffixDot_suffix_lower _
    rw [h i _ hl, ih]
    simp only [ih]

/-! ### Maps built from maps -/

section
variable {K V : Type} [DecidableEq K]

theorem AMap.get_of_perm {m m' : AMap K V} (h : m.Perm m') (hu : AMap.Uniq m) (k : K) : AMap.get m k = AMap.get m' k := by
  have hu' : AMap.Uniq m' := (h.map Prod.fst).nodup_iff.1 hu
  cases hk : AMap.get m k with
  | some v => exact (hu'.get_of_mem (h.mem_iff.1 (AMap.get_eq_some_mem hk))).symm
  | none =>
    rw [AMap.get_eq_none_iff] at hk
    symm
    rw [AMap.get_eq_none_iff]
    exact fun hm => hk ((h.map Prod.fst).mem_iff.2 hm)

theorem AMap.perm_of_get {m m' : AMap K V} (hu : AMap.Uniq m) (hu' : AMap.Uniq m') (h : ∀ k, AMap.get m k = AMap.get m' k) :
    m.Perm m' := by
  have nd : ∀ {m : AMap K V}, AMap.Uniq m → m.Nodup := fun hu => (List.pairwise_map.1 hu).imp (fun h e => h (by rw [e]))
  rw [List.perm_ext_iff_of_nodup (nd hu) (nd hu')]
  rintro ⟨k, v⟩
  constructor
  · intro hm; exact AMap.get_eq_some_mem (by rw [← h]; exact hu.get_of_mem hm)
  · intro hm; exact AMap.get_eq_some_mem (by rw [h]; exact hu'.get_of_mem hm)

/-- Entering a list of pairs into a map. -/
def putAll (l : List (K × V)) (m : AMap K V) : AMap K V := l.foldl (fun m e => m.put e.1 e.2) m

theorem putAll_uniq (l : List (K × V)) {m : AMap K V} (h : AMap.Uniq m) : AMap.Uniq (putAll l m) := by
  induction l generalizing m with
  | nil => exact h
  | cons e l ih => exact ih (h.put _ _)

theorem putAll_get {l : List (K × V)} (hl : AMap.Uniq l) (m : AMap K V) (k : K) :
    AMap.get (putAll l m) k = (AMap.get l k).or (AMap.get m k) := by
  induction l generalizing m with
  | nil => rfl
  | cons e l ih =>
    obtain ⟨a, b⟩ := e
    have hl' : a ∉ AMap.keys l ∧ AMap.Uniq l := by simpa [AMap.Uniq, AMap.keys] using hl
    show AMap.get (putAll l (m.put a b)) k = _
    rw [ih hl'.2, AMap.get_put]
    by_cases hk : a = k
    · subst hk
      rw [if_pos rfl, AMap.get_eq_none_iff.2 hl'.1]
      simp [AMap.get]
    · rw [if_neg hk]
      simp [AMap.get, hk]

end

theorem addMapping_putAll (ttl : UInt32) (l : List (Str × List RR)) (m : CustomDns.Mapping) :
    CustomDns.addMapping ttl l m =
      putAll (l.map (fun e => (extractDomain e.1, e.2.map (fun r => { r with ttl := ttl })))) m := by
  induction l generalizing m with
  | nil => rfl
  | cons e l ih => exact ih _

theorem addZone_putAll (l : List (Str × List RR)) (m : CustomDns.Mapping) :
    CustomDns.addZone l m = putAll (l.map (fun e => (extractDomain e.1, e.2))) m := by
  induction l generalizing m with
  | nil => rfl
  | cons e l ih => exact ih _

theorem buildMapping_putAll {W : Type} (l : List (Str × Resolver W)) (m : AMap Str (Resolver W)) :
    Cond.buildMapping l m = putAll (l.map (fun e => (lower e.1, e.2))) m := by
  induction l generalizing m with
  | nil => rfl
  | cons e l ih => exact ih _

theorem dnsRecords_uniq (ttl : UInt32) (m z : List (Str × List RR)) : AMap.Uniq (CustomDns.dnsRecords ttl m z) := by
  unfold CustomDns.dnsRecords
  rw [addMapping_putAll, addZone_putAll]
  exact putAll_uniq _ (putAll_uniq _ AMap.uniq_nil)

theorem dnsRecords_get {ttl : UInt32} {m z m' z' : List (Str × List RR)} (hm : m.Perm m') (hz : z.Perm z')
    (um : (m.map (fun e => extractDomain e.1)).Nodup) (uz : (z.map (fun e => extractDomain e.1)).Nodup) (k : Str) :
    AMap.get (CustomDns.dnsRecords ttl m z) k = AMap.get (CustomDns.dnsRecords ttl m' z') k := by
  unfold CustomDns.dnsRecords
  have um1 : ∀ {l : List (Str × List RR)}, (l.map (fun e => extractDomain e.1)).Nodup →
      AMap.Uniq (l.map (fun e => (extractDomain e.1, e.2.map (fun r => { r with ttl := ttl })))) := by
    intro l h; simpa [AMap.Uniq, AMap.keys, Function.comp_def] using h
  have uz1 : ∀ {l : List (Str × List RR)}, (l.map (fun e => extractDomain e.1)).Nodup →
      AMap.Uniq (l.map (fun e => (extractDomain e.1, e.2))) := by
    intro l h; simpa [AMap.Uniq, AMap.keys, Function.comp_def] using h
  have um' := (hm.map (fun e => extractDomain e.1)).nodup_iff.1 um
  have uz' := (hz.map (fun e => extractDomain e.1)).nodup_iff.1 uz
  rw [addMapping_putAll, addZone_putAll, addMapping_putAll, addZone_putAll, putAll_get (uz1 uz), putAll_get (uz1 uz'),
    putAll_get (um1 um), putAll_get (um1 um'), AMap.get_of_perm (hm.map _) (um1 um), AMap.get_of_perm (hz.map _) (uz1 uz)]

/-! ### Reverse names -/

/-- What a name contributes to the reverse names. -/
def reverseOf (env : CustomDns.Env) (key : Str) (e : Str × List RR) : List Str :=
  e.2.filterMap (fun r => match CustomDns.addressOf r with
    | some ip => if env.reverseAddr ip = key then some e.1 else none
    | none => none)

theorem addReverse_get_both (env : CustomDns.Env) (url : Str) (es : List RR) (m : AMap Str (List Str)) (key : Str) :
    (AMap.get (CustomDns.addReverse env url es m) key).getD [] = (AMap.get m key).getD [] ++ reverseOf env key (url, es) ∧
    ((AMap.get m key = none ↔ (AMap.get m key).getD [] = []) →
      (AMap.get (CustomDns.addReverse env url es m) key = none ↔
        (AMap.get (CustomDns.addReverse env url es m) key).getD [] = [])) := by
  induction es generalizing m with
  | nil => simp [CustomDns.addReverse, reverseOf]
  | cons r es ih =>
    unfold CustomDns.addReverse
    cases ha : CustomDns.addressOf r with
    | none =>
      simp only [reverseOf, List.filterMap_cons, ha]
      exact ih m
    | some ip =>
      simp only
      obtain ⟨h1, h2⟩ := ih (m.put (env.reverseAddr ip) (((AMap.get m (env.reverseAddr ip)).getD []) ++ [url]))
      refine ⟨?_, fun hm => h2 ?_⟩
      · rw [h1, AMap.get_put]
        by_cases hk : env.reverseAddr ip = key
        · subst hk
          simp [reverseOf, ha]
        · simp [reverseOf, ha, hk]
      · rw [AMap.get_put]
        by_cases hk : env.reverseAddr ip = key
        · simp [hk]
        · simpa [hk] using hm

theorem reverseAddresses_get (env : CustomDns.Env) (l : List (Str × List RR)) (m : AMap Str (List Str)) (key : Str)
    (hm : AMap.get m key = none ↔ (AMap.get m key).getD [] = []) :
    (AMap.get (CustomDns.reverseAddresses env l m) key).getD [] = (AMap.get m key).getD [] ++ l.flatMap (reverseOf env key) ∧
    (AMap.get (CustomDns.reverseAddresses env l m) key = none ↔
      (AMap.get (CustomDns.reverseAddresses env l m) key).getD [] = []) := by
  induction l generalizing m with
  | nil => exact ⟨by simp [CustomDns.reverseAddresses], hm⟩
  | cons e l ih =>
    obtain ⟨h1, h2⟩ := addReverse_get_both env e.1 e.2 m key
    obtain ⟨g1, g2⟩ := ih (CustomDns.addReverse env e.1 e.2 m) (h2 hm)
    refine ⟨?_, g2⟩
    show (AMap.get (CustomDns.reverseAddresses env l (CustomDns.addReverse env e.1 e.2 m)) key).getD [] = _
    rw [g1, h1, List.flatMap_cons, List.append_assoc]

theorem eq_of_getD {o o' : Option (List Str)} (h : o = none ↔ o.getD [] = []) (h' : o' = none ↔ o'.getD [] = [])
    (he : o.getD [] = o'.getD []) : o = o' := by
  cases o with
  | none => exact (h'.2 (by rw [← he]; rfl)).symm
  | some a =>
    cases o' with
    | none => exact h.2 (by rw [he]; rfl)
    | some b => simpa using he

theorem reverseAddresses_any_order {env : CustomDns.Env} {l l' : List (Str × List RR)} (h : l.Perm l') (key : Str)
    (hs : ∀ x ∈ l, ∀ y ∈ l, reverseOf env key x ≠ [] → reverseOf env key y ≠ [] → x = y) :
    AMap.get (CustomDns.reverseAddresses env l []) key = AMap.get (CustomDns.reverseAddresses env l' []) key := by
  obtain ⟨h1, h2⟩ := reverseAddresses_get env l [] key (by simp)
  obtain ⟨g1, g2⟩ := reverseAddresses_get env l' [] key (by simp)
  refine eq_of_getD h2 g2 ?_
  rw [h1, g1, flatMap_of_single h (fun x hx y hy h1 h2 => by rw [hs x hx y hy h1 h2])]

/-! ### Hosts -/

theorem findHost_find (ip : IP) (l : List (Str × (IP × List Str))) :
    HostsFile.findHost ip l = (l.find? (fun e => decide (e.2.1 = ip))).map (fun e => (e.1, e.2.2)) := by
  induction l with
  | nil => rfl
  | cons e l ih =>
    obtain ⟨host, ip', aliases⟩ := e
    unfold HostsFile.findHost
    by_cases h : ip' = ip
    · simp [h]
    · simp [h, ih]

theorem findHost_any_order {ip : IP} {l l' : List (Str × (IP × List Str))} (h : l.Perm l')
    (hs : ∀ x ∈ l, ∀ y ∈ l, x.2.1 = y.2.1 → x = y) : HostsFile.findHost ip l = HostsFile.findHost ip l' := by
  rw [findHost_find, findHost_find, find_of_single (fun x _ => h.mem_iff)]
  intro x hx y hy hp hp'
  simp only [decide_eq_true_eq] at hp hp'
  exact hs x hx y hy (by rw [hp, hp'])

/-! ### Groups of a client -/

/-- The pairs of identifier and group of a map from identifiers to groups. -/
def pairs (m : AMap Str (List Str)) : List (Str × Str) := m.flatMap (fun e => e.2.map (fun g => (e.1, g)))

theorem put_pairs_new (m : AMap Str (List Str)) (k : Str) (gs : List Str) (h : AMap.get m k = none) :
    (pairs (m.put k gs)).Perm (pairs m ++ gs.map (fun g => (k, g))) := by
  induction m with
  | nil => simp [pairs, AMap.put]
  | cons e m ih =>
    obtain ⟨a, b⟩ := e
    simp only [AMap.get] at h
    split at h
    · exact absurd h (by simp)
    · rename_i ha
      simp only [AMap.put, if_neg ha, pairs, List.flatMap_cons, List.append_assoc]
      exact (ih h).append_left _

theorem put_pairs_old (m : AMap Str (List Str)) (k : Str) (old gs : List Str) (h : AMap.get m k = some old) :
    (pairs (m.put k (old ++ gs))).Perm (pairs m ++ gs.map (fun g => (k, g))) := by
  induction m with
  | nil => simp at h
  | cons e m ih =>
    obtain ⟨a, b⟩ := e
    simp only [AMap.get] at h
    split at h
    · rename_i ha
      subst ha
      cases h
      simp only [AMap.put, if_pos, pairs, List.flatMap_cons, List.map_append, List.append_assoc]
      exact List.perm_append_comm.append_left _
    · rename_i ha
      simp only [AMap.put, if_neg ha, pairs, List.flatMap_cons, List.append_assoc]
      exact (ih h).append_left _

theorem appendGroups_pairs (m : AMap Str (List Str)) (k : Str) (gs : List Str) :
    (pairs (Blocking.appendGroups m k gs)).Perm (pairs m ++ gs.map (fun g => (k, g))) := by
  unfold Blocking.appendGroups
  split
  · rename_i old h; exact put_pairs_old m k old gs h
  · rename_i h; exact put_pairs_new m k gs h

theorem appendGroups_uniq {m : AMap Str (List Str)} (h : AMap.Uniq m) (k : Str) (gs : List Str) :
    AMap.Uniq (Blocking.appendGroups m k gs) := by
  unfold Blocking.appendGroups
  split <;> exact h.put _ _

/-- The pairs of identifier and group the configuration lists. -/
def listed (l : List (Str × List Str)) : List (Str × Str) :=
  l.flatMap (fun e => (splitChar ',' (lower e.1)).flatMap (fun p => e.2.map (fun g => (p, g))))

theorem clientGroups_pairs (l : List (Str × List Str)) (m : AMap Str (List Str)) (hm : AMap.Uniq m) :
    (pairs (l.foldl (fun m e => (splitChar ',' (lower e.1)).foldl (fun m part => Blocking.appendGroups m part e.2) m) m)).Perm
      (pairs m ++ listed l) ∧
    AMap.Uniq (l.foldl (fun m e => (splitChar ',' (lower e.1)).foldl (fun m part => Blocking.appendGroups m part e.2) m) m) := by
  have inner : ∀ (parts : List Str) (gs : List Str) (m : AMap Str (List Str)), AMap.Uniq m →
      (pairs (parts.foldl (fun m part => Blocking.appendGroups m part gs) m)).Perm
        (pairs m ++ parts.flatMap (fun p => gs.map (fun g => (p, g)))) ∧
      AMap.Uniq (parts.foldl (fun m part => Blocking.appendGroups m part gs) m) := by
    intro parts gs
    induction parts with
    | nil => intro m h; exact ⟨by simp, h⟩
    | cons p ps ih =>
      intro m h
      obtain ⟨h1, h2⟩ := ih _ (appendGroups_uniq h p gs)
      refine ⟨h1.trans ?_, h2⟩
      rw [List.flatMap_cons, ← List.append_assoc]
      exact (appendGroups_pairs m p gs).append_right _
  induction l generalizing m with
  | nil => exact ⟨by simp [listed], hm⟩
  | cons e l ih =>
    obtain ⟨h1, h2⟩ := inner (splitChar ',' (lower e.1)) e.2 m hm
    obtain ⟨g1, g2⟩ := ih _ h2
    refine ⟨g1.trans ?_, g2⟩
    simp only [listed, List.flatMap_cons]
    rw [← List.append_assoc]
    exact h1.append_right _

/-- A sum over the identifiers, each counted as often as `n` says, in terms of the pairs. -/
theorem flatMap_pairs (n : Str → Nat) (m : AMap Str (List Str)) :
    (m.flatMap (fun e => (List.replicate (n e.1) e.2).flatten)).Perm ((pairs m).flatMap (fun p => List.replicate (n p.1) p.2)) := by
  have one : ∀ (k : Nat) (gs : List Str), ((List.replicate k gs).flatten).Perm (gs.flatMap (fun g => List.replicate k g)) := by
    intro k gs
    induction k with
    | zero => simp
    | succ k ih =>
      rw [List.replicate_succ, List.flatten_cons]
      have : (gs.flatMap (fun g => List.replicate (k + 1) g)).Perm (gs ++ gs.flatMap (fun g => List.replicate k g)) := by
        clear ih
        induction gs with
        | nil => simp
        | cons g gs ih =>
          simp only [List.flatMap_cons, List.replicate_succ, List.cons_append]
          refine List.Perm.cons _ ?_
          refine (ih.append_left _).trans ?_
          rw [← List.append_assoc, ← List.append_assoc]
          exact List.perm_append_comm.append_right _
      exact (ih.append_left gs).trans this.symm
  induction m with
  | nil => simp [pairs]
  | cons e m ih =>
    simp only [pairs, List.flatMap_cons, List.flatMap_append]
    refine List.Perm.append ((one (n e.1) e.2).trans ?_) ih
    rw [List.flatMap_map]

theorem get_pairs {m : AMap Str (List Str)} (h : AMap.Uniq m) (k : Str) :
    Blocking.orEmpty (AMap.get m k) = ((pairs m).filter (fun p => p.1 == k)).map Prod.snd := by
  induction m with
  | nil => rfl
  | cons e m ih =>
    obtain ⟨a, b⟩ := e
    have h' : a ∉ AMap.keys m ∧ AMap.Uniq m := by simpa [AMap.Uniq, AMap.keys] using h
    simp only [pairs, List.flatMap_cons, List.filter_append, List.map_append, AMap.get]
    have ih' := ih h'.2
    simp only [pairs] at ih'
    rw [← ih']
    by_cases hk : a = k
    · subst hk
      rw [if_pos rfl, AMap.get_eq_none_iff.2 h'.1]
      simp only [Blocking.orEmpty, List.filter_map, Function.comp_def, List.map_map, beq_self_eq_true]
      rw [List.filter_eq_self.2 (fun _ _ => rfl)]
      simp
    · rw [if_neg hk]
      simp [List.filter_map, Function.comp_def, hk]

/-- Two maps from identifiers to groups with the same pairs. -/
structure SamePairs (m m' : AMap Str (List Str)) : Prop where
  uniq : AMap.Uniq m
  uniq' : AMap.Uniq m'
  perm : (pairs m).Perm (pairs m')

theorem SamePairs.get {m m' : AMap Str (List Str)} (h : SamePairs m m') (k : Str) :
    (Blocking.orEmpty (AMap.get m k)).Perm (Blocking.orEmpty (AMap.get m' k)) := by
  rw [get_pairs h.uniq, get_pairs h.uniq']
  exact (h.perm.filter _).map _

theorem SamePairs.sum {m m' : AMap Str (List Str)} (h : SamePairs m m') (n : Str → Nat) {f : Str × List Str → List Str}
    (hf : ∀ e, f e = (List.replicate (n e.1) e.2).flatten) : (m.flatMap f).Perm (m'.flatMap f) := by
  rw [show f = fun e => (List.replicate (n e.1) e.2).flatten from funext hf]
  exact (flatMap_pairs n m).trans ((h.perm.flatMap_right _).trans (flatMap_pairs n m').symm)

theorem SamePairs.matched {m m' : AMap Str (List Str)} (h : SamePairs m m') (env : Blocking.Env) (fqdnIPs : Str → Option (List IP))
    (request : Request) :
    (Blocking.matchedGroups env m fqdnIPs request).Perm (Blocking.matchedGroups env m' fqdnIPs request) := by
  unfold Blocking.matchedGroups
  refine List.Perm.append (List.Perm.append ?_ (h.get _)) ?_
  · generalize request.clientNames = names
    induction names with
    | nil => simp
    | cons n names ih =>
      simp only [List.flatMap_cons]
      refine List.Perm.append ?_ ih
      refine h.sum (fun k => if env.nameMatches k n then 1 else 0) ?_
      intro e
      by_cases hn : env.nameMatches e.1 n = true
      · simp [hn]
      · simp [hn]
  · refine h.sum (fun k => if env.cidrContains k request.clientIP then 1
      else if Blocking.isFQDN k then
        match fqdnIPs k with
        | some ips => (ips.filter (fun ip => Blocking.ipEqual ip request.clientIP)).length
        | none => 0
      else 0) ?_
    intro e
    by_cases h1 : env.cidrContains e.1 request.clientIP = true
    · simp [h1]
    · by_cases h2 : Blocking.isFQDN e.1 = true
      · simp only [h1, h2, if_true, Bool.false_eq_true, if_false]
        cases fqdnIPs e.1 with
        | some ips =>
          simp only
          generalize ips.filter (fun ip => Blocking.ipEqual ip request.clientIP) = l
          induction l with
          | nil => rfl
          | cons a l ih => simp only [List.flatMap_cons, List.length_cons, List.replicate_succ, List.flatten_cons, ih]
        | none => rfl
      · simp [h1, h2]

theorem SamePairs.groups {m m' : AMap Str (List Str)} (h : SamePairs m m') (env : Blocking.Env) (fqdnIPs : Str → Option (List IP))
    (s : Blocking.Status) (request : Request) :
    Blocking.groupsToCheck env m fqdnIPs s request = Blocking.groupsToCheck env m' fqdnIPs s request := by
  have hm := h.matched env fqdnIPs request
  unfold Blocking.groupsToCheck
  refine sortStr_congr (List.Perm.filter _ ?_)
  simp only [hm.length_eq]
  split
  · exact h.get _
  · exact hm

end Verif.Props
