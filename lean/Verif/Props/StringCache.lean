/-
C02, C03: string caches and grouped list lookup.
-/
import Verif.Lemmas.GroupedCache

namespace Verif.Props
open StringCache Spec

/-! ### C02 -/

/-- C02: after adding any sequence of (non-wildcard, non-regex) entries, a name is found exactly if
some non-empty added entry equals it up to ASCII case. -/
theorem C02_plain_exact (es : List Str) (q : Str) :
    foundContains StringMap.contains q (buildString es).create = true ↔
      ∃ e ∈ es, e ≠ [] ∧ lower e = lower q := by
  rw [contains_create (FInv.build es) q]
  constructor
  · rintro ⟨_, e, h1, h2, h3⟩; exact ⟨e, h1, h2, h3⟩
  · rintro ⟨e, h1, h2, h3⟩
    refine ⟨?_, e, h1, h2, h3⟩
    rintro rfl
    apply h2
    have := congrArg List.length h3
    simpa using this

/-- C02: no later insertion makes an earlier entry disappear. -/
theorem C02_plain_monotone (es es' : List Str) (q : Str)
    (h : foundContains StringMap.contains q (buildString es).create = true) :
    foundContains StringMap.contains q (buildString (es ++ es')).create = true := by
  rw [C02_plain_exact] at *
  obtain ⟨e, h1, h2⟩ := h
  exact ⟨e, by simp [h1], h2⟩

/-- Number of names a created cache reports (0 for none). -/
def reportedCount : Option StringMap → Nat
  | some m => m.elementCount
  | none => 0

/-- C02: the reported number of entries is the number of different names added (ignoring case),
however often and in whatever order they were added. -/
theorem C02_count_exact (es : List Str) (names : List Str) (hnd : names.Nodup)
    (hmem : ∀ x, x ∈ names ↔ ∃ e ∈ es, e ≠ [] ∧ lower e = x) :
    reportedCount (buildString es).create = names.length := by
  have h := FInv.build es
  generalize buildString es = f at h
  have hall : (f.tmp.flatMap Prod.snd).Nodup ∧
      ∀ x, x ∈ f.tmp.flatMap Prod.snd ↔ Added es x := by
    constructor
    · unfold List.Nodup
      rw [List.pairwise_flatMap]
      constructor
      · rintro ⟨n, b⟩ hb
        have hs := h.sorted n b (h.uniq.get_of_mem hb)
        exact List.Pairwise.imp (fun hab => by
          rintro rfl
          rw [strLt_irrefl] at hab
          cases hab) hs
      · have hu := h.uniq
        unfold AMap.Uniq AMap.keys List.Nodup at hu
        rw [List.pairwise_map] at hu
        refine List.Pairwise.imp_of_mem ?_ hu
        rintro ⟨n, b⟩ ⟨m, c⟩ hb hc hne x hx y hy rfl
        exact hne ((h.len n b (h.uniq.get_of_mem hb) x hx).symm.trans
          (h.len m c (h.uniq.get_of_mem hc) x hy))
    · intro x
      rw [← h.mem, List.mem_flatMap]
      constructor
      · rintro ⟨⟨n, b⟩, h1, h2⟩
        have hg := h.uniq.get_of_mem h1
        have := h.len n b hg x h2
        subst this
        exact ⟨b, hg, h2⟩
      · rintro ⟨b, h1, h2⟩
        exact ⟨(x.length, b), AMap.get_eq_some_mem h1, h2⟩
  have hperm : (f.tmp.flatMap Prod.snd).Perm names := by
    rw [List.perm_ext_iff_of_nodup hall.1 hnd]
    intro x
    rw [hall.2, hmem]
    rfl
  rw [← hperm.length_eq]
  have hlen : ∀ (t : AMap Nat (List Str)),
      (∀ n b, (n, b) ∈ t → (∀ x ∈ b, x.length = n) ∧ 0 < n) →
      StringMap.elementCount (t.map (fun e => (e.1, e.2.flatten))) = (t.flatMap Prod.snd).length := by
    intro t ht
    induction t with
    | nil => rfl
    | cons e t ih =>
      obtain ⟨n, b⟩ := e
      have ih' := ih (fun n b hb => ht n b (by simp [hb]))
      obtain ⟨h2, h3⟩ := ht n b (by simp)
      have hfl : b.flatten.length = n * b.length := by
        clear ih ih' ht
        induction b with
        | nil => simp
        | cons x b ihb =>
          have := ihb (fun y hy => h2 y (by simp [hy]))
          simp only [List.flatten_cons, List.length_append, this, List.length_cons,
            h2 x (by simp), Nat.mul_add, Nat.mul_one]
          omega
      simp only [StringMap.elementCount, List.map_cons, List.sum_cons, List.flatMap_cons,
        List.length_append] at *
      rw [ih', hfl, Nat.mul_div_cancel_left _ h3]
  unfold StringFactory.create
  by_cases ht : f.tmp = []
  · rw [if_pos ht, ht]; rfl
  · rw [if_neg ht]
    simp only [reportedCount]
    apply hlen
    intro n b hb
    have hg := h.uniq.get_of_mem hb
    refine ⟨h.len n b hg, ?_⟩
    obtain ⟨x, xs, hx⟩ := List.exists_cons_of_ne_nil (h.ne n b hg)
    have hxb : x ∈ b := by simp [hx]
    have hxl := h.len n b hg x hxb
    have : Added es x := (h.mem x).1 ⟨b, by rw [hxl]; exact hg, hxb⟩
    obtain ⟨e, _, h2, h3⟩ := this
    rw [← hxl, ← h3, lower_length]
    exact List.length_pos_iff.2 h2

-- Concrete cases: mixed case, duplicates, several lengths.
example : foundContains StringMap.contains (str! "aDs.COM")
    (buildString [str! "x.de", str! "Ads.com", str! "zzz.org", str! "ads.COM"]).create = true := by
  rw [C02_plain_exact]; decide
example : foundContains StringMap.contains (str! "ads.co")
    (buildString [str! "x.de", str! "Ads.com", str! "zzz.org", str! "ads.COM"]).create = false := by
  rw [Bool.eq_false_iff, ne_eq, C02_plain_exact]; decide
example : reportedCount (buildString [str! "x.de", str! "Ads.com", str! "ads.COM"]).create = 2 :=
  C02_count_exact _ [str! "x.de", str! "ads.com"] (by decide) (by
    intro x; simp only [List.mem_cons, List.not_mem_nil, or_false, exists_eq_or_imp,
      exists_eq_left]
    constructor
    · rintro (rfl | rfl)
      · exact .inl (by decide)
      · exact .inr (.inl (by decide))
    · rintro (h | h | h)
      · exact .inl (by rw [← h.2]; decide)
      · exact .inr (by rw [← h.2]; decide)
      · exact .inr (by rw [← h.2]; decide))

/-! ### C03 -/

/-- The lists after a history of completed refreshes, newest last, starting empty; `none` if an
entry crashed the loader. -/
def afterRefreshes (E : RegexEngine) : List (Str × List Str) → Caches E → Option (Caches E)
  | [], c => some c
  | (g, es) :: rest, c =>
    match Factory.addAll E {} es with
    | none => none
    | some f => afterRefreshes E rest (c.finish E g f)

/-- Specification: the entries of the newest refresh of `g` in the history (none: never loaded). -/
def currentList (g : Str) : List (Str × List Str) → List Str
  | [] => []
  | (g', es) :: rest =>
    if g ∈ rest.map Prod.fst then currentList g rest
    else if g' = g then es else []

theorem afterRefreshes_spec (E : RegexEngine) (hist : List (Str × List Str)) (c c' : Caches E)
    (h : afterRefreshes E hist c = some c') (g s : Str) :
    matchGroup c' g s = true ↔
      if g ∈ hist.map Prod.fst then ∃ e ∈ currentList g hist, EntryMatches E e s
      else matchGroup c g s = true := by
  induction hist generalizing c with
  | nil => cases h; simp
  | cons x rest ih =>
    obtain ⟨g', es⟩ := x
    unfold afterRefreshes at h
    split at h
    · cases h
    · next f hf =>
      have hinv : CInv f es := by simpa using CInv.addAll (E := E) CInv.init hf
      rw [ih _ h]
      by_cases hg : g ∈ rest.map Prod.fst
      · simp only [hg, if_true, currentList, List.map_cons, List.mem_cons, or_true]
      · simp only [hg, if_false, currentList, List.map_cons, List.mem_cons, or_false]
        by_cases hgg : g' = g
        · subst hgg
          simp only [if_true]
          exact matchGroup_finish_self c hinv g' s
        · rw [if_neg (fun h => hgg h.symm), matchGroup_finish_ne _ _ _ hgg]

/-- C03: for every history of list loads, every requested groups and every name, the answer is
sorted, free of duplicates, and consists of exactly the requested groups whose current list has a
matching entry. -/
theorem C03_lookup_union (E : RegexEngine) (hist : List (Str × List Str)) (c : Caches E)
    (h : afterRefreshes E hist {} = some c) (s : Str) (groups : List Str) :
    SortedStr (c.contains E s groups) ∧
    ∀ g, g ∈ c.contains E s groups ↔
      g ∈ groups ∧ ∃ e ∈ currentList g hist, EntryMatches E e s := by
  obtain ⟨h1, h2⟩ := contains_iff c s groups
  refine ⟨h1, fun g => ?_⟩
  rw [h2, afterRefreshes_spec E hist {} c h g s]
  by_cases hg : g ∈ hist.map Prod.fst
  · simp [hg]
  · have h3 : currentList g hist = [] := by
      clear h h2
      induction hist with
      | nil => rfl
      | cons x rest ih =>
        obtain ⟨g', es⟩ := x
        simp only [List.map_cons, List.mem_cons, not_or] at hg
        simp only [currentList]
        rw [if_neg hg.2, if_neg (fun h => hg.1 h.symm)]
    simp [hg, h3, matchGroup, foundContains]

/-- C03: such histories exist for all lists not containing the lone-slash entry (see C05). -/
theorem C03_histories_complete (E : RegexEngine) (hist : List (Str × List Str)) (c : Caches E)
    (h : ∀ x ∈ hist, ['/'] ∉ x.2) : ∃ c', afterRefreshes E hist c = some c' := by
  induction hist generalizing c with
  | nil => exact ⟨c, rfl⟩
  | cons x rest ih =>
    obtain ⟨g, es⟩ := x
    obtain ⟨f, hf⟩ := addAll_no_panic (E := E) {} (es := es)
      (fun e he heq => h (g, es) (by simp) (heq ▸ he))
    unfold afterRefreshes
    rw [hf]
    exact ih _ (fun x hx => h x (by simp [hx]))

/-- A toy regular expression engine for the examples: the expression is a literal substring
prefix. -/
def prefixEngine : RegexEngine where
  Regex := Str
  compile s := some s
  isMatch r s := r.isPrefixOf s

-- A concrete case: group b is reloaded; a wildcard, a regex and a plain entry match.
example : ∃ c, afterRefreshes prefixEngine
    [(str! "b", [str! "old.com"]), (str! "a", [str! "/ads/", str! "x.org"]),
     (str! "b", [str! "*.ads.com"]), (str! "d", [str! "y.org"])] {} = some c ∧
    c.contains prefixEngine (str! "ads.com") [str! "d", str! "b", str! "a"] =
      [str! "a", str! "b"] := by
  obtain ⟨c, hc⟩ := C03_histories_complete prefixEngine
    [(str! "b", [str! "old.com"]), (str! "a", [str! "/ads/", str! "x.org"]),
     (str! "b", [str! "*.ads.com"]), (str! "d", [str! "y.org"])] {} (by decide)
  refine ⟨c, hc, ?_⟩
  obtain ⟨h1, h2⟩ := C03_lookup_union _ _ _ hc (str! "ads.com") [str! "d", str! "b", str! "a"]
  have hd : str! "d" ∉ c.contains prefixEngine (str! "ads.com") [str! "d", str! "b", str! "a"] := by
    rw [h2]
    rintro ⟨_, e, he, hm⟩
    have : e = str! "y.org" := by simpa [currentList] using he
    subst this
    rcases hm with ⟨body, r, hb, _⟩ | ⟨_, hs, _⟩ | ⟨_, _, _, hl⟩
    · revert hb; simp
    · revert hs; decide
    · revert hl; decide
  have ha : str! "a" ∈ c.contains prefixEngine (str! "ads.com") [str! "d", str! "b", str! "a"] := by
    rw [h2]
    refine ⟨by decide, str! "/ads/", by decide, .inl ⟨str! "ads", str! "ads", rfl, rfl, rfl⟩⟩
  have hb : str! "b" ∈ c.contains prefixEngine (str! "ads.com") [str! "d", str! "b", str! "a"] := by
    rw [h2]
    refine ⟨by decide, str! "*.ads.com", by decide, .inr (.inl ⟨?_, by decide,
      ⟨str! "ads.com", rfl, by decide, by decide, by decide⟩⟩)⟩
    rintro ⟨body, hbody⟩
    simp at hbody
  have hsub : ∀ g ∈ c.contains prefixEngine (str! "ads.com") [str! "d", str! "b", str! "a"],
      g = str! "a" ∨ g = str! "b" := by
    intro g hg
    have := ((h2 g).1 hg).1
    simp only [List.mem_cons, List.not_mem_nil, or_false] at this
    rcases this with rfl | rfl | rfl
    · exact absurd hg hd
    · exact .inr rfl
    · exact .inl rfl
  generalize c.contains prefixEngine (str! "ads.com") [str! "d", str! "b", str! "a"] = l at *
  match l, h1, ha, hb, hsub with
  | [], _, ha, _, _ => simp at ha
  | [x], _, ha, hb, _ =>
    simp only [List.mem_singleton] at ha hb
    rw [← ha] at hb
    exact absurd hb (by decide)
  | [x, y], h1, ha, hb, hsub =>
    have hlt : strLt x y = true := by simpa [SortedStr] using h1
    rcases hsub x (by simp) with rfl | rfl <;> rcases hsub y (by simp) with rfl | rfl
    · revert hlt; decide
    · rfl
    · revert hlt; decide
    · revert hlt; decide
  | x :: y :: z :: t, h1, _, _, hsub =>
    have hxy : strLt x y = true := by
      simp only [SortedStr, List.pairwise_cons] at h1; exact h1.1 y (by simp)
    have hyz : strLt y z = true := by
      simp only [SortedStr, List.pairwise_cons] at h1; exact h1.2.1 z (by simp)
    exfalso
    rcases hsub x (by simp) with rfl | rfl <;> rcases hsub y (by simp) with rfl | rfl <;>
      rcases hsub z (by simp) with rfl | rfl <;> clear hsub h1 <;> revert hxy hyz <;> decide

end Verif.Props
