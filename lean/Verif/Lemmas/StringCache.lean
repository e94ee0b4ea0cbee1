import Verif.Model.StringCache
import Verif.Lemmas.Trie

namespace Verif.StringCache

/-! ### Buckets -/

theorem geAt_of_lt {bucket : List Str} {x : Str} {i : Nat} (h : i < bucket.length) :
    geAt bucket x i = !strLt bucket[i] x := by
  simp [geAt, h]

theorem geAt_mono {bucket : List Str} (hs : SortedStr bucket) (x : Str) :
    ∀ a b, a ≤ b → b < bucket.length → geAt bucket x a = true → geAt bucket x b = true := by
  intro a b hab hb ha
  rcases Nat.lt_or_eq_of_le hab with h | h
  · rw [geAt_of_lt (by omega)] at ha
    rw [geAt_of_lt hb]
    have hlt := hs.getElem_lt h hb
    cases hbx : strLt bucket[b] x with
    | false => rfl
    | true =>
      rw [strLt_trans hlt hbx] at ha
      simp at ha
  · subst h; exact ha

theorem search_spec {bucket : List Str} (hs : SortedStr bucket) (x : Str) :
    let ix := sortSearch bucket.length (geAt bucket x)
    ix ≤ bucket.length ∧ (∀ i (h : i < bucket.length), i < ix → strLt bucket[i] x = true) ∧
      (∀ i (h : i < bucket.length), ix ≤ i → strLt bucket[i] x = false) := by
  have h := sortSearch_spec bucket.length (geAt bucket x) (geAt_mono hs x)
  refine ⟨h.1, ?_, ?_⟩
  · intro i hi hlt
    have := h.2.1 i hlt
    rw [geAt_of_lt hi] at this
    simpa using this
  · intro i hi hle
    have := h.2.2 i hle hi
    rw [geAt_of_lt hi] at this
    simpa using this

theorem mem_iff_search {bucket : List Str} (hs : SortedStr bucket) (x : Str) :
    x ∈ bucket ↔ bucket[sortSearch bucket.length (geAt bucket x)]? = some x := by
  have h := search_spec hs x
  simp only at h
  generalize sortSearch bucket.length (geAt bucket x) = ix at h
  constructor
  · intro hm
    obtain ⟨i, hi, he⟩ := List.mem_iff_getElem.1 hm
    have h1 : ¬ i < ix := by
      intro hlt
      have := h.2.1 i hi hlt
      rw [he, strLt_irrefl] at this
      cases this
    have h2 : i = ix := by
      apply Decidable.byContradiction
      intro hne
      have hlt : ix < i := by omega
      have hix : ix < bucket.length := by omega
      have h3 := hs.getElem_lt hlt hi
      rw [he] at h3
      rw [h.2.2 ix hix (Nat.le_refl _)] at h3
      cases h3
    subst h2
    rw [List.getElem?_eq_getElem hi, he]
  · intro he
    exact List.mem_of_getElem? he

/-- Sorted insertion keeps a bucket sorted and adds exactly `x`. -/
theorem insert_sorted {bucket : List Str} (hs : SortedStr bucket) (x : Str)
    (hx : x ∉ bucket) :
    SortedStr (bucket.take (sortSearch bucket.length (geAt bucket x)) ++
      x :: bucket.drop (sortSearch bucket.length (geAt bucket x))) := by
  have h := search_spec hs x
  simp only at h
  generalize sortSearch bucket.length (geAt bucket x) = ix at h
  unfold SortedStr
  rw [List.pairwise_append]
  have hlo : ∀ a ∈ bucket.take ix, strLt a x = true := by
    intro a ha
    obtain ⟨i, hi, he⟩ := List.mem_iff_getElem.1 ha
    rw [List.length_take] at hi
    rw [List.getElem_take] at he
    rw [← he]
    exact h.2.1 i (by omega) (by omega)
  have hhi : ∀ b ∈ bucket.drop ix, strLt x b = true := by
    intro b hb
    obtain ⟨i, hi, he⟩ := List.mem_iff_getElem.1 hb
    rw [List.length_drop] at hi
    rw [List.getElem_drop] at he
    have h1 := h.2.2 (ix + i) (by omega) (by omega)
    rw [he] at h1
    cases h2 : strLt x b with
    | true => rfl
    | false =>
      exfalso
      apply hx
      rw [strLt_total h2 h1]
      exact List.mem_of_mem_drop hb
  refine ⟨hs.sublist (List.take_sublist _ _), ?_, ?_⟩
  · rw [List.pairwise_cons]
    exact ⟨hhi, hs.sublist (List.drop_sublist _ _)⟩
  · intro a ha b hb
    rcases List.mem_cons.1 hb with e | hb
    · rw [e]; exact hlo a ha
    · exact strLt_trans (hlo a ha) (hhi b hb)

theorem mem_insert {bucket : List Str} (ix : Nat) (x y : Str) :
    y ∈ bucket.take ix ++ x :: bucket.drop ix ↔ y = x ∨ y ∈ bucket := by
  rw [List.mem_append, List.mem_cons]
  conv => rhs; rw [← List.take_append_drop ix bucket, List.mem_append]
  constructor
  · rintro (h | h | h) <;> simp [h]
  · rintro (h | h | h) <;> simp [h]

/-! ### Factory invariant -/

/-- The lower-cased non-empty entries. -/
def Added (es : List Str) (x : Str) : Prop := ∃ e ∈ es, e ≠ [] ∧ lower e = x

/-- Invariant of the string factory after adding `es`. -/
structure FInv (f : StringFactory) (es : List Str) : Prop where
  uniq : AMap.Uniq f.tmp
  sorted : ∀ n b, f.tmp.get n = some b → SortedStr b
  ne : ∀ n b, f.tmp.get n = some b → b ≠ []
  len : ∀ n b, f.tmp.get n = some b → ∀ x ∈ b, x.length = n
  mem : ∀ x, (∃ b, f.tmp.get x.length = some b ∧ x ∈ b) ↔ Added es x

theorem FInv.init : FInv {} [] where
  uniq := AMap.uniq_nil
  sorted := by simp
  ne := by simp
  len := by simp
  mem := by simp [Added]

theorem FInv.add {f : StringFactory} {es : List Str} (h : FInv f es) (e : Str) :
    FInv (f.addEntry e).1 (es ++ [e]) := by
  unfold StringFactory.addEntry
  by_cases he : e = []
  · rw [if_pos he]
    refine ⟨h.uniq, h.sorted, h.ne, h.len, ?_⟩
    intro x
    rw [h.mem]
    simp [Added, he]
  · rw [if_neg he]
    unfold StringFactory.insertString
    simp only [normalizeEntry]
    have e0 : ({ f with cnt := f.cnt + 1 } : StringFactory).getBucket (lower e).length =
        f.getBucket (lower e).length := rfl
    simp only [e0]
    generalize hb : f.getBucket (lower e).length = bucket
    unfold StringFactory.getBucket at hb
    have hsorted : SortedStr bucket := by
      rw [← hb]
      split
      · next b hg => exact h.sorted _ _ hg
      · exact List.Pairwise.nil
    have hlen : ∀ x ∈ bucket, x.length = (lower e).length := by
      rw [← hb]
      split
      · next b hg => exact h.len _ _ hg
      · simp
    have hmem : ∀ x, x.length = (lower e).length → (x ∈ bucket ↔ Added es x) := by
      intro x hx
      rw [← h.mem, hx, ← hb]
      split
      · next b hg => simp only [hg, Option.some.injEq, exists_eq_left']
      · next hg => simp only [hg]; simp
    have key : ∀ b', SortedStr b' → (∀ x, x ∈ b' ↔ x = lower e ∨ x ∈ bucket) →
        FInv { tmp := f.tmp.put (lower e).length b', cnt := f.cnt + 1 } (es ++ [e]) := by
      intro b' hs' hm'
      refine ⟨h.uniq.put _ _, ?_, ?_, ?_, ?_⟩
      · intro n b hg
        rw [AMap.get_put] at hg
        split at hg
        · cases hg; exact hs'
        · exact h.sorted _ _ hg
      · intro n b hg
        rw [AMap.get_put] at hg
        split at hg
        · cases hg
          intro hnil
          have := (hm' (lower e)).2 (.inl rfl)
          rw [hnil] at this
          simp at this
        · exact h.ne _ _ hg
      · intro n b hg x hx
        rw [AMap.get_put] at hg
        split at hg
        · next hn =>
          cases hg
          rw [← hn]
          rcases (hm' x).1 hx with e' | e'
          · rw [e']
          · exact hlen x e'
        · exact h.len _ _ hg x hx
      · intro x
        have hadd : Added (es ++ [e]) x ↔ Added es x ∨ x = lower e := by
          simp only [Added, List.mem_append, List.mem_singleton]
          constructor
          · rintro ⟨e', h1 | h1, h2, h3⟩
            · exact .inl ⟨e', h1, h2, h3⟩
            · subst h1; exact .inr h3.symm
          · rintro (⟨e', h1, h2, h3⟩ | h1)
            · exact ⟨e', .inl h1, h2, h3⟩
            · exact ⟨e, .inr rfl, he, h1.symm⟩
        rw [hadd, AMap.get_put]
        by_cases hx : (lower e).length = x.length
        · rw [if_pos hx]
          simp only [Option.some.injEq, exists_eq_left', hm', hmem x hx.symm]
          exact or_comm
        · rw [if_neg hx, h.mem]
          constructor
          · exact .inl
          · rintro (h1 | h1)
            · exact h1
            · exact absurd (by rw [h1]) hx
    split
    · next hget =>
      apply key _ hsorted
      intro x
      have := (mem_iff_search hsorted (lower e)).2 hget
      constructor
      · exact .inr
      · rintro (h1 | h1)
        · rw [h1]; exact this
        · exact h1
    · next hget =>
      have hnm : lower e ∉ bucket := fun hm => hget ((mem_iff_search hsorted (lower e)).1 hm)
      exact key _ (insert_sorted hsorted _ hnm) (fun x => mem_insert _ _ _)

/-- Factory after adding all entries. -/
def buildString (es : List Str) : StringFactory :=
  es.foldl (fun f e => (f.addEntry e).1) {}

theorem FInv.build (es : List Str) : FInv (buildString es) es := by
  unfold buildString
  suffices ∀ done f, FInv f done →
      FInv (es.foldl (fun f e => (f.addEntry e).1) f) (done ++ es) by
    simpa using this [] {} FInv.init
  induction es with
  | nil => intro done f h; simpa using h
  | cons e es ih =>
    intro done f h
    have := ih (done ++ [e]) _ (h.add e)
    simpa using this

/-! ### The concatenated representation -/

theorem flatten_length {n : Nat} {xs : List Str} (h : ∀ x ∈ xs, x.length = n) :
    xs.flatten.length = xs.length * n := by
  induction xs with
  | nil => simp
  | cons x xs ih =>
    simp only [List.flatten_cons, List.length_append, List.length_cons]
    rw [ih (fun y hy => h y (by simp [hy])), h x (by simp), Nat.add_mul]
    omega

theorem slice_flatten {n : Nat} {xs : List Str} (h : ∀ x ∈ xs, x.length = n) {i : Nat}
    (hi : i < xs.length) : slice xs.flatten n i = xs[i] := by
  induction xs generalizing i with
  | nil => simp at hi
  | cons x xs ih =>
    have hx := h x (by simp)
    cases i with
    | zero =>
      simp only [slice, Nat.zero_mul, List.drop_zero, List.flatten_cons, List.getElem_cons_zero]
      rw [← hx, List.take_left']
      rfl
    | succ i =>
      have := ih (fun y hy => h y (by simp [hy])) (i := i) (by simpa using hi)
      simp only [slice, List.flatten_cons, List.getElem_cons_succ] at this ⊢
      rw [← this, Nat.add_mul, Nat.one_mul, Nat.add_comm, ← List.drop_drop]
      congr 2
      rw [← hx, List.drop_left']
      rfl

theorem get_map {V W : Type} (m : AMap Nat V) (g : V → W) (n : Nat) :
    AMap.get (m.map (fun (k, v) => (k, g v))) n = (m.get n).map g := by
  induction m with
  | nil => rfl
  | cons x xs ih =>
    obtain ⟨a, b⟩ := x
    simp only [List.map_cons, AMap.get]
    split
    · rfl
    · exact ih

theorem sortSearch_congr {n : Nat} {f g : Nat → Bool} (h : ∀ i, i < n → f i = g i) :
    sortSearch n f = sortSearch n g := by
  unfold sortSearch
  suffices ∀ i j, j ≤ n → searchLoop f i j = searchLoop g i j from this 0 n (Nat.le_refl _)
  intro i j hj
  fun_induction searchLoop f i j with
  | case1 i j hij hf ih =>
    rw [searchLoop.eq_def g, if_pos hij]
    rw [h _ (by omega)] at hf
    rw [if_pos hf]
    exact ih (by omega)
  | case2 i j hij hf ih =>
    rw [searchLoop.eq_def g, if_pos hij]
    rw [h _ (by omega)] at hf
    rw [if_neg hf]
    exact ih hj
  | case3 i j hij => rw [searchLoop, if_neg hij]

/-- Lookup in one concatenated bucket. -/
theorem contains_bucket {xs : List Str} {x : Str} (hs : SortedStr xs) (hx : x ≠ [])
    (hl : ∀ y ∈ xs, y.length = x.length) :
    (let bl := xs.flatten.length / x.length
     let idx := sortSearch bl (fun i => !strLt (slice xs.flatten x.length i) x)
     if idx < bl then slice xs.flatten x.length idx == x else false) = decide (x ∈ xs) := by
  have hpos : 0 < x.length := List.length_pos_iff.2 hx
  have hbl : xs.flatten.length / x.length = xs.length := by
    rw [flatten_length hl, Nat.mul_div_cancel _ hpos]
  simp only [hbl]
  have hc : sortSearch xs.length (fun i => !strLt (slice xs.flatten x.length i) x) =
      sortSearch xs.length (geAt xs x) := by
    apply sortSearch_congr
    intro i hi
    rw [slice_flatten hl hi, geAt_of_lt hi]
  rw [hc]
  have hm := mem_iff_search hs x
  by_cases hix : sortSearch xs.length (geAt xs x) < xs.length
  · rw [if_pos hix, slice_flatten hl hix]
    rw [List.getElem?_eq_getElem hix] at hm
    rw [Bool.eq_iff_iff, beq_iff_eq, decide_eq_true_eq, hm]
    simp
  · rw [if_neg hix]
    rw [List.getElem?_eq_none (by omega)] at hm
    symm
    simpa using hm

/-- The created cache contains exactly the added names. -/
theorem contains_create {f : StringFactory} {es : List Str} (h : FInv f es) (q : Str) :
    foundContains StringMap.contains q f.create = true ↔ q ≠ [] ∧ Added es (lower q) := by
  unfold StringFactory.create
  by_cases ht : f.tmp = []
  · rw [if_pos ht]
    simp only [foundContains, Bool.false_eq_true, false_iff, not_and]
    intro _ ha
    obtain ⟨b, hb, _⟩ := (h.mem _).2 ha
    rw [ht] at hb
    simp at hb
  · rw [if_neg ht]
    simp only [foundContains, StringMap.contains]
    rw [show normalizeEntry q = lower q from rfl]
    by_cases hq : q = []
    · subst hq; simp
    · have hlq : lower q ≠ [] := by
        intro he
        apply hq
        have := congrArg List.length he
        rw [lower_length] at this
        simpa using this
      rw [if_neg (by simpa using hq)]
      simp only [ne_eq, hq, not_false_eq_true, true_and]
      rw [← h.mem]
      simp only [StringMap.at, get_map]
      cases hg : f.tmp.get (lower q).length with
      | none =>
        simp
      | some b =>
        simp only [Option.map_some]
        have := contains_bucket (h.sorted _ _ hg) hlq (h.len _ _ hg)
        simp only at this
        rw [this]
        simp

end Verif.StringCache
