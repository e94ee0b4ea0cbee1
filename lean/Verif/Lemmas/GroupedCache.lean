import Verif.Lemmas.StringCache
import Verif.Spec.ListEntry

namespace Verif.StringCache
open Spec Trie

/-! ### Sorted insertion of groups -/

theorem mem_insertSorted (g x : Str) (xs : List Str) :
    x ∈ insertSorted g xs ↔ x = g ∨ x ∈ xs := by
  induction xs with
  | nil => simp [insertSorted]
  | cons y ys ih =>
    unfold insertSorted
    split
    · next h => subst h; simp
    · split
      · simp
      · simp only [List.mem_cons, ih]
        constructor
        · rintro (h | h | h) <;> simp [h]
        · rintro (h | h | h) <;> simp [h]

theorem insertSorted_sorted {xs : List Str} (g : Str) (h : SortedStr xs) :
    SortedStr (insertSorted g xs) := by
  induction xs with
  | nil => simp [insertSorted, SortedStr]
  | cons y ys ih =>
    have hy := List.pairwise_cons.1 h
    unfold insertSorted
    split
    · exact h
    · next hne =>
      split
      · next hlt =>
        refine List.pairwise_cons.2 ⟨?_, h⟩
        intro z hz
        rcases List.mem_cons.1 hz with e | hz
        · subst e; exact hlt
        · exact strLt_trans hlt (hy.1 z hz)
      · next hlt =>
        refine List.pairwise_cons.2 ⟨?_, ih hy.2⟩
        intro z hz
        rcases (mem_insertSorted g z ys).1 hz with e | hz
        · subst e
          cases hyz : strLt y z with
          | true => rfl
          | false => exact absurd (strLt_total (by simpa using hlt) hyz) hne
        · exact hy.1 z hz

theorem foldl_insertSorted (gs acc : List Str) (h : SortedStr acc) :
    SortedStr (gs.foldl (fun acc g => insertSorted g acc) acc) ∧
    ∀ x, x ∈ gs.foldl (fun acc g => insertSorted g acc) acc ↔ x ∈ gs ∨ x ∈ acc := by
  induction gs generalizing acc with
  | nil => simp [h]
  | cons g gs ih =>
    have := ih (insertSorted g acc) (insertSorted_sorted g h)
    refine ⟨this.1, fun x => ?_⟩
    rw [List.foldl_cons, this.2 x, mem_insertSorted, List.mem_cons]
    constructor
    · rintro (h | h | h) <;> simp [h]
    · rintro ((h | h) | h) <;> simp [h]

/-! ### Wildcard normalisation -/

theorem lower_star (c : Char) : lowerChar c = '*' ↔ c = '*' := by
  unfold lowerChar
  by_cases h : 'A'.toNat ≤ c.toNat ∧ c.toNat ≤ 'Z'.toNat
  · rw [if_pos h]
    have e1 : 'A'.toNat = 65 := rfl
    have e2 : 'Z'.toNat = 90 := rfl
    have hv : (c.toNat + 32).isValidChar := by left; omega
    have e := ofNat_toNat hv
    constructor
    · intro hc
      rw [hc] at e
      have : '*'.toNat = 42 := rfl
      omega
    · rintro rfl
      have : '*'.toNat = 42 := rfl
      omega
  · rw [if_neg h]

theorem labels_trimRight (s : Str) : labels (trimRightDots s) = labels s := by
  obtain ⟨n, hn⟩ := dropWhile_dots s.reverse
  have hs : s = trimRightDots s ++ List.replicate n '.' := by
    have := congrArg List.reverse hn
    simpa [trimRightDots] using this
  conv => rhs; rw [hs]
  rw [labels_append_dots]

theorem labels_dots_append (n : Nat) (s : Str) :
    labels (List.replicate n '.' ++ s) = labels s := by
  induction n with
  | zero => simp
  | succ n ih =>
    have : List.replicate (n + 1) '.' ++ s = [] ++ '.' :: (List.replicate n '.' ++ s) := by
      simp [List.replicate_succ]
    rw [this, labels_sep, ih]
    simp [labels, splitChar]

theorem labels_trimLeft (s : Str) : labels (trimLeftDots s) = labels s := by
  obtain ⟨n, hn⟩ := dropWhile_dots s
  conv => rhs; rw [hn]
  rw [labels_dots_append]
  rfl

theorem labels_trimDots (s : Str) : labels (trimDots s) = labels s := by
  rw [trimDots, labels_trimRight, labels_trimLeft]

theorem noLead_trimDots (s : Str) : NoLead (trimDots s) := by
  unfold NoLead trimDots
  have hp : trimRightDots (trimLeftDots s) <+: trimLeftDots s := by
    unfold trimRightDots
    rw [← List.reverse_suffix, List.reverse_reverse]
    exact List.dropWhile_suffix _
  have hl : (trimLeftDots s).head? ≠ some '.' := by
    unfold trimLeftDots
    intro h
    have := List.head?_dropWhile_not (p := (· == '.')) (l := s)
    rw [h] at this
    simp at this
  obtain ⟨t, ht⟩ := hp
  cases hr : trimRightDots (trimLeftDots s) with
  | nil => simp
  | cons c cs =>
    rw [hr] at ht
    rw [← ht] at hl
    simpa using hl

theorem lower_of_lower_map {s : Str} (h : ∀ c ∈ s, lowerChar c = c) : lower s = s := by
  unfold lower
  conv => rhs; rw [← List.map_id s]
  exact List.map_congr_left (by simpa using h)

theorem trimDots_sublist (s : Str) : (trimDots s).Sublist s := by
  unfold trimDots trimRightDots trimLeftDots
  refine List.Sublist.trans ?_ (List.dropWhile_sublist (· == '.'))
  have := (List.dropWhile_sublist (· == '.') (l := (List.dropWhile (· == '.') s).reverse)).reverse
  simpa using this

theorem normalizeWildcard_eq (dom : Str) :
    normalizeWildcard ('*' :: '.' :: dom) = trimDots ('.' :: lower dom) := by
  unfold normalizeWildcard
  have h1 : lower ('*' :: '.' :: dom) = '*' :: '.' :: lower dom := by
    simp only [lower_cons]
    rfl
  rw [h1]
  have h2 : List.dropWhile (· == '*') ('*' :: '.' :: lower dom) = '.' :: lower dom := by
    simp
  rw [h2]
  apply lower_of_lower_map
  intro c hc
  have := (trimDots_sublist _).subset hc
  rcases List.mem_cons.1 this with h | h
  · subst h; rfl
  · simp only [lower, List.mem_map] at h
    obtain ⟨a, _, rfl⟩ := h
    exact lowerChar_idem a

theorem trimDots_dot (s : Str) : labels ('.' :: s) = labels s := by
  have := labels_dots_append 1 s
  simpa using this

theorem splitChar_lower (s : Str) : splitChar '.' (lower s) = (splitChar '.' s).map lower := by
  induction s with
  | nil => rfl
  | cons c cs ih =>
    rw [lower_cons, splitChar, splitChar]
    by_cases h : c = '.'
    · subst h
      rw [if_pos (by rfl), if_pos rfl, ih]
      simp
    · rw [if_neg (by rw [lowerChar_dot_iff]; exact h), if_neg h, ih]
      cases splitChar '.' cs <;> simp

theorem labels_lower (s : Str) : labels (lower s) = (labels s).map lower := by
  unfold labels
  rw [splitChar_lower, List.filter_map]
  congr 1
  apply List.filter_congr
  intro x _
  simp [lower]

theorem isWildcard_iff (e : Str) :
    (['*', '.'] <+: e ∧ e.count '*' ≤ 1) ↔ ∃ dom, e = '*' :: '.' :: dom ∧ '*' ∉ dom := by
  constructor
  · rintro ⟨⟨dom, hd⟩, hc⟩
    refine ⟨dom, by simpa using hd.symm, ?_⟩
    rw [← hd] at hc
    simp at hc
    exact fun hm => absurd (List.count_pos_iff.2 hm) (by omega)
  · rintro ⟨dom, rfl, hd⟩
    refine ⟨⟨dom, rfl⟩, ?_⟩
    simp [List.count_eq_zero.2 hd]

/-! ### Regex entries -/

theorem isRegex_iff (e : Str) :
    (e.head? = some '/' ∧ e.getLast? = some '/' ∧ 2 ≤ e.length) ↔ IsRegexEntry e := by
  constructor
  · rintro ⟨h1, h2, h3⟩
    cases e with
    | nil => simp at h1
    | cons c cs =>
      have hc : c = '/' := by simpa using h1
      subst hc
      have hne : cs ≠ [] := by rintro rfl; simp at h3
      rw [List.getLast?_cons_of_ne_nil hne] at h2
      rw [List.getLast?_eq_some_iff] at h2
      obtain ⟨body, hb⟩ := h2
      exact ⟨body, by simp [hb]⟩
  · rintro ⟨body, rfl⟩
    refine ⟨by simp, ?_, by simp⟩
    rw [List.getLast?_append]; simp

theorem regex_body (body : Str) :
    (('/' :: body ++ ['/']).drop 1).take (('/' :: body ++ ['/']).length - 2) = body := by
  simp

/-! ### The chained factory -/

variable {E : RegexEngine}

/-- What the three factories hold after adding `es`. -/
structure CInv (f : Factory E) (es : List Str) : Prop where
  regex : ∀ s, regexContains E f.regex s = true ↔ ∃ e ∈ es, RegexEntryMatches E e s
  wkeys : ∃ keys : List Str, f.wildcard.trie = Trie.build keys ∧ keys.length = f.wildcard.cnt ∧
    (∀ k ∈ keys, NoLead k) ∧
    ∀ s, (∃ k ∈ keys, k ≠ [] ∧ IsWithin s k) ↔
      ∃ e ∈ es, ¬ IsRegexEntry e ∧ '*' ∈ e ∧ WildcardEntryMatches e s
  string : ∃ ps : List Str, FInv f.string ps ∧
    ∀ x, x ∈ ps ↔ x ∈ es ∧ ¬ IsRegexEntry x ∧ '*' ∉ x

theorem CInv.init : CInv ({} : Factory E) [] where
  regex := by simp [regexContains]
  wkeys := ⟨[], rfl, rfl, by simp, by simp⟩
  string := ⟨[], FInv.init, by simp⟩

theorem not_regexMatches {e s : Str} (h : ¬ IsRegexEntry e) : ¬ RegexEntryMatches E e s := by
  rintro ⟨body, r, h1, _⟩
  exact h ⟨body, h1⟩

theorem noLead_ne_nil_labels {k : Str} (h : NoLead k) : k ≠ [] ↔ labels k ≠ [] := by
  constructor
  · intro hne hl
    exact rl_ne_nil h hne (by simp [rl, hl])
  · rintro hl rfl
    exact hl (by simp [labels, splitChar])

theorem CInv.add {f f' : Factory E} {es : List Str} {e : Str} {b : Bool} (h : CInv f es)
    (ha : f.addEntry E e = .ok f' b) : CInv f' (es ++ [e]) := by
  unfold Factory.addEntry at ha
  by_cases hr : e.head? ≠ some '/' ∨ e.getLast? ≠ some '/'
  · -- not a regex
    have hnr : ¬ IsRegexEntry e := by
      intro hreg
      have := (isRegex_iff e).2 hreg
      rcases hr with hr | hr
      · exact hr this.1
      · exact hr this.2.1
    have hre : regexAddEntry E f.regex e = .ok f.regex false := by
      unfold regexAddEntry; rw [if_pos hr]
    rw [hre] at ha
    simp only at ha
    have hregex : ∀ s, regexContains E f.regex s = true ↔
        ∃ e' ∈ es ++ [e], RegexEntryMatches E e' s := by
      intro s
      rw [h.regex]
      simp only [List.mem_append, List.mem_singleton]
      constructor
      · rintro ⟨e', h1, h2⟩; exact ⟨e', .inl h1, h2⟩
      · rintro ⟨e', h1 | h1, h2⟩
        · exact ⟨e', h1, h2⟩
        · subst h1; exact absurd h2 (not_regexMatches hnr)
    by_cases hs : '*' ∈ e
    · have hc : e.count '*' ≠ 0 := fun h0 => List.count_eq_zero.1 h0 hs
      have hstring : ∀ x, x ∈ es ++ [e] ∧ ¬ IsRegexEntry x ∧ '*' ∉ x ↔
          x ∈ es ∧ ¬ IsRegexEntry x ∧ '*' ∉ x := by
        intro x
        simp only [List.mem_append, List.mem_singleton]
        constructor
        · rintro ⟨h1 | h1, h2, h3⟩
          · exact ⟨h1, h2, h3⟩
          · subst h1; exact absurd hs h3
        · rintro ⟨h1, h2, h3⟩; exact ⟨.inl h1, h2, h3⟩
      by_cases hw : ¬ (['*', '.'] <+: e) ∨ e.count '*' > 1
      · have hwe : f.wildcard.addEntry e = (f.wildcard, true) := by
          unfold WildcardFactory.addEntry
          simp only
          rw [if_neg hc, if_pos hw]
        rw [hwe] at ha
        simp only [if_true] at ha
        cases ha
        refine ⟨hregex, ?_, ?_⟩
        · obtain ⟨keys, h1, h2, h3, h4⟩ := h.wkeys
          refine ⟨keys, h1, h2, h3, fun s => ?_⟩
          rw [h4]
          simp only [List.mem_append, List.mem_singleton]
          constructor
          · rintro ⟨e', h5, h6⟩; exact ⟨e', .inl h5, h6⟩
          · rintro ⟨e', h5 | h5, h6, h7, h8⟩
            · exact ⟨e', h5, h6, h7, h8⟩
            · subst h5
              obtain ⟨dom, h9, h10, _⟩ := h8
              have := (isWildcard_iff e').2 ⟨dom, h9, h10⟩
              rcases hw with hw | hw
              · exact absurd this.1 hw
              · omega
        · obtain ⟨ps, h1, h2⟩ := h.string
          exact ⟨ps, h1, fun x => by rw [h2, hstring]⟩
      · have hwild : ['*', '.'] <+: e ∧ e.count '*' ≤ 1 := by
          simp only [not_or, Decidable.not_not, Nat.not_lt] at hw
          exact hw
        obtain ⟨dom, hd1, hd2⟩ := (isWildcard_iff e).1 hwild
        have hwe : f.wildcard.addEntry e =
            ({ trie := Trie.insert f.wildcard.trie (normalizeWildcard e),
               cnt := f.wildcard.cnt + 1 }, true) := by
          unfold WildcardFactory.addEntry
          simp only
          rw [if_neg hc, if_neg hw]
        rw [hwe] at ha
        simp only [if_true] at ha
        cases ha
        have hk : normalizeWildcard e = trimDots ('.' :: lower dom) := by
          rw [hd1, normalizeWildcard_eq]
        have hnl : NoLead (normalizeWildcard e) := by rw [hk]; exact noLead_trimDots _
        have hlab : labels (normalizeWildcard e) = labels (lower dom) := by
          rw [hk, labels_trimDots, trimDots_dot]
        refine ⟨hregex, ?_, ?_⟩
        · obtain ⟨keys, h1, h2, h3, h4⟩ := h.wkeys
          refine ⟨keys ++ [normalizeWildcard e], ?_, ?_, ?_, fun s => ?_⟩
          · simp [Trie.build, h1]
          · simp [h2]
          · intro k hk'
            rcases List.mem_append.1 hk' with h5 | h5
            · exact h3 k h5
            · rw [List.mem_singleton.1 h5]; exact hnl
          · have hnew : (normalizeWildcard e ≠ [] ∧ IsWithin s (normalizeWildcard e)) ↔
                WildcardEntryMatches e s := by
              rw [noLead_ne_nil_labels hnl]
              unfold IsWithin WildcardEntryMatches
              rw [hlab]
              constructor
              · rintro ⟨h5, h6⟩
                refine ⟨dom, hd1, hd2, ?_, h6⟩
                intro h7
                apply h5
                rw [labels_lower, h7]
                rfl
              · rintro ⟨dom', h5, _, h7, h8⟩
                rw [hd1] at h5
                have : dom = dom' := by simpa using h5
                subst this
                refine ⟨?_, h8⟩
                rw [labels_lower]
                simpa using h7
            simp only [List.mem_append, List.mem_singleton]
            constructor
            · rintro ⟨k, h5 | h5, h6, h7⟩
              · obtain ⟨e', h8, h9⟩ := (h4 s).1 ⟨k, h5, h6, h7⟩
                exact ⟨e', .inl h8, h9⟩
              · subst h5
                exact ⟨e, .inr rfl, hnr, hs, hnew.1 ⟨h6, h7⟩⟩
            · rintro ⟨e', h5 | h5, h6⟩
              · obtain ⟨k, h8, h9⟩ := (h4 s).2 ⟨e', h5, h6⟩
                exact ⟨k, .inl h8, h9⟩
              · subst h5
                exact ⟨_, .inr rfl, hnew.2 h6.2.2⟩
        · obtain ⟨ps, h1, h2⟩ := h.string
          exact ⟨ps, h1, fun x => by rw [h2, hstring]⟩
    · have hwe : f.wildcard.addEntry e = (f.wildcard, false) := by
        unfold WildcardFactory.addEntry
        simp only
        rw [if_pos (List.count_eq_zero.2 hs)]
      rw [hwe] at ha
      simp only [Bool.false_eq_true, if_false] at ha
      cases ha
      refine ⟨hregex, ?_, ?_⟩
      · obtain ⟨keys, h1, h2, h3, h4⟩ := h.wkeys
        refine ⟨keys, h1, h2, h3, fun s => ?_⟩
        rw [h4]
        simp only [List.mem_append, List.mem_singleton]
        constructor
        · rintro ⟨e', h5, h6⟩; exact ⟨e', .inl h5, h6⟩
        · rintro ⟨e', h5 | h5, h6, h7, h8⟩
          · exact ⟨e', h5, h6, h7, h8⟩
          · subst h5; exact absurd h7 hs
      · obtain ⟨ps, h1, h2⟩ := h.string
        refine ⟨ps ++ [e], h1.add e, fun x => ?_⟩
        simp only [List.mem_append, List.mem_singleton, h2]
        constructor
        · rintro (h5 | h5)
          · exact ⟨.inl h5.1, h5.2⟩
          · subst h5; exact ⟨.inr rfl, hnr, hs⟩
        · rintro ⟨h5 | h5, h6⟩
          · exact .inl ⟨h5, h6⟩
          · exact .inr h5
  · -- a regex (or a panic)
    simp only [not_or, ne_eq, Decidable.not_not] at hr
    by_cases hlen : e.length < 2
    · have : regexAddEntry E f.regex e = .panic := by
        unfold regexAddEntry
        rw [if_neg (by simp [hr.1, hr.2]), if_pos hlen]
      rw [this] at ha
      cases ha
    · have hreg : IsRegexEntry e := (isRegex_iff e).1 ⟨hr.1, hr.2, by omega⟩
      obtain ⟨body, hbody⟩ := hreg
      have hre : ∃ r', regexAddEntry E f.regex e = .ok r' true ∧
          ∀ s, regexContains E r' s = true ↔
            regexContains E f.regex s = true ∨ RegexEntryMatches E e s := by
        unfold regexAddEntry
        rw [if_neg (by simp [hr.1, hr.2]), if_neg hlen]
        have hb : (e.drop 1).take (e.length - 2) = body := by rw [hbody]; exact regex_body body
        rw [hb]
        cases hcomp : E.compile (trimSpace body) with
        | none =>
          refine ⟨f.regex, rfl, fun s => ?_⟩
          constructor
          · exact .inl
          · rintro (h1 | ⟨body', r, h1, h2, _⟩)
            · exact h1
            · rw [hbody] at h1
              have : body = body' := by simpa using h1
              subst this
              rw [hcomp] at h2
              cases h2
        | some r =>
          refine ⟨f.regex ++ [r], rfl, fun s => ?_⟩
          simp only [regexContains, List.any_append, Bool.or_eq_true, List.any_cons, List.any_nil,
            Bool.or_false]
          refine or_congr Iff.rfl ?_
          constructor
          · intro h1; exact ⟨body, r, hbody, hcomp, h1⟩
          · rintro ⟨body', r', h1, h2, h3⟩
            rw [hbody] at h1
            have : body = body' := by simpa using h1
            subst this
            rw [hcomp] at h2
            cases h2
            exact h3
      obtain ⟨r', hr1, hr2⟩ := hre
      rw [hr1] at ha
      simp only at ha
      cases ha
      have hreg : IsRegexEntry e := ⟨body, hbody⟩
      refine ⟨?_, ?_, ?_⟩
      · intro s
        rw [hr2, h.regex]
        simp only [List.mem_append, List.mem_singleton]
        constructor
        · rintro (⟨e', h1, h2⟩ | h1)
          · exact ⟨e', .inl h1, h2⟩
          · exact ⟨e, .inr rfl, h1⟩
        · rintro ⟨e', h1 | h1, h2⟩
          · exact .inl ⟨e', h1, h2⟩
          · subst h1; exact .inr h2
      · obtain ⟨keys, h1, h2, h3, h4⟩ := h.wkeys
        refine ⟨keys, h1, h2, h3, fun s => ?_⟩
        rw [h4]
        simp only [List.mem_append, List.mem_singleton]
        constructor
        · rintro ⟨e', h5, h6⟩; exact ⟨e', .inl h5, h6⟩
        · rintro ⟨e', h5 | h5, h6, h7⟩
          · exact ⟨e', h5, h6, h7⟩
          · subst h5; exact absurd hreg h6
      · obtain ⟨ps, h1, h2⟩ := h.string
        refine ⟨ps, h1, fun x => ?_⟩
        rw [h2]
        simp only [List.mem_append, List.mem_singleton]
        constructor
        · rintro ⟨h5, h6⟩; exact ⟨.inl h5, h6⟩
        · rintro ⟨h5 | h5, h6⟩
          · exact ⟨h5, h6⟩
          · subst h5; exact absurd hreg h6.1

theorem CInv.addAll {f f' : Factory E} {done es : List Str} (h : CInv f done)
    (ha : f.addAll E es = some f') : CInv f' (done ++ es) := by
  induction es generalizing f done with
  | nil => cases ha; simpa using h
  | cons e es ih =>
    unfold Factory.addAll at ha
    split at ha
    · cases ha
    · next f1 b hb =>
      have := ih (h.add hb) ha
      simpa using this

/-- Does group `g` match `s`? (the three caches) -/
def matchGroup (c : Caches E) (g s : Str) : Bool :=
  foundContains (regexContains E) s (c.regex.get g) ||
  foundContains WildcardFactory.contains s (c.wildcard.get g) ||
  foundContains StringMap.contains s (c.string.get g)

theorem contains_iff (c : Caches E) (s : Str) (groups : List Str) :
    SortedStr (c.contains E s groups) ∧
    ∀ g, g ∈ c.contains E s groups ↔ g ∈ groups ∧ matchGroup c g s = true := by
  unfold Caches.contains
  have := foldl_insertSorted (groupedContains c.regex (regexContains E) s groups ++
    groupedContains c.wildcard WildcardFactory.contains s groups ++
    groupedContains c.string StringMap.contains s groups) [] List.Pairwise.nil
  refine ⟨this.1, fun g => ?_⟩
  rw [this.2 g]
  simp only [groupedContains, List.mem_append, List.mem_filter, List.not_mem_nil, or_false,
    matchGroup, Bool.or_eq_true]
  constructor
  · rintro ((h | h) | h)
    · exact ⟨h.1, .inl (.inl h.2)⟩
    · exact ⟨h.1, .inl (.inr h.2)⟩
    · exact ⟨h.1, .inr h.2⟩
  · rintro ⟨h1, (h | h) | h⟩
    · exact .inl (.inl ⟨h1, h⟩)
    · exact .inl (.inr ⟨h1, h⟩)
    · exact .inr ⟨h1, h⟩

theorem get_setOrDelete {C : Type} (m : AMap Str C) (g g' : Str) (o : Option C) :
    (setOrDelete m g o).get g' = if g = g' then o else m.get g' := by
  cases o with
  | none => simp [setOrDelete, AMap.get_del]
  | some c => simp [setOrDelete, AMap.get_put]

theorem matchGroup_finish_ne (c : Caches E) (f : Factory E) {g g' : Str} (s : Str) (h : g ≠ g') :
    matchGroup (c.finish E g f) g' s = matchGroup c g' s := by
  simp [matchGroup, Caches.finish, get_setOrDelete, h]

theorem matchGroup_finish_self (c : Caches E) {f : Factory E} {es : List Str} (h : CInv f es)
    (g s : Str) :
    matchGroup (c.finish E g f) g s = true ↔ ∃ e ∈ es, EntryMatches E e s := by
  simp only [matchGroup, Caches.finish, get_setOrDelete, if_true, Bool.or_eq_true]
  have h1 : foundContains (regexContains E) s
      (if f.regex = [] then none else some f.regex) = true ↔ ∃ e ∈ es, RegexEntryMatches E e s := by
    rw [← h.regex]
    by_cases hf : f.regex = []
    · rw [if_pos hf, hf]; simp [regexContains, foundContains]
    · rw [if_neg hf]; rfl
  have h2 : foundContains WildcardFactory.contains s f.wildcard.create = true ↔
        ∃ e ∈ es, ¬ IsRegexEntry e ∧ '*' ∈ e ∧ WildcardEntryMatches e s := by
    obtain ⟨keys, k1, k2, k3, k4⟩ := h.wkeys
    rw [← k4]
    unfold WildcardFactory.create
    by_cases hc : f.wildcard.cnt = 0
    · rw [if_pos hc]
      have : keys = [] := List.length_eq_zero_iff.1 (by omega)
      simp [this, foundContains]
    · rw [if_neg hc]
      simp only [foundContains, WildcardFactory.contains, k1]
      rw [hasParentOf_build keys k3]
      simp only [rl, List.reverse_prefix, IsWithin]
  have h3 : foundContains StringMap.contains s f.string.create = true ↔
        ∃ e ∈ es, ¬ IsRegexEntry e ∧ '*' ∉ e ∧ PlainEntryMatches e s := by
    obtain ⟨ps, p1, p2⟩ := h.string
    rw [contains_create p1]
    unfold Added PlainEntryMatches
    constructor
    · rintro ⟨_, e, q1, q2, q3⟩
      have := (p2 e).1 q1
      exact ⟨e, this.1, this.2.1, this.2.2, q2, q3⟩
    · rintro ⟨e, q1, q2, q3, q4, q5⟩
      refine ⟨?_, e, (p2 e).2 ⟨q1, q2, q3⟩, q4, q5⟩
      rintro rfl
      apply q4
      have := congrArg List.length q5
      simpa using this
  rw [h1, h2, h3]
  unfold EntryMatches
  constructor
  · rintro ((⟨e, a, b⟩ | ⟨e, a, b⟩) | ⟨e, a, b⟩)
    · exact ⟨e, a, .inl b⟩
    · exact ⟨e, a, .inr (.inl b)⟩
    · exact ⟨e, a, .inr (.inr b)⟩
  · rintro ⟨e, a, b | b | b⟩
    · exact .inl (.inl ⟨e, a, b⟩)
    · exact .inl (.inr ⟨e, a, b⟩)
    · exact .inr ⟨e, a, b⟩

/-- Entries other than the single slash never panic. -/
theorem addEntry_no_panic (f : Factory E) {e : Str} (h : e ≠ ['/']) :
    ∃ f' b, f.addEntry E e = .ok f' b := by
  unfold Factory.addEntry
  cases hr : regexAddEntry E f.regex e with
  | panic =>
    exfalso
    unfold regexAddEntry at hr
    split at hr
    · cases hr
    · next hh =>
      simp only [not_or, ne_eq, Decidable.not_not] at hh
      split at hr
      · next hl =>
        apply h
        cases e with
        | nil => simp at hh
        | cons c cs =>
          have : cs = [] := List.length_eq_zero_iff.1 (by simp only [List.length_cons] at hl; omega)
          subst this
          simpa using hh.1
      · split at hr <;> cases hr
  | ok r b =>
    cases b with
    | true => exact ⟨_, _, rfl⟩
    | false =>
      simp only
      split <;> exact ⟨_, _, rfl⟩

theorem addAll_no_panic (f : Factory E) {es : List Str} (h : ∀ e ∈ es, e ≠ ['/']) :
    ∃ f', f.addAll E es = some f' := by
  induction es generalizing f with
  | nil => exact ⟨f, rfl⟩
  | cons e es ih =>
    obtain ⟨f', b, hf⟩ := addEntry_no_panic f (h e (by simp))
    unfold Factory.addAll
    rw [hf]
    exact ih f' (fun e' he' => h e' (by simp [he']))

end Verif.StringCache
