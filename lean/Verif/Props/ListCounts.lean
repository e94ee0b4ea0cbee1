/-
C91: the number of entries reported for a list group.
-/
import Verif.Props.StringCache

namespace Verif.Props
open StringCache Spec

/-- A regular expression that can be used. -/
def UsableRegex (E : RegexEngine) (e : Str) : Prop :=
  ∃ body r, e = '/' :: body ++ ['/'] ∧ E.compile (trimSpace body) = some r

/-- A wildcard that is supported: `*.` and something without a star. -/
def UsableWildcard (e : Str) : Prop := ∃ dom, e = '*' :: '.' :: dom ∧ '*' ∉ dom

/-- A plain name. -/
def PlainEntry (e : Str) : Prop := e ≠ [] ∧ ¬ IsRegexEntry e ∧ '*' ∉ e

open scoped Classical in
/-- How many entries of a list have a property. -/
noncomputable def howMany (p : Str → Prop) (es : List Str) : Nat := es.countP (fun e => decide (p e))

theorem howMany_snoc_pos {p : Str → Prop} {es : List Str} {e : Str} (h : p e) : howMany p (es ++ [e]) = howMany p es + 1 := by
  simp [howMany, List.countP_append, h]

theorem howMany_snoc_neg {p : Str → Prop} {es : List Str} {e : Str} (h : ¬ p e) : howMany p (es ++ [e]) = howMany p es := by
  simp [howMany, List.countP_append, h]

/-- What the factories hold after adding `es`, in numbers. -/
structure NumInv {E : RegexEngine} (f : Factory E) (es : List Str) : Prop where
  regex : f.regex.length = howMany (UsableRegex E) es
  wildcard : f.wildcard.cnt = howMany UsableWildcard es
  string : ∃ ps, f.string = buildString ps ∧ ∀ x, (x ∈ ps ∧ x ≠ []) ↔ x ∈ es ∧ PlainEntry x

theorem wildcard_not_regex {e : Str} (h : UsableWildcard e) : ¬ IsRegexEntry e := by
  obtain ⟨d, rfl, _⟩ := h
  rintro ⟨b, hb⟩
  have := congrArg List.head? hb
  simp at this

theorem NumInv.add {E : RegexEngine} {f f' : Factory E} {es : List Str} {e : Str} {b : Bool} (h : NumInv f es)
    (ha : f.addEntry E e = .ok f' b) : NumInv f' (es ++ [e]) := by
  obtain ⟨ps, hp1, hp2⟩ := h.string
  unfold Factory.addEntry at ha
  by_cases hr : e.head? ≠ some '/' ∨ e.getLast? ≠ some '/'
  · have hnr : ¬ IsRegexEntry e := by
      intro hreg
      have := (isRegex_iff e).2 hreg
      rcases hr with hr | hr
      · exact hr this.1
      · exact hr this.2.1
    have hnu : ¬ UsableRegex E e := fun ⟨b, _, hb, _⟩ => hnr ⟨b, hb⟩
    have hre : regexAddEntry E f.regex e = .ok f.regex false := by unfold regexAddEntry; rw [if_pos hr]
    rw [hre] at ha
    simp only at ha
    by_cases hs : '*' ∈ e
    · have hc : e.count '*' ≠ 0 := fun h0 => List.count_eq_zero.1 h0 hs
      have hnp : ¬ PlainEntry e := fun hp => hp.2.2 hs
      have hstr : ∀ x, (x ∈ ps ∧ x ≠ []) ↔ x ∈ es ++ [e] ∧ PlainEntry x := by
        intro x
        rw [hp2, List.mem_append, List.mem_singleton]
        constructor
        · exact fun ⟨h1, h2⟩ => ⟨.inl h1, h2⟩
        · rintro ⟨h1 | rfl, h2⟩
          · exact ⟨h1, h2⟩
          · exact absurd h2 hnp
      by_cases hw : ¬ (['*', '.'] <+: e) ∨ e.count '*' > 1
      · have hwe : f.wildcard.addEntry e = (f.wildcard, true) := by
          unfold WildcardFactory.addEntry
          simp only
          rw [if_neg hc, if_pos hw]
        rw [hwe] at ha
        simp only [if_true] at ha
        cases ha
        have hnw : ¬ UsableWildcard e := by
          intro hu
          have := (isWildcard_iff e).2 hu
          rcases hw with hw | hw
          · exact hw this.1
          · omega
        exact ⟨by rw [howMany_snoc_neg hnu]; exact h.regex, by rw [howMany_snoc_neg hnw]; exact h.wildcard, ps, hp1, hstr⟩
      · have hwild : ['*', '.'] <+: e ∧ e.count '*' ≤ 1 := by
          simp only [not_or, Decidable.not_not, Nat.not_lt] at hw
          exact hw
        have hu : UsableWildcard e := (isWildcard_iff e).1 hwild
        have hwe : f.wildcard.addEntry e =
            ({ trie := Trie.insert f.wildcard.trie (normalizeWildcard e), cnt := f.wildcard.cnt + 1 }, true) := by
          unfold WildcardFactory.addEntry
          simp only
          rw [if_neg hc, if_neg hw]
        rw [hwe] at ha
        simp only [if_true] at ha
        cases ha
        exact ⟨by rw [howMany_snoc_neg hnu]; exact h.regex, by rw [howMany_snoc_pos hu, ← h.wildcard], ps, hp1, hstr⟩
    · have hc : e.count '*' = 0 := List.count_eq_zero.2 hs
      have hnw : ¬ UsableWildcard e := fun ⟨d, hd, _⟩ => hs (by rw [hd]; exact List.mem_cons_self)
      have hwe : f.wildcard.addEntry e = (f.wildcard, false) := by
        unfold WildcardFactory.addEntry
        simp only
        rw [if_pos hc]
      rw [hwe] at ha
      simp only [Bool.false_eq_true, if_false] at ha
      cases ha
      refine ⟨by rw [howMany_snoc_neg hnu]; exact h.regex, by rw [howMany_snoc_neg hnw]; exact h.wildcard, ps ++ [e], ?_, ?_⟩
      · rw [hp1]
        simp [buildString, List.foldl_append]
      · intro x
        rw [List.mem_append, List.mem_append, List.mem_singleton]
        constructor
        · rintro ⟨h1 | rfl, h2⟩
          · have := (hp2 x).1 ⟨h1, h2⟩
            exact ⟨.inl this.1, this.2⟩
          · exact ⟨.inr rfl, h2, hnr, hs⟩
        · rintro ⟨h1 | rfl, h2⟩
          · have := (hp2 x).2 ⟨h1, h2⟩
            exact ⟨.inl this.1, this.2⟩
          · exact ⟨.inr rfl, h2.1⟩
  · have hr' : e.head? = some '/' ∧ e.getLast? = some '/' := by
      simp only [not_or, Decidable.not_not] at hr
      exact hr
    unfold regexAddEntry at ha
    rw [if_neg hr] at ha
    by_cases hl : e.length < 2
    · rw [if_pos hl] at ha; cases ha
    rw [if_neg hl] at ha
    obtain ⟨body, rfl⟩ := (isRegex_iff e).1 ⟨hr'.1, hr'.2, by omega⟩
    rw [regex_body] at ha
    have hnw : ¬ UsableWildcard ('/' :: body ++ ['/']) := fun hu => wildcard_not_regex hu ⟨body, rfl⟩
    have hstr : ∀ x, (x ∈ ps ∧ x ≠ []) ↔ x ∈ es ++ ['/' :: body ++ ['/']] ∧ PlainEntry x := by
      intro x
      rw [hp2, List.mem_append, List.mem_singleton]
      constructor
      · exact fun ⟨h1, h2⟩ => ⟨.inl h1, h2⟩
      · rintro ⟨h1 | rfl, h2⟩
        · exact ⟨h1, h2⟩
        · exact absurd ⟨body, rfl⟩ h2.2.1
    cases hcomp : E.compile (trimSpace body) with
    | none =>
      rw [hcomp] at ha
      simp only at ha
      cases ha
      have hnu : ¬ UsableRegex E ('/' :: body ++ ['/']) := by
        rintro ⟨b, r, hb, hc⟩
        have : b = body := by simpa using hb.symm
        rw [this, hcomp] at hc
        cases hc
      exact ⟨by rw [howMany_snoc_neg hnu]; exact h.regex, by rw [howMany_snoc_neg hnw]; exact h.wildcard, ps, hp1, hstr⟩
    | some r =>
      rw [hcomp] at ha
      simp only at ha
      cases ha
      have hu : UsableRegex E ('/' :: body ++ ['/']) := ⟨body, r, rfl, hcomp⟩
      refine ⟨?_, by rw [howMany_snoc_neg hnw]; exact h.wildcard, ps, hp1, hstr⟩
      rw [howMany_snoc_pos hu, List.length_append, h.regex]
      rfl

theorem NumInv.addAll {E : RegexEngine} {f f' : Factory E} {es es' : List Str} (h : NumInv f es) (ha : f.addAll E es' = some f') :
    NumInv f' (es ++ es') := by
  induction es' generalizing f es with
  | nil => cases ha; simpa using h
  | cons e es' ih =>
    unfold Factory.addAll at ha
    split at ha
    · cases ha
    · next g b hg =>
      have := ih (h.add hg) ha
      simpa using this

theorem NumInv.init {E : RegexEngine} : NumInv ({} : Factory E) [] :=
  ⟨rfl, rfl, [], rfl, by simp⟩

/-- The number of entries of a created cache. -/
theorem elementCount_finish {E : RegexEngine} (c : Caches E) (g : Str) (f : Factory E) :
    (c.finish E g f).elementCount E g = f.regex.length + f.wildcard.cnt + reportedCount f.string.create := by
  have hget : ∀ {C : Type} (m : AMap Str C) (o : Option C), (setOrDelete m g o).get g = o := by
    intro C m o
    cases o with
    | none => exact by simp [setOrDelete, AMap.get_del]
    | some v => exact AMap.get_put_self m g v
  unfold Caches.elementCount Caches.finish
  simp only [hget, WildcardFactory.create]
  by_cases h1 : f.regex = [] <;> by_cases h2 : f.wildcard.cnt = 0
  · rw [if_pos h1, if_pos h2, h1, h2]; rfl
  · rw [if_pos h1, if_neg h2, h1]; rfl
  · rw [if_neg h1, if_pos h2, h2]; rfl
  · rw [if_neg h1, if_neg h2]; rfl

theorem elementCount_finish_ne {E : RegexEngine} (c : Caches E) (g g' : Str) (f : Factory E) (h : g' ≠ g) :
    (c.finish E g' f).elementCount E g = c.elementCount E g := by
  have hget : ∀ {C : Type} (m : AMap Str C) (o : Option C), (setOrDelete m g' o).get g = m.get g := by
    intro C m o
    cases o with
    | none => exact by simp [setOrDelete, AMap.get_del, h]
    | some v => exact AMap.get_put_ne m v h
  unfold Caches.elementCount Caches.finish
  simp only [hget]

/-- Loads of other groups do not matter. -/
theorem elementCount_untouched {E : RegexEngine} {rest : List (Str × List Str)} {g : Str} (hg : g ∉ rest.map Prod.fst) {c c1 : Caches E}
    (h : afterRefreshes E rest c1 = some c) : c.elementCount E g = c1.elementCount E g := by
  induction rest generalizing c1 with
  | nil => cases h; rfl
  | cons y rest ih =>
    obtain ⟨g2, es2⟩ := y
    simp only [List.map_cons, List.mem_cons, not_or] at hg
    unfold afterRefreshes at h
    split at h
    · cases h
    · rw [ih hg.2 h, elementCount_finish_ne _ _ _ _ (fun h => hg.1 h.symm)]

/-- **C91 (partial).** After any history of list loads the number reported for a group is the number of usable regular expressions plus
the number of supported wildcards plus the number of different plain names, ignoring case, of its current list; 0 for a group
never loaded. Missing: regular expressions and wildcards given twice count twice, see `C91_duplicates_counted`. -/
theorem C91_count_partial (E : RegexEngine) (hist : List (Str × List Str)) (c : Caches E) (h : afterRefreshes E hist {} = some c)
    (g : Str) (names : List Str) (hnd : names.Nodup) (hmem : ∀ x, x ∈ names ↔ ∃ e ∈ currentList g hist, PlainEntry e ∧ lower e = x) :
    c.elementCount E g =
      howMany (UsableRegex E) (currentList g hist) + howMany UsableWildcard (currentList g hist) + names.length := by
  suffices ∀ (c0 : Caches E), afterRefreshes E hist c0 = some c →
      (g ∉ hist.map Prod.fst → c.elementCount E g = c0.elementCount E g) ∧
      (g ∈ hist.map Prod.fst → c.elementCount E g =
        howMany (UsableRegex E) (currentList g hist) + howMany UsableWildcard (currentList g hist) + names.length) by
    by_cases hg : g ∈ hist.map Prod.fst
    · exact (this {} h).2 hg
    · rw [(this {} h).1 hg]
      have h3 : currentList g hist = [] := by
        clear this h hmem
        induction hist with
        | nil => rfl
        | cons x rest ih =>
          obtain ⟨g', es⟩ := x
          simp only [List.map_cons, List.mem_cons, not_or] at hg
          unfold currentList
          rw [if_neg hg.2, if_neg (fun h => hg.1 h.symm)]
      rw [h3] at hmem ⊢
      have : names = [] := List.eq_nil_iff_forall_not_mem.2 (fun x hx => by
        obtain ⟨e, he, _⟩ := (hmem x).1 hx
        cases he)
      rw [this]
      rfl
  clear h
  induction hist with
  | nil =>
    intro c0 h
    cases h
    exact ⟨fun _ => rfl, fun hg => by cases hg⟩
  | cons x rest ih =>
    obtain ⟨g', es⟩ := x
    intro c0 h
    unfold afterRefreshes at h
    split at h
    · cases h
    · next f hf =>
      by_cases hg : g ∈ rest.map Prod.fst
      · have hcur : currentList g ((g', es) :: rest) = currentList g rest := by simp only [currentList, hg, if_true]
        rw [hcur] at hmem ⊢
        refine ⟨fun hn => absurd (List.mem_cons_of_mem _ hg) hn, fun _ => ((ih hmem) _ h).2 hg⟩
      · by_cases hgg : g' = g
        · subst hgg
          have hcur : currentList g' ((g', es) :: rest) = es := by simp only [currentList, hg, if_false, if_true]
          rw [hcur] at hmem ⊢
          refine ⟨fun hn => absurd List.mem_cons_self hn, fun _ => ?_⟩
          have hrest := elementCount_untouched hg h
          have hn : NumInv f es := by simpa using NumInv.addAll (E := E) NumInv.init hf
          obtain ⟨ps, hp1, hp2⟩ := hn.string
          rw [hrest, elementCount_finish, hn.regex, hn.wildcard, hp1, C02_count_exact ps names hnd]
          intro x
          rw [hmem]
          constructor
          · rintro ⟨e, h1, h2, h3⟩
            have := (hp2 e).2 ⟨h1, h2⟩
            exact ⟨e, this.1, this.2, h3⟩
          · rintro ⟨e, h1, h2, h3⟩
            have := (hp2 e).1 ⟨h1, h2⟩
            exact ⟨e, this.1, this.2, h3⟩
        · have hcur : currentList g ((g', es) :: rest) = [] := by simp only [currentList, hg, hgg, if_false]
          refine ⟨fun _ => ?_, fun hm => ?_⟩
          · have hrest := elementCount_untouched hg h
            rw [hrest, elementCount_finish_ne _ _ _ _ hgg]
          · rcases List.mem_cons.1 hm with h1 | h1
            · exact absurd h1.symm hgg
            · exact absurd h1 hg

/-- A list without its duplicates. -/
theorem exists_nodup (l : List Str) : ∃ l' : List Str, l'.Nodup ∧ ∀ x, x ∈ l' ↔ x ∈ l := by
  induction l with
  | nil => exact ⟨[], List.nodup_nil, fun _ => Iff.rfl⟩
  | cons a l ih =>
    obtain ⟨l', h1, h2⟩ := ih
    by_cases ha : a ∈ l
    · refine ⟨l', h1, fun x => ?_⟩
      rw [h2, List.mem_cons]
      exact ⟨.inr, fun h => h.elim (fun h => h ▸ ha) id⟩
    · exact ⟨a :: l', List.nodup_cons.2 ⟨fun h => ha ((h2 a).1 h), h1⟩, fun x => by rw [List.mem_cons, List.mem_cons, h2]⟩

/-- **C91, empty groups.** A group reported with 0 entries matches no name. -/
theorem C91_zero (E : RegexEngine) (hist : List (Str × List Str)) (c : Caches E) (h : afterRefreshes E hist {} = some c)
    (g : Str) (hz : c.elementCount E g = 0) (s : Str) (groups : List Str) : g ∉ c.contains E s groups := by
  intro hm
  obtain ⟨_, e, he, hmatch⟩ := ((C03_lookup_union E hist c h s groups).2 g).1 hm
  classical
  obtain ⟨names, hnd, hnames⟩ := exists_nodup (((currentList g hist).filter (fun e => decide (PlainEntry e))).map lower)
  have hcount := C91_count_partial E hist c h g names hnd (by
      intro x
      simp only [hnames, List.mem_map, List.mem_filter, decide_eq_true_eq, and_assoc])
  rw [hz] at hcount
  have h1 : howMany (UsableRegex E) (currentList g hist) = 0 := by omega
  have h2 : howMany UsableWildcard (currentList g hist) = 0 := by omega
  have h3 : names.length = 0 := by omega
  rcases hmatch with ⟨b, r, hb, hr, _⟩ | ⟨_, _, d, hd, hn, _⟩ | ⟨hnr, hs, hne, _⟩
  · have := List.countP_eq_zero.1 h1 e he
    exact this (by simpa using ⟨b, r, hb, hr⟩)
  · have := List.countP_eq_zero.1 h2 e he
    exact this (by simpa using ⟨d, hd, hn⟩)
  · have hin : lower e ∈ names := by
      rw [hnames]
      exact List.mem_map_of_mem (List.mem_filter.2 ⟨he, by simpa using ⟨hne, hnr, hs⟩⟩)
    rw [List.length_eq_zero_iff.1 h3] at hin
    cases hin

/-- **C91 is false as stated**: a wildcard listed twice is counted twice, a name only once. -/
theorem C91_duplicates_counted :
    (afterRefreshes prefixEngine [(str! "ads", [str! "*.ads.com", str! "*.ads.com", str! "*.ADS.com"]), (str! "b", [str! "x.org", str! "X.org"])] {}).map
      (fun c => (c.elementCount prefixEngine (str! "ads"), c.elementCount prefixEngine (str! "b"))) = some (3, 1) := by
  decide +kernel

/-- **C91, counted without effect**: `*.` counts as an entry but matches no name. -/
theorem C91_useless_counted :
    (afterRefreshes prefixEngine [(str! "ads", [str! "*."])] {}).map (fun c => c.elementCount prefixEngine (str! "ads")) = some 1 ∧
    ∀ s, ¬ EntryMatches prefixEngine (str! "*.") s := by
  refine ⟨by decide +kernel, ?_⟩
  rintro s (⟨b, r, hb, _⟩ | ⟨_, _, d, hd, _, hl, _⟩ | ⟨_, hs, _⟩)
  · have := congrArg List.head? hb
    simp at this
  · have : d = [] := by simpa using hd.symm
    subst this
    exact hl (by decide)
  · exact hs (by decide)

-- Concrete: a group that is reloaded, with all three kinds of entries, and one never loaded.
example : (afterRefreshes prefixEngine [(str! "b", [str! "old.com"]), (str! "a", [str! "/ads/", str! "x.org", str! "*.y.org", str! "z.org", str! "X.org", str! "a*b"]),
    (str! "b", [str! "*.ads.com"])] {}).map (fun c => [str! "a", str! "b", str! "c"].map (c.elementCount prefixEngine)) = some [4, 1, 0] := by
  decide +kernel

end Verif.Props
