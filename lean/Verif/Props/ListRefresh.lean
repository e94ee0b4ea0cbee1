/-
C04: refreshing lists.
-/
import Verif.Props.Lists

namespace Verif.Props
open Parsers StringCache Spec Lists

/-- The refresh of a group is accepted: no error, or an error that is not a time-out although
something was delivered. -/
def Accepted (r : Refresh) : Prop :=
  r.err = none ∨ (r.err = some .other ∧ r.delivered ≠ [])

instance (r : Refresh) : Decidable (Accepted r) := by unfold Accepted; infer_instance

/-- Which refreshes can result from the group's sources (each with the point at which it was
cancelled, if any): the entries of the sources in any order; an error exactly if some source
reported one. -/
def Possible (env : Env) (limit : Option Nat) (sources : List (SourceState × Option Nat))
    (r : Refresh) : Prop :=
  r.delivered.Perm (sources.flatMap (fun s => (parseFile env limit s.2 s.1).hosts)) ∧
  (r.err = none ↔ ∀ s ∈ sources, (parseFile env limit s.2 s.1).err = none) ∧
  ∀ e, r.err = some e → ∃ s ∈ sources, (parseFile env limit s.2 s.1).err = some e

theorem createCacheForGroup_cases {E : RegexEngine} {c c' : Caches E} {r : Refresh}
    (h : createCacheForGroup E c r.group r.delivered r.err = some c') :
    (¬ Accepted r ∧ c' = c) ∨
    (Accepted r ∧ ∃ f, Factory.addAll E {} r.delivered = some f ∧ c' = c.finish E r.group f) := by
  unfold createCacheForGroup at h
  rw [consume_eq] at h
  cases hf : Factory.addAll E {} r.delivered with
  | none => rw [hf] at h; cases h
  | some f =>
    rw [hf] at h
    simp only [Option.map_some, Bool.false_or] at h
    cases he : r.err with
    | none =>
      rw [he] at h
      cases h
      exact .inr ⟨.inl he, f, rfl, rfl⟩
    | some e =>
      rw [he] at h
      simp only at h
      by_cases hd : r.delivered = []
      · rw [if_pos (by simp [hd])] at h
        cases h
        refine .inl ⟨?_, rfl⟩
        simp [Accepted, he, hd]
      · rw [if_neg (by simp [hd])] at h
        cases e with
        | transient =>
          rw [if_pos rfl] at h
          cases h
          refine .inl ⟨?_, rfl⟩
          simp [Accepted, he]
        | other =>
          rw [if_neg (by decide)] at h
          cases h
          exact .inr ⟨.inr ⟨he, hd⟩, f, rfl, rfl⟩

/-- C04 (part): a refresh that is not accepted changes nothing at all. -/
theorem C04_failed_refresh_keeps {E : RegexEngine} {c c' : Caches E} {r : Refresh}
    (h : createCacheForGroup E c r.group r.delivered r.err = some c') (hr : ¬ Accepted r) :
    c' = c := by
  rcases createCacheForGroup_cases h with ⟨_, h⟩ | ⟨h, _⟩
  · exact h
  · exact absurd h hr

/-- C04 (part): a refresh of one group never affects another group, accepted or not. -/
theorem C04_other_groups_unaffected {E : RegexEngine} {c c' : Caches E} {r : Refresh}
    (h : createCacheForGroup E c r.group r.delivered r.err = some c') (s : Str) (groups : List Str)
    (g : Str) (hg : g ≠ r.group) : g ∈ c'.contains E s groups ↔ g ∈ c.contains E s groups := by
  rw [(contains_iff c' s groups).2, (contains_iff c s groups).2]
  rcases createCacheForGroup_cases h with ⟨_, rfl⟩ | ⟨_, f, _, rfl⟩
  · rfl
  · rw [matchGroup_finish_ne _ _ _ (Ne.symm hg)]

theorem refreshAll_afterRefreshes {E : RegexEngine} {hist : List Refresh} {c c' : Caches E}
    (h : refreshAll E c hist = some c') :
    afterRefreshes E ((hist.filter (fun r => decide (Accepted r))).map
      (fun r => (r.group, r.delivered))) c = some c' := by
  induction hist generalizing c with
  | nil => simpa [refreshAll, afterRefreshes] using h
  | cons r rs ih =>
    unfold refreshAll at h
    split at h
    · cases h
    · next c1 hc =>
      have := ih h
      rcases createCacheForGroup_cases hc with ⟨h1, rfl⟩ | ⟨h1, f, h2, rfl⟩
      · rw [List.filter_cons_of_neg (by simpa using h1)]
        exact this
      · rw [List.filter_cons_of_pos (by simpa using h1), List.map_cons]
        unfold afterRefreshes
        rw [h2]
        exact this

/-- C04, the part that holds: after any history of refreshes, each group answers exactly from the
entries delivered by its last accepted refresh, nothing else (in particular no mixture of two
refreshes). Missing from the full claim: that an accepted refresh delivered the *complete* lists
(false: `C04_truncated_download_accepted`), and that this also holds for a lookup made while a
refresh is being completed (false: `C04_lookup_during_refresh`). -/
theorem C04_last_accepted_partial (E : RegexEngine) (hist : List Refresh) (c : Caches E)
    (h : refreshAll E {} hist = some c) (s : Str) (groups : List Str) (g : Str) :
    g ∈ c.contains E s groups ↔ g ∈ groups ∧
      ∃ e ∈ currentList g ((hist.filter (fun r => decide (Accepted r))).map
        (fun r => (r.group, r.delivered))), EntryMatches E e s :=
  (C03_lookup_union E _ c (refreshAll_afterRefreshes h) s groups).2 g

/-- C04 (part): if every source of the group could be opened and read to its end, stays within its
error limit and has no over-long line, the refresh is accepted and delivers exactly the valid
entries of all lines of all sources, addresses in the form in which Go prints them. -/
theorem C04_complete_sources (env : Env) (limit : Option Nat)
    (sources : List (SourceState × Option Nat)) (r : Refresh) (h : Possible env limit sources r)
    (hs : ∀ x ∈ sources, ∃ s, x = (.opened s, none) ∧ fileEnd s = .eof ∧
      ∀ n, limit = some n →
        (fileItems s.content).countP (fun t => (unmarshalHosts env t).isNone) ≤ n) :
    Accepted r ∧ ∀ e, e ∈ r.delivered ↔ ∃ s p, (SourceState.opened s, p) ∈ sources ∧
      ∃ t ∈ fileItems s.content, ∃ ws, unmarshalHosts env t = some ws ∧
        ∃ w ∈ ws, env.parseIP w = some e ∨ (env.parseIP w = none ∧ e = w) := by
  have hcanon : ∀ w e, e = canonHost env w ↔ env.parseIP w = some e ∨ (env.parseIP w = none ∧ e = w) := by
    intro w e
    unfold canonHost
    cases env.parseIP w with
    | none => simp
    | some s => simp [eq_comm]
  simp only [← hcanon]
  have hrun : ∀ x ∈ sources, ∃ s, x = (.opened s, none) ∧
      parseFile env limit x.2 x.1 =
        ⟨(((fileItems s.content).filterMap (unmarshalHosts env)).flatMap id).map (canonHost env),
          none⟩ := by
    intro x hx
    obtain ⟨s, rfl, h2, h3⟩ := hs x hx
    refine ⟨s, rfl, ?_⟩
    simp only [parseFile, C35_parse_all _ _ _ h3, h2, if_true, Option.isSome_none,
      Bool.false_eq_true, false_and, if_false]
  constructor
  · left
    rw [h.2.1]
    intro x hx
    obtain ⟨s, _, h2⟩ := hrun x hx
    rw [h2]
  · intro e
    rw [h.1.mem_iff, List.mem_flatMap]
    constructor
    · rintro ⟨x, hx, he⟩
      obtain ⟨s, rfl, h2⟩ := hrun x hx
      rw [h2] at he
      simp only [List.mem_map, List.mem_flatMap, List.mem_filterMap, id] at he
      obtain ⟨w, ⟨ws, ⟨t, ht, hu⟩, hw⟩, he⟩ := he
      exact ⟨s, none, hx, t, ht, ws, hu, w, hw, he.symm⟩
    · rintro ⟨s, p, hx, t, ht, ws, hu, w, hw, he⟩
      refine ⟨_, hx, ?_⟩
      obtain ⟨s', h1, h2⟩ := hrun _ hx
      rw [h2]
      cases h1
      simp only [List.mem_map, List.mem_flatMap, List.mem_filterMap, id]
      exact ⟨w, ⟨ws, ⟨t, ht, hu⟩, hw⟩, he.symm⟩

/-- C04 (part): if nothing was delivered and some source could not be opened, broke off, or had more
invalid lines than allowed, the group keeps its content. -/
theorem C04_nothing_delivered_keeps {E : RegexEngine} (env : Env) (limit : Option Nat)
    (sources : List (SourceState × Option Nat)) (r : Refresh) (h : Possible env limit sources r)
    (hd : r.delivered = [])
    (hs : ∃ x ∈ sources, (∃ e, x.1 = .openFails e) ∨ ∃ s, x = (.opened s, none) ∧
      (fileEnd s ≠ .eof ∨ ∃ n, limit = some n ∧
        n < (fileItems s.content).countP (fun t => (unmarshalHosts env t).isNone)))
    {c c' : Caches E} (hc : createCacheForGroup E c r.group r.delivered r.err = some c') : c' = c := by
  apply C04_failed_refresh_keeps hc
  rintro (ha | ⟨_, ha⟩)
  · obtain ⟨x, hx, hb⟩ := hs
    have he := h.2.1.1 ha x hx
    have hh : (parseFile env limit x.2 x.1).hosts = [] := by
      have := h.1
      rw [hd, List.nil_perm, List.flatMap_eq_nil_iff] at this
      exact this x hx
    rcases hb with ⟨e, h1⟩ | ⟨s, rfl, h1⟩
    · rw [h1] at he
      cases he
    · simp only [parseFile] at he hh
      rw [hh] at he
      have hsome : (parseSource (unmarshalHosts env) limit s).2.isSome := by
        by_cases hn : ∃ n, limit = some n ∧
            n < (fileItems s.content).countP (fun t => (unmarshalHosts env t).isNone)
        · obtain ⟨n, rfl, hn⟩ := hn
          obtain ⟨_, _, _, _, _, _, g⟩ := C35_abandon (unmarshalHosts env) n s hn
          rw [g]; rfl
        · have h2 := h1.resolve_right hn
          rw [C35_parse_all _ _ _ (fun n hl => Nat.le_of_not_lt fun hlt => hn ⟨n, hl, hlt⟩), if_neg h2]
          rfl
      rw [if_pos ⟨hsome, rfl⟩] at he
      cases he
  · exact ha hd

-- A source that breaks off before its first line, next to one that cannot be opened.
example : Possible demoEnv (some 5)
    [(.opened ⟨str! "# comment", true⟩, none), (.openFails .other, none)]
    ⟨str! "g", [], some .other⟩ := by
  have h1 : parseFile demoEnv (some 5) none (.opened ⟨str! "# comment", true⟩) =
      ⟨[], some .other⟩ := by
    unfold parseFile
    simp only
    rw [C35_parse_all _ _ _ (by intro n hn; cases hn; decide)]
    decide
  have h2 : parseFile demoEnv (some 5) none (.openFails .other) = ⟨[], some .other⟩ := rfl
  refine ⟨?_, ?_, ?_⟩
  · simp only [List.flatMap_cons, List.flatMap_nil, h1, h2]; decide
  · simp [h1]
  · intro e he
    cases he
    exact ⟨_, List.mem_cons_self, by rw [h1]⟩

/-- C04 is false, second case: a source that cannot be opened cancels the reading of the group's other
sources; what they delivered so far is accepted. The group held `a.com` and `x.com`, both still in
the second list; afterwards only `a.com` is left. -/
theorem C04_failed_source_truncates_others :
    ∃ r : Refresh, Possible demoEnv (some 5)
      [(.openFails .other, none), (.opened ⟨str! "a.com\nx.com\n", false⟩, some 1)] r ∧
      Accepted r ∧ r.delivered = [str! "a.com"] ∧
      fileItems (str! "a.com\nx.com\n") = [str! "a.com", str! "x.com"] := by
  have h1 : parseFile demoEnv (some 5) (some 1) (.opened ⟨str! "a.com\nx.com\n", false⟩) =
      ⟨[str! "a.com"], none⟩ := by
    unfold parseFile
    simp only
    rw [C35_parse_all _ _ _ (by intro n hn; cases hn; decide)]
    decide
  have h2 : parseFile demoEnv (some 5) none (.openFails .other) = ⟨[], some .other⟩ := rfl
  refine ⟨⟨str! "g", [str! "a.com"], some .other⟩, ⟨?_, ?_, ?_⟩, .inr ⟨rfl, by decide⟩, rfl, by decide⟩
  · simp only [List.flatMap_cons, List.flatMap_nil, h1, h2]; decide
  · simp [h2]
  · intro e he
    cases he
    exact ⟨_, List.mem_cons_self, by rw [h2]⟩

-- The hypotheses are satisfiable: two complete sources, one of them with an invalid line.
example : Possible demoEnv (some 1)
    [(.opened ⟨str! "a.com\nb.com", false⟩, none), (.opened ⟨str! "!bad\nx.com\n", false⟩, none)]
    ⟨str! "g", [str! "x.com", str! "a.com", str! "b.com"], none⟩ := by
  have h1 : parseFile demoEnv (some 1) none (.opened ⟨str! "a.com\nb.com", false⟩) =
      ⟨[str! "a.com", str! "b.com"], none⟩ := by
    unfold parseFile
    simp only
    rw [C35_parse_all _ _ _ (by intro n hn; cases hn; decide)]
    decide
  have h2 : parseFile demoEnv (some 1) none (.opened ⟨str! "!bad\nx.com\n", false⟩) =
      ⟨[str! "x.com"], none⟩ := by
    unfold parseFile
    simp only
    rw [C35_parse_all _ _ _ (by intro n hn; cases hn; decide)]
    decide
  refine ⟨?_, ?_, by simp⟩
  · simp only [List.flatMap_cons, List.flatMap_nil, h1, h2]; decide
  · simp [h1, h2]

/-- C04 is false: a download that breaks off in the middle of a line is accepted. The group held
`x.com`; the new list is `a.com`, `x.com`; the connection breaks after `x.c`. Afterwards `x.com` is
not matched any more, although it is in the old and in the new list, and `x.c` is matched, although
it is in neither. -/
theorem C04_truncated_download_accepted :
    ∃ (r : Refresh) (c c' : Caches prefixEngine),
      Possible demoEnv (some 5) [(.opened ⟨str! "a.com\nx.c", true⟩, none)] r ∧
      str! "a.com\nx.c" <+: str! "a.com\nx.com\n" ∧
      refreshAll prefixEngine {} [⟨str! "g", [str! "x.com"], none⟩] = some c ∧
      refreshAll prefixEngine c [r] = some c' ∧
      c.contains prefixEngine (str! "x.com") [str! "g"] = [str! "g"] ∧
      c'.contains prefixEngine (str! "x.com") [str! "g"] = [] ∧
      c'.contains prefixEngine (str! "x.c") [str! "g"] = [str! "g"] := by
  have h1 : parseFile demoEnv (some 5) none (.opened ⟨str! "a.com\nx.c", true⟩) =
      ⟨[str! "a.com", str! "x.c"], none⟩ := by
    unfold parseFile
    simp only
    rw [C35_parse_all _ _ _ (by intro n hn; cases hn; decide)]
    decide
  let r : Refresh := ⟨str! "g", [str! "a.com", str! "x.c"], none⟩
  obtain ⟨c', hc'⟩ : ∃ c', refreshAll prefixEngine {} [⟨str! "g", [str! "x.com"], none⟩, r] =
      some c' := by
    cases h : refreshAll prefixEngine {} [⟨str! "g", [str! "x.com"], none⟩, r] with
    | some c' => exact ⟨c', rfl⟩
    | none =>
      exfalso
      unfold refreshAll at h
      split at h
      · next h0 =>
        rw [createCacheForGroup_none_iff] at h0
        revert h0; decide
      · unfold refreshAll at h
        split at h
        · next h0 =>
          rw [createCacheForGroup_none_iff] at h0
          revert h0; decide
        · simp [refreshAll] at h
  obtain ⟨c, hc⟩ : ∃ c, refreshAll prefixEngine {} [⟨str! "g", [str! "x.com"], none⟩] = some c := by
    cases h : refreshAll prefixEngine {} [⟨str! "g", [str! "x.com"], none⟩] with
    | some c => exact ⟨c, rfl⟩
    | none =>
      exfalso
      unfold refreshAll at h
      split at h
      · next h0 =>
        rw [createCacheForGroup_none_iff] at h0
        revert h0; decide
      · simp [refreshAll] at h
  have hplain : ∀ (l : List Str), (∀ e ∈ l, '/' ∉ e ∧ '*' ∉ e) → ∀ s,
      ((∃ e ∈ l, EntryMatches prefixEngine e s) ↔ ∃ e ∈ l, e ≠ [] ∧ lower e = lower s) := by
    intro l hl s
    constructor
    · rintro ⟨e, he, ⟨body, _, hb, _⟩ | ⟨_, hs, _⟩ | ⟨_, _, hp⟩⟩
      · exact absurd (by rw [hb]; simp) (hl e he).1
      · exact absurd hs (hl e he).2
      · exact ⟨e, he, hp⟩
    · rintro ⟨e, he, hp⟩
      refine ⟨e, he, .inr (.inr ⟨?_, (hl e he).2, hp⟩)⟩
      rintro ⟨body, hb⟩
      exact (hl e he).1 (by rw [hb]; simp)
  have hmem : ∀ (c : Caches prefixEngine) (s : Str) (P : Prop),
      (str! "g" ∈ c.contains prefixEngine s [str! "g"] ↔ P) →
      (P → c.contains prefixEngine s [str! "g"] = [str! "g"]) ∧
      (¬ P → c.contains prefixEngine s [str! "g"] = []) := by
    intro c s P hP
    obtain ⟨hs, hi⟩ := contains_iff c s [str! "g"]
    have hsub : ∀ x ∈ c.contains prefixEngine s [str! "g"], x = str! "g" := by
      intro x hx
      simpa using ((hi x).1 hx).1
    generalize c.contains prefixEngine s [str! "g"] = l at *
    match l, hs, hsub, hP with
    | [], _, _, hP => exact ⟨fun h => absurd (hP.2 h) (by simp), fun _ => rfl⟩
    | [x], _, hsub, hP =>
      have := hsub x (by simp)
      subst this
      exact ⟨fun _ => rfl, fun h => absurd (hP.1 (by simp)) h⟩
    | x :: y :: t, hs, hsub, _ =>
      exfalso
      have hxy : strLt x y = true := by
        simp only [SortedStr, List.pairwise_cons] at hs; exact hs.1 y (by simp)
      rw [hsub x (by simp), hsub y (by simp), strLt_irrefl] at hxy
      cases hxy
  refine ⟨r, c, c', ⟨?_, ?_, by simp [r]⟩, by decide, hc, ?_, ?_, ?_, ?_⟩
  · simp [r, h1]
  · simp [r, h1]
  · unfold refreshAll at hc'
    split at hc'
    · cases hc'
    · next c1 hc1 =>
      unfold refreshAll at hc
      rw [hc1] at hc
      simp only [refreshAll] at hc
      cases hc
      exact hc'
  · have := C04_last_accepted_partial _ _ _ hc (str! "x.com") [str! "g"] (str! "g")
    refine (hmem c _ _ this).1 ⟨by decide, ?_⟩
    rw [hplain _ (by decide)]
    decide
  · have := C04_last_accepted_partial _ _ _ hc' (str! "x.com") [str! "g"] (str! "g")
    refine (hmem c' _ _ this).2 ?_
    rw [hplain _ (by decide)]
    decide
  · have := C04_last_accepted_partial _ _ _ hc' (str! "x.c") [str! "g"] (str! "g")
    refine (hmem c' _ _ this).1 ⟨by decide, ?_⟩
    rw [hplain _ (by decide)]
    decide

/-- chained_grouped_cache.go 78-82: `Finish` replaces the three caches one after the other, each
under its own lock; this is the state after the first of the three. -/
def finishRegexOnly {E : RegexEngine} (c : Caches E) (group : Str) (f : Factory E) : Caches E :=
  { c with regex := setOrDelete c.regex group (if f.regex = [] then none else some f.regex) }

/-- C04 is false during a refresh: the old list has the regular expression `ads`, the new list the
wildcard `*.ads.com`; both match `ads.com`, but a lookup between the first and the second step of
the exchange does not. -/
theorem C04_lookup_during_refresh :
    ∃ (c : Caches prefixEngine) (f : Factory prefixEngine),
      refreshAll prefixEngine {} [⟨str! "g", [str! "/ads/"], none⟩] = some c ∧
      Factory.addAll prefixEngine {} [str! "*.ads.com"] = some f ∧
      matchGroup c (str! "g") (str! "ads.com") = true ∧
      matchGroup (c.finish prefixEngine (str! "g") f) (str! "g") (str! "ads.com") = true ∧
      matchGroup (finishRegexOnly c (str! "g") f) (str! "g") (str! "ads.com") = false := by
  obtain ⟨f0, hf0⟩ := addAll_no_panic (E := prefixEngine) {} (es := [str! "/ads/"]) (by decide)
  obtain ⟨f, hf⟩ := addAll_no_panic (E := prefixEngine) {} (es := [str! "*.ads.com"]) (by decide)
  have i0 : CInv f0 [str! "/ads/"] := by simpa using CInv.addAll CInv.init hf0
  have i1 : CInv f [str! "*.ads.com"] := by simpa using CInv.addAll CInv.init hf
  refine ⟨Caches.finish prefixEngine {} (str! "g") f0, f, ?_, hf, ?_, ?_, ?_⟩
  · simp [refreshAll, createCacheForGroup, consume_eq, hf0]
  · rw [matchGroup_finish_self _ i0]
    exact ⟨_, List.mem_singleton.2 rfl, .inl ⟨str! "ads", str! "ads", rfl, rfl, rfl⟩⟩
  · rw [matchGroup_finish_self _ i1]
    refine ⟨_, List.mem_singleton.2 rfl, .inr (.inl ⟨?_, by decide,
      ⟨str! "ads.com", rfl, by decide, by decide, by decide⟩⟩)⟩
    rintro ⟨body, hb⟩
    simp at hb
  · have e0 : f0 = ⟨[str! "ads"], {}, {}⟩ := by
      have h := hf0
      unfold Factory.addAll at h
      have ha : Factory.addEntry prefixEngine {} (str! "/ads/") =
          .ok ⟨[str! "ads"], {}, {}⟩ true := by rfl
      rw [ha] at h
      simp only [Factory.addAll] at h
      exact (Option.some.inj h).symm
    have e1 : f.regex = [] := by
      have h := hf
      unfold Factory.addAll at h
      have ha : Factory.addEntry prefixEngine {} (str! "*.ads.com") =
          .ok { regex := [], wildcard := (WildcardFactory.addEntry {} (str! "*.ads.com")).1,
                string := {} } true := by rfl
      rw [ha] at h
      simp only [Factory.addAll] at h
      rw [← Option.some.inj h]
    subst e0
    simp [matchGroup, finishRegexOnly, Caches.finish, get_setOrDelete, e1,
      WildcardFactory.create, StringFactory.create, foundContains]

end Verif.Props
