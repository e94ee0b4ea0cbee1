/-
C53: list entries with a final dot.
-/
import Verif.Props.Lists
import Verif.Props.StringCache
import Verif.Model.Dns

namespace Verif.Props
open StringCache Parsers Spec

theorem labels_append_dot (s : Str) : labels (s ++ ['.']) = labels s := by
  rw [← labels_trimRight (s ++ ['.'])]
  have : trimRightDots (s ++ ['.']) = trimRightDots s := by simp [trimRightDots]
  rw [this, labels_trimRight]

/-- **C53, the part that holds.** For wildcard entries a final dot makes no difference. -/
theorem C53_wildcard_final_dot_partial (dom s : Str) :
    WildcardEntryMatches ('*' :: '.' :: dom ++ ['.']) s ↔ WildcardEntryMatches ('*' :: '.' :: dom) s := by
  unfold WildcardEntryMatches IsWithin
  have hl : labels (lower (dom ++ ['.'])) = labels (lower dom) := by
    rw [show lower (dom ++ ['.']) = lower dom ++ ['.'] by simp [lower, lowerChar], labels_append_dot]
  constructor
  · rintro ⟨d, h1, h2, h3, h4⟩
    have : d = dom ++ ['.'] := by simpa using h1.symm
    subst this
    rw [labels_append_dot] at h3
    rw [hl] at h4
    exact ⟨dom, rfl, fun h => h2 (by simp [h]), h3, h4⟩
  · rintro ⟨d, h1, h2, h3, h4⟩
    have : d = dom := by simpa using h1.symm
    subst this
    exact ⟨d ++ ['.'], by simp, by simp [h2], by rw [labels_append_dot]; exact h3, by rw [hl]; exact h4⟩

/-- A name that does not end with a dot is not matched by a plain entry with a final dot. -/
theorem dotted_matches_nothing (E : RegexEngine) (w q : Str) (hq : q.getLast? ≠ some '.') (hstar : '*' ∉ w) :
    ¬ EntryMatches E (w ++ ['.']) q := by
  rintro (⟨body, r, h, _⟩ | ⟨_, h, _⟩ | ⟨_, _, _, h⟩)
  · have := (List.append_inj' h rfl).2
    simp at this
  · simp at h
    exact hstar h
  · have h1 : (lower q).getLast? = some '.' := by
      rw [← h]
      simp [lowerChar]
    apply hq
    cases hl : q.getLast? with
    | none => simp [lower, List.getLast?_map, hl] at h1
    | some c =>
      have h2 : lowerChar c = '.' := by simpa [lower, List.getLast?_map, hl] using h1
      rw [(lowerChar_dot_iff c).1 h2]

/-- **C53 is false.** A line with a host name and a final dot is accepted as an entry, but the entry
matches no query (names are looked up without their final dot), whereas the entry without the dot
matches its name. -/
theorem C53_final_dot_never_matches (env : Env) (E : RegexEngine) (w : Str) (h : IsHostName w)
    (hascii : env.toASCII (w ++ ['.']) = some (w ++ ['.']))
    (hip : env.parseIP (w ++ ['.']) = none) :
    unmarshalHosts env (w ++ ['.']) = some [w ++ ['.']] ∧
    (∀ q : Str, q.getLast? ≠ some '.' → ¬ EntryMatches E (w ++ ['.']) q) ∧ EntryMatches E w w := by
  have hno : ∀ c, ¬ (c.isAlphanum ∨ c = '-' ∨ c = '_' ∨ c = '.') → c ∉ w ++ ['.'] := by
    intro c hc hm
    rcases List.mem_append.1 hm with hm | hm
    · exact h.not (c := c) (by simpa using hc) hm
    · rw [List.mem_singleton.1 hm] at hc
      simp at hc
  refine ⟨?_, fun q hq => dotted_matches_nothing E w q hq (h.not (by decide)), .inr (.inr ⟨?_, h.not (by decide), ?_, rfl⟩)⟩
  · have hword : IsWord (w ++ ['.']) := by
      refine ⟨by simp, ?_⟩
      intro c hc
      rcases List.mem_append.1 hc with hc | hc
      · exact h.word.2 c hc
      · rw [List.mem_singleton.1 hc]; decide
    have hf : fields (w ++ ['.']) = [w ++ ['.']] := by
      have := fields_spaced (ws := [w ++ ['.']]) (by simpa using hword)
      simpa [spaced] using this
    have hv : validDomainName (w ++ ['.']) = true := by
      have hseq : isLabelSeq w = true := by
        unfold isLabelSeq
        rw [List.all_eq_true]
        intro l hl
        obtain ⟨h1, h2, h3⟩ := h.2 l hl
        simp only [isLabel, Bool.and_eq_true, List.all_eq_true, decide_eq_true_eq]
        exact ⟨fun c hc => (isLabelChar_iff c).2 (h3 c hc), h1, h2⟩
      have := h.1
      simp [validDomainName, hseq]
      omega
    unfold unmarshalHosts hostListEntry
    rw [hf]
    simp only [normalizeHostsListEntry, isRegex_false (hno '/' (by decide)), hascii, finishEntry,
      trimPrefixBars_of (hno '|' (by decide)), trimSuffixCaret_of (hno '^' (by decide)), validHostsListEntry, hip, hv]
    simp
  · rintro ⟨body, hb⟩
    exact h.not (c := '/') (by decide) (by rw [hb]; simp)
  · exact h.word.1

example : IsHostName (str! "ads.example.com") ∧
    demoEnv.toASCII (str! "ads.example.com" ++ ['.']) = some (str! "ads.example.com" ++ ['.']) ∧
    demoEnv.parseIP (str! "ads.example.com" ++ ['.']) = none := by decide

end Verif.Props
