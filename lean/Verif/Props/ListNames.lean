/-
C35: which names are taken from a line with one word.
-/
import Verif.Props.Lists

namespace Verif.Props
open Parsers

/-- Labels of 1 to 63 letters, digits, `-` or `_`, separated by dots; after the last label one more dot or underscore is
allowed; at most 255 characters. -/
def ListName (w : Str) : Prop :=
  w.length ≤ 255 ∧ ∃ base tail : Str, w = base ++ tail ∧ (tail = [] ∨ tail = ['.'] ∨ tail = ['_']) ∧
    ∀ l ∈ splitChar '.' base, 1 ≤ l.length ∧ l.length ≤ 63 ∧ ∀ c ∈ l, c.isAlphanum ∨ c = '-' ∨ c = '_'

theorem isLabelSeq_iff (s : Str) : isLabelSeq s = true ↔
    ∀ l ∈ splitChar '.' s, 1 ≤ l.length ∧ l.length ≤ 63 ∧ ∀ c ∈ l, c.isAlphanum ∨ c = '-' ∨ c = '_' := by
  unfold isLabelSeq
  rw [List.all_eq_true]
  constructor
  · intro h l hl
    have := h l hl
    simp only [isLabel, Bool.and_eq_true, decide_eq_true_eq, List.all_eq_true] at this
    exact ⟨this.2.1, this.2.2, fun c hc => (isLabelChar_iff c).1 (this.1 c hc)⟩
  · intro h l hl
    obtain ⟨h1, h2, h3⟩ := h l hl
    simp only [isLabel, Bool.and_eq_true, decide_eq_true_eq, List.all_eq_true]
    exact ⟨fun c hc => (isLabelChar_iff c).2 (h3 c hc), h1, h2⟩

theorem dropLast_last {w : Str} {c : Char} (h : w.getLast? = some c) : w = w.dropLast ++ [c] := by
  obtain ⟨ys, rfl⟩ := List.getLast?_eq_some_iff.1 h
  simp

theorem validDomainName_iff (w : Str) : validDomainName w = true ↔ ListName w := by
  unfold validDomainName ListName
  simp only [Bool.and_eq_true, Bool.or_eq_true, decide_eq_true_eq, beq_iff_eq]
  refine and_congr_right fun _ => ?_
  constructor
  · rintro (h | ⟨h, hs⟩)
    · exact ⟨w, [], by simp, .inl rfl, (isLabelSeq_iff w).1 h⟩
    · rcases h with h | h
      · refine ⟨w.dropLast, ['.'], ?_, .inr (.inl rfl), (isLabelSeq_iff _).1 hs⟩
        exact dropLast_last h
      · refine ⟨w.dropLast, ['_'], ?_, .inr (.inr rfl), (isLabelSeq_iff _).1 hs⟩
        exact dropLast_last h
  · rintro ⟨base, tail, rfl, ht, hl⟩
    have hs := (isLabelSeq_iff base).2 hl
    rcases ht with rfl | rfl | rfl
    · exact .inl (by simpa using hs)
    · exact .inr ⟨.inl (by simp), by simpa using hs⟩
    · exact .inr ⟨.inr (by simp), by simpa using hs⟩

/-- **C35** A line with one word that is no address and has no marks of other formats is an entry exactly if it is a
name; otherwise the line is invalid. -/
theorem C35_one_word (env : Env) (w : Str) (hw : IsWord w) (hmarks : ∀ c ∈ (str! "/|^*"), c ∉ w)
    (hascii : env.toASCII w = some w) (hip : env.parseIP w = none) :
    (ListName w → unmarshalHosts env w = some [w]) ∧ (¬ ListName w → unmarshalHosts env w = none) := by
  have hr := isRegex_false (hmarks '/' (by decide))
  have e : hostListEntry env w = if validDomainName w then some w else none := by
    unfold hostListEntry
    rw [fields_word hw.1 hw.2]
    simp only [normalizeHostsListEntry, hr, hascii, Bool.false_eq_true, if_false, finishEntry,
      trimPrefixBars_of (hmarks '|' (by decide)), trimSuffixCaret_of (hmarks '^' (by decide)), validHostsListEntry, hip,
      Option.isSome_none]
    cases validDomainName w <;> simp
  constructor
  · intro h
    unfold unmarshalHosts
    rw [e, if_pos ((validDomainName_iff w).2 h)]
  · intro h
    have hf : hostsFileEntry env w = none := by
      unfold hostsFileEntry
      rw [fields_word hw.1 hw.2]
      simp only
      split <;> simp
    have hwc : wildcardEntry w = none := by
      unfold wildcardEntry
      rw [fields_word hw.1 hw.2]
      simp only
      rw [if_pos]
      left
      intro hp
      exact hmarks '*' (by decide) (hp.subset (by simp))
    unfold unmarshalHosts
    rw [e, if_neg (fun hv => h ((validDomainName_iff w).1 hv)), hf]
    simp only [hwc]

/-- The longest names, one character more, and a final dot. -/
example :
    let label : Str := List.replicate 63 'a'
    ListName (joinChar '.' [label, label, label, label]) ∧ (joinChar '.' [label, label, label, label]).length = 255 ∧
    ¬ ListName (joinChar '.' [label, label, label, label] ++ ['.']) ∧
    ListName (str! "ads.example.com.") ∧ ¬ ListName (str! "ads..com") := by
  simp only [← validDomainName_iff]
  decide +kernel

theorem slash_file_wildcard (env : Env) (w : Str) (hw : IsWord w) (h1 : w.head? = some '/') :
    hostsFileEntry env w = none ∧ wildcardEntry w = none := by
  constructor
  · unfold hostsFileEntry
    rw [fields_word hw.1 hw.2]
    simp only
    split <;> simp
  · unfold wildcardEntry
    rw [fields_word hw.1 hw.2]
    simp only
    rw [if_pos]
    left
    rintro ⟨t, rfl⟩
    simp at h1

/-- **C35** A word between slashes is an entry exactly if it is a regular expression. -/
theorem C35_regex_line (env : Env) (w : Str) (hw : IsWord w) (h1 : w.head? = some '/') (h2 : w.getLast? = some '/')
    (hip : env.parseIP w = none) :
    (env.compiles w = true → unmarshalHosts env w = some [w]) ∧ (env.compiles w = false → unmarshalHosts env w = none) := by
  have hr : isRegex w = true := by simp [isRegex, h1, h2]
  have hb : trimPrefixBars w = w := by
    cases w with
    | nil => rfl
    | cons c t =>
      simp only [List.head?_cons, Option.some.injEq] at h1
      subst h1
      rfl
  have hc : trimSuffixCaret w = w := by
    unfold trimSuffixCaret
    rw [h2]
    rfl
  obtain ⟨e1, e2⟩ := slash_file_wildcard env w hw h1
  have e : hostListEntry env w = if env.compiles w then some w else none := by
    unfold hostListEntry
    rw [fields_word hw.1 hw.2]
    simp only [normalizeHostsListEntry, hr, if_true, finishEntry, hb, hc, validHostsListEntry, hip, Option.isSome_none,
      Bool.false_eq_true, if_false]
    cases env.compiles w <;> simp
  unfold unmarshalHosts
  rw [e]
  constructor
  · intro h
    rw [if_pos h]
  · intro h
    rw [h]
    simp only [Bool.false_eq_true, if_false, e1, e2]

/-- **C35** A word that begins but does not end with a slash is no entry, even if it would be a regular expression. -/
theorem C35_open_regex (env : Env) (w : Str) (hw : IsWord w) (h1 : w.head? = some '/') (h2 : w.getLast? ≠ some '/')
    (hcaret : w.getLast? ≠ some '^') (hascii : env.toASCII w = some w) (hip : env.parseIP w = none) : unmarshalHosts env w = none := by
  have hr : isRegex w = false := by
    simp only [isRegex, h1, beq_self_eq_true, Bool.true_and, beq_eq_false_iff_ne]
    exact h2
  obtain ⟨t, rfl⟩ : ∃ t, w = '/' :: t := by
    cases w with
    | nil => cases h1
    | cons c t =>
      simp only [List.head?_cons, Option.some.injEq] at h1
      exact ⟨t, by rw [h1]⟩
  have hc : trimSuffixCaret ('/' :: t) = '/' :: t := by
    unfold trimSuffixCaret
    split
    · rename_i h; exact absurd h hcaret
    · rfl
  have hb : trimPrefixBars ('/' :: t) = '/' :: t := rfl
  have hv : validDomainName ('/' :: t) = false := by
    rw [Bool.eq_false_iff]
    intro h
    rw [validDomainName_iff] at h
    obtain ⟨_, base, tail, e, ht, hl⟩ := h
    have hbase : ∃ b, base = '/' :: b := by
      cases base with
      | nil =>
        rcases ht with rfl | rfl | rfl <;> simp at e
      | cons c b =>
        simp only [List.cons_append, List.cons.injEq] at e
        exact ⟨b, by rw [e.1]⟩
    obtain ⟨b, rfl⟩ := hbase
    obtain ⟨l, ls, hs⟩ : ∃ l ls, splitChar '.' ('/' :: b) = ('/' :: l) :: ls := by
      rw [splitChar]
      rw [if_neg (by decide)]
      cases splitChar '.' b with
      | nil => exact ⟨[], [], rfl⟩
      | cons x xs => exact ⟨x, xs, rfl⟩
    have := (hl ('/' :: l) (by rw [hs]; simp)).2.2 '/' (by simp)
    revert this
    decide
  obtain ⟨e1, e2⟩ := slash_file_wildcard env _ hw h1
  have e : hostListEntry env ('/' :: t) = none := by
    unfold hostListEntry
    rw [fields_word hw.1 hw.2]
    simp only [normalizeHostsListEntry, hr, hascii, Bool.false_eq_true, if_false, finishEntry, hb, hc,
      validHostsListEntry, hip, Option.isSome_none, hv]
  unfold unmarshalHosts
  rw [e]
  simp only [e1, e2]

example : unmarshalHosts demoEnv (str! "/^ads.*$/") = some [str! "/^ads.*$/"] ∧ unmarshalHosts demoEnv (str! "/ads") = none ∧
    demoEnv.toASCII (str! "/ads") = some (str! "/ads") ∧ demoEnv.parseIP (str! "/ads") = none := by decide

end Verif.Props
