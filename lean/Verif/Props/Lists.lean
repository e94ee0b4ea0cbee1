/-
C04, C05, C35: list parsing and loading.
-/
import Verif.Lemmas.Parsers
import Verif.Model.ListCache
import Verif.Props.StringCache

namespace Verif.Props
open Parsers StringCache Spec Lists

/-! ### C35: list parsing -/

/-- The texts of a file's lines, in order, comments and blank lines removed, as far as the lines
fit in the 64 KiB line buffer. -/
def fileItems (content : Str) : List Str :=
  ((splitChar '\n' content).takeWhile (fun p => decide (p.length < 65536))).filterMap lineText

/-- How the file ends: a line that is too long, a read error, or normally. -/
def fileEnd (s : Source) : ScanEnd :=
  if ∃ p ∈ splitChar '\n' s.content, p.length ≥ 65536 then .tooLong
  else if s.readError then .readError else .eof

theorem scanLines_items (s : Source) :
    (scanLines s).1.filterMap lineText = fileItems s.content ∧ (scanLines s).2 = fileEnd s := by
  have h := scanPieces_spec (if s.readError then .readError else .eof) (splitChar '\n' s.content)
  refine ⟨h.1, ?_⟩
  rw [show (scanLines s).2 = _ from h.2]
  unfold fileEnd
  by_cases hx : ∃ p ∈ splitChar '\n' s.content, p.length ≥ 65536
  · rw [if_pos hx, if_neg]
    obtain ⟨p, h1, h2⟩ := hx
    intro hall
    have := of_decide_eq_true (List.all_eq_true.1 hall p h1)
    unfold maxToken at this
    omega
  · rw [if_neg hx, if_pos]
    rw [List.all_eq_true]
    intro p hp
    apply decide_eq_true
    unfold maxToken
    apply Classical.byContradiction
    intro hc
    exact hx ⟨p, hp, by omega⟩

/-- C35: as long as no more lines are invalid than allowed (`none`: no limit), parsing yields
exactly the values of the valid lines, in order, and ends the way reading the file ended. -/
theorem C35_parse_all {T : Type} (u : Str → Option T) (limit : Option Nat) (s : Source)
    (h : ∀ n, limit = some n → (fileItems s.content).countP (fun t => (u t).isNone) ≤ n) :
    parseSource u limit s = ((fileItems s.content).filterMap u,
      if fileEnd s = .eof then none else some (.scan (fileEnd s))) := by
  obtain ⟨h1, h2⟩ := scanLines_items s
  unfold parseSource
  rw [h2]
  have := (forEach_spec u limit (fileEnd s) (scanLines s).1 0).1
  rw [h1] at this
  exact this (fun n hn => .inl (by simpa [invalidCount] using h n hn))

/-- C35: with more invalid lines than the limit `n`, parsing stops with an error at the line
number `n+1` among the invalid ones, having yielded exactly the valid lines before it. -/
theorem C35_abandon {T : Type} (u : Str → Option T) (n : Nat) (s : Source)
    (h : (fileItems s.content).countP (fun t => (u t).isNone) > n) :
    ∃ pre bad post, fileItems s.content = pre ++ bad :: post ∧ u bad = none ∧
      pre.countP (fun t => (u t).isNone) = n ∧
      parseSource u (some n) s = (pre.filterMap u, some .tooManyErrors) := by
  obtain ⟨h1, h2⟩ := scanLines_items s
  unfold parseSource
  have := (forEach_spec u (some n) (scanLines s).2 (scanLines s).1 0).2 n rfl (Nat.zero_le _)
  rw [h1] at this
  obtain ⟨pre, bad, post, g1, g2, g3, g4⟩ := this (by simpa [invalidCount] using h)
  exact ⟨pre, bad, post, g1, g2, by simpa [invalidCount] using g3, g4⟩

/-- A word: not empty, no white space. -/
def IsWord (w : Str) : Prop := w ≠ [] ∧ ∀ c ∈ w, isSpace c = false

/-- Labels of 1 to 63 letters, digits, `-` or `_`, separated by dots, at most 253 bytes. -/
def IsHostName (w : Str) : Prop :=
  w.length ≤ 253 ∧ ∀ l ∈ splitChar '.' w, 1 ≤ l.length ∧ l.length ≤ 63 ∧
    ∀ c ∈ l, c.isAlphanum ∨ c = '-' ∨ c = '_'

instance (w : Str) : Decidable (IsWord w) := by unfold IsWord; infer_instance
instance (w : Str) : Decidable (IsHostName w) := by unfold IsHostName; infer_instance

theorem isLabelChar_iff (c : Char) : isLabelChar c = true ↔ c.isAlphanum ∨ c = '-' ∨ c = '_' := by
  simp only [isLabelChar, Char.isAlphanum, Char.isAlpha, Char.isUpper, Char.isLower, Char.isDigit,
    Bool.or_eq_true, Bool.and_eq_true, decide_eq_true_eq, beq_iff_eq, Char.le_def, GE.ge]
  constructor
  · rintro ((((h | h) | h) | h) | h)
    · exact .inl (.inl (.inr h))
    · exact .inl (.inl (.inl h))
    · exact .inl (.inr h)
    · exact .inr (.inr h)
    · exact .inr (.inl h)
  · rintro (((h | h) | h) | h | h)
    · exact .inl (.inl (.inl (.inr h)))
    · exact .inl (.inl (.inl (.inl h)))
    · exact .inl (.inl (.inr h))
    · exact .inr h
    · exact .inl (.inr h)

theorem IsHostName.valid {w : Str} (h : IsHostName w) : validDomainName w = true := by
  unfold validDomainName isLabelSeq
  simp only [Bool.and_eq_true, Bool.or_eq_true, decide_eq_true_eq]
  refine ⟨by have := h.1; omega, .inl ?_⟩
  rw [List.all_eq_true]
  intro l hl
  obtain ⟨h1, h2, h3⟩ := h.2 l hl
  simp only [isLabel, Bool.and_eq_true, decide_eq_true_eq, List.all_eq_true]
  exact ⟨fun c hc => (isLabelChar_iff c).2 (h3 c hc), h1, h2⟩

theorem mem_splitChar {sep c : Char} {w : Str} (hc : c ∈ w) (hs : c ≠ sep) :
    ∃ l ∈ splitChar sep w, c ∈ l := by
  induction w with
  | nil => simp at hc
  | cons d w ih =>
    rw [splitChar]
    by_cases hd : d = sep
    · rw [if_pos hd]
      rcases List.mem_cons.1 hc with rfl | hc
      · exact absurd hd hs
      · obtain ⟨l, h1, h2⟩ := ih hc
        exact ⟨l, by simp [h1], h2⟩
    · rw [if_neg hd]
      cases hsp : splitChar sep w with
      | nil => exact absurd hsp (splitChar_ne_nil _ _)
      | cons p ps =>
        rcases List.mem_cons.1 hc with rfl | hc
        · exact ⟨c :: p, by simp, by simp⟩
        · obtain ⟨l, h1, h2⟩ := ih hc
          rw [hsp] at h1
          rcases List.mem_cons.1 h1 with rfl | h1
          · exact ⟨d :: l, by simp, by simp [h2]⟩
          · exact ⟨l, by simp [h1], h2⟩

theorem IsHostName.char {w : Str} (h : IsHostName w) {c : Char} (hc : c ∈ w) :
    c.isAlphanum ∨ c = '-' ∨ c = '_' ∨ c = '.' := by
  by_cases hd : c = '.'
  · exact .inr (.inr (.inr hd))
  · obtain ⟨l, h1, h2⟩ := mem_splitChar hc hd
    rcases (h.2 l h1).2.2 c h2 with h | h | h
    · exact .inl h
    · exact .inr (.inl h)
    · exact .inr (.inr (.inl h))

theorem IsHostName.not {w : Str} (h : IsHostName w) {c : Char}
    (hc : ¬ (c.isAlphanum ∨ c = '-' ∨ c = '_' ∨ c = '.')) : c ∉ w :=
  fun hm => hc (h.char hm)

theorem IsHostName.word {w : Str} (h : IsHostName w) : IsWord w := by
  refine ⟨?_, ?_⟩
  · rintro rfl
    have := (h.2 [] (by simp [splitChar])).1
    simp at this
  · intro c hc
    cases hs : isSpace c with
    | false => rfl
    | true =>
      exfalso
      simp only [isSpace, Bool.or_eq_true, beq_iff_eq] at hs
      have := h.char hc
      rcases hs with ((((h | h) | h) | h) | h) | h <;> subst h <;> revert this <;> decide

theorem isRegex_false {w : Str} (h : '/' ∉ w) : isRegex w = false := by
  cases w with
  | nil => rfl
  | cons c w =>
    have : c ≠ '/' := by rintro rfl; simp at h
    simp [isRegex, this]

theorem trimPrefixBars_of {w : Str} (h : '|' ∉ w) : trimPrefixBars w = w := by
  unfold trimPrefixBars
  split
  · simp at h
  · rfl

theorem trimSuffixCaret_of {w : Str} (h : '^' ∉ w) : trimSuffixCaret w = w := by
  unfold trimSuffixCaret
  split
  · next hl => exact absurd (List.mem_of_getLast? hl) h
  · rfl

theorem finishEntry_host {env : Env} {w : Str} (h : IsHostName w) :
    finishEntry env w = some w := by
  unfold finishEntry
  simp only [trimPrefixBars_of (h.not (by decide)), trimSuffixCaret_of (h.not (by decide))]
  rw [if_pos]
  unfold validHostsListEntry
  split
  · rfl
  · rw [isRegex_false (h.not (by decide))]
    simpa using h.valid

/-- C35: a line holding one host name is that entry. -/
theorem C35_host_line (env : Env) (w : Str) (h : IsHostName w) (hascii : env.toASCII w = some w) :
    unmarshalHosts env w = some [w] := by
  have hw := h.word
  unfold unmarshalHosts hostListEntry
  rw [fields_word hw.1 hw.2]
  simp only [normalizeHostsListEntry, isRegex_false (h.not (c := '/') (by decide)), hascii,
    finishEntry_host h, Bool.false_eq_true, if_false, if_true]

/-- C35: an ABP-style line `||name^` is the entry `name`. -/
theorem C35_abp_line (env : Env) (w : Str) (h : IsHostName w)
    (hascii : env.toASCII ('|' :: '|' :: w ++ ['^']) = some ('|' :: '|' :: w ++ ['^'])) :
    unmarshalHosts env ('|' :: '|' :: w ++ ['^']) = some [w] := by
  have hw := h.word
  unfold unmarshalHosts hostListEntry
  rw [fields_word (by simp) (by
    intro c hc
    simp only [List.cons_append, List.mem_cons, List.mem_append, List.not_mem_nil, or_false] at hc
    rcases hc with rfl | rfl | hc | rfl
    · decide
    · decide
    · exact hw.2 c hc
    · decide)]
  have hr : isRegex ('|' :: '|' :: w ++ ['^']) = false := by simp [isRegex]
  have hf : finishEntry env ('|' :: '|' :: w ++ ['^']) = some w := by
    have := finishEntry_host (env := env) h
    unfold finishEntry at this ⊢
    simp only [trimPrefixBars_of (h.not (c := '|') (by decide)),
      trimSuffixCaret_of (h.not (c := '^') (by decide))] at this
    have e : trimSuffixCaret (trimPrefixBars ('|' :: '|' :: w ++ ['^'])) = w := by
      simp [trimPrefixBars, trimSuffixCaret]
    simp only [e]
    exact this
  simp only [normalizeHostsListEntry, hr, hascii, hf, Bool.false_eq_true, if_false, if_true]

/-- The words separated by single spaces. -/
def spaced : List Str → Str
  | [] => []
  | [w] => w
  | w :: v :: ws => w ++ ' ' :: spaced (v :: ws)

theorem fields_spaced {ws : List Str} (h : ∀ w ∈ ws, IsWord w) : fields (spaced ws) = ws := by
  induction ws with
  | nil => rfl
  | cons w ws ih =>
    have hw := h w (by simp)
    have ih' := ih (fun v hv => h v (by simp [hv]))
    cases ws with
    | nil => exact fields_word hw.1 hw.2
    | cons v ws =>
      rw [spaced, fields_word_append hw.1 hw.2 (by decide), ih']

/-- C35: a hosts-file line `address name alias…` gives the names. -/
theorem C35_hosts_file_line (env : Env) (ip canon name : Str) (aliases : List Str)
    (hip : IsWord ip) (hpct : '%' ∉ ip) (hparse : env.parseIP ip = some canon)
    (hhosts : ∀ w ∈ name :: aliases, IsHostName w) :
    unmarshalHosts env (spaced (ip :: name :: aliases)) = some (name :: aliases) := by
  have hf : fields (spaced (ip :: name :: aliases)) = ip :: name :: aliases := by
    apply fields_spaced
    intro w hw
    rcases List.mem_cons.1 hw with rfl | hw
    · exact hip
    · exact (hhosts w hw).word
  have h1 : hostListEntry env (spaced (ip :: name :: aliases)) = none := by
    unfold hostListEntry
    rw [hf]
    simp only
    split
    · rfl
    · rw [if_neg (by simp)]
  have htake : ip.takeWhile (· ≠ '%') = ip := by
    clear h1 hf hip hparse
    induction ip with
    | nil => rfl
    | cons c ip ih =>
      simp only [List.mem_cons, not_or] at hpct
      have hne : decide (c ≠ '%') = true := by simpa using Ne.symm hpct.1
      rw [List.takeWhile_cons, if_pos hne, ih hpct.2]
  have h2 : ∃ i, hostsFileEntry env (spaced (ip :: name :: aliases)) =
      some ⟨canon, i, name, aliases⟩ := by
    unfold hostsFileEntry
    rw [hf]
    simp only [htake, hparse]
    rw [if_pos]
    · exact ⟨_, rfl⟩
    · rw [List.all_eq_true]
      exact fun w hw => (hhosts w hw).valid
  obtain ⟨i, h2⟩ := h2
  unfold unmarshalHosts
  rw [h1, h2]

/-- C35: a wildcard line `*.name` is that entry. -/
theorem C35_wildcard_line (env : Env) (w : Str) (h : IsHostName w)
    (hip : ∀ s, env.parseIP ('*' :: s) = none) (hascii : ∀ s, env.toASCII s = some s) :
    unmarshalHosts env ('*' :: '.' :: w) = some ['*' :: '.' :: w] := by
  have hw := h.word
  have hf : fields ('*' :: '.' :: w) = ['*' :: '.' :: w] := fields_word (by simp) (by
    intro c hc
    simp only [List.mem_cons] at hc
    rcases hc with rfl | rfl | hc
    · decide
    · decide
    · exact hw.2 c hc)
  have hcount : ('*' :: '.' :: w).count '*' = 1 := by
    have : w.count '*' = 0 := List.count_eq_zero.2 (h.not (by decide))
    simp [this]
  have h1 : hostListEntry env ('*' :: '.' :: w) = none := by
    unfold hostListEntry
    rw [hf]
    have hr : isRegex ('*' :: '.' :: w) = false := by simp [isRegex]
    have hnone : finishEntry env ('*' :: '.' :: w) = none := by
      unfold finishEntry
      have e1 : trimPrefixBars ('*' :: '.' :: w) = '*' :: '.' :: w := by simp [trimPrefixBars]
      have e2 : trimSuffixCaret ('*' :: '.' :: w) = '*' :: '.' :: w := by
        apply trimSuffixCaret_of
        simp only [List.mem_cons, not_or]
        exact ⟨by decide, by decide, h.not (by decide)⟩
      simp only [e1, e2]
      rw [if_neg]
      unfold validHostsListEntry
      rw [hip, hr]
      simp only [Option.isSome_none, Bool.false_eq_true, if_false]
      unfold validDomainName isLabelSeq
      have hfst : ∀ s, (splitChar '.' ('*' :: '.' :: s)).all isLabel = false := by
        intro s
        rw [splitChar, if_neg (by decide), splitChar, if_pos rfl]
        simp [isLabel, isLabelChar]
      rw [hfst]
      have hw0 := hw.1
      have hdl : ('*' :: '.' :: w).dropLast = '*' :: '.' :: w.dropLast := by
        cases w with
        | nil => exact absurd rfl hw0
        | cons c w => rfl
      rw [hdl, hfst]
      simp
    simp only [normalizeHostsListEntry, hr, hascii, hnone, Bool.false_eq_true, if_false]
  have h2 : hostsFileEntry env ('*' :: '.' :: w) = none := by
    unfold hostsFileEntry
    rw [hf]
    simp only [List.takeWhile_cons]
    rw [if_pos (by decide), hip]
  unfold unmarshalHosts
  rw [h1, h2]
  unfold wildcardEntry
  rw [hf]
  simp only
  rw [if_neg]
  simp only [not_or, Decidable.not_not, Nat.not_lt]
  exact ⟨⟨w, rfl⟩, by omega⟩

/-- An environment for the examples: no internationalised names, one known address, every regex
compiles. -/
def demoEnv : Env where
  toASCII s := some s
  parseIP s := if s = str! "0.0.0.0" then some s else none
  compiles _ := true

-- Concrete cases.
example : fileItems (str! "# header\n  a.com # ads \n\n!bad\r\n0.0.0.0 b.com c.com") =
    [str! "a.com", str! "!bad", str! "0.0.0.0 b.com c.com"] := by decide
example : ((fileItems (str! "# header\n  a.com # ads \n\n!bad\r\n0.0.0.0 b.com c.com")).countP
    fun t => (unmarshalHosts demoEnv t).isNone) = 1 := by decide
example : parseSource (unmarshalHosts demoEnv) (some 1)
    ⟨str! "# header\n  a.com # ads \n\n!bad\r\n0.0.0.0 b.com c.com", false⟩ =
    ([[str! "a.com"], [str! "b.com", str! "c.com"]], none) := by
  rw [C35_parse_all _ _ _ (by intro n hn; cases hn; decide)]; decide
example : ∃ pre bad post, fileItems (str! "a.com\n!bad\nb.com") = pre ++ bad :: post ∧
    parseSource (unmarshalHosts demoEnv) (some 0) ⟨str! "a.com\n!bad\nb.com", false⟩ =
      (pre.filterMap (unmarshalHosts demoEnv), some .tooManyErrors) := by
  obtain ⟨pre, bad, post, h1, _, _, h4⟩ := C35_abandon (unmarshalHosts demoEnv) 0
    ⟨str! "a.com\n!bad\nb.com", false⟩ (by decide)
  exact ⟨pre, bad, post, h1, h4⟩
example : IsHostName (str! "ads_1.ex-ample.com") := by decide
example : IsWord (str! "0.0.0.0") ∧ '%' ∉ str! "0.0.0.0" ∧
    demoEnv.parseIP (str! "0.0.0.0") = some (str! "0.0.0.0") := by decide

/-! ### C05: no list file can crash the process -/

theorem consume_eq (E : RegexEngine) (f : Factory E) (has : Bool) (es : List Str) :
    consume E f has es = (f.addAll E es).map (fun f' => (f', has || !es.isEmpty)) := by
  induction es generalizing f has with
  | nil => simp [consume, Factory.addAll]
  | cons e es ih =>
    have hb : ∀ f' b, f.addEntry E e = .ok f' b → b = true := by
      intro f' b h
      unfold Factory.addEntry at h
      split at h
      · cases h
      · cases h; rfl
      · simp only at h
        split at h
        · cases h; rfl
        · unfold StringFactory.addEntry at h
          split at h <;> (cases h; rfl)
    unfold consume Factory.addAll
    cases h : f.addEntry E e with
    | panic => rfl
    | ok f' b =>
      rw [hb f' b h]
      simp only
      rw [ih]
      simp

/-- A list entry crashes the loader exactly if it is the lone slash. -/
theorem addAll_panics (E : RegexEngine) (f : Factory E) {es : List Str} (h : ['/'] ∈ es) :
    f.addAll E es = none := by
  induction es generalizing f with
  | nil => simp at h
  | cons e es ih =>
    unfold Factory.addAll
    by_cases he : e = ['/']
    · subst he
      have : f.addEntry E ['/'] = .panic := by
        unfold Factory.addEntry regexAddEntry
        simp
      rw [this]
    · rcases List.mem_cons.1 h with h | h
      · exact absurd h.symm he
      · split
        · rfl
        · exact ih _ h

/-- Loading one list file into a fresh group; `none` is a crash of the process. -/
def loadFile (env : Env) (E : RegexEngine) (limit : Option Nat) (s : Source) :
    Option (Caches E) :=
  createCacheForGroup E {} (str! "g") (parseFile env limit none (.opened s)).hosts
    (parseFile env limit none (.opened s)).err

theorem createCacheForGroup_none_iff (E : RegexEngine) (c : Caches E) (g : Str)
    (delivered : List Str) (err : Option SrcErr) :
    createCacheForGroup E c g delivered err = none ↔ ['/'] ∈ delivered := by
  unfold createCacheForGroup
  rw [consume_eq]
  constructor
  · intro h
    apply Classical.byContradiction
    intro hn
    obtain ⟨f, hf⟩ := addAll_no_panic (E := E) {} (es := delivered)
      (fun e he heq => hn (heq ▸ he))
    rw [hf] at h
    simp only [Option.map_some] at h
    split at h
    · cases h
    · split at h
      · cases h
      · split at h <;> cases h
  · intro h
    rw [addAll_panics E {} h]
    rfl

/-- C05 is false: a list consisting of the line `/` crashes the process, in every environment in
which that line passes validation as a regular expression (it does in Go: `regexp.Compile("/")`
succeeds) and is not an IP address. -/
theorem C05_slash_line_crashes (env : Env) (E : RegexEngine) (limit : Option Nat)
    (hc : env.compiles ['/'] = true) (hip : env.parseIP ['/'] = none) :
    loadFile env E limit ⟨['/'], false⟩ = none := by
  unfold loadFile
  rw [createCacheForGroup_none_iff]
  have hu : unmarshalHosts env ['/'] = some [['/']] := by
    have e1 : fields ['/'] = [['/']] := by decide
    have e2 : isRegex ['/'] = true := by decide
    have e3 : trimSuffixCaret (trimPrefixBars ['/']) = ['/'] := by decide
    unfold unmarshalHosts hostListEntry
    rw [e1]
    simp only [normalizeHostsListEntry, e2, finishEntry, e3, validHostsListEntry, hip, hc,
      Option.isSome_none, Bool.false_eq_true, if_true, if_false]
  have hitems : fileItems ['/'] = [['/']] := by decide
  unfold parseFile
  simp only
  rw [C35_parse_all _ _ _ (by intro n _; rw [hitems]; simp [hu])]
  simp [hitems, hu, canonHost, hip]

/-- C05, the part that holds: a list file in which no line yields the entry `/` never crashes the
loader, whatever its bytes, the error limit and read errors. Missing: files with such a line
(`C05_slash_line_crashes`). -/
theorem C05_no_crash_partial (env : Env) (E : RegexEngine) (limit : Option Nat) (s : Source)
    (h : ∀ t ∈ fileItems s.content, ∀ hs, unmarshalHosts env t = some hs →
      ∀ w ∈ hs, canonHost env w ≠ ['/']) :
    (loadFile env E limit s).isSome := by
  unfold loadFile
  rw [Option.isSome_iff_ne_none, ne_eq, createCacheForGroup_none_iff]
  intro hm
  unfold parseFile at hm
  simp only [List.mem_map, List.mem_flatMap, id] at hm
  obtain ⟨w, ⟨hs, h1, h2⟩, h3⟩ := hm
  have hall : ∃ t ∈ fileItems s.content, unmarshalHosts env t = some hs := by
    by_cases hl : ∀ n, limit = some n →
        (fileItems s.content).countP (fun t => (unmarshalHosts env t).isNone) ≤ n
    · rw [C35_parse_all _ _ _ hl] at h1
      simp only [List.mem_filterMap] at h1
      exact h1
    · have : ∃ n, limit = some n ∧
          (fileItems s.content).countP (fun t => (unmarshalHosts env t).isNone) > n := by
        cases limit with
        | none => simp at hl
        | some n =>
          refine ⟨n, rfl, ?_⟩
          apply Classical.byContradiction
          intro hc
          exact hl (fun m hm => by cases hm; omega)
      obtain ⟨n, rfl, hgt⟩ := this
      obtain ⟨pre, bad, post, g1, _, _, g4⟩ := C35_abandon _ n s hgt
      rw [g4] at h1
      simp only [List.mem_filterMap] at h1
      obtain ⟨t, ht, hu⟩ := h1
      exact ⟨t, by rw [g1]; simp [ht], hu⟩
  obtain ⟨t, ht, hu⟩ := hall
  exact h t ht hs hu w h2 h3

-- The hypothesis of the partial theorem is met by an ordinary list.
example : ∀ t ∈ fileItems (str! "/ads[0-9]/\na.com\n0.0.0.0 b.com\n//\n"),
    ∀ hs, unmarshalHosts demoEnv t = some hs → ∀ w ∈ hs, canonHost demoEnv w ≠ ['/'] := by
  have hi : fileItems (str! "/ads[0-9]/\na.com\n0.0.0.0 b.com\n//\n") =
    [str! "/ads[0-9]/", str! "a.com", str! "0.0.0.0 b.com", str! "//"] := by decide
  have h1 : unmarshalHosts demoEnv (str! "/ads[0-9]/") = some [str! "/ads[0-9]/"] := by decide
  have h2 : unmarshalHosts demoEnv (str! "a.com") = some [str! "a.com"] := by decide
  have h3 : unmarshalHosts demoEnv (str! "0.0.0.0 b.com") = some [str! "b.com"] := by decide
  have h4 : unmarshalHosts demoEnv (str! "//") = some [str! "//"] := by decide
  rw [hi]
  intro t ht hs hu
  simp only [List.mem_cons, List.not_mem_nil, or_false] at ht
  rcases ht with rfl | rfl | rfl | rfl
  · rw [h1] at hu; cases hu; decide
  · rw [h2] at hu; cases hu; decide
  · rw [h3] at hu; cases hu; decide
  · rw [h4] at hu; cases hu; decide

end Verif.Props
