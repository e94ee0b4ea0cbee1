/-
C49: retention of log files. C50: obfuscation. C58: log file names. C59: log files can be read back.
-/
import Verif.Model.QueryLogFile
import Verif.Spec.Csv

namespace Verif.Props
open QueryLogFile

/-! ### C50 -/

/-- An ASCII letter or digit. -/
def LetterOrDigit (c : Char) : Prop := c ∈ "abcdefghijklmnopqrstuvwxyzABCDEFGHIJKLMNOPQRSTUVWXYZ0123456789".toList

theorem isAlnum_iff (c : Char) : isAlnum c = true ↔ LetterOrDigit c := by
  have hall : ∀ n : Fin 128, isAlnum (Char.ofNat n.val) = true ↔ LetterOrDigit (Char.ofNat n.val) := by
    unfold LetterOrDigit; decide +kernel
  by_cases h : c.toNat < 128
  · have := hall ⟨c.toNat, h⟩
    simpa [Char.ofNat_toNat] using this
  · constructor
    · intro h'
      exfalso
      have e1 : 'z'.toNat = 122 := rfl
      have e2 : 'Z'.toNat = 90 := rfl
      have e3 : '9'.toNat = 57 := rfl
      simp only [isAlnum, Bool.or_eq_true, Bool.and_eq_true, decide_eq_true_eq, e1, e2, e3] at h'
      omega
    · intro h'
      exfalso
      apply h
      have hall : ∀ c ∈ "abcdefghijklmnopqrstuvwxyzABCDEFGHIJKLMNOPQRSTUVWXYZ0123456789".toList, c.toNat < 128 := by
        decide +kernel
      exact hall c h'

/-- C50: with privacy on, the logged string has the same length, contains no letter or digit, differs from
the original only where that had a letter or digit, and obfuscating again changes nothing. With privacy
off the string is logged as it is. -/
theorem C50_obfuscate (s : Str) :
    (obfuscate true s).length = s.length ∧
    (∀ c ∈ obfuscate true s, ¬ LetterOrDigit c) ∧
    (∀ (i : Nat) c, s[i]? = some c → (obfuscate true s)[i]? = some '*' ∧ LetterOrDigit c ∨
      (obfuscate true s)[i]? = some c ∧ ¬ LetterOrDigit c) ∧
    obfuscate true (obfuscate true s) = obfuscate true s ∧
    obfuscate false s = s := by
  have hstar : isAlnum '*' = false := by decide
  refine ⟨?_, ?_, ?_, ?_, rfl⟩
  · simp [obfuscate]
  · intro c hc
    simp only [obfuscate, if_true, List.mem_map] at hc
    obtain ⟨d, _, rfl⟩ := hc
    rw [← isAlnum_iff]
    split
    · simp [hstar]
    · assumption
  · intro i c h
    simp only [obfuscate, if_true, List.getElem?_map, h, Option.map_some]
    by_cases hc : isAlnum c = true
    · rw [if_pos hc]; exact Or.inl ⟨rfl, (isAlnum_iff c).1 hc⟩
    · rw [if_neg hc]; exact Or.inr ⟨rfl, fun h' => hc ((isAlnum_iff c).2 h')⟩
  · simp only [obfuscate, if_true, List.map_map]
    apply List.map_congr_left
    intro c _
    simp only [Function.comp]
    split
    · simp [hstar]
    · simp

/-- C50: obfuscated names tell nothing but their shape: names that differ only in letters and digits are
logged alike. -/
theorem C50_hides (s t : Str) (hl : s.length = t.length)
    (h : ∀ (i : Nat) c d, s[i]? = some c → t[i]? = some d → c = d ∨ LetterOrDigit c ∧ LetterOrDigit d) :
    obfuscate true s = obfuscate true t := by
  induction s generalizing t with
  | nil => cases t with
    | nil => rfl
    | cons _ _ => cases hl
  | cons c s ih =>
    cases t with
    | nil => cases hl
    | cons d t =>
      have ih := ih t (by simpa using hl) (fun i a b ha hb => h (i + 1) a b (by simpa using ha) (by simpa using hb))
      simp only [obfuscate, if_true, List.map_cons] at ih ⊢
      rw [ih]
      rcases h 0 c d rfl rfl with rfl | ⟨h1, h2⟩
      · rfl
      · rw [← isAlnum_iff] at h1 h2
        simp [h1, h2]

example : obfuscate true (str! "mail.example.com.") = str! "****.*******.***." ∧
    obfuscate true (str! "chat.example.org.") = str! "****.*******.***." := by decide

/-! ### Dates -/

/-- A date of the calendar with a four-digit year. -/
def ValidDate (d : Date) : Prop :=
  d.year ≤ 9999 ∧ 1 ≤ d.month ∧ d.month ≤ 12 ∧ 1 ≤ d.day ∧
  (d.day ≤ [31, 28, 31, 30, 31, 30, 31, 31, 30, 31, 30, 31].getD (d.month - 1) 0 ∨
    (d.month = 2 ∧ d.day = 29 ∧ ((4 ∣ d.year ∧ ¬ 100 ∣ d.year) ∨ 400 ∣ d.year)))

theorem validDate_iff (d : Date) :
    ValidDate d ↔ d.year ≤ 9999 ∧ 1 ≤ d.month ∧ d.month ≤ 12 ∧ 1 ≤ d.day ∧ d.day ≤ daysIn d.month d.year := by
  obtain ⟨y, m, dd⟩ := d
  unfold ValidDate
  simp only
  refine and_congr_right fun _ => and_congr_right fun h1 => and_congr_right fun h2 => and_congr_right fun _ => ?_
  have hm : m = 1 ∨ m = 2 ∨ m = 3 ∨ m = 4 ∨ m = 5 ∨ m = 6 ∨ m = 7 ∨ m = 8 ∨ m = 9 ∨ m = 10 ∨ m = 11 ∨ m = 12 := by omega
  have hl : isLeap y = true ↔ ((4 ∣ y ∧ ¬ 100 ∣ y) ∨ 400 ∣ y) := by
    unfold isLeap
    simp only [Bool.and_eq_true, Bool.or_eq_true, beq_iff_eq, bne_iff_ne, ne_eq]
    omega
  rcases hm with rfl | rfl | rfl | rfl | rfl | rfl | rfl | rfl | rfl | rfl | rfl | rfl
  case inr.inl =>
    unfold daysIn
    by_cases hy : isLeap y = true
    · simp only [hy, if_true, hl.1 hy, and_true, true_and]
      show dd ≤ 28 ∨ dd = 29 ↔ dd ≤ 29
      omega
    · rw [if_pos rfl, if_neg hy]
      have := fun h => hy (hl.2 h)
      show dd ≤ 28 ∨ _ ↔ dd ≤ 28
      exact ⟨fun h => h.elim id (fun h => absurd h.2.2 this), Or.inl⟩
  all_goals
    simp [daysIn]

theorem decDigit_digit (n : Nat) (h : n < 10) : decDigit (digit n) = some n := by
  have : ∀ n : Fin 10, decDigit (digit n.val) = some n.val := by decide
  exact this ⟨n, h⟩

theorem decDigit_some {c : Char} {n : Nat} (h : decDigit c = some n) : n < 10 ∧ c = digit n := by
  unfold decDigit at h
  have e0 : '0'.toNat = 48 := rfl
  have e9 : '9'.toNat = 57 := rfl
  split at h
  · rename_i hc
    injection h with h
    rw [e0, e9] at hc
    rw [e0] at h
    refine ⟨by omega, ?_⟩
    unfold digit
    rw [← h, show 48 + (c.toNat - 48) = c.toNat by omega, Char.ofNat_toNat]
  · cases h

theorem daysIn_le (m y : Nat) : daysIn m y ≤ 31 := by
  unfold daysIn
  repeat' split
  all_goals omega

/-- Parsing accepts exactly the printed dates. -/
theorem parseDate_iff (s : Str) (d : Date) : parseDate s = some d ↔ ValidDate d ∧ s = formatDate d := by
  constructor
  · intro h
    unfold parseDate at h
    split at h
    · split at h
      · rename_i hh
        obtain ⟨rfl, rfl⟩ := hh
        split at h
        · rename_i h1 h2 h3 h4 h5 h6 h7 h8
          obtain ⟨l1, rfl⟩ := decDigit_some h1
          obtain ⟨l2, rfl⟩ := decDigit_some h2
          obtain ⟨l3, rfl⟩ := decDigit_some h3
          obtain ⟨l4, rfl⟩ := decDigit_some h4
          obtain ⟨l5, rfl⟩ := decDigit_some h5
          obtain ⟨l6, rfl⟩ := decDigit_some h6
          obtain ⟨l7, rfl⟩ := decDigit_some h7
          obtain ⟨l8, rfl⟩ := decDigit_some h8
          simp only at h
          split at h
          · rename_i hv
            injection h with h
            subst h
            refine ⟨(validDate_iff _).2 ⟨by simp only; omega, hv.1, hv.2.1, hv.2.2.1, hv.2.2.2⟩, ?_⟩
            simp only [formatDate, List.cons.injEq, true_and, and_true]
            refine ⟨?_, ?_, ?_, ?_, ?_, ?_, ?_, ?_⟩ <;> congr 1 <;> omega
          · cases h
        · cases h
      · cases h
    · cases h
  · rintro ⟨hv, rfl⟩
    obtain ⟨h1, h2, h3, h4, h5⟩ := (validDate_iff d).1 hv
    have h6 := daysIn_le d.month d.year
    have e1 : 1000 * (d.year / 1000) + 100 * (d.year / 100 % 10) + 10 * (d.year / 10 % 10) + d.year % 10 = d.year := by omega
    have e2 : 10 * (d.month / 10) + d.month % 10 = d.month := by omega
    have e3 : 10 * (d.day / 10) + d.day % 10 = d.day := by omega
    simp only [parseDate, formatDate, and_self, if_true]
    rw [decDigit_digit _ (by omega), decDigit_digit _ (by omega), decDigit_digit _ (by omega), decDigit_digit _ (by omega),
      decDigit_digit _ (by omega), decDigit_digit _ (by omega), decDigit_digit _ (by omega), decDigit_digit _ (by omega)]
    simp only [e1, e2, e3]
    rw [if_pos ⟨h2, h3, h4, h5⟩]

theorem formatDate_length (d : Date) : (formatDate d).length = 10 := rfl

theorem formatDate_inj {a b : Date} (ha : ValidDate a) (hb : ValidDate b) (h : formatDate a = formatDate b) : a = b := by
  have h1 := (parseDate_iff (formatDate a) a).2 ⟨ha, rfl⟩
  have h2 := (parseDate_iff (formatDate b) b).2 ⟨hb, rfl⟩
  rw [h, h2] at h1
  injection h1 with h1
  exact h1.symm

/-! ### C58 -/

theorem escapeFrom_chars (b : Bool) (s : Str) : ∀ c ∈ escapeFrom b s, isFileChar c = true := by
  induction s generalizing b with
  | nil => intro c hc; cases hc
  | cons a s ih =>
    intro c hc
    unfold escapeFrom at hc
    split at hc
    · rename_i ha
      rcases List.mem_cons.1 hc with rfl | hc
      · exact ha
      · exact ih false c hc
    · split at hc
      · exact ih true c hc
      · rcases List.mem_cons.1 hc with rfl | hc
        · decide
        · exact ih true c hc

theorem escapeFrom_id (s : Str) (b : Bool) (h : ∀ c ∈ s, isFileChar c = true) : escapeFrom b s = s := by
  induction s generalizing b with
  | nil => rfl
  | cons c s ih =>
    unfold escapeFrom
    rw [if_pos (h c (List.mem_cons_self ..)), ih false (fun d hd => h d (List.mem_cons_of_mem _ hd))]

theorem digit_fileChar (n : Nat) (h : n < 10) : isFileChar (digit n) = true := by
  have : ∀ n : Fin 10, isFileChar (digit n.val) = true := by decide
  exact this ⟨n, h⟩

theorem formatDate_chars (d : Date) (hd : ValidDate d) : ∀ c ∈ formatDate d, isFileChar c = true := by
  obtain ⟨h1, h2, h3, h4, h5⟩ := (validDate_iff d).1 hd
  have h6 := daysIn_le d.month d.year
  intro c hc
  simp only [formatDate, List.mem_cons, List.not_mem_nil, or_false] at hc
  rcases hc with rfl | rfl | rfl | rfl | rfl | rfl | rfl | rfl | rfl | rfl
  all_goals first | exact digit_fileChar _ (by omega) | decide

/-- C58: whatever the client is called, the file of an entry is one plain name inside the log directory: it
has no `/` and no dot besides that of the ending `.log`; it begins with the day of the query; entries of
different days never share a file; and without per-client logs, there is one file per day, with the ending
`_ALL.log`. -/
theorem C58_file_name (perClient : Bool) (d : Date) (hd : ValidDate d) (names : List Str) :
    (∀ c ∈ fileName perClient d names, c ≠ '/' ∧ c ≠ '\x00') ∧
    (∃ base, fileName perClient d names = base ++ str! ".log" ∧ base ≠ [] ∧ '.' ∉ base) ∧
    (fileName perClient d names).take 10 = formatDate d ∧
    (∀ d' names', ValidDate d' → fileName perClient d names = fileName perClient d' names' → d = d') ∧
    (perClient = false → fileName perClient d names = formatDate d ++ str! "_ALL.log") := by
  have hfc : ∀ c, isFileChar c = true → c ≠ '/' ∧ c ≠ '\x00' ∧ c ≠ '.' := by
    intro c hc
    refine ⟨?_, ?_, ?_⟩ <;> (rintro rfl; exact absurd hc (by decide))
  have hbase : ∀ p : Str, ∀ c ∈ formatDate d ++ str! "_" ++ escape p, isFileChar c = true := by
    intro p c hc
    simp only [List.mem_append, List.mem_cons, List.not_mem_nil, or_false] at hc
    rcases hc with (hc | rfl) | hc
    · exact formatDate_chars d hd c hc
    · decide
    · exact escapeFrom_chars _ _ c hc
  refine ⟨?_, ?_, ?_, ?_, ?_⟩
  · intro c hc
    simp only [fileName] at hc
    rcases List.mem_append.1 hc with hc | hc
    · exact ⟨(hfc c (hbase _ c hc)).1, (hfc c (hbase _ c hc)).2.1⟩
    · simp only [List.mem_cons, List.not_mem_nil, or_false] at hc
      rcases hc with rfl | rfl | rfl | rfl <;> decide
  · refine ⟨_, rfl, ?_, ?_⟩
    · simp [formatDate]
    · intro h
      exact (hfc '.' (hbase _ '.' h)).2.2 rfl
  · simp only [fileName, List.append_assoc]
    rw [List.take_append_of_le_length (by rw [formatDate_length]; decide), ← formatDate_length d, List.take_length]
  · intro d' names' hd' h
    apply formatDate_inj hd hd'
    have := congrArg (List.take 10) h
    simp only [fileName, List.append_assoc] at this
    rw [List.take_append_of_le_length (by rw [formatDate_length]; decide), List.take_append_of_le_length (by rw [formatDate_length]; decide)] at this
    rw [← formatDate_length d, List.take_length, formatDate_length d, ← formatDate_length d', List.take_length] at this
    exact this
  · rintro rfl
    have : escape (str! "ALL") = str! "ALL" := by decide
    simp only [fileName, Bool.false_eq_true, if_false, this, List.append_assoc]
    rfl

/-- A client named like a path, and one with dots. -/
example : ValidDate ⟨2024, 2, 29⟩ ∧
    fileName true ⟨2024, 2, 29⟩ [str! "../../etc/passwd"] = str! "2024-02-29__etc_passwd.log" ∧
    fileName true ⟨2024, 2, 29⟩ [str! "laptop.lan", str! "tv"] = str! "2024-02-29_laptop_lan-tv.log" := by
  refine ⟨⟨by decide, by decide, by decide, by decide, by decide⟩, by decide, by decide⟩

/-- C58, per-client files: clients whose names consist of letters, digits, `-` and `_` share a file only if
their joined names are the same. Missing: names with other characters, see `C58_clients_collide`. -/
theorem C58_separate_clients_partial (d : Date) (n1 n2 : Str)
    (h1 : ∀ c ∈ n1, isFileChar c = true) (h2 : ∀ c ∈ n2, isFileChar c = true)
    (h : fileName true d [n1] = fileName true d [n2]) : n1 = n2 := by
  simp only [fileName, if_true, joinStr, escape] at h
  rw [escapeFrom_id n1 _ h1, escapeFrom_id n2 _ h2] at h
  exact List.append_cancel_left (List.append_cancel_right h)

/-- Per-client logs do not keep clients apart in general: two IPv6 or dotted names can share a file. -/
theorem C58_clients_collide (d : Date) :
    fileName true d [str! "fd00::1:1"] = fileName true d [str! "fd00:1::1"] ∧
    fileName true d [str! "a.lan"] = fileName true d [str! "a_lan"] ∧
    fileName true d [str! "a", str! "b"] = fileName true d [str! "a-b"] := by
  refine ⟨rfl, rfl, rfl⟩

/-! ### C49 -/

theorem ageInDays_gt (clk : Clock) (now : Int) (d : Date) (r : Nat) (h : clk.dayStart d - dayNs < now) :
    ageInDays clk now d > r ↔ clk.dayStart d + (r + 1) * dayNs ≤ now := by
  unfold ageInDays
  rw [if_neg (by omega)]
  have e : dayNs = 86400000000000 := rfl
  by_cases h0 : 0 ≤ now - clk.dayStart d
  · rw [Int.tdiv_eq_ediv_of_nonneg h0]
    have h1 : 0 ≤ (now - clk.dayStart d) / dayNs := Int.ediv_nonneg h0 (by rw [e]; omega)
    constructor
    · intro h2
      have : (r + 1 : Int) ≤ (now - clk.dayStart d) / dayNs := by omega
      rw [Int.le_ediv_iff_mul_le (by rw [e]; omega)] at this
      omega
    · intro h2
      have : (r + 1 : Int) ≤ (now - clk.dayStart d) / dayNs := by
        rw [Int.le_ediv_iff_mul_le (by rw [e]; omega)]
        omega
      omega
  · have hz : (now - clk.dayStart d).tdiv dayNs ≤ 0 := by
      have : now - clk.dayStart d = -(clk.dayStart d - now) := by omega
      rw [this, Int.neg_tdiv, Int.tdiv_eq_ediv_of_nonneg (by omega)]
      have := Int.ediv_nonneg (a := clk.dayStart d - now) (b := dayNs) (by omega) (by rw [e]; omega)
      omega
    constructor
    · intro h2
      omega
    · intro h2
      rw [e] at h2
      have : (0 : Int) ≤ r := Int.natCast_nonneg r
      omega

/-- A file name that CleanUp takes for a log of day `d`: it begins with the date and ends with `.log`. -/
def LooksLikeLogOf (d : Date) (name : Str) : Prop :=
  ValidDate d ∧ ∃ mid, name = formatDate d ++ mid ++ str! ".log"

theorem looksLikeLog_iff (name : Str) (d : Date) :
    ((str! ".log").isSuffixOf name = true ∧ name.length > 10 ∧ parseDate (name.take 10) = some d) ↔ LooksLikeLogOf d name := by
  rw [parseDate_iff]
  constructor
  · rintro ⟨h1, h2, hd, h3⟩
    refine ⟨hd, ?_⟩
    rw [List.isSuffixOf_iff_suffix] at h1
    obtain ⟨pre, hpre⟩ := h1
    by_cases hl : 10 ≤ pre.length
    · refine ⟨pre.drop 10, ?_⟩
      rw [← h3, ← hpre, List.take_append_of_le_length hl, List.take_append_drop]
    · exfalso
      have hlen : name.length = pre.length + 4 := by rw [← hpre]; simp
      have hl7 : 7 ≤ pre.length := by omega
      -- the dot of `.log` is at a position where the date has a digit or a dash
      have hdot : (name.take 10)[pre.length]? = some '.' := by
        rw [List.getElem?_take_of_lt (by omega), ← hpre]
        rw [List.getElem?_append_right (Nat.le_refl _)]
        simp
      rw [h3] at hdot
      have hc := formatDate_chars d hd '.' (List.mem_of_getElem? hdot)
      exact absurd hc (by decide)
  · rintro ⟨hd, mid, rfl⟩
    refine ⟨?_, ?_, hd, ?_⟩
    · rw [List.isSuffixOf_iff_suffix]; exact ⟨_, rfl⟩
    · simp [formatDate_length]
    · rw [List.append_assoc, List.take_append_of_le_length (by rw [formatDate_length]; decide), ← formatDate_length d,
        List.take_length]

/-- C49: a clean-up keeps a file with its content unless its name looks like that of a log of a day that
began more than `retention` whole days ago (`retention + 1` times 24 hours), and removes every such file.
Times before the day of the log are excluded (`hclock`), see `C49_future_log_deleted_on_amd64`. Missing:
"never a foreign file", see `C49_foreign_file_deleted`. -/
theorem C49_clean_up_partial (clk : Clock) (retention : Nat) (hr : 0 < retention) (now : Int) (dir : Dir)
    (hclock : ∀ d name, LooksLikeLogOf d name → name ∈ dir.keys → clk.dayStart d - dayNs < now) (name : Str) (rows : List (List Str)) :
    (name, rows) ∈ cleanUp clk retention now dir ↔
      (name, rows) ∈ dir ∧ ¬ ∃ d, LooksLikeLogOf d name ∧ clk.dayStart d + (retention + 1) * dayNs ≤ now := by
  unfold cleanUp
  rw [List.mem_filter]
  apply and_congr_right
  intro hmem
  simp only [Bool.not_eq_true']
  rw [← Bool.not_eq_true]
  apply not_congr
  unfold isExpired
  simp only [Bool.and_eq_true, decide_eq_true_eq]
  constructor
  · rintro ⟨⟨h1, h2⟩, h3⟩
    cases hp : parseDate (name.take 10) with
    | none => rw [hp] at h3; cases h3
    | some d =>
      rw [hp] at h3
      simp only [Bool.and_eq_true, decide_eq_true_eq] at h3
      have hlog := (looksLikeLog_iff name d).1 ⟨h1, h2, hp⟩
      refine ⟨d, hlog, (ageInDays_gt clk now d retention (hclock d name hlog ?_)).1 h3.2⟩
      exact List.mem_map.2 ⟨_, hmem, rfl⟩
  · rintro ⟨d, hlog, hold⟩
    obtain ⟨h1, h2, hp⟩ := (looksLikeLog_iff name d).2 hlog
    refine ⟨⟨h1, h2⟩, ?_⟩
    rw [hp]
    simp only [Bool.and_eq_true, decide_eq_true_eq]
    exact ⟨hr, (ageInDays_gt clk now d retention (hclock d name hlog (List.mem_map.2 ⟨_, hmem, rfl⟩))).2 hold⟩

/-- C49: without retention nothing is ever deleted. -/
theorem C49_no_retention (clk : Clock) (now : Int) (dir : Dir) : cleanUp clk 0 now dir = dir := by
  unfold cleanUp
  rw [List.filter_eq_self]
  intro e _
  unfold isExpired
  simp only [Bool.not_eq_true']
  cases parseDate (e.1.take 10) <;> simp

/-- The days of January 2024 in UTC (counted from the first of the month). -/
def januaryClock : Clock where
  dayStart d := (d.day - 1 : Int) * dayNs + ((d.month : Int) - 1) * 31 * dayNs
  dateOf t := ⟨2024, 1, (t / dayNs).toNat + 1⟩
  negToUint64 n := 2 ^ 64 - n.natAbs

/-- On 2024-01-10, 00:00, with a retention of 3 days: the log of the 6th goes, that of the 7th stays. -/
example : cleanUp januaryClock 3 (9 * dayNs)
      [(str! "2024-01-06_ALL.log", []), (str! "2024-01-07_ALL.log", []), (str! "2024-13-01_ALL.log", []), (str! "notes.txt", [])] =
    [(str! "2024-01-07_ALL.log", []), (str! "2024-13-01_ALL.log", []), (str! "notes.txt", [])] := by decide

/-- C49 is false: a file that is no query log is deleted if its name begins with a date and ends with
`.log`. -/
theorem C49_foreign_file_deleted :
    (∀ perClient names d, fileName perClient d names ≠ str! "2024-01-01.notes.log") ∧
    cleanUp januaryClock 3 (9 * dayNs) [(str! "2024-01-01.notes.log", [[str! "my notes"]])] = [] := by
  refine ⟨?_, by decide⟩
  intro perClient names d h
  have := congrArg (fun s => s[10]?) h
  simp [fileName, formatDate] at this

/-- C49 is false on processors where a negative number becomes a large `uint64`: a log of a day in the
future - the clock was set back - is deleted although it is newer than all others. -/
theorem C49_future_log_deleted_on_amd64 :
    cleanUp januaryClock 3 (9 * dayNs) [(str! "2024-01-12_ALL.log", [[str! "an entry"]])] = [] := by decide

/-! #### Histories of the log directory -/

/-- What happens to the log directory. -/
inductive DirEvent where
  | write (e : LogEntry)
  | cleanUp (now : Int)

/-- One event. -/
def dirStep (clk : Clock) (ft fi : Int → Str) (perClient : Bool) (retention : Nat) (dir : Dir) : DirEvent → Dir
  | .write e => write clk ft fi perClient dir e
  | .cleanUp now => cleanUp clk retention now dir

/-- A history. -/
def dirRun (clk : Clock) (ft fi : Int → Str) (perClient : Bool) (retention : Nat) (dir : Dir) (es : List DirEvent) : Dir :=
  es.foldl (dirStep clk ft fi perClient retention) dir

theorem filter_get {V : Type} (dir : AMap Str V) (p : Str → Bool) (name : Str) (h : p name = true) :
    AMap.get (dir.filter (fun e => p e.1)) name = dir.get name := by
  induction dir with
  | nil => rfl
  | cons e dir ih =>
    by_cases he : p e.1 = true
    · rw [List.filter_cons_of_pos (p := fun (e : Str × V) => p e.1) he]
      show AMap.get (e :: _) name = AMap.get (e :: dir) name
      simp only [AMap.get]
      rw [ih]
    · rw [List.filter_cons_of_neg (p := fun (e : Str × V) => p e.1) he]
      have hk : e.1 ≠ name := by intro hk; rw [hk] at he; exact he h
      show _ = AMap.get (e :: dir) name
      simp only [AMap.get]
      rw [if_neg hk]
      exact ih

/-- C49 over histories: however entries are written and clean-ups run afterwards, an entry stays in the log
of its day - as long as every clean-up runs before `retention + 1` days (of 24 hours) after the beginning of
that day, and none before the day. -/
theorem C49_kept (clk : Clock) (ft fi : Int → Str) (perClient : Bool) (retention : Nat) (dir : Dir)
    (e : LogEntry) (hd : ValidDate (clk.dateOf e.start)) (es : List DirEvent)
    (hes : ∀ now, .cleanUp now ∈ es →
      clk.dayStart (clk.dateOf e.start) - dayNs < now ∧ now < clk.dayStart (clk.dateOf e.start) + (retention + 1) * dayNs) :
    ∃ before after, (dirRun clk ft fi perClient retention (write clk ft fi perClient dir e) es).get
        (fileName perClient (clk.dateOf e.start) e.clientNames) =
      some (before ++ createQueryLogRow ft fi e :: after) := by
  have key : ∀ (es : List DirEvent) (dir : Dir),
      (∀ now, .cleanUp now ∈ es →
        clk.dayStart (clk.dateOf e.start) - dayNs < now ∧ now < clk.dayStart (clk.dateOf e.start) + (retention + 1) * dayNs) →
      (∃ before after, dir.get (fileName perClient (clk.dateOf e.start) e.clientNames) =
        some (before ++ createQueryLogRow ft fi e :: after)) →
      ∃ before after, (dirRun clk ft fi perClient retention dir es).get
        (fileName perClient (clk.dateOf e.start) e.clientNames) = some (before ++ createQueryLogRow ft fi e :: after) := by
    intro es
    induction es with
    | nil => intro dir _ h; exact h
    | cons ev es ih =>
      intro dir hes h
      apply ih _ (fun now hn => hes now (List.mem_cons_of_mem _ hn))
      obtain ⟨before, after, hb⟩ := h
      cases ev with
      | write e' =>
        simp only [dirStep, write]
        by_cases hk : fileName perClient (clk.dateOf e.start) e.clientNames = fileName perClient (clk.dateOf e'.start) e'.clientNames
        · rw [← hk, AMap.get_put_self, hb]
          exact ⟨before, after ++ [createQueryLogRow ft fi e'], by simp⟩
        · rw [AMap.get_put_ne _ _ (Ne.symm hk)]
          exact ⟨before, after, hb⟩
      | cleanUp now =>
        refine ⟨before, after, ?_⟩
        rw [← hb]
        obtain ⟨h1, h2⟩ := hes now (List.mem_cons_self ..)
        simp only [dirStep, cleanUp]
        apply filter_get dir (fun n => !isExpired clk retention now n)
        simp only [Bool.not_eq_true']
        rw [← Bool.not_eq_true]
        intro hx
        unfold isExpired at hx
        have hp : parseDate ((fileName perClient (clk.dateOf e.start) e.clientNames).take 10) = some (clk.dateOf e.start) := by
          rw [(C58_file_name perClient _ hd _).2.2.1]
          exact (parseDate_iff _ _).2 ⟨hd, rfl⟩
        rw [hp] at hx
        simp only [Bool.and_eq_true, decide_eq_true_eq] at hx
        have := (ageInDays_gt clk now _ retention h1).1 hx.2.2
        omega
  apply key es _ hes
  simp only [write, AMap.get_put_self]
  exact ⟨_, [], rfl⟩

/-- An entry that must survive a write and a clean-up three days later. -/
example : ValidDate (januaryClock.dateOf (5 * dayNs + 7)) ∧
    (januaryClock.dayStart (januaryClock.dateOf (5 * dayNs + 7)) - dayNs < 8 * dayNs ∧
      8 * dayNs < januaryClock.dayStart (januaryClock.dateOf (5 * dayNs + 7)) + (3 + 1) * dayNs) := by
  refine ⟨⟨by decide, by decide, by decide, by decide, by decide⟩, by decide⟩

/-! ### C59 -/

open Spec.Csv in
theorem scan_plain (s : Str) (hs : ∀ c ∈ s, c ≠ '\n' ∧ c ≠ '\r' ∧ c ≠ '"' ∧ c ≠ '\t') (f : Str) (row : List Str) (rest : Str) :
    scan .plain f row (s ++ rest) = scan .plain (s.reverse ++ f) row rest := by
  induction s generalizing f with
  | nil => rfl
  | cons c s ih =>
    obtain ⟨h1, h2, h3, h4⟩ := hs c (List.mem_cons_self ..)
    rw [List.cons_append, scan, if_neg (by simp [h2, h3]), if_neg h4, if_neg h1,
      ih (fun d hd => hs d (List.mem_cons_of_mem _ hd))]
    simp

open Spec.Csv in
theorem scan_quoted (s : Str) (f : Str) (row : List Str) (rest : Str) :
    scan .quoted f row (s.flatMap (fun c => if c == '"' then ['"', '"'] else [c]) ++ rest) =
      scan .quoted (s.reverse ++ f) row rest := by
  induction s generalizing f with
  | nil => rfl
  | cons c s ih =>
    rw [List.flatMap_cons, List.append_assoc]
    by_cases hc : c = '"'
    · subst hc
      rw [if_pos (by decide), List.cons_append, List.cons_append, List.nil_append]
      rw [scan, if_pos rfl, scan, if_pos rfl, ih]
      simp
    · rw [if_neg (by simpa using hc), List.cons_append, List.nil_append]
      rw [scan, if_neg hc, ih]
      simp

open Spec.Csv in
/-- Reading one field up to the separator or the end of the row. -/
theorem scan_field (sp : Str → Bool) (field : Str) (row : List Str) (rest : Str) :
    scan .fieldStart [] row (writeField sp field ++ '\t' :: rest) = scan .fieldStart [] (field :: row) rest ∧
    scan .fieldStart [] row (writeField sp field ++ '\n' :: rest) =
      (scan .fieldStart [] [] rest).map (fun rows => (field :: row).reverse :: rows) := by
  unfold writeField
  split
  · have key : ∀ rest', scan .fieldStart [] row ('"' :: field.flatMap (fun c => if c == '"' then ['"', '"'] else [c]) ++ ['"'] ++ rest') =
        scan .quoteInQuoted field.reverse row rest' := by
      intro rest'
      rw [List.append_assoc, List.cons_append, scan, if_pos rfl, scan_quoted]
      show scan .quoted _ row ('"' :: rest') = _
      rw [scan, if_pos rfl, List.append_nil]
    rw [key, key]
    constructor
    · rw [scan, if_neg (by decide), if_pos rfl, List.reverse_reverse]
    · rw [scan, if_neg (by decide), if_neg (by decide), if_pos rfl, List.reverse_reverse]
  · rename_i hq
    cases field with
    | nil =>
      constructor
      · rw [List.nil_append, scan, if_neg (by decide), if_pos rfl]
      · rw [List.nil_append, scan, if_neg (by decide), if_neg (by decide), if_pos rfl]
    | cons c s =>
      have hs : ∀ d ∈ c :: s, d ≠ '\n' ∧ d ≠ '\r' ∧ d ≠ '"' ∧ d ≠ '\t' := by
        intro d hd
        unfold needsQuotes at hq
        rw [if_neg (by simp)] at hq
        split at hq
        · exact absurd rfl hq
        · simp only [Bool.or_eq_true, not_or, Bool.not_eq_true, List.any_eq_false] at hq
          have := hq.1 d hd
          simp only [beq_eq_false_iff_ne] at this
          exact ⟨this.1.1.1, this.1.1.2, this.1.2, this.2⟩
      obtain ⟨h1, h2, h3, h4⟩ := hs c (List.mem_cons_self ..)
      have key : ∀ rest', scan .fieldStart [] row (c :: s ++ rest') = scan .plain (c :: s).reverse row rest' := by
        intro rest'
        rw [List.cons_append, scan, if_neg h3, if_neg h4, if_neg h1, if_neg h2,
          scan_plain s (fun d hd => hs d (List.mem_cons_of_mem _ hd))]
        simp
      rw [key, key]
      constructor
      · rw [scan, if_neg (by decide), if_pos rfl, List.reverse_reverse]
      · rw [scan, if_neg (by decide), if_neg (by decide), if_pos rfl, List.reverse_reverse]

open Spec.Csv in
theorem scan_row (sp : Str → Bool) (row : List Str) (hne : row ≠ []) (done : List Str) (rest : Str) :
    scan .fieldStart [] done (writeRow sp row ++ rest) =
      (scan .fieldStart [] [] rest).map (fun rows => (done.reverse ++ row) :: rows) := by
  unfold writeRow
  induction row generalizing done with
  | nil => exact absurd rfl hne
  | cons f row ih =>
    cases row with
    | nil =>
      simp only [List.map_cons, List.map_nil, joinStr, List.append_assoc, List.cons_append, List.nil_append]
      rw [(scan_field sp f done rest).2]
      simp
    | cons g row =>
      have ih := ih (by simp) (f :: done)
      simp only [List.map_cons, joinStr, List.append_assoc, List.cons_append, List.nil_append] at ih ⊢
      rw [(scan_field sp f done _).1, ih]
      simp

open Spec.Csv in
/-- C59: whatever names, reasons and answers contain - tabs, quotes, line breaks -, reading a log file gives
back exactly the rows written, in order: nothing a client sends can add or break a record. -/
theorem C59_read_back (sp : Str → Bool) (rows : List (List Str)) (h : ∀ r ∈ rows, r ≠ []) :
    records (rows.flatMap (writeRow sp)) = some rows := by
  unfold records
  induction rows with
  | nil => rfl
  | cons r rows ih =>
    rw [List.flatMap_cons, scan_row sp r (h r (List.mem_cons_self ..)), ih (fun r' hr' => h r' (List.mem_cons_of_mem _ hr'))]
    rfl

/-- C59: a row has eleven fields, always the same ones, and two entries with the same row agree in
everything but the list structure of the client names. -/
theorem C59_rows (ft fi : Int → Str) (e : LogEntry) :
    (createQueryLogRow ft fi e).length = 11 ∧ createQueryLogRow ft fi e ≠ [] ∧
    ∀ e', createQueryLogRow ft fi e = createQueryLogRow ft fi e' →
      ft e.start = ft e'.start ∧ e.clientIP = e'.clientIP ∧ joinStr (str! "; ") e.clientNames = joinStr (str! "; ") e'.clientNames ∧
      fi e.durationMs = fi e'.durationMs ∧ e.responseReason = e'.responseReason ∧ e.responseType = e'.responseType ∧
      e.responseCode = e'.responseCode ∧ e.questionType = e'.questionType ∧ e.questionName = e'.questionName ∧
      e.answer = e'.answer ∧ e.instanceID = e'.instanceID := by
  refine ⟨rfl, by simp [createQueryLogRow], ?_⟩
  intro e' h
  simp only [createQueryLogRow, List.cons.injEq, and_true] at h
  obtain ⟨h1, h2, h3, h4, h5, h6, h7, h8, h9, h10, h11⟩ := h
  exact ⟨h1, h2, h3, h4, h5, h9, h8, h10, h6, h7, h11⟩

example : writeRow (fun _ => false) [str! "10.0.0.1", str! "a\tb", str! "say \"hi\"\nnext", []] =
    str! "10.0.0.1\t\"a\tb\"\t\"say \"\"hi\"\"\nnext\"\t\n" := by decide

example : writeRow (fun _ => false) [str! "\\.", str! "\\"] = str! "\"\\.\"\t\\\n" := by decide

end Verif.Props
