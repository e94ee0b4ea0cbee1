/-
Lemmas about the list parsers.
-/
import Verif.Model.Parsers
import Verif.Spec.Lines

namespace Verif.Parsers
open Spec

def L (s : Str) : Str := s.dropWhile isSpace
def R (s : Str) : Str := (s.reverse.dropWhile isSpace).reverse
def tw (s : Str) : Str := s.takeWhile (· ≠ '#')

theorem trimSpace_eq (s : Str) : trimSpace s = R (L s) := rfl

theorem L_tw (s : Str) : tw (L s) = L (tw s) := by
  induction s with
  | nil => rfl
  | cons c s ih =>
    by_cases hc : isSpace c
    · have hn : c ≠ '#' := by rintro rfl; revert hc; decide
      simp only [L, tw, List.dropWhile_cons, hc, if_true, List.takeWhile_cons, hn, ne_eq,
        not_false_eq_true, decide_true] at *
      exact ih
    · by_cases hh : c = '#'
      · subst hh
        simp [L, tw, hc]
      · simp [L, tw, hc, hh]

theorem R_decomp (s : Str) : ∃ sp, s = R s ++ sp ∧ ∀ c ∈ sp, isSpace c = true := by
  refine ⟨(s.reverse.takeWhile isSpace).reverse, ?_, ?_⟩
  · unfold R
    rw [← List.reverse_append, List.takeWhile_append_dropWhile, List.reverse_reverse]
  · intro c hc
    rw [List.mem_reverse] at hc
    exact List.all_eq_true.1 List.all_takeWhile c hc

theorem head_dropWhile {p : Char → Bool} {l : Str} {c : Char} {t : Str}
    (h : l.dropWhile p = c :: t) : p c = false := by
  induction l with
  | nil => simp at h
  | cons d l ih =>
    rw [List.dropWhile_cons] at h
    split at h
    · exact ih h
    · next hd =>
      cases h
      simpa using hd

theorem R_idem (s : Str) : R (R s) = R s := by
  unfold R
  rw [List.reverse_reverse]
  congr 1
  cases h : (List.reverse s).dropWhile isSpace with
  | nil => rfl
  | cons c t => rw [List.dropWhile_cons, if_neg (by simp [head_dropWhile h])]

theorem dropWhile_all {p : Char → Bool} {l m : Str} (h : ∀ c ∈ l, p c = true) :
    (l ++ m).dropWhile p = m.dropWhile p := by
  induction l with
  | nil => rfl
  | cons c l ih =>
    simp [h c (by simp), ih (fun c hc => h c (by simp [hc]))]

theorem R_append_space (s sp : Str) (h : ∀ c ∈ sp, isSpace c = true) : R (s ++ sp) = R s := by
  unfold R
  rw [List.reverse_append, dropWhile_all (fun c hc => h c (List.mem_reverse.1 hc))]

theorem tw_append_of_mem {s t : Str} (h : '#' ∈ s) : tw (s ++ t) = tw s := by
  induction s with
  | nil => simp at h
  | cons c s ih =>
    by_cases hc : c = '#'
    · simp [tw, hc]
    · have := ih (by simpa [Ne.symm hc] using h)
      simp only [tw, ne_eq, decide_not] at this
      simp [tw, hc, this]

theorem tw_of_not_mem {s : Str} (h : '#' ∉ s) : tw s = s := by
  induction s with
  | nil => rfl
  | cons c s ih =>
    simp only [List.mem_cons, not_or] at h
    have := ih h.2
    simp only [tw, ne_eq, decide_not] at this
    simp [tw, Ne.symm h.1, this]

theorem space_no_hash {sp : Str} (h : ∀ c ∈ sp, isSpace c = true) : '#' ∉ sp := by
  intro hm
  have := h _ hm
  revert this; decide

theorem R_tw_R (s : Str) : R (tw (R s)) = R (tw s) := by
  obtain ⟨sp, h1, h2⟩ := R_decomp s
  by_cases hm : '#' ∈ R s
  · conv => rhs; rw [h1]
    rw [tw_append_of_mem hm]
  · have : '#' ∉ s := by
      rw [h1]
      simp only [List.mem_append, not_or]
      exact ⟨hm, space_no_hash h2⟩
    rw [tw_of_not_mem hm, tw_of_not_mem this, R_idem]

theorem lineText_core (tok : Str) :
    trimSpace (tok.takeWhile (· ≠ '#')) = R (tw (trimSpace tok)) := by
  rw [trimSpace_eq, trimSpace_eq, R_tw_R, L_tw]
  rfl

/-- A trimmed non-empty text starts with a non-space. -/
theorem head_trimSpace {tok : Str} {c : Char} {t : Str} (h : trimSpace tok = c :: t) :
    isSpace c = false := by
  rw [trimSpace_eq] at h
  obtain ⟨sp, h1, _⟩ := R_decomp (L tok)
  rw [h] at h1
  exact head_dropWhile (l := tok) h1

theorem R_cons_ne_nil {c : Char} {t : Str} (h : isSpace c = false) : R (c :: t) ≠ [] := by
  intro hn
  obtain ⟨sp, h1, h2⟩ := R_decomp (c :: t)
  rw [hn] at h1
  have := h2 c (by rw [List.nil_append] at h1; rw [← h1]; simp)
  rw [h] at this
  cases this

theorem linesNext_cons (tok : Str) (rest : List Str) :
    linesNext (tok :: rest) = match lineText tok with
      | some t => some (t, rest)
      | none => linesNext rest := by
  rw [linesNext]
  unfold lineText
  simp only [lineText_core]
  generalize htext : trimSpace tok = text
  cases text with
  | nil => rfl
  | cons c t =>
    have hc := head_trimSpace htext
    rw [if_neg (by simp)]
    by_cases hh : c = '#'
    · subst hh
      rw [if_pos (by simp), if_pos (by simp [tw, R])]
    · rw [if_neg (by simpa using hh)]
      have hne : R (tw (c :: t)) ≠ [] := by
        have : tw (c :: t) = c :: tw t := by simp [tw, hh]
        rw [this]
        exact R_cons_ne_nil hc
      rw [if_neg hne]
      simp only
      by_cases hm : '#' ∈ c :: t
      · rw [if_pos hm]; rfl
      · rw [if_neg hm, tw_of_not_mem hm, ← htext, trimSpace_eq, R_idem]

theorem linesNext_spec (ls : List Str) :
    match linesNext ls with
    | none => ls.filterMap lineText = []
    | some (t, rest) => ls.filterMap lineText = t :: rest.filterMap lineText := by
  induction ls with
  | nil => rfl
  | cons tok ls ih =>
    rw [linesNext_cons]
    cases h : lineText tok with
    | none => simpa [h] using ih
    | some t => simp [h]

theorem lineText_dropCR (p : Str) : lineText (dropCR p) = lineText p := by
  unfold dropCR
  split
  · next h =>
    obtain ⟨q, rfl⟩ := List.getLast?_eq_some_iff.1 h
    rw [List.dropLast_concat]
    have : trimSpace (q.takeWhile (· ≠ '#')) = trimSpace ((q ++ ['\r']).takeWhile (· ≠ '#')) := by
      rw [lineText_core, lineText_core]
      suffices trimSpace (q ++ ['\r']) = trimSpace q ∨ False by
        rcases this with h | h
        · rw [h]
        · exact h.elim
      left
      rw [trimSpace_eq, trimSpace_eq]
      by_cases hall : ∀ c ∈ q, isSpace c = true
      · have h1 : L (q ++ ['\r']) = [] := by
          unfold L
          rw [dropWhile_all hall]
          decide
        have h2 : L q = [] := by
          have := dropWhile_all (m := []) hall
          simpa [L] using this
        rw [h1, h2]
      · have : L (q ++ ['\r']) = L q ++ ['\r'] := by
          clear h
          induction q with
          | nil => simp at hall
          | cons c q ih =>
            by_cases hc : isSpace c
            · have := ih (fun h => hall (by
                intro d hd
                rcases List.mem_cons.1 hd with rfl | hd
                · exact hc
                · exact h d hd))
              simpa [L, hc] using this
            · simp [L, hc]
        rw [this]
        exact R_append_space _ _ (by decide)
    unfold lineText
    rw [this]
  · rfl

theorem filterNext_none {T : Type} {u : Str → Option T} {limit : Option Nat} {fin : ScanEnd}
    {ls : List Str} {count : Nat} (h : linesNext ls = none) :
    filterNext u limit fin count ls = .error (.scan fin) := by
  rw [filterNext.eq_def]
  split
  · rfl
  · next h' => rw [h] at h'; cases h'

theorem filterNext_some {T : Type} {u : Str → Option T} {limit : Option Nat} {fin : ScanEnd}
    {ls : List Str} {count : Nat} {text : Str} {rest : List Str}
    (h : linesNext ls = some (text, rest)) :
    filterNext u limit fin count ls = match u text with
      | some v => .ok (v, rest, count)
      | none => if overBudget limit (count + 1) then .error .tooManyErrors
        else filterNext u limit fin (count + 1) rest := by
  rw [filterNext.eq_def]
  split
  · next h' => rw [h] at h'; cases h'
  · next h' => rw [h] at h'; cases h'; rfl

/-- What one call of the filtered parser does, in terms of the items of the remaining lines. -/
def FilterSpec {T : Type} (u : Str → Option T) (limit : Option Nat) (fin : ScanEnd)
    (items : List Str) (count : Nat) : Except ParseErr (T × List Str × Nat) → Prop
  | .ok (v, rest, c) => ∃ bad t, items = bad ++ t :: rest.filterMap lineText ∧
      (∀ b ∈ bad, u b = none) ∧ u t = some v ∧ c = count + bad.length ∧
      ∀ k, k < bad.length → overBudget limit (count + k + 1) = false
  | .error (.scan e) => e = fin ∧ (∀ b ∈ items, u b = none) ∧
      ∀ k, k < items.length → overBudget limit (count + k + 1) = false
  | .error .tooManyErrors => ∃ bad t post, items = bad ++ t :: post ∧
      (∀ b ∈ bad, u b = none) ∧ u t = none ∧ overBudget limit (count + bad.length + 1) = true ∧
      ∀ k, k < bad.length → overBudget limit (count + k + 1) = false

theorem filterNext_spec {T : Type} (u : Str → Option T) (limit : Option Nat) (fin : ScanEnd)
    (ls : List Str) (count : Nat) :
    FilterSpec u limit fin (ls.filterMap lineText) count (filterNext u limit fin count ls) := by
  induction hn : ls.length using Nat.strongRecOn generalizing ls count with
  | ind n ih =>
    have hsp := linesNext_spec ls
    rcases hl : linesNext ls with _ | ⟨text, rest⟩
    · rw [filterNext_none hl]
      rw [hl] at hsp
      simp only at hsp
      refine ⟨rfl, by simp [hsp], by simp [hsp]⟩
    · rw [filterNext_some hl]
      have hlen := linesNext_length hl
      rw [hl] at hsp
      simp only at hsp
      cases hu : u text with
      | some v =>
        exact ⟨[], text, by simp [hsp], by simp, hu, by simp, by simp⟩
      | none =>
        simp only
        by_cases ho : overBudget limit (count + 1) = true
        · rw [if_pos ho]
          exact ⟨[], text, _, hsp, by simp, hu, by simpa using ho, by simp⟩
        · rw [if_neg ho]
          have hoF : overBudget limit (count + 1) = false := by simpa using ho
          have := ih rest.length (by omega) rest (count + 1) rfl
          have hk : ∀ (m : Nat), (∀ k, k < m → overBudget limit (count + 1 + k + 1) = false) →
              ∀ k, k < m + 1 → overBudget limit (count + k + 1) = false := by
            intro m h k hk
            cases k with
            | zero => exact hoF
            | succ k =>
              have := h k (by omega)
              rwa [show count + 1 + k + 1 = count + (k + 1) + 1 by omega] at this
          generalize filterNext u limit fin (count + 1) rest = r at this ⊢
          match r, this with
          | .ok (v, rest', c), ⟨bad, t, h1, h2, h3, h4, h5⟩ =>
            refine ⟨text :: bad, t, by simp [hsp, h1], ?_, h3, by simp [h4]; omega, ?_⟩
            · intro b hb
              rcases List.mem_cons.1 hb with rfl | hb
              · exact hu
              · exact h2 b hb
            · exact hk _ h5
          | .error (.scan e), ⟨h1, h2, h3⟩ =>
            refine ⟨h1, ?_, ?_⟩
            · intro b hb
              rw [hsp] at hb
              rcases List.mem_cons.1 hb with rfl | hb
              · exact hu
              · exact h2 b hb
            · rw [hsp]; exact hk _ h3
          | .error .tooManyErrors, ⟨bad, t, post, h1, h2, h3, h4, h5⟩ =>
            refine ⟨text :: bad, t, post, by simp [hsp, h1], ?_, h3, ?_, ?_⟩
            · intro b hb
              rcases List.mem_cons.1 hb with rfl | hb
              · exact hu
              · exact h2 b hb
            · rw [show count + (text :: bad).length + 1 = count + 1 + bad.length + 1 by
                simp; omega]
              exact h4
            · exact hk _ h5

/-- Number of lines that do not parse. -/
def invalidCount {T : Type} (u : Str → Option T) (items : List Str) : Nat :=
  items.countP (fun t => (u t).isNone)

theorem filterMap_none {T : Type} {u : Str → Option T} {bad : List Str}
    (h : ∀ b ∈ bad, u b = none) : bad.filterMap u = [] := by
  induction bad with
  | nil => rfl
  | cons b bad ih => simp [h b (by simp), ih (fun b hb => h b (by simp [hb]))]

theorem invalidCount_none {T : Type} {u : Str → Option T} {bad : List Str}
    (h : ∀ b ∈ bad, u b = none) : invalidCount u bad = bad.length := by
  unfold invalidCount
  rw [List.countP_eq_length]
  intro b hb
  simp [h b hb]

/-- What `forEach` does, in terms of the items of the remaining lines. -/
theorem forEach_spec {T : Type} (u : Str → Option T) (limit : Option Nat) (fin : ScanEnd)
    (ls : List Str) (count : Nat) :
    ((∀ n, limit = some n → invalidCount u (ls.filterMap lineText) + count ≤ n ∨
        invalidCount u (ls.filterMap lineText) = 0) →
      forEach u limit fin count ls = ((ls.filterMap lineText).filterMap u,
        if fin = .eof then none else some (.scan fin))) ∧
    (∀ n, limit = some n → count ≤ n →
      invalidCount u (ls.filterMap lineText) + count > n →
      ∃ pre bad post, ls.filterMap lineText = pre ++ bad :: post ∧ u bad = none ∧
        invalidCount u pre + count = n ∧
        forEach u limit fin count ls = (pre.filterMap u, some .tooManyErrors)) := by
  induction hn : ls.length using Nat.strongRecOn generalizing ls count with
  | ind n ih =>
    rw [forEach.eq_def]
    have hsp := filterNext_spec u limit fin ls count
    split
    · -- end of file
      next he =>
      rw [he] at hsp
      obtain ⟨h1, h2, h3⟩ := hsp
      have hc := invalidCount_none h2
      refine ⟨fun _ => by rw [filterMap_none h2, ← h1]; rfl, fun m hm _ hgt => ?_⟩
      exfalso
      rw [hc] at hgt
      have := h3 (m - count) (by omega)
      rw [hm] at this
      simp [overBudget] at this
      omega
    · next e hne he =>
      rw [he] at hsp
      cases e with
      | scan e =>
        obtain ⟨h1, h2, h3⟩ := hsp
        have hc := invalidCount_none h2
        refine ⟨fun _ => ?_, fun m hm _ hgt => ?_⟩
        · subst h1
          rw [filterMap_none h2, if_neg]
          rintro rfl
          exact hne rfl
        · exfalso
          rw [hc] at hgt
          have := h3 (m - count) (by omega)
          rw [hm] at this
          simp [overBudget] at this
          omega
      | tooManyErrors =>
        obtain ⟨bad, t, post, h1, h2, h3, h4, h5⟩ := hsp
        cases limit with
        | none => simp [overBudget] at h4
        | some m =>
          have h4' : count + bad.length + 1 > m := by simpa [overBudget] using h4
          have hcount : invalidCount u (ls.filterMap lineText) ≥ bad.length + 1 := by
            rw [h1]
            unfold invalidCount
            rw [List.countP_append, List.countP_cons]
            have := invalidCount_none h2
            unfold invalidCount at this
            simp [this, h3]
          constructor
          · intro h
            exfalso
            rcases h m rfl with h | h <;> omega
          · intro m' hm' hle hgt
            cases hm'
            refine ⟨bad, t, post, h1, h3, ?_, by rw [filterMap_none h2]⟩
            rw [invalidCount_none h2]
            by_cases hb : bad.length = 0
            · omega
            · have := h5 (bad.length - 1) (by omega)
              simp [overBudget] at this
              omega
    · next v rest c he =>
      rw [he] at hsp
      obtain ⟨bad, t, h1, h2, h3, h4, h5⟩ := hsp
      have hlen := filterNext_length he
      obtain ⟨ih1, ih2⟩ := ih rest.length (by omega) rest c rfl
      have hcnt : invalidCount u (ls.filterMap lineText) =
          bad.length + invalidCount u (rest.filterMap lineText) := by
        rw [h1]
        unfold invalidCount
        rw [List.countP_append, List.countP_cons]
        have := invalidCount_none h2
        unfold invalidCount at this
        simp [this, h3]
      have hfm : (ls.filterMap lineText).filterMap u =
          v :: (rest.filterMap lineText).filterMap u := by
        rw [h1, List.filterMap_append, filterMap_none h2]
        simp [h3]
      constructor
      · intro h
        rw [ih1 (fun m hm => by
          rcases h m hm with h | h
          · left; omega
          · right; omega), hfm]
      · intro m hm hle hgt
        have hcm : c ≤ m := by
          by_cases hb : bad.length = 0
          · omega
          · have := h5 (bad.length - 1) (by omega)
            rw [hm] at this
            simp [overBudget] at this
            omega
        obtain ⟨pre, b, post, g1, g2, g3, g4⟩ := ih2 m hm hcm (by omega)
        refine ⟨bad ++ t :: pre, b, post, by simp [h1, g1], g2, ?_, ?_⟩
        · have := invalidCount_none h2
          unfold invalidCount at *
          rw [List.countP_append, List.countP_cons]
          simp only [h3, Option.isNone_some, Bool.false_eq_true, if_false] at *
          omega
        · rw [g4, List.filterMap_append, filterMap_none h2]
          simp [h3]

/-- Pieces that fit in the scanner's buffer. -/
def fits (p : Str) : Bool := decide (p.length < maxToken)

theorem scanPieces_spec (err : ScanEnd) (ps : List Str) :
    (scanPieces err ps).1.filterMap lineText = (ps.takeWhile fits).filterMap lineText ∧
    (scanPieces err ps).2 = if ps.all fits then err else .tooLong := by
  induction ps with
  | nil => simp [scanPieces]
  | cons p ps ih =>
    cases ps with
    | nil =>
      unfold scanPieces
      by_cases hp : p = []
      · subst hp
        simp [fits, maxToken, lineText, trimSpace]
      · rw [if_neg hp]
        by_cases hl : p.length ≥ maxToken
        · rw [if_pos hl]
          have : fits p = false := by simpa [fits] using hl
          simp [this]
        · rw [if_neg hl]
          have : fits p = true := by simp [fits]; omega
          simp [this, List.filterMap_cons, lineText_dropCR]
    | cons q ps =>
      unfold scanPieces
      by_cases hl : p.length ≥ maxToken
      · rw [if_pos hl]
        have : fits p = false := by simpa [fits] using hl
        simp [this]
      · rw [if_neg hl]
        have hf : fits p = true := by simp [fits]; omega
        simp only [List.takeWhile_cons, hf, if_true, List.filterMap_cons, lineText_dropCR,
          List.all_cons, Bool.true_and] at ih ⊢
        rw [ih.1, ih.2]
        exact ⟨rfl, rfl⟩

/-! ### Words -/

theorem fields_word {w : Str} (hne : w ≠ []) (h : ∀ c ∈ w, isSpace c = false) : fields w = [w] := by
  induction w with
  | nil => exact absurd rfl hne
  | cons c w ih =>
    have hc := h c (by simp)
    cases w with
    | nil => simp [fields, hc]
    | cons d w =>
      have hd := h d (by simp)
      have := ih (by simp) (fun c hc => h c (by simp [hc]))
      rw [fields, if_neg (by simp [hc])]
      simp only [this, hd, Bool.false_eq_true, if_false]

theorem fields_space {c : Char} (h : isSpace c = true) (s : Str) : fields (c :: s) = fields s := by
  cases s <;> simp only [fields, h, if_true]

theorem fields_word_append {w : Str} (hne : w ≠ []) (h : ∀ c ∈ w, isSpace c = false) {d : Char}
    (hd : isSpace d = true) (s : Str) : fields (w ++ d :: s) = w :: fields s := by
  induction w with
  | nil => exact absurd rfl hne
  | cons c w ih =>
    have hc := h c (by simp)
    cases w with
    | nil =>
      simp only [List.cons_append, List.nil_append]
      rw [fields, if_neg (by simp [hc])]
      simp only [hd, if_true, fields_space hd]
    | cons e w =>
      have he := h e (by simp)
      have := ih (by simp) (fun c hc => h c (by simp [hc]))
      simp only [List.cons_append] at this ⊢
      rw [fields, if_neg (by simp [hc])]
      simp only [this, he, Bool.false_eq_true, if_false]

end Verif.Parsers
