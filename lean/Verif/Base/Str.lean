/-
Strings of the model.

A Go string is a byte sequence.  The model uses lists of characters, one `Char` per byte
(domain names in the code are in DNS presentation format, i.e. ASCII).
-/

namespace Verif

/-- A Go string (byte sequence), one `Char` per byte. -/
abbrev Str := List Char

open Lean in
/-- `str! "abc"` is the explicit list of characters `['a', 'b', 'c']`
(so that `decide` and `rfl` can compute with it). -/
macro "str!" s:str : term => do
  let cs := (s.getString.toList.map (fun c => Syntax.mkCharLit c)).toArray
  `(([$cs,*] : List Char))

/-- ASCII lower case of one byte (`unicode.ToLower` on ASCII). -/
def lowerChar (c : Char) : Char :=
  if 'A'.toNat ≤ c.toNat ∧ c.toNat ≤ 'Z'.toNat then Char.ofNat (c.toNat + 32) else c

/-- Go `strings.ToLower` on ASCII strings. -/
def lower (s : Str) : Str := s.map lowerChar

/-- Go `strings.TrimRight(s, ".")`. -/
def trimRightDots (s : Str) : Str := (s.reverse.dropWhile (· == '.')).reverse

/-- Go `strings.TrimLeft(s, ".")`. -/
def trimLeftDots (s : Str) : Str := s.dropWhile (· == '.')

/-- Go `strings.Trim(s, ".")`. -/
def trimDots (s : Str) : Str := trimRightDots (trimLeftDots s)

/-- Go `strings.TrimSuffix(s, ".")`: removes one final dot. -/
def trimSuffixDot (s : Str) : Str :=
  match s.getLast? with
  | some '.' => s.dropLast
  | _ => s

/-- Go `strings.Split(s, sep)` for a one-byte separator: always at least one piece. -/
def splitChar (sep : Char) : Str → List Str
  | [] => [[]]
  | c :: cs =>
    if c = sep then [] :: splitChar sep cs
    else match splitChar sep cs with
      | [] => [[c]]
      | p :: ps => (c :: p) :: ps

/-- Go `strings.Join(parts, sep)` for a one-byte separator. -/
def joinChar (sep : Char) : List Str → Str
  | [] => []
  | [p] => p
  | p :: q :: ps => p ++ sep :: joinChar sep (q :: ps)

/-- Is this byte removed by Go's `strings.TrimSpace` (ASCII part)? -/
def isSpace (c : Char) : Bool :=
  c == ' ' || c == '\t' || c == '\n' || c == '\r' || c == '\x0b' || c == '\x0c'

/-- Go `strings.TrimSpace` (ASCII). -/
def trimSpace (s : Str) : Str :=
  ((s.dropWhile isSpace).reverse.dropWhile isSpace).reverse

/-! ### Basic facts -/

theorem ofNat_toNat {n : Nat} (h : n.isValidChar) : (Char.ofNat n).toNat = n := by
  unfold Char.ofNat
  rw [dif_pos h]
  rfl

theorem lowerChar_idem (c : Char) : lowerChar (lowerChar c) = lowerChar c := by
  unfold lowerChar
  by_cases h : 'A'.toNat ≤ c.toNat ∧ c.toNat ≤ 'Z'.toNat
  · rw [if_pos h]
    have hv : (c.toNat + 32).isValidChar := by
      left
      have := h.2
      have e : 'Z'.toNat = 90 := rfl
      omega
    have e : (Char.ofNat (c.toNat + 32)).toNat = c.toNat + 32 := by
      exact ofNat_toNat hv
    rw [e, if_neg]
    have := h.1
    have e1 : 'A'.toNat = 65 := rfl
    have e2 : 'Z'.toNat = 90 := rfl
    omega
  · rw [if_neg h, if_neg h]

theorem lower_idem (s : Str) : lower (lower s) = lower s := by
  simp [lower, lowerChar_idem]

@[simp] theorem lower_nil : lower [] = [] := rfl
@[simp] theorem lower_cons (c : Char) (s : Str) : lower (c :: s) = lowerChar c :: lower s := rfl
@[simp] theorem lower_append (s t : Str) : lower (s ++ t) = lower s ++ lower t := by
  simp [lower]
@[simp] theorem lower_length (s : Str) : (lower s).length = s.length := by simp [lower]

theorem lowerChar_dot_iff (c : Char) : lowerChar c = '.' ↔ c = '.' := by
  unfold lowerChar
  by_cases h : 'A'.toNat ≤ c.toNat ∧ c.toNat ≤ 'Z'.toNat
  · rw [if_pos h]
    have e1 : 'A'.toNat = 65 := rfl
    have e2 : 'Z'.toNat = 90 := rfl
    have hv : (c.toNat + 32).isValidChar := by left; omega
    have e : (Char.ofNat (c.toNat + 32)).toNat = c.toNat + 32 := by
      exact ofNat_toNat hv
    constructor
    · intro hc
      rw [hc] at e
      have : '.'.toNat = 46 := rfl
      omega
    · rintro rfl
      have : '.'.toNat = 46 := rfl
      omega
  · rw [if_neg h]

theorem splitChar_ne_nil (sep : Char) (s : Str) : splitChar sep s ≠ [] := by
  induction s with
  | nil => simp [splitChar]
  | cons c cs ih =>
    unfold splitChar
    split
    · simp
    · split <;> simp

theorem joinChar_splitChar (sep : Char) (s : Str) : joinChar sep (splitChar sep s) = s := by
  induction s with
  | nil => rfl
  | cons c cs ih =>
    have hne := splitChar_ne_nil sep cs
    unfold splitChar
    split
    · next h =>
      subst h
      cases hs : splitChar c cs with
      | nil => exact absurd hs hne
      | cons p ps => rw [hs] at ih; simp [joinChar, ih]
    · cases hs : splitChar sep cs with
      | nil => exact absurd hs hne
      | cons p ps =>
        rw [hs] at ih
        cases ps with
        | nil => simpa [joinChar] using ih
        | cons q qs => simpa [joinChar] using ih

theorem splitChar_no_sep (sep : Char) (s : Str) : ∀ p ∈ splitChar sep s, sep ∉ p := by
  induction s with
  | nil => simp [splitChar]
  | cons c cs ih =>
    unfold splitChar
    split
    · intro p hp
      rcases List.mem_cons.1 hp with h | h
      · subst h; simp
      · exact ih p h
    · next hc =>
      cases hs : splitChar sep cs with
      | nil => simp [Ne.symm hc]
      | cons q qs =>
        rw [hs] at ih
        intro p hp
        rcases List.mem_cons.1 hp with h | h
        · subst h
          have := ih q (by simp)
          simp [this, Ne.symm hc]
        · exact ih p (by simp [h])

theorem splitChar_of_not_mem {sep : Char} {s : Str} (h : sep ∉ s) : splitChar sep s = [s] := by
  induction s with
  | nil => rfl
  | cons c cs ih =>
    simp only [List.mem_cons, not_or] at h
    unfold splitChar
    rw [if_neg (Ne.symm h.1), ih h.2]

theorem splitChar_append_sep {sep : Char} {s : Str} (t : Str) (h : sep ∉ s) :
    splitChar sep (s ++ sep :: t) = s :: splitChar sep t := by
  induction s with
  | nil => simp [splitChar]
  | cons c cs ih =>
    simp only [List.mem_cons, not_or] at h
    simp only [List.cons_append]
    rw [splitChar, if_neg (Ne.symm h.1), ih h.2]

theorem splitChar_joinChar {sep : Char} {ps : List Str} (hne : ps ≠ [])
    (h : ∀ p ∈ ps, sep ∉ p) : splitChar sep (joinChar sep ps) = ps := by
  induction ps with
  | nil => exact absurd rfl hne
  | cons p qs ih =>
    cases qs with
    | nil => exact splitChar_of_not_mem (h p (by simp))
    | cons q qs =>
      rw [joinChar, splitChar_append_sep _ (h p (by simp)), ih (by simp)]
      intro x hx
      exact h x (by simp [hx])

end Verif
