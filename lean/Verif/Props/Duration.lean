/-
C65: durations in the configuration mean what they say.
C66: `blocking disable` on the command line does what was asked.
-/
import Verif.Lemmas.Duration

namespace Verif.Props
open Verif.Duration

/-! ### What a duration means -/

/-- The number that a string of decimal digits stands for. -/
def decimalValue : Str → Nat
  | [] => 0
  | c :: cs => (c.toNat - 48) * 10 ^ cs.length + decimalValue cs

/-- Only the digits `0` to `9`. -/
def OnlyDigits (s : Str) : Prop := ∀ c ∈ s, c ∈ str! "0123456789"

/-- The units and their length in nanoseconds. -/
inductive UnitNs : Str → Nat → Prop
  | ns : UnitNs (str! "ns") 1
  | us : UnitNs (str! "us") (10 ^ 3)
  | micro : UnitNs (microSign ++ str! "s") (10 ^ 3)
  | mu : UnitNs (greekMu ++ str! "s") (10 ^ 3)
  | ms : UnitNs (str! "ms") (10 ^ 6)
  | sec : UnitNs (str! "s") (10 ^ 9)
  | min : UnitNs (str! "m") (60 * 10 ^ 9)
  | hour : UnitNs (str! "h") (60 * 60 * 10 ^ 9)

/-- One part of a duration: a decimal number and a unit. -/
structure DurPart where
  /-- the digits before the decimal point -/
  whole : Str
  /-- the digits after it; `none`: no decimal point -/
  frac : Option Str
  /-- the unit -/
  unit : Str
  /-- its length in nanoseconds -/
  ns : Nat

/-- The digits after the decimal point, if any. -/
def DurPart.after (p : DurPart) : Str := p.frac.getD []

/-- How a part is written. -/
def DurPart.text (p : DurPart) : Str :=
  p.whole ++ (match p.frac with | none => [] | some f => '.' :: f) ++ p.unit

/-- A part is well formed: digits, at least one of them, and a known unit. -/
structure DurPart.Ok (p : DurPart) : Prop where
  whole : OnlyDigits p.whole
  after : OnlyDigits p.after
  some_digit : p.whole ≠ [] ∨ p.after ≠ []
  unit : UnitNs p.unit p.ns

/-- A part's length in nanoseconds, rounded down. -/
def DurPart.value (p : DurPart) : Nat :=
  (decimalValue p.whole * 10 ^ p.after.length + decimalValue p.after) * p.ns / 10 ^ p.after.length

/-- The sum of the parts. -/
def durTotal (ps : List DurPart) : Nat := (ps.map DurPart.value).sum

/-- The parts written one after the other. -/
def durText (ps : List DurPart) : Str := (ps.map DurPart.text).flatten

/-! ### From the specification to the model -/

theorem onlyDigits_iff (s : Str) : OnlyDigits s ↔ s.all isDigit = true := by
  rw [List.all_eq_true]
  refine forall_congr' fun c => forall_congr' fun _ => ?_
  unfold isDigit
  rw [decide_eq_true_eq]
  have h9 : ('9' : Char).toNat = 57 := rfl
  have h0 : ('0' : Char).toNat = 48 := rfl
  rw [h0, h9]
  constructor
  · intro h
    simp only [List.mem_cons, List.not_mem_nil, or_false] at h
    rcases h with h | h | h | h | h | h | h | h | h | h <;> subst h <;> decide
  · intro h
    have hc : c = Char.ofNat c.toNat := (Char.ofNat_toNat c).symm
    have : c.toNat = 48 ∨ c.toNat = 49 ∨ c.toNat = 50 ∨ c.toNat = 51 ∨ c.toNat = 52 ∨ c.toNat = 53 ∨
      c.toNat = 54 ∨ c.toNat = 55 ∨ c.toNat = 56 ∨ c.toNat = 57 := by omega
    rcases this with h | h | h | h | h | h | h | h | h | h <;> rw [h] at hc <;> subst hc <;> decide

theorem decimalValue_eq (s : Str) : decimalValue s = valFrom 0 s := by
  induction s with
  | nil => rfl
  | cons c cs ih =>
    rw [valFrom_cons, valFrom_eq, decimalValue, ih, Nat.zero_mul, Nat.zero_add]
    rfl

theorem unitNs_iff (u : Str) (n : Nat) : UnitNs u n ↔ unitOf u = some n := by
  constructor
  · intro h
    cases h <;> decide
  · intro h
    unfold unitOf at h
    split at h
    · rename_i hu; rw [Option.some.injEq] at h; subst h; subst hu; exact .ns
    split at h
    · rename_i hu; rw [Option.some.injEq] at h; subst h; subst hu; exact .us
    split at h
    · rename_i hu; rw [Option.some.injEq] at h; subst h; subst hu; exact .micro
    split at h
    · rename_i hu; rw [Option.some.injEq] at h; subst h; subst hu; exact .mu
    split at h
    · rename_i hu; rw [Option.some.injEq] at h; subst h; subst hu; exact .ms
    split at h
    · rename_i hu; rw [Option.some.injEq] at h; subst h; subst hu; exact .sec
    split at h
    · rename_i hu; rw [Option.some.injEq] at h; subst h; subst hu; exact .min
    split at h
    · rename_i hu; rw [Option.some.injEq] at h; subst h; subst hu; exact .hour
    exact absurd h (by simp)

theorem unitNs_chars {u : Str} {n : Nat} (h : UnitNs u n) : u.all isUnitChar = true ∧ u ≠ [] := by
  cases h <;> decide

theorem DurPart.after_eq (p : DurPart) : p.after = fracDigits p.frac := by
  unfold DurPart.after
  cases p.frac <;> rfl

theorem DurPart.text_eq (p : DurPart) (rest : Str) :
    p.text ++ rest = p.whole ++ (fracText p.frac ++ (p.unit ++ rest)) := by
  unfold DurPart.text
  cases p.frac <;> simp [fracText]

theorem DurPart.value_eq (p : DurPart) : p.value = partValue p.whole p.frac p.ns := by
  unfold DurPart.value partValue
  rw [p.after_eq, decimalValue_eq, decimalValue_eq, Nat.add_mul, Nat.mul_right_comm, Nat.add_comm,
    Nat.add_mul_div_right _ _ (Nat.pow_pos (by omega)), Nat.add_comm]

theorem DurPart.noUnit_text {p : DurPart} (h : p.Ok) (rest : Str) : NoUnit (p.text ++ rest) := by
  rw [p.text_eq]
  have hw := (onlyDigits_iff _).1 h.whole
  cases hwc : p.whole with
  | nil =>
    cases hf : p.frac with
    | none =>
      rcases h.some_digit with h' | h'
      · exact absurd hwc h'
      · exact absurd (by rw [p.after_eq, hf]; rfl) h'
    | some f => exact (by decide : isUnitChar '.' = false)
  | cons a b =>
    rw [hwc, List.all_cons, Bool.and_eq_true] at hw
    show isUnitChar a = false
    unfold isUnitChar
    simp [hw.1]

theorem noUnit_durText (ps : List DurPart) (h : ∀ p ∈ ps, p.Ok) : NoUnit (durText ps) := by
  cases ps with
  | nil => trivial
  | cons p ps => exact DurPart.noUnit_text (h p (by simp)) _

theorem durText_cons (p : DurPart) (ps : List DurPart) : durText (p :: ps) = p.text ++ durText ps := by
  simp [durText]

theorem durTotal_cons (p : DurPart) (ps : List DurPart) : durTotal (p :: ps) = p.value + durTotal ps := by
  simp [durTotal]

theorem DurPart.text_ne {p : DurPart} (h : p.Ok) : p.text ≠ [] := by
  have := (unitNs_chars h.unit).2
  unfold DurPart.text
  simp [this]

theorem durText_length (ps : List DurPart) (h : ∀ p ∈ ps, p.Ok) : ps.length ≤ (durText ps).length := by
  induction ps with
  | nil => simp
  | cons p ps ih =>
    have h1 := ih (fun q hq => h q (List.mem_cons_of_mem _ hq))
    have h2 := List.length_pos_iff.2 (DurPart.text_ne (h p (by simp)))
    rw [durText_cons, List.length_append, List.length_cons]
    omega

theorem components_durText (ps : List DurPart) (h : ∀ p ∈ ps, p.Ok)
    (hl : ∀ p ∈ ps, p.after.length ≤ 18) (n d : Nat) (hn : ps.length ≤ n)
    (hv : d + durTotal ps ≤ 2 ^ 63) : components n d (durText ps) = some (d + durTotal ps) := by
  induction ps generalizing n d with
  | nil => simp [durText, durTotal, components]
  | cons p ps ih =>
    have hp := h p (by simp)
    have hps : ∀ q ∈ ps, q.Ok := fun q hq => h q (List.mem_cons_of_mem _ hq)
    have hu := unitNs_chars hp.unit
    rw [durTotal_cons] at hv
    have hc : component (p.text ++ durText ps) = some (p.value, durText ps) := by
      rw [p.text_eq, p.value_eq]
      exact component_part p.whole p.frac p.unit (durText ps) p.ns ((onlyDigits_iff _).1 hp.whole)
        (by rw [← p.after_eq]; exact (onlyDigits_iff _).1 hp.after)
        (by rw [← p.after_eq]; exact hl p (by simp))
        (by rw [← p.after_eq]; exact hp.some_digit) hu.1 hu.2 ((unitNs_iff _ _).1 hp.unit)
        (noUnit_durText ps hps) (by rw [← p.value_eq]; omega)
    cases n with
    | zero => simp at hn
    | succ n =>
      have hne := DurPart.text_ne hp
      have hmod : (d + p.value) % 2 ^ 64 = d + p.value := Nat.mod_eq_of_lt (by omega)
      rw [durText_cons]
      cases ht : p.text ++ durText ps with
      | nil => exact absurd (List.append_eq_nil_iff.1 ht).1 hne
      | cons a b =>
        rw [ht] at hc
        rw [components]
        simp only [hc]
        rw [hmod, if_neg (by omega), ih hps (fun q hq => hl q (List.mem_cons_of_mem _ hq)) n _
          (by simpa using hn) (by omega), durTotal_cons, Nat.add_assoc]

theorem durText_first (ps : List DurPart) (hne : ps ≠ []) (h : ∀ p ∈ ps, p.Ok) :
    ∃ c s, durText ps = c :: s ∧ c ≠ '-' ∧ c ≠ '+' := by
  cases hc : durText ps with
  | nil =>
    have := durText_length ps h
    rw [hc] at this
    exact absurd (List.length_eq_zero_iff.1 (by simpa using this)) hne
  | cons c s =>
    have hn := noUnit_durText ps h
    rw [hc] at hn
    have hn : isUnitChar c = false := hn
    constructor; constructor
    refine ⟨rfl, ?_, ?_⟩ <;> (intro he; subst he; exact absurd hn (by decide))

theorem durText_ne_zero (ps : List DurPart) (h : ∀ p ∈ ps, p.Ok) : durText ps ≠ str! "0" := by
  intro he
  have key : ∀ (ps : List DurPart), (∀ p ∈ ps, p.Ok) → ps ≠ [] →
      ∃ c, c ∈ durText ps ∧ isUnitChar c = true := by
    intro ps h hne
    cases ps with
    | nil => exact absurd rfl hne
    | cons p ps =>
      have hu := unitNs_chars (h p (by simp)).unit
      cases huc : p.unit with
      | nil => exact absurd huc hu.2
      | cons a b =>
        rw [huc, List.all_cons, Bool.and_eq_true] at hu
        refine ⟨a, ?_, hu.1.1⟩
        rw [durText_cons]
        unfold DurPart.text
        simp [huc]
  have hne : ps ≠ [] := by
    intro h0; subst h0; exact absurd he (by decide)
  obtain ⟨c, hc, hu⟩ := key ps h hne
  rw [he, List.mem_singleton] at hc
  subst hc
  exact absurd hu (by decide)

theorem parseUnsigned_durText (neg : Bool) (ps : List DurPart) (hne : ps ≠ []) (h : ∀ p ∈ ps, p.Ok)
    (hl : ∀ p ∈ ps, p.after.length ≤ 18) (hv : durTotal ps ≤ 2 ^ 63)
    (hp : neg = false → durTotal ps < 2 ^ 63) :
    parseUnsigned neg (durText ps) = some (if neg then -(durTotal ps : Int) else durTotal ps) := by
  obtain ⟨c, s, hcs, _⟩ := durText_first ps hne h
  have hcomp := components_durText ps h hl (durText ps).length 0 (durText_length ps h) (by omega)
  unfold parseUnsigned
  rw [if_neg (durText_ne_zero ps h), if_neg (by rw [hcs]; simp), hcomp]
  simp only [Nat.zero_add]
  cases neg with
  | true => rfl
  | false =>
    have := hp rfl
    rw [if_neg (by simp), if_neg (by omega), if_neg (by simp)]

theorem parse_first {c : Char} {s : Str} (h1 : c ≠ '-') (h2 : c ≠ '+') :
    parse (c :: s) = parseUnsigned false (c :: s) := by
  unfold parse
  split
  · rename_i h; rw [List.cons.injEq] at h; exact absurd h.1 h1
  · rename_i h; rw [List.cons.injEq] at h; exact absurd h.1 h2
  · rfl

/-! ### C65: durations in the configuration -/

/-- The parts of `1h30m`. -/
def exampleParts : List DurPart :=
  [⟨str! "1", none, str! "h", 60 * 60 * 10 ^ 9⟩, ⟨str! "30", none, str! "m", 60 * 10 ^ 9⟩]

theorem exampleParts_ok : ∀ p ∈ exampleParts, p.Ok := by
  intro p hp
  simp only [exampleParts, List.mem_cons, List.not_mem_nil, or_false] at hp
  rcases hp with rfl | rfl
  · exact ⟨by unfold OnlyDigits; decide, by unfold OnlyDigits; decide, by decide, .hour⟩
  · exact ⟨by unfold OnlyDigits; decide, by unfold OnlyDigits; decide, by decide, .min⟩

/-- **C65** A duration written as numbers with units, with or without sign, is their sum, to the
nanosecond (rounded down in each part, at most 18 digits after a decimal point), as long as it fits into
292 years. -/
theorem C65_sum (ps : List DurPart) (hne : ps ≠ []) (h : ∀ p ∈ ps, p.Ok)
    (hl : ∀ p ∈ ps, p.after.length ≤ 18) (hv : durTotal ps < 2 ^ 63) :
    parse (durText ps) = some (durTotal ps : Int) ∧
    parse ('+' :: durText ps) = some (durTotal ps : Int) ∧
    parse ('-' :: durText ps) = some (-(durTotal ps : Int)) := by
  obtain ⟨c, s, hcs, h1, h2⟩ := durText_first ps hne h
  refine ⟨?_, ?_, ?_⟩
  · rw [hcs, parse_first h1 h2, ← hcs,
      parseUnsigned_durText false ps hne h hl (by omega) (fun _ => hv)]
    rfl
  · exact parseUnsigned_durText false ps hne h hl (by omega) (fun _ => hv)
  · exact parseUnsigned_durText true ps hne h hl (by omega) (fun _ => hv)

example : durText exampleParts = str! "1h30m" ∧ durTotal exampleParts = 90 * 60 * 10 ^ 9 ∧
    (∀ p ∈ exampleParts, p.Ok) ∧ ∀ p ∈ exampleParts, p.after.length ≤ 18 :=
  ⟨by decide, by decide, exampleParts_ok, by decide⟩

theorem components_some (n d : Nat) (s : Str) {r : Nat} (hd : d ≤ 2 ^ 63)
    (h : components n d s = some r) :
    ∃ ps : List DurPart, (∀ p ∈ ps, p.Ok) ∧ s = durText ps ∧ r ≤ 2 ^ 63 ∧
      ((∀ p ∈ ps, p.after.length ≤ 18) → r % 2 ^ 64 = (d + durTotal ps) % 2 ^ 64) := by
  induction n generalizing d s with
  | zero =>
    cases s with
    | nil =>
      simp only [components, Option.some.injEq] at h
      exact ⟨[], by simp, rfl, by omega, by simp [durTotal, h]⟩
    | cons a b => exact absurd h (by simp [components])
  | succ n ih =>
    cases s with
    | nil =>
      simp only [components, Option.some.injEq] at h
      exact ⟨[], by simp, rfl, by omega, by simp [durTotal, h]⟩
    | cons a b =>
      rw [components] at h
      cases hc : component (a :: b) with
      | none => rw [hc] at h; exact absurd h (by simp)
      | some q =>
        obtain ⟨v, rest⟩ := q
        rw [hc] at h
        simp only at h
        by_cases hle : (d + v) % 2 ^ 64 > 2 ^ 63
        · rw [if_pos hle] at h; exact absurd h (by simp)
        rw [if_neg hle] at h
        obtain ⟨ps, h1, h2, h3, h4⟩ := ih _ rest (by omega) h
        obtain ⟨whole, frac, u, unit, g1, g2, g3, g4, g5, g6, _, g8, _, g10⟩ := component_some _ hc
        refine ⟨⟨whole, frac, u, unit⟩ :: ps, ?_, ?_, h3, ?_⟩
        · intro p hp
          rcases List.mem_cons.1 hp with rfl | hp
          · exact ⟨(onlyDigits_iff _).2 g1, (onlyDigits_iff _).2 (by rw [DurPart.after_eq]; exact g2),
              by rw [DurPart.after_eq]; exact g3, (unitNs_iff _ _).2 g6⟩
          · exact h1 p hp
        · rw [durText_cons, DurPart.text_eq, ← h2]
          exact g8
        · intro hl
          rw [h4 (fun p hp => hl p (List.mem_cons_of_mem _ hp)), durTotal_cons, DurPart.value_eq,
            ← g10 (by have := hl _ (List.mem_cons_self ..); rwa [DurPart.after_eq] at this)]
          omega

/-- **C65** No other text is a duration: besides `0`, only numbers with units are accepted, and the value
is their sum as far as 64 bits can tell. -/
theorem C65_nothing_else (s : Str) (v : Int) (h : parse s = some v) :
    ∃ (sign : Str) (rest : Str), s = sign ++ rest ∧
      (sign = [] ∨ sign = str! "+" ∨ sign = str! "-") ∧
      ((rest = str! "0" ∧ v = 0) ∨
        ∃ ps : List DurPart, ps ≠ [] ∧ (∀ p ∈ ps, p.Ok) ∧ rest = durText ps ∧
          -(2 ^ 63) ≤ v ∧ v < 2 ^ 63 ∧ (sign = str! "-" → v ≤ 0) ∧ (sign ≠ str! "-" → 0 ≤ v) ∧
          ((∀ p ∈ ps, p.after.length ≤ 18) → (v.natAbs : Int) % 2 ^ 64 = durTotal ps % 2 ^ 64)) := by
  have key : ∀ neg rest, parseUnsigned neg rest = some v →
      ((rest = str! "0" ∧ v = 0) ∨
        ∃ ps : List DurPart, ps ≠ [] ∧ (∀ p ∈ ps, p.Ok) ∧ rest = durText ps ∧
          -(2 ^ 63) ≤ v ∧ v < 2 ^ 63 ∧ (neg = true → v ≤ 0) ∧ (neg ≠ true → 0 ≤ v) ∧
          ((∀ p ∈ ps, p.after.length ≤ 18) → (v.natAbs : Int) % 2 ^ 64 = durTotal ps % 2 ^ 64)) := by
    intro neg rest h
    unfold parseUnsigned at h
    split at h
    · rename_i h0
      exact Or.inl ⟨h0, by simpa using h.symm⟩
    split at h
    · exact absurd h (by simp)
    rename_i hne
    cases hc : components (List.length rest) 0 rest with
    | none => rw [hc] at h; exact absurd h (by simp)
    | some d =>
      rw [hc] at h
      simp only at h
      obtain ⟨ps, h1, h2, h3, h4⟩ := components_some _ 0 rest (by omega) hc
      refine Or.inr ⟨ps, ?_, h1, h2, ?_⟩
      · intro h0; subst h0; exact hne h2
      · cases neg with
        | true =>
          rw [if_pos rfl, Option.some.injEq] at h
          refine ⟨by omega, by omega, by omega, by simp, fun hl => ?_⟩
          have := h4 hl
          omega
        | false =>
          rw [if_neg (by simp)] at h
          split at h
          · exact absurd h (by simp)
          rw [Option.some.injEq] at h
          refine ⟨by omega, by omega, by simp, by omega, fun hl => ?_⟩
          have := h4 hl
          omega
  unfold parse at h
  split at h
  · rename_i s'
    refine ⟨str! "-", s', rfl, by simp, ?_⟩
    simpa using key true s' h
  · rename_i s'
    refine ⟨str! "+", s', rfl, by simp, ?_⟩
    simpa using key false s' h
  · refine ⟨[], s, rfl, by simp, ?_⟩
    simpa using key false s h

example : parse (str! "-1.5h") = some (-(90 * 60 * 10 ^ 9)) ∧ parse (str! "5 min") = none ∧
    parse (str! "1d") = none := by decide +kernel

/-- **C65** "As far as 64 bits can tell" is needed: two halves of the whole range add up to nothing. -/
theorem C65_sum_wraps_false :
    ¬ ∀ (ps : List DurPart) (v : Int), ps ≠ [] → (∀ p ∈ ps, p.Ok) →
      (∀ p ∈ ps, p.after.length ≤ 18) → parse (durText ps) = some v → v = durTotal ps := by
  intro h
  let p : DurPart := ⟨str! "9223372036854775808", none, str! "ns", 1⟩
  have hp : p.Ok := ⟨by unfold OnlyDigits; decide, by unfold OnlyDigits; decide, by decide, .ns⟩
  have := h [p, p] 0 (by simp) (by simp [hp]) (by decide) (by decide +kernel)
  exact absurd this (by decide +kernel)

theorem atoiDigits_eq {s : Str} (hne : s ≠ []) (h : OnlyDigits s) :
    atoiDigits s = some (decimalValue s) := by
  unfold atoiDigits
  rw [if_pos ⟨hne, (onlyDigits_iff s).1 h⟩, decimalValue_eq]
  rfl

theorem atoi_first {s : Str} (h : OnlyDigits s) :
    atoi s = match atoiDigits s with
      | some v => if v < 2 ^ 63 then some (v : Int) else none
      | none => none := by
  unfold atoi
  split
  · rename_i s'
    exact absurd (h '-' (by simp)) (by decide)
  · rename_i s'
    exact absurd (h '+' (by simp)) (by decide)
  · rfl

theorem wrap64_of {v : Int} (h1 : -(2 ^ 63) ≤ v) (h2 : v < 2 ^ 63) : wrap64 v = v := by
  unfold wrap64
  rw [Int.emod_eq_of_lt (by omega) (by omega)]
  omega

/-- **C65** A number without a unit is minutes, with or without a sign, as long as it fits into 292
years. -/
theorem C65_minutes (s : Str) (hne : s ≠ []) (h : OnlyDigits s)
    (hv : decimalValue s * (60 * 10 ^ 9) < 2 ^ 63) :
    unmarshal s = some (decimalValue s * (60 * 10 ^ 9) : Int) ∧
    unmarshal ('+' :: s) = some (decimalValue s * (60 * 10 ^ 9) : Int) ∧
    unmarshal ('-' :: s) = some (-(decimalValue s * (60 * 10 ^ 9)) : Int) := by
  have ha := atoiDigits_eq hne h
  refine ⟨?_, ?_, ?_⟩
  · unfold unmarshal
    rw [atoi_first h, ha]
    simp only
    rw [if_pos (by omega)]
    simp only
    rw [wrap64_of (by omega) (by omega)]
    rfl
  · unfold unmarshal
    rw [atoi, ha]
    simp only
    rw [if_pos (by omega)]
    simp only
    rw [wrap64_of (by omega) (by omega)]
    rfl
  · unfold unmarshal
    rw [atoi, ha]
    simp only
    rw [if_pos (by omega)]
    simp only
    rw [wrap64_of (by omega) (by omega)]
    congr 1
    omega

example : OnlyDigits (str! "240") ∧ decimalValue (str! "240") * (60 * 10 ^ 9) < 2 ^ 63 ∧
    unmarshal (str! "240") = some (4 * 60 * 60 * 10 ^ 9) :=
  ⟨by unfold OnlyDigits; decide, by decide, by decide +kernel⟩

/-- A number has no other reading than as minutes. -/
theorem parse_digits_none {sign s : Str} (hsign : sign = [] ∨ sign = str! "+" ∨ sign = str! "-") (h : OnlyDigits s)
    (hv : decimalValue s ≠ 0) : parse (sign ++ s) = none := by
  cases hp : parse (sign ++ s) with
  | none => rfl
  | some v =>
    exfalso
    have hall : ∀ c ∈ sign ++ s, c ∈ str! "0123456789" ∨ c = '+' ∨ c = '-' := by
      intro c hc
      rcases List.mem_append.1 hc with hc | hc
      · right
        rcases hsign with rfl | rfl | rfl <;> simp at hc <;> simp [hc]
      · exact .inl (h c hc)
    obtain ⟨sign', rest, he, hs', (⟨rfl, -⟩ | ⟨ps, hne, hok, rfl, -⟩)⟩ := C65_nothing_else _ _ hp
    · have : s = str! "0" := by
        have hzero : ∀ a ∈ s, a ≠ '+' ∧ a ≠ '-' := by
          intro a ha
          have := h a ha
          constructor <;> (intro e; subst e; exact absurd this (by decide))
        rcases hsign with rfl | rfl | rfl <;> rcases hs' with rfl | rfl | rfl <;> simp at he
        all_goals first
          | exact he
          | (subst he; exact absurd rfl (hzero '+' (List.mem_cons_self ..)).1)
          | (subst he; exact absurd rfl (hzero '-' (List.mem_cons_self ..)).2)
      subst this
      exact hv (by decide)
    · cases ps with
      | nil => exact hne rfl
      | cons p ps =>
        have hu := (hok p (by simp)).unit
        have hmem : ∀ c ∈ p.unit, c ∈ sign ++ s := by
          intro c hc
          rw [he]
          simp [durText, DurPart.text, hc]
        have hbad : ∃ c ∈ p.unit, ¬ (c ∈ str! "0123456789" ∨ c = '+' ∨ c = '-') := by
          generalize p.unit = u at hu
          generalize p.ns = n at hu
          cases hu <;> decide
        obtain ⟨c, hc, hb⟩ := hbad
        exact hb (hall c (hmem c hc))

/-- **C65** Exactly the numbers that fit into 64 bits are taken; the duration is their number of minutes as far as 64
bits can tell. -/
theorem C65_numbers (s : Str) (hne : s ≠ []) (h : OnlyDigits s) :
    (decimalValue s < 2 ^ 63 → ∃ v : Int, unmarshal s = some v ∧ unmarshal ('+' :: s) = some v ∧
      -(2 ^ 63) ≤ v ∧ v < 2 ^ 63 ∧ (2 ^ 64 : Int) ∣ v - decimalValue s * (60 * 10 ^ 9)) ∧
    (2 ^ 63 ≤ decimalValue s → unmarshal s = none ∧ unmarshal ('+' :: s) = none) ∧
    (decimalValue s ≤ 2 ^ 63 → ∃ v : Int, unmarshal ('-' :: s) = some v ∧
      -(2 ^ 63) ≤ v ∧ v < 2 ^ 63 ∧ (2 ^ 64 : Int) ∣ v + decimalValue s * (60 * 10 ^ 9)) ∧
    (2 ^ 63 < decimalValue s → unmarshal ('-' :: s) = none) := by
  have ha := atoiDigits_eq hne h
  refine ⟨fun hv => ⟨wrap64 (decimalValue s * 60000000000), ?_, ?_, ?_, ?_, ?_⟩, fun hv => ⟨?_, ?_⟩,
    fun hv => ⟨wrap64 (-(decimalValue s : Int) * 60000000000), ?_, ?_, ?_, ?_⟩, fun hv => ?_⟩
  · unfold unmarshal
    rw [atoi_first h, ha]
    simp only
    rw [if_pos (by omega)]
  · unfold unmarshal
    rw [atoi, ha]
    simp only
    rw [if_pos (by omega)]
  · unfold wrap64; omega
  · unfold wrap64; omega
  · unfold wrap64; omega
  · unfold unmarshal
    rw [atoi_first h, ha]
    simp only
    rw [if_neg (by omega)]
    exact parse_digits_none (.inl rfl) h (by omega)
  · unfold unmarshal
    rw [atoi, ha]
    simp only
    rw [if_neg (by omega)]
    exact parse_digits_none (sign := str! "+") (.inr (.inl rfl)) h (by omega)
  · unfold unmarshal
    rw [atoi, ha]
    simp only
    rw [if_pos (by omega)]
  · unfold wrap64; omega
  · unfold wrap64; omega
  · unfold wrap64; omega
  · unfold unmarshal
    rw [atoi, ha]
    simp only
    rw [if_neg (by omega)]
    exact parse_digits_none (sign := str! "-") (.inr (.inr rfl)) h (by omega)

example : unmarshal (str! "9223372036854775807") = some (-60000000000) ∧ unmarshal (str! "9223372036854775808") = none ∧
    unmarshal (str! "-9223372036854775808") = some 0 := by decide +kernel

/-- **C65** A larger number is not refused but becomes another duration, here a negative one. -/
theorem C65_minutes_false :
    ¬ ∀ s : Str, s ≠ [] → OnlyDigits s →
      unmarshal s = none ∨ unmarshal s = some (decimalValue s * (60 * 10 ^ 9) : Int) := by
  intro h
  have := h (str! "153722868") (by simp) (by unfold OnlyDigits; decide)
  exact absurd this (by decide +kernel)

example : ∃ v : Int, unmarshal (str! "153722868") = some v ∧ v < 0 :=
  ⟨-9223371993709551616, by decide +kernel, by decide⟩

theorem atoi_unit {s : Str} (c : Char) (hc : c ∈ s) (hu : isUnitChar c = true) (h1 : c ≠ '+')
    (h2 : c ≠ '-') : atoi s = none := by
  have hd : ∀ t : Str, c ∈ t → atoiDigits t = none := by
    intro t ht
    unfold atoiDigits
    rw [if_neg]
    intro hall
    have := List.all_eq_true.1 hall.2 c ht
    rw [((isUnitChar_iff c).1 hu).2] at this
    exact absurd this (by simp)
  unfold atoi
  split
  · rename_i s'
    rw [hd s' (by rcases List.mem_cons.1 hc with h | h; exact absurd h h2; exact h)]
  · rename_i s'
    rw [hd s' (by rcases List.mem_cons.1 hc with h | h; exact absurd h h1; exact h)]
  · rw [hd s hc]

theorem durText_unitChar (ps : List DurPart) (hne : ps ≠ []) (h : ∀ p ∈ ps, p.Ok) :
    ∃ c ∈ durText ps, isUnitChar c = true ∧ c ≠ '+' ∧ c ≠ '-' := by
  cases ps with
  | nil => exact absurd rfl hne
  | cons p ps =>
    have hu := (h p (by simp)).unit
    have key : ∀ u n, UnitNs u n → ∃ c ∈ u, isUnitChar c = true ∧ c ≠ '+' ∧ c ≠ '-' := by
      intro u n hu
      cases hu <;> decide
    have := key _ _ hu
    obtain ⟨c, hc, hc'⟩ := this
    refine ⟨c, ?_, hc'⟩
    rw [durText_cons]
    unfold DurPart.text
    simp [hc]

/-- **C65** In the configuration a duration with units is their sum as well. -/
theorem C65_config_units (ps : List DurPart) (hne : ps ≠ []) (h : ∀ p ∈ ps, p.Ok)
    (hl : ∀ p ∈ ps, p.after.length ≤ 18) (hv : durTotal ps < 2 ^ 63) :
    unmarshal (durText ps) = some (durTotal ps : Int) ∧
    unmarshal ('+' :: durText ps) = some (durTotal ps : Int) ∧
    unmarshal ('-' :: durText ps) = some (-(durTotal ps : Int)) := by
  obtain ⟨c, hc, h1, h2, h3⟩ := durText_unitChar ps hne h
  obtain ⟨g1, g2, g3⟩ := C65_sum ps hne h hl hv
  refine ⟨?_, ?_, ?_⟩
  · unfold unmarshal; rw [atoi_unit c hc h1 h2 h3]; exact g1
  · unfold unmarshal; rw [atoi_unit c (List.mem_cons_of_mem _ hc) h1 h2 h3]; exact g2
  · unfold unmarshal; rw [atoi_unit c (List.mem_cons_of_mem _ hc) h1 h2 h3]; exact g3

example : unmarshal (str! "1h30m") = some (90 * 60 * 10 ^ 9) := by decide +kernel

theorem leadingInt_cases (x : Nat) (ds rest : Str) (hd : ds.all isDigit = true) (hr : NoDigit rest) :
    leadingInt x (ds ++ rest) = none ∨ ∃ v, leadingInt x (ds ++ rest) = some (v, rest) := by
  induction ds generalizing x with
  | nil =>
    cases rest with
    | nil => exact Or.inr ⟨x, rfl⟩
    | cons c cs =>
      have hr' : isDigit c = false := hr
      exact Or.inr ⟨x, by simp [leadingInt, hr']⟩
  | cons c cs ih =>
    rw [List.all_cons, Bool.and_eq_true] at hd
    rw [List.cons_append, leadingInt, if_pos hd.1]
    split
    · exact Or.inl rfl
    · split
      · exact Or.inl rfl
      · exact ih _ hd.2

theorem parseUnsigned_min (neg : Bool) (s : Str) (h : OnlyDigits s) :
    parseUnsigned neg (s ++ str! " min") = none := by
  have hd := (onlyDigits_iff s).1 h
  have hcomp : component (s ++ str! " min") = none := by
    cases hs : s ++ str! " min" with
    | nil => simp at hs
    | cons c cs =>
      unfold component
      simp only
      split
      · rcases leadingInt_cases 0 s (str! " min") hd (by decide : isDigit ' ' = false) with hl | ⟨v, hl⟩
        · rw [hs] at hl; rw [hl]
        · rw [hs] at hl
          rw [hl]
          simp only
          rw [show fraction (str! " min") = (0, 1, false, str! " min") from by decide]
          simp only
          split
          · rfl
          · rw [show (str! " min" : Str).takeWhile isUnitChar = str! " min" from by decide]
            rw [if_neg (by simp), show unitOf (str! " min") = none from by decide]
      · rfl
  unfold parseUnsigned
  rw [if_neg, if_neg (by simp)]
  · cases hs : s ++ str! " min" with
    | nil => simp at hs
    | cons c cs =>
      rw [hs] at hcomp
      rw [List.length_cons, components]
      simp only [hcomp]
  · intro he
    have := congrArg List.length he
    simp at this

/-- **C65** The warning for a number without a unit recommends a notation (`5 min`) that is refused, for
every number. -/
theorem C65_recommended_refused (sign s : Str) (hsign : sign = [] ∨ sign = str! "+" ∨ sign = str! "-")
    (h : OnlyDigits s) : unmarshal (recommended (sign ++ s)) = none := by
  unfold unmarshal recommended
  have hm : ' ' ∈ sign ++ s ++ str! " min" := by simp
  rw [atoi_unit ' ' hm (by decide) (by decide) (by decide)]
  simp only
  rcases hsign with rfl | rfl | rfl
  · rw [List.nil_append]
    cases hs : s ++ str! " min" with
    | nil => simp at hs
    | cons c cs =>
      have hc : c ≠ '-' ∧ c ≠ '+' := by
        cases s with
        | nil =>
          rw [List.nil_append, List.cons.injEq] at hs
          rw [← hs.1]; decide
        | cons a b =>
          rw [List.cons_append, List.cons.injEq] at hs
          have ha := h a (by simp)
          rw [← hs.1]
          constructor <;> (intro he; subst he; exact absurd ha (by decide))
      rw [parse_first hc.1 hc.2, ← hs]
      exact parseUnsigned_min false s h
  · exact parseUnsigned_min false s h
  · exact parseUnsigned_min true s h

example : unmarshal (str! "5") = some (5 * 60 * 10 ^ 9) ∧ recommended (str! "5") = str! "5 min" ∧
    unmarshal (str! "5 min") = none := by decide +kernel

/-- **C65** So a number with a unit is not what the warning says: not every recommended notation means
the minutes it replaces. -/
theorem C65_recommended_false :
    ¬ ∀ s : Str, s ≠ [] → OnlyDigits s → unmarshal (recommended s) = unmarshal s := by
  intro h
  exact absurd (h (str! "5") (by simp) (by unfold OnlyDigits; decide)) (by decide +kernel)

/-! ### C66: the command line's `blocking disable` -/

/-- The durations there are: 64 bit numbers of nanoseconds. -/
def IsDuration (d : Int) : Prop := -(2 ^ 63) ≤ d ∧ d < 2 ^ 63

theorem show_single (v prec : Nat) (unit : Str) (hprec : prec ≤ 18) (ns : Nat) (hns : ns = 10 ^ prec)
    (hu : UnitNs unit ns) :
    ∃ p : DurPart, p.Ok ∧ p.after.length ≤ 18 ∧
      fmtInt (fmtFrac v prec unit).2 (fmtFrac v prec unit).1 = p.text ∧ p.value = v := by
  obtain ⟨frac, h1, h2, h3, h4⟩ := fmtFrac_spec v prec unit
  obtain ⟨ds, g1, g2, g3, g4⟩ := fmtInt_spec (v / 10 ^ prec) (fracText frac ++ unit)
  refine ⟨⟨ds, frac, unit, ns⟩, ⟨(onlyDigits_iff _).2 g1, (onlyDigits_iff _).2
    (by rw [DurPart.after_eq]; exact h1), Or.inl g4, hu⟩, by rw [DurPart.after_eq]; simp only; omega,
    ?_, ?_⟩
  · rw [h3, g2]
    have := DurPart.text_eq ⟨ds, frac, unit, ns⟩ []
    simp only [List.append_nil] at this
    rw [this]
  · rw [DurPart.value_eq]
    unfold partValue
    simp only
    rw [g3, hns, h4, Nat.div_add_mod']

theorem show_whole (v : Nat) (unit : Str) (ns : Nat) (hu : UnitNs unit ns) (acc : Str) :
    ∃ p : DurPart, p.Ok ∧ p.after.length ≤ 18 ∧ fmtInt v (unit ++ acc) = p.text ++ acc ∧
      p.value = v * ns := by
  obtain ⟨ds, g1, g2, g3, g4⟩ := fmtInt_spec v (unit ++ acc)
  refine ⟨⟨ds, none, unit, ns⟩, ⟨(onlyDigits_iff _).2 g1, by simp [DurPart.after, OnlyDigits],
    Or.inl g4, hu⟩, by simp [DurPart.after], ?_, ?_⟩
  · rw [g2, DurPart.text_eq]; rfl
  · rw [DurPart.value_eq]
    simp only [partValue, fracDigits, g3]
    simp [valFrom]

theorem show_seconds (u sec : Nat) (ns : Nat) (hns : ns = 10 ^ 9) (hu : UnitNs (str! "s") ns) :
    ∃ p : DurPart, p.Ok ∧ p.after.length ≤ 18 ∧
      (∀ m, m = sec → fmtInt m (fmtFrac u 9 (str! "s")).1 = p.text) ∧
      p.value = sec * ns + u % ns := by
  obtain ⟨frac, h1, h2, h3, h4⟩ := fmtFrac_spec u 9 (str! "s")
  obtain ⟨ds, g1, g2, g3, g4⟩ := fmtInt_spec sec (fracText frac ++ str! "s")
  refine ⟨⟨ds, frac, str! "s", ns⟩, ⟨(onlyDigits_iff _).2 g1, (onlyDigits_iff _).2
    (by rw [DurPart.after_eq]; exact h1), Or.inl g4, hu⟩, by rw [DurPart.after_eq]; simp only; omega,
    ?_, ?_⟩
  · intro m hm
    rw [h3, hm, g2]
    have := DurPart.text_eq ⟨ds, frac, str! "s", ns⟩ []
    simp only [List.append_nil] at this
    rw [this]
  · rw [DurPart.value_eq]
    unfold partValue
    simp only
    rw [g3, hns, h4]

theorem show_one (p : DurPart) (h1 : p.Ok) (h2 : p.after.length ≤ 18) (v : Nat) (hv : p.value = v)
    (t : Str) (ht : t = p.text) :
    ∃ ps : List DurPart, ps ≠ [] ∧ (∀ p ∈ ps, p.Ok) ∧ (∀ p ∈ ps, p.after.length ≤ 18) ∧
      t = durText ps ∧ durTotal ps = v :=
  ⟨[p], by simp, by simp [h1], by simp [h2], by simp [durText, ht], by simp [durTotal, hv]⟩

theorem show_long (u : Nat) (ns : Nat) (hns : ns = 10 ^ 9) (hu : UnitNs (str! "s") ns)
    (mns : Nat) (hm : UnitNs (str! "m") mns) (hmns : mns = 60 * ns)
    (hns' : Nat) (hh : UnitNs (str! "h") hns') (hhns : hns' = 60 * mns)
    (txt : Str) (secs : Nat) (hfrac : fmtFrac u 9 (str! "s") = (txt, secs)) (hsecs : secs = u / ns) :
    ∃ ps : List DurPart, ps ≠ [] ∧ (∀ p ∈ ps, p.Ok) ∧ (∀ p ∈ ps, p.after.length ≤ 18) ∧
      (if secs / 60 > 0 then
        if secs / 60 / 60 > 0 then
          fmtInt (secs / 60 / 60) ('h' :: fmtInt (secs / 60 % 60) ('m' :: fmtInt (secs % 60) txt))
        else fmtInt (secs / 60 % 60) ('m' :: fmtInt (secs % 60) txt)
      else fmtInt (secs % 60) txt) = durText ps ∧ durTotal ps = u := by
  obtain ⟨ps, p1, p2, p3, p4⟩ := show_seconds u (secs % 60) ns hns hu
  have hpt := p3 _ rfl
  rw [hfrac] at hpt
  simp only at hpt
  have hdm : ns * secs + u % ns = u := by rw [hsecs]; exact Nat.div_add_mod u ns
  have hcomm : ∀ a, a * ns = ns * a := fun a => Nat.mul_comm a ns
  have key : ∀ a b c : Nat, secs = a * 60 * 60 + b * 60 + c →
      a * (60 * (60 * ns)) + (b * (60 * ns) + (c * ns + u % ns)) = u := by
    intro a b c he
    have : ns * secs = a * (60 * (60 * ns)) + (b * (60 * ns) + c * ns) := by
      rw [he, Nat.mul_add, Nat.mul_add]
      have e1 : ns * (a * 60 * 60) = a * (60 * (60 * ns)) := by
        rw [Nat.mul_comm ns, Nat.mul_assoc, Nat.mul_assoc]
      have e2 : ns * (b * 60) = b * (60 * ns) := by
        rw [Nat.mul_comm ns, Nat.mul_assoc]
      rw [e1, e2, Nat.mul_comm ns c]
      omega
    omega
  rw [hpt]
  by_cases hm0 : secs / 60 > 0
  · rw [if_pos hm0]
    obtain ⟨pm, m1, m2, m3, m4⟩ := show_whole (secs / 60 % 60) (str! "m") _ hm ps.text
    rw [show 'm' :: ps.text = str! "m" ++ ps.text from rfl, m3]
    by_cases hh0 : secs / 60 / 60 > 0
    · rw [if_pos hh0]
      obtain ⟨ph, k1, k2, k3, k4⟩ := show_whole (secs / 60 / 60) (str! "h") _ hh (pm.text ++ ps.text)
      rw [show 'h' :: (pm.text ++ ps.text) = str! "h" ++ (pm.text ++ ps.text) from rfl, k3]
      refine ⟨[ph, pm, ps], by simp, by simp [p1, m1, k1], by simp [p2, m2, k2], by simp [durText], ?_⟩
      simp only [durTotal, List.map_cons, List.map_nil, List.sum_cons, List.sum_nil, p4, m4, k4]
      rw [hhns, hmns, Nat.add_zero]
      exact key _ _ _ (by omega)
    · rw [if_neg hh0]
      refine ⟨[pm, ps], by simp, by simp [p1, m1], by simp [p2, m2], by simp [durText], ?_⟩
      simp only [durTotal, List.map_cons, List.map_nil, List.sum_cons, List.sum_nil, p4, m4]
      rw [hmns, Nat.add_zero]
      have := key 0 (secs / 60 % 60) (secs % 60) (by omega)
      rw [Nat.zero_mul, Nat.zero_add] at this
      exact this
  · rw [if_neg hm0]
    refine show_one ps p1 p2 u ?_ _ rfl
    rw [p4]
    have := key 0 0 (secs % 60) (by omega)
    rw [Nat.zero_mul, Nat.zero_mul, Nat.zero_add, Nat.zero_add] at this
    exact this

theorem showUnsigned_parts (u : Nat) : ∃ ps : List DurPart, ps ≠ [] ∧ (∀ p ∈ ps, p.Ok) ∧
    (∀ p ∈ ps, p.after.length ≤ 18) ∧ showUnsigned u = durText ps ∧ durTotal ps = u := by
  unfold showUnsigned
  by_cases h : u < 1000000000
  · rw [if_pos h]
    by_cases h0 : u = 0
    · rw [if_pos h0]
      refine show_one ⟨str! "0", none, str! "s", 10 ^ 9⟩
        ⟨by unfold OnlyDigits; decide, by unfold OnlyDigits; decide, by decide, .sec⟩ (by decide) _
        (by rw [h0]; decide) _ rfl
    rw [if_neg h0]
    by_cases h1 : u < 1000
    · rw [if_pos h1]
      obtain ⟨p, g1, g2, g3, g4⟩ := show_single u 0 (str! "ns") (by omega) _ rfl .ns
      exact show_one p g1 g2 u g4 _ g3
    rw [if_neg h1]
    by_cases h2 : u < 1000000
    · rw [if_pos h2]
      obtain ⟨p, g1, g2, g3, g4⟩ := show_single u 3 (microSign ++ str! "s") (by omega) _ rfl .micro
      exact show_one p g1 g2 u g4 _ g3
    rw [if_neg h2]
    obtain ⟨p, g1, g2, g3, g4⟩ := show_single u 6 (str! "ms") (by omega) _ rfl .ms
    exact show_one p g1 g2 u g4 _ g3
  · rw [if_neg h]
    obtain ⟨frac, _, _, h3, _⟩ := fmtFrac_spec u 9 (str! "s")
    obtain ⟨ps, h1, h2, h4, h5, h6⟩ := show_long u _ rfl .sec _ .min rfl _ .hour (by decide) _ _ h3 rfl
    refine ⟨ps, h1, h2, h4, ?_, h6⟩
    rw [← h5, h3]

/-- **C66** Every duration is read back from its text. -/
theorem C66_duration_survives (d : Int) (hd : IsDuration d) : parse («show» d) = some d := by
  obtain ⟨ps, h1, h2, h3, h4, h5⟩ := showUnsigned_parts d.natAbs
  unfold IsDuration at hd
  unfold «show»
  rw [h4]
  by_cases hneg : d < 0
  · rw [if_pos hneg]
    show parseUnsigned true _ = _
    rw [parseUnsigned_durText true ps h1 h2 h3 (by omega) (by simp), if_pos rfl, h5]
    congr 1
    omega
  · rw [if_neg hneg, (C65_sum ps h1 h2 h3 (by omega)).1, h5]
    congr 1
    omega

example : IsDuration (-5400000000001) ∧ «show» (-5400000000001) = str! "-1h30m0.000000001s" ∧
    «show» 1500000 = str! "1.5ms" := ⟨by unfold IsDuration; omega, by decide +kernel, by decide +kernel⟩

theorem splitChar_comma_free (sep : Char) (p : Str) (h : sep ∉ p) : splitChar sep p = [p] := by
  induction p with
  | nil => rfl
  | cons c cs ih =>
    simp only [List.mem_cons, not_or] at h
    rw [splitChar, if_neg (fun he => h.1 he.symm), ih h.2]

theorem splitChar_sep (sep : Char) (p rest : Str) (h : sep ∉ p) :
    splitChar sep (p ++ sep :: rest) = p :: splitChar sep rest := by
  induction p with
  | nil => simp [splitChar]
  | cons c cs ih =>
    simp only [List.mem_cons, not_or] at h
    rw [List.cons_append, splitChar, if_neg (fun he => h.1 he.symm), ih h.2]

theorem splitChar_joinChar (sep : Char) (ps : List Str) (hne : ps ≠ []) (h : ∀ p ∈ ps, sep ∉ p) :
    splitChar sep (joinChar sep ps) = ps := by
  induction ps with
  | nil => exact absurd rfl hne
  | cons p ps ih =>
    cases ps with
    | nil => exact splitChar_comma_free sep p (h p (by simp))
    | cons q qs =>
      rw [joinChar, splitChar_sep sep p _ (h p (by simp)), ih (by simp)
        (fun r hr => h r (List.mem_cons_of_mem _ hr))]

/-- **C66** What is disabled by `blocking disable` is what was given on the command line, for every
duration and every list of groups whose names are not empty and contain no comma. -/
theorem C66_disable_partial (d : Int) (hd : IsDuration d) (groups : List Str)
    (h : ∀ g ∈ groups, g ≠ [] ∧ ',' ∉ g) :
    apiDisable (some (cliDisable d groups).1) (some (cliDisable d groups).2) = .disable d groups := by
  unfold apiDisable cliDisable
  simp only [apiDuration, C66_duration_survives d hd]
  cases groups with
  | nil => rfl
  | cons g gs =>
    rw [if_pos, splitChar_joinChar ',' (g :: gs) (by simp) (fun p hp => (h p hp).2)]
    have hg := List.length_pos_iff.2 (h g (by simp)).1
    cases gs with
    | nil => exact hg
    | cons a b =>
      rw [joinChar, List.length_append]
      omega

example : IsDuration (30 * 60 * 10 ^ 9) ∧ (∀ g ∈ [str! "ads", str! "kids"], g ≠ [] ∧ ',' ∉ g) ∧
    cliDisable (30 * 60 * 10 ^ 9) [str! "ads", str! "kids"] = (str! "30m0s", str! "ads,kids") :=
  ⟨by unfold IsDuration; omega, by decide, by decide +kernel⟩

/-- **C66** Not for every list of groups: a group whose name contains a comma is taken for several. -/
theorem C66_comma_false :
    ¬ ∀ (d : Int) (groups : List Str), IsDuration d → (∀ g ∈ groups, g ≠ []) →
      apiDisable (some (cliDisable d groups).1) (some (cliDisable d groups).2) = .disable d groups := by
  intro h
  exact absurd (h 0 [str! "ads,social"] (by unfold IsDuration; omega) (by decide)) (by decide +kernel)

/-- **C66** And a group with an empty name turns into all groups. -/
theorem C66_empty_name_false :
    ¬ ∀ (d : Int) (groups : List Str), IsDuration d → (∀ g ∈ groups, ',' ∉ g) →
      apiDisable (some (cliDisable d groups).1) (some (cliDisable d groups).2) = .disable d groups := by
  intro h
  exact absurd (h 0 [[]] (by unfold IsDuration; omega) (by decide)) (by decide +kernel)

example : apiDisable (some (cliDisable 0 [[]]).1) (some (cliDisable 0 [[]]).2) = .disable 0 [] := by
  decide +kernel

/-- **C66** The API refuses every duration it cannot read, without touching the blocking; and a missing
duration means until further notice, missing groups all groups. -/
theorem C66_api (duration groups : Option Str) :
    (apiDisable duration groups = .badRequest ↔ ∃ s, duration = some s ∧ parse s = none) ∧
    (∀ d gs, apiDisable duration groups = .disable d gs →
      (duration = none ∧ d = 0 ∨ ∃ s, duration = some s ∧ parse s = some d) ∧
      ((groups = none ∨ groups = some []) ∧ gs = [] ∨
        ∃ g, groups = some g ∧ g ≠ [] ∧ joinChar ',' gs = g ∧ ∀ x ∈ gs, ',' ∉ x)) := by
  constructor
  · unfold apiDisable
    cases duration with
    | none => cases groups <;> simp [apiDuration] <;> split <;> simp
    | some s =>
      cases hp : parse s with
      | none => simp [apiDuration, hp]
      | some d => cases groups <;> simp [apiDuration, hp] <;> split <;> simp
  · intro d gs h
    unfold apiDisable at h
    cases hdur : apiDuration duration with
    | none => rw [hdur] at h; exact absurd h (by simp)
    | some d' =>
      rw [hdur] at h
      simp only at h
      have hgs : d = d' ∧
          ((groups = none ∨ groups = some []) ∧ gs = [] ∨
        ∃ g, groups = some g ∧ g ≠ [] ∧ joinChar ',' gs = g ∧ ∀ x ∈ gs, ',' ∉ x) := by
        cases groups with
        | none =>
          simp only [ApiDisable.disable.injEq] at h
          simp [h]
        | some g =>
          simp only at h
          split at h
          · rename_i hg
            simp only [ApiDisable.disable.injEq] at h
            refine ⟨by simp [h.1], Or.inr ⟨g, rfl, List.length_pos_iff.1 hg, ?_, ?_⟩⟩
            · rw [← h.2]; exact joinChar_splitChar ',' g
            · rw [← h.2]; exact splitChar_no_sep ',' g
          · rename_i hg
            have hg0 : g = [] := List.length_eq_zero_iff.1 (by omega)
            simp only [ApiDisable.disable.injEq] at h
            exact ⟨by simp [h.1], Or.inl ⟨Or.inr (by rw [hg0]), h.2.symm⟩⟩
      refine ⟨?_, hgs.2⟩
      rw [hgs.1]
      cases duration with
      | none => simp only [apiDuration, Option.some.injEq] at hdur; exact Or.inl ⟨rfl, hdur.symm⟩
      | some s => exact Or.inr ⟨s, rfl, hdur⟩

example : apiDisable (some (str! "5 min")) none = .badRequest ∧
    apiDisable none (some (str! "ads,kids")) = .disable 0 [str! "ads", str! "kids"] := by
  decide +kernel

end Verif.Props
