/-
C33: reverse-lookup names.
-/
import Verif.Model.Arpa
import Verif.Spec.Reverse

namespace Verif.Props
open Arpa Spec

theorem arpaCut_append (p s : Str) : cutSuffix (p ++ s) s = some p := by
  unfold cutSuffix
  rw [if_pos (by simp)]
  simp

theorem arpaCut_some {s suf p : Str} (h : cutSuffix s suf = some p) : s = p ++ suf := by
  unfold cutSuffix at h
  split at h
  · rename_i hs
    obtain ⟨t, ht⟩ := List.isSuffixOf_iff_suffix.1 hs
    cases h
    rw [← ht]
    simp
  · cases h

theorem byte_dec : ∀ n < 256, parseUint 10 8 (Nat.toDigits 10 n) = some n ∧ '.' ∉ Nat.toDigits 10 n := by
  decide +kernel

theorem nibble_hex : ∀ n < 16, parseUint 16 8 [Nat.digitChar n] = some n ∧ Nat.digitChar n ≠ '.' := by
  decide +kernel

/-- **C33, IPv4.** The address is recovered from its reverse name, for every address. -/
theorem C33_round_trip_v4 (a : BitVec 32) : Arpa.parse (reverseName4 a) = some (.v4 a) := by
  unfold Arpa.parse reverseName4
  rw [arpaCut_append]
  simp only
  unfold parse4
  have h : ∀ i, a.toNat / 256 ^ i % 256 < 256 := fun i => Nat.mod_lt _ (by decide)
  rw [splitChar_joinChar (by simp) (by
    intro p hp
    obtain ⟨i, _, rfl⟩ := List.mem_map.1 hp
    exact (byte_dec _ (h i)).2)]
  simp only [List.map_cons, List.map_nil, List.length_cons, List.length_nil, List.reverse_cons, List.reverse_nil,
    List.nil_append, List.cons_append]
  simp only [bytes4, (byte_dec _ (h 0)).1, (byte_dec _ (h 1)).1, (byte_dec _ (h 2)).1, (byte_dec _ (h 3)).1]
  simp only [ne_eq, not_true_eq_false, if_false, Option.map_some, bytesValue, List.foldl_cons, List.foldl_nil]
  congr 2
  apply BitVec.eq_of_toNat_eq
  have := a.isLt
  simp only [BitVec.toNat_ofNat]
  omega

theorem or_nibbles (m l : Nat) (hm : m < 16) (hl : l < 16) : (m * 16 ||| l) % 256 = m * 16 + l := by
  have : ∀ m < 16, ∀ l < 16, (m * 16 ||| l) % 256 = m * 16 + l := by decide +kernel
  exact this m hm l hl

theorem foldl_bytes (bs : List Nat) (acc : Nat) :
    bs.foldl (fun acc b => acc * 256 + b) acc = acc * 256 ^ bs.length + bytesValue bs := by
  unfold bytesValue
  induction bs generalizing acc with
  | nil => simp
  | cons b bs ih =>
    simp only [List.foldl_cons, List.length_cons]
    rw [ih (acc * 256 + b), ih (0 * 256 + b), Nat.pow_succ]
    rw [Nat.zero_mul, Nat.zero_add, Nat.add_mul, Nat.mul_assoc, Nat.mul_comm 256]
    omega

theorem bytes6_nibbles (n m : Nat) :
    ∃ bs, bytes6 (((List.range (2 * m)).map (fun i => [Nat.digitChar (n / 16 ^ i % 16)])).reverse) = some bs ∧
      bs.length = m ∧ bytesValue bs = n % 256 ^ m := by
  induction m with
  | zero => exact ⟨[], rfl, rfl, by simp [bytesValue, Nat.mod_one]⟩
  | succ m ih =>
    obtain ⟨bs, h1, h2, h3⟩ := ih
    have hr : List.range (2 * (m + 1)) = List.range (2 * m) ++ [2 * m, 2 * m + 1] := by
      rw [show 2 * (m + 1) = 2 * m + 1 + 1 by omega, List.range_succ, List.range_succ]
      simp
    have hlt : ∀ i, n / 16 ^ i % 16 < 16 := fun i => Nat.mod_lt _ (by decide)
    refine ⟨(n / 16 ^ (2 * m + 1) % 16 * 16 ||| n / 16 ^ (2 * m) % 16) % 256 :: bs, ?_, by simp [h2], ?_⟩
    · rw [hr]
      simp only [List.map_append, List.map_cons, List.map_nil, List.reverse_append, List.reverse_cons, List.reverse_nil,
        List.nil_append, List.cons_append]
      rw [bytes6]
      simp only [(nibble_hex _ (hlt (2 * m))).1, (nibble_hex _ (hlt (2 * m + 1))).1, h1]
    · rw [or_nibbles _ _ (hlt _) (hlt _)]
      have := foldl_bytes bs (0 * 256 + (n / 16 ^ (2 * m + 1) % 16 * 16 + n / 16 ^ (2 * m) % 16))
      unfold bytesValue
      rw [List.foldl_cons, this, h3, h2]
      have e16 : 16 ^ (2 * m) = 256 ^ m := by rw [Nat.pow_mul]
      have e17 : 16 ^ (2 * m + 1) = 256 ^ m * 16 := by rw [Nat.pow_succ, e16]
      rw [e17, ← Nat.div_div_eq_div_mul, e16]
      have e : n / 256 ^ m / 16 % 16 * 16 + n / 256 ^ m % 16 = n / 256 ^ m % 256 := by omega
      rw [Nat.zero_mul, Nat.zero_add, e, Nat.pow_succ, Nat.mod_mul]
      rw [Nat.mul_comm (n / 256 ^ m % 256), Nat.add_comm]

theorem ofBits128_denotes (a : BitVec 128) : Denotes a (ofBits128 a.toNat) := by
  unfold ofBits128
  have hv : ∀ v : BitVec 32, (0xffff#96 ++ v).toNat = 0xffff * 2 ^ 32 + v.toNat := by
    intro v
    rw [BitVec.toNat_append, ← Nat.shiftLeft_add_eq_or_of_lt v.isLt, Nat.shiftLeft_eq, BitVec.toNat_ofNat]
  split
  · next h =>
    have e : a = 0xffff#96 ++ BitVec.ofNat 32 a.toNat := by
      apply BitVec.eq_of_toNat_eq
      rw [hv, BitVec.toNat_ofNat]
      omega
    have := Denotes.mapped (BitVec.ofNat 32 a.toNat)
    rw [← e] at this
    exact this
  · next h =>
    rw [BitVec.ofNat_toNat, BitVec.setWidth_eq]
    refine .plain a (fun v e => h ?_)
    rw [e, hv]
    have := v.isLt
    omega

/-- **C33, IPv6.** The address is recovered from its reverse name, for every 128-bit address. -/
theorem C33_round_trip_v6 (a : BitVec 128) : ∃ ip, Arpa.parse (reverseName6 a) = some ip ∧ Denotes a ip := by
  refine ⟨ofBits128 a.toNat, ?_, ofBits128_denotes a⟩
  have hno : cutSuffix (reverseName6 a) (str! ".in-addr.arpa.") = none := by
    unfold cutSuffix
    rw [if_neg]
    intro h
    obtain ⟨t, ht⟩ := List.isSuffixOf_iff_suffix.1 h
    have h2 := congrArg (fun s : Str => s.reverse.take 10) ht
    simp [reverseName6] at h2
  unfold Arpa.parse
  rw [hno]
  unfold reverseName6
  simp only [arpaCut_append]
  unfold parse6
  have h : ∀ i, a.toNat / 16 ^ i % 16 < 16 := fun i => Nat.mod_lt _ (by decide)
  rw [splitChar_joinChar (by simp) (by
    intro p hp
    obtain ⟨i, _, rfl⟩ := List.mem_map.1 hp
    simp only [List.mem_singleton]
    exact Ne.symm (nibble_hex _ (h i)).2)]
  obtain ⟨bs, h1, _, h3⟩ := bytes6_nibbles a.toNat 16
  simp only [show 2 * 16 = 32 from rfl] at h1
  have := a.isLt
  rw [Nat.mod_eq_of_lt (by omega)] at h3
  simp [h1, h3]

/-! What is accepted. -/

theorem digitsValue_append (base acc : Nat) (s t : Str) :
    digitsValue base acc (s ++ t) = (digitsValue base acc s).bind (fun v => digitsValue base v t) := by
  induction s generalizing acc with
  | nil => rfl
  | cons c s ih =>
    simp only [List.cons_append, digitsValue]
    cases digitVal c with
    | none => rfl
    | some d =>
      simp only
      split
      · exact ih _
      · rfl

theorem digitVal_dec {c : Char} {d : Nat} (h : digitVal c = some d) (hd : d < 10) : c = Nat.digitChar d := by
  unfold digitVal at h
  have e0 : '0'.toNat = 48 := rfl
  have e9 : '9'.toNat = 57 := rfl
  split at h
  · rename_i hc
    cases h
    have hn : c.toNat - 48 < 10 := by omega
    have key : ∀ n < 10, Nat.digitChar n = Char.ofNat (n + 48) := by decide
    rw [e0, key _ hn, Nat.sub_add_cancel (by omega)]
    exact (Char.ofNat_toNat c).symm
  · split at h
    · cases h; omega
    · split at h
      · cases h; omega
      · cases h

theorem toDigits_snoc (v d : Nat) (hd : d < 10) (hv : 0 < v) :
    Nat.toDigits 10 (v * 10 + d) = Nat.toDigits 10 v ++ [Nat.digitChar d] := by
  have := Nat.toDigits_append_toDigits (b := 10) (by decide) hv hd
  rw [Nat.toDigits_of_lt_base hd] at this
  rw [Nat.mul_comm]
  exact this.symm

theorem toDigits_of_value {s : Str} {v : Nat} (hne : s ≠ []) (hlead : s = ['0'] ∨ s.head? ≠ some '0')
    (h : digitsValue 10 0 s = some v) : s = Nat.toDigits 10 v := by
  rcases hlead with rfl | hlead
  · cases h; rfl
  · have key : ∀ (n : Nat) (s : Str) (v : Nat), s.length = n → s ≠ [] → s.head? ≠ some '0' → digitsValue 10 0 s = some v →
        s = Nat.toDigits 10 v ∧ 0 < v := by
      intro n
      induction n with
      | zero => intro s v hl hne; exact absurd (List.length_eq_zero_iff.1 hl) hne
      | succ n ih =>
        intro s v hl hne hlead h
        obtain ⟨p, c, rfl⟩ : ∃ p c, s = p ++ [c] := ⟨s.dropLast, s.getLast hne, (List.dropLast_concat_getLast hne).symm⟩
        rw [digitsValue_append] at h
        cases hp : digitsValue 10 0 p with
        | none => rw [hp] at h; cases h
        | some u =>
          rw [hp] at h
          simp only [Option.bind_some, digitsValue] at h
          cases hc : digitVal c with
          | none => rw [hc] at h; cases h
          | some d =>
            rw [hc] at h
            simp only at h
            split at h
            · rename_i hd
              cases h
              have hcc := digitVal_dec hc hd
              by_cases hpe : p = []
              · subst hpe
                cases hp
                refine ⟨?_, ?_⟩
                · simp [hcc, Nat.toDigits_of_lt_base hd]
                · rcases Nat.eq_zero_or_pos d with h0 | h0
                  · subst h0
                    exact absurd (by rw [hcc]; rfl) hlead
                  · omega
              · obtain ⟨h1, h2⟩ := ih p u (by simpa using hl) hpe (by
                  cases p with
                  | nil => exact absurd rfl hpe
                  | cons x xs => simpa using hlead) hp
                exact ⟨by rw [toDigits_snoc u d hd h2, ← h1, hcc], by omega⟩
            · cases h
    exact (key s.length s v rfl hne hlead h).1

theorem parseUint_dec {s : Str} {v : Nat} (hlead : s = ['0'] ∨ s.head? ≠ some '0') (h : parseUint 10 8 s = some v) :
    s = Nat.toDigits 10 v ∧ v < 256 := by
  unfold parseUint at h
  split at h
  · cases h
  · rename_i hne
    cases hd : digitsValue 10 0 s with
    | none => rw [hd] at h; cases h
    | some u =>
      rw [hd] at h
      simp only at h
      split at h
      · rename_i hlt
        cases h
        exact ⟨toDigits_of_value hne hlead hd, hlt⟩
      · cases h

/-- **C33, accepted IPv4 names.** If a name under in-addr.arpa without superfluous leading zeros is
accepted, it is the reverse name of the resulting address. -/
theorem C33_accepts_v4_partial (rev : Str) (ip : IP)
    (hzero : ∀ l ∈ splitChar '.' rev, l = ['0'] ∨ l.head? ≠ some '0')
    (h : Arpa.parse (rev ++ str! ".in-addr.arpa.") = some ip) :
    ∃ a, ip = .v4 a ∧ rev ++ str! ".in-addr.arpa." = reverseName4 a := by
  unfold Arpa.parse at h
  rw [arpaCut_append] at h
  simp only [parse4] at h
  split at h
  · cases h
  · rename_i hlen
    have hlen : (splitChar '.' rev).length = 4 := by simpa using hlen
    match hs : splitChar '.' rev, hlen with
    | [l0, l1, l2, l3], _ =>
      rw [hs] at h hzero
      simp only [List.reverse_cons, List.reverse_nil, List.nil_append, List.cons_append, bytes4] at h
      cases h3 : parseUint 10 8 l3 with
      | none => simp [h3] at h
      | some b3 =>
        cases h2 : parseUint 10 8 l2 with
        | none => simp [h3, h2] at h
        | some b2 =>
          cases h1 : parseUint 10 8 l1 with
          | none => simp [h3, h2, h1] at h
          | some b1 =>
            cases h0 : parseUint 10 8 l0 with
            | none => simp [h3, h2, h1, h0] at h
            | some b0 =>
              simp only [h3, h2, h1, h0, Option.map_some, Option.some.injEq, bytesValue, List.foldl_cons, List.foldl_nil] at h
              obtain ⟨d0, g0⟩ := parseUint_dec (hzero l0 (by simp)) h0
              obtain ⟨d1, g1⟩ := parseUint_dec (hzero l1 (by simp)) h1
              obtain ⟨d2, g2⟩ := parseUint_dec (hzero l2 (by simp)) h2
              obtain ⟨d3, g3⟩ := parseUint_dec (hzero l3 (by simp)) h3
              refine ⟨_, h.symm, ?_⟩
              unfold reverseName4
              congr 1
              rw [← joinChar_splitChar '.' rev, hs]
              congr 1
              simp only [BitVec.toNat_ofNat, List.map_cons, List.map_nil]
              have hb : ((((0 * 256 + b3) * 256 + b2) * 256 + b1) * 256 + b0) % 2 ^ 32 =
                  (((0 * 256 + b3) * 256 + b2) * 256 + b1) * 256 + b0 := Nat.mod_eq_of_lt (by omega)
              rw [hb]
              rw [show ((((0 * 256 + b3) * 256 + b2) * 256 + b1) * 256 + b0) / 256 ^ 0 % 256 = b0 by omega,
                show ((((0 * 256 + b3) * 256 + b2) * 256 + b1) * 256 + b0) / 256 ^ 1 % 256 = b1 by omega,
                show ((((0 * 256 + b3) * 256 + b2) * 256 + b1) * 256 + b0) / 256 ^ 2 % 256 = b2 by omega,
                show ((((0 * 256 + b3) * 256 + b2) * 256 + b1) * 256 + b0) / 256 ^ 3 % 256 = b3 by omega,
                ← d0, ← d1, ← d2, ← d3]

/-- **C33 is false as stated, 1.** Names with leading zeros, which are no address's reverse name, are
accepted. -/
theorem C33_leading_zero_accepted :
    Arpa.parse (str! "001.0.00.10.in-addr.arpa.") = some (.v4 0x0a000001#32) ∧
    ∀ a, reverseName4 a ≠ str! "001.0.00.10.in-addr.arpa." := by
  refine ⟨by decide, ?_⟩
  intro a h
  have h1 := C33_round_trip_v4 a
  rw [h, show Arpa.parse (str! "001.0.00.10.in-addr.arpa.") = some (.v4 0x0a000001#32) by decide] at h1
  cases h1
  revert h
  decide

/-- **C33 is false as stated, 2.** Under ip6.arpa labels of two hexadecimal digits are accepted, and give
an address in which neighbouring digits are mixed up. -/
theorem C33_two_digits_accepted :
    Arpa.parse (joinChar '.' (str! "1f" :: List.replicate 31 (str! "0")) ++ str! ".ip6.arpa.") = some (.v6 0x1f#128) := by
  decide +kernel

/-- **C33 is false as stated, 3.** The suffix is compared case-sensitively although names in queries may
be written in any case. -/
theorem C33_upper_case_rejected : Arpa.parse (str! "1.0.0.10.IN-ADDR.ARPA.") = none := by decide

theorem digitVal_hex {c : Char} {d : Nat} (h : digitVal c = some d) (hd : d < 16) (hup : c.isUpper = false) :
    c = Nat.digitChar d := by
  unfold digitVal at h
  have e0 : '0'.toNat = 48 := rfl
  have e9 : '9'.toNat = 57 := rfl
  have ea : 'a'.toNat = 97 := rfl
  have ez : 'z'.toNat = 122 := rfl
  have eA : 'A'.toNat = 65 := rfl
  have eZ : 'Z'.toNat = 90 := rfl
  split at h
  · exact digitVal_dec (by unfold digitVal; rw [if_pos (by assumption)]; exact h) (by cases h; omega)
  · split at h
    · rename_i hc
      cases h
      have hn : c.toNat - 97 < 6 := by omega
      have key : ∀ n < 6, Nat.digitChar (n + 10) = Char.ofNat (n + 97) := by decide
      rw [ea, key _ hn, Nat.sub_add_cancel (by omega)]
      exact (Char.ofNat_toNat c).symm
    · split at h
      · rename_i hc
        exfalso
        rw [Char.isUpper] at hup
        revert hup
        simp only [Bool.decide_and, Bool.and_eq_false_imp, decide_eq_true_eq, decide_eq_false_iff_not]
        intro hup
        exact hup (by rw [ge_iff_le, UInt32.le_iff_toNat_le]; exact hc.1) (by rw [UInt32.le_iff_toNat_le]; exact hc.2)
      · cases h

theorem parseUint_hex1 {c : Char} {v : Nat} (hup : c.isUpper = false) (h : parseUint 16 8 [c] = some v) :
    v < 16 ∧ c = Nat.digitChar v := by
  unfold parseUint at h
  simp only [List.cons_ne_nil, if_false, digitsValue] at h
  cases hd : digitVal c with
  | none => rw [hd] at h; cases h
  | some d =>
    rw [hd] at h
    simp only at h
    split at h
    · rename_i u hu
      split at hu
      · rename_i hlt
        cases hu
        split at h
        · cases h
          exact ⟨by omega, by rw [Nat.zero_mul, Nat.zero_add]; exact digitVal_hex hd hlt hup⟩
        · cases h
      · cases hu
    · cases h

theorem low_nibble (b V m i : Nat) (hi : i < 2 * m) : (b * 256 ^ m + V) / 16 ^ i % 16 = V / 16 ^ i % 16 := by
  have e : 256 ^ m = 16 ^ i * (16 * 16 ^ (2 * m - i - 1)) := by
    rw [show (256 : Nat) = 16 ^ 2 by decide, ← Nat.pow_mul, ← Nat.pow_succ', ← Nat.pow_add]
    congr 1
    omega
  rw [e, show b * (16 ^ i * (16 * 16 ^ (2 * m - i - 1))) + V = V + 16 ^ i * (16 * (b * 16 ^ (2 * m - i - 1))) by
    rw [Nat.add_comm]; congr 1; simp [Nat.mul_left_comm]]
  rw [Nat.add_mul_div_left _ _ (Nat.pow_pos (by decide)), Nat.add_mul_mod_self_left]

theorem bytes6_accepted (m : Nat) (parts : List Str) (hlen : parts.length = 2 * m)
    (hone : ∀ l ∈ parts, ∃ c : Char, l = [c] ∧ c.isUpper = false) (bs : List Nat) (h : bytes6 parts = some bs) :
    bs.length = m ∧ bytesValue bs < 256 ^ m ∧
      parts = ((List.range (2 * m)).map (fun i => [Nat.digitChar (bytesValue bs / 16 ^ i % 16)])).reverse := by
  induction m generalizing parts bs with
  | zero =>
    have : parts = [] := List.length_eq_zero_iff.1 (by omega)
    subst this
    cases h
    exact ⟨rfl, by decide, rfl⟩
  | succ m ih =>
    match parts, hlen with
    | p1 :: p2 :: ps, hlen =>
      obtain ⟨c1, rfl, u1⟩ := hone p1 (by simp)
      obtain ⟨c2, rfl, u2⟩ := hone p2 (by simp)
      rw [bytes6] at h
      cases h1 : parseUint 16 8 [c1] with
      | none => simp [h1] at h
      | some x =>
        cases h2 : parseUint 16 8 [c2] with
        | none => simp [h1, h2] at h
        | some y =>
          cases h3 : bytes6 ps with
          | none => simp [h1, h2, h3] at h
          | some bs' =>
            simp only [h1, h2, h3, Option.some.injEq] at h
            subst h
            obtain ⟨g1, g2, g3⟩ := ih ps (by simp at hlen; omega) (fun l hl => hone l (by simp [hl])) bs' h3
            obtain ⟨x1, x2⟩ := parseUint_hex1 u1 h1
            obtain ⟨y1, y2⟩ := parseUint_hex1 u2 h2
            have hv : bytesValue ((x * 16 ||| y) % 256 :: bs') = (x * 16 + y) * 256 ^ m + bytesValue bs' := by
              have := foldl_bytes bs' (0 * 256 + (x * 16 ||| y) % 256)
              rw [Nat.zero_mul, Nat.zero_add, g1, or_nibbles x y x1 y1] at this
              rw [or_nibbles x y x1 y1]
              unfold bytesValue at this ⊢
              rw [List.foldl_cons, Nat.zero_mul, Nat.zero_add]
              exact this
            have hpos : 0 < 256 ^ m := Nat.pow_pos (by decide)
            refine ⟨by simp [g1], ?_, ?_⟩
            · rw [hv, Nat.pow_succ]
              have : (x * 16 + y) * 256 ^ m ≤ 255 * 256 ^ m := Nat.mul_le_mul_right _ (by omega)
              omega
            · rw [hv]
              have hr : List.range (2 * (m + 1)) = List.range (2 * m) ++ [2 * m, 2 * m + 1] := by
                rw [show 2 * (m + 1) = 2 * m + 1 + 1 by omega, List.range_succ, List.range_succ]
                simp
              rw [hr]
              simp only [List.map_append, List.map_cons, List.map_nil, List.reverse_append, List.reverse_cons,
                List.reverse_nil, List.nil_append, List.cons_append]
              have e16 : 16 ^ (2 * m) = 256 ^ m := by rw [Nat.pow_mul]
              have e17 : 16 ^ (2 * m + 1) = 256 ^ m * 16 := by rw [Nat.pow_succ, e16]
              have hdiv : ((x * 16 + y) * 256 ^ m + bytesValue bs') / 256 ^ m = x * 16 + y := by
                rw [Nat.add_comm, Nat.add_mul_div_right _ _ hpos, Nat.div_eq_of_lt g2, Nat.zero_add]
              rw [e17, ← Nat.div_div_eq_div_mul, e16, hdiv, show (x * 16 + y) / 16 % 16 = x by omega,
                show (x * 16 + y) % 16 = y by omega, ← x2, ← y2]
              congr 2
              rw [g3]
              congr 1
              apply List.map_congr_left
              intro i hi
              rw [low_nibble _ _ _ _ (List.mem_range.1 hi)]

/-- **C33, accepted IPv6 names.** If a name under ip6.arpa with one lower-case digit per label is
accepted, it is the reverse name of the resulting address. -/
theorem C33_accepts_v6_partial (rev : Str) (ip : IP)
    (hone : ∀ l ∈ splitChar '.' rev, ∃ c : Char, l = [c] ∧ c.isUpper = false)
    (h : Arpa.parse (rev ++ str! ".ip6.arpa.") = some ip) :
    ∃ a : BitVec 128, Denotes a ip ∧ rev ++ str! ".ip6.arpa." = reverseName6 a := by
  unfold Arpa.parse at h
  have hno : cutSuffix (rev ++ str! ".ip6.arpa.") (str! ".in-addr.arpa.") = none := by
    unfold cutSuffix
    rw [if_neg]
    intro h
    obtain ⟨t, ht⟩ := List.isSuffixOf_iff_suffix.1 h
    have h2 := congrArg (fun s : Str => s.reverse.take 10) ht
    simp at h2
  rw [hno] at h
  simp only [arpaCut_append, parse6] at h
  split at h
  · cases h
  · rename_i hlen
    have hlen : (splitChar '.' rev).length = 32 := by simpa using hlen
    cases hb : bytes6 (splitChar '.' rev).reverse with
    | none => simp [hb] at h
    | some bs =>
      simp only [hb, Option.map_some, Option.some.injEq] at h
      obtain ⟨_, g2, g3⟩ := bytes6_accepted 16 (splitChar '.' rev).reverse (by simp [hlen])
        (fun l hl => hone l (by simpa using hl)) bs hb
      have hm : (BitVec.ofNat 128 (bytesValue bs)).toNat = bytesValue bs := by
        rw [BitVec.toNat_ofNat]
        exact Nat.mod_eq_of_lt (by omega)
      refine ⟨BitVec.ofNat 128 (bytesValue bs), by rw [← h]; have := ofBits128_denotes (BitVec.ofNat 128 (bytesValue bs)); rwa [hm] at this, ?_⟩
      unfold reverseName6
      rw [hm]
      congr 1
      have := List.reverse_inj.1 g3
      rw [← this, joinChar_splitChar]

example : Arpa.parse (reverseName6 0x20010db8000000000000000000000001#128) = some (.v6 0x20010db8000000000000000000000001#128) := by
  decide +kernel

example : ∃ ip, Arpa.parse (reverseName6 (0xffff#96 ++ 0x0a000001#32)) = some ip ∧ Denotes (0xffff#96 ++ 0x0a000001#32) ip :=
  C33_round_trip_v6 _

end Verif.Props
