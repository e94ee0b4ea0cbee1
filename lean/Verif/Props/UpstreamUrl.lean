/-
C46: upstream definitions survive printing and parsing.
-/
import Verif.Model.UpstreamUrl
import Verif.Props.Arpa

namespace Verif.Props
open UpstreamUrl

/-! ### Decimal numbers -/

theorem digitsValue_toDigits (n : Nat) : digitsValue 10 0 (Nat.toDigits 10 n) = some n := by
  induction n using Nat.strongRecOn with
  | ind n ih =>
    by_cases h : n < 10
    · rw [Nat.toDigits_of_lt_base h]
      have : ∀ n < 10, digitsValue 10 0 [Nat.digitChar n] = some n := by decide
      exact this n h
    · have e : n = n / 10 * 10 + n % 10 := by omega
      rw [e, toDigits_snoc (n / 10) (n % 10) (by omega) (by omega), digitsValue_append, ih (n / 10) (by omega)]
      have : ∀ d < 10, ∀ acc, digitsValue 10 acc [Nat.digitChar d] = some (acc * 10 + d) := by
        intro d hd acc
        have hd' : ∀ d < 10, digitVal (Nat.digitChar d) = some d := by decide
        simp only [digitsValue, hd' d hd, if_pos hd]
      simp only [Option.bind_some]
      exact this _ (by omega) _

/-- The characters of decimal numbers. -/
theorem toDigits_chars (n : Nat) : ∀ c ∈ Nat.toDigits 10 n, ∃ d < 10, c = Nat.digitChar d := by
  induction n using Nat.strongRecOn with
  | ind n ih =>
    by_cases h : n < 10
    · rw [Nat.toDigits_of_lt_base h]
      intro c hc
      simp only [List.mem_cons, List.not_mem_nil, or_false] at hc
      exact ⟨n, h, hc⟩
    · have e : n = n / 10 * 10 + n % 10 := by omega
      rw [e, toDigits_snoc (n / 10) (n % 10) (by omega) (by omega)]
      intro c hc
      rcases List.mem_append.1 hc with hc | hc
      · exact ih (n / 10) (by omega) c hc
      · simp only [List.mem_cons, List.not_mem_nil, or_false] at hc
        exact ⟨n % 10, by omega, hc⟩

theorem toDigits_ne_nil (n : Nat) : Nat.toDigits 10 n ≠ [] := by
  intro h
  have := digitsValue_toDigits n
  rw [h] at this
  cases this
  exact absurd h (by decide)

theorem toDigits_free (n : Nat) : ∀ c ∈ Nat.toDigits 10 n,
    isSpace c = false ∧ c ≠ ':' ∧ c ≠ '[' ∧ c ≠ ']' ∧ c ≠ '/' ∧ c ≠ '#' := by
  intro c hc
  obtain ⟨d, hd, rfl⟩ := toDigits_chars n c hc
  have : ∀ d < 10, isSpace (Nat.digitChar d) = false ∧ Nat.digitChar d ≠ ':' ∧ Nat.digitChar d ≠ '[' ∧ Nat.digitChar d ≠ ']' ∧
      Nat.digitChar d ≠ '/' ∧ Nat.digitChar d ≠ '#' := by decide
  exact this d hd

theorem dropWhile_none {p : Char → Bool} (s : Str) (h : ∀ c ∈ s, p c = false) : s.dropWhile p = s := by
  cases s with
  | nil => rfl
  | cons c s => rw [List.dropWhile_cons, h c (List.mem_cons_self ..)]; rfl

theorem convertPort_toDigits (n : Nat) (h : n < 65536) : convertPort (Nat.toDigits 10 n) = some n := by
  have hs : trimSpace (Nat.toDigits 10 n) = Nat.toDigits 10 n := by
    unfold trimSpace
    rw [dropWhile_none _ (fun c hc => (toDigits_free n c hc).1), dropWhile_none, List.reverse_reverse]
    intro c hc
    exact (toDigits_free n c (List.mem_reverse.1 hc)).1
  unfold convertPort parseUint
  rw [hs, if_neg (toDigits_ne_nil n), digitsValue_toDigits]
  simp only
  rw [if_pos (by omega)]

/-! ### Cutting -/

theorem cutFirst_none {sep : Char} {s : Str} : cutFirst sep s = none ↔ sep ∉ s := by
  induction s with
  | nil => simp [cutFirst]
  | cons c s ih =>
    unfold cutFirst
    by_cases hc : c = sep
    · simp [hc]
    · rw [if_neg hc]
      cases h : cutFirst sep s with
      | none => simp [ih.1 h, Ne.symm hc]
      | some ab =>
        have hm : sep ∈ s := by
          apply Classical.byContradiction
          intro hn
          rw [ih.2 hn] at h
          cases h
        simp [hm]

theorem cutFirst_append {sep : Char} (a b : Str) (h : sep ∉ a) : cutFirst sep (a ++ sep :: b) = some (a, b) := by
  induction a with
  | nil => simp [cutFirst]
  | cons c a ih =>
    have hc : c ≠ sep := fun e => h (by simp [e])
    rw [List.cons_append, cutFirst, if_neg hc, ih (fun hm => h (List.mem_cons_of_mem _ hm))]

theorem cutFirst_some {sep : Char} {s a b : Str} (h : cutFirst sep s = some (a, b)) : s = a ++ sep :: b ∧ sep ∉ a := by
  induction s generalizing a with
  | nil => cases h
  | cons c s ih =>
    unfold cutFirst at h
    split at h
    · rename_i hc
      cases h
      exact ⟨by rw [hc]; rfl, by simp⟩
    · rename_i hc
      cases hx : cutFirst sep s with
      | none => rw [hx] at h; cases h
      | some ab =>
        obtain ⟨a', b'⟩ := ab
        rw [hx] at h
        cases h
        obtain ⟨h1, h2⟩ := ih hx
        exact ⟨by rw [h1]; rfl, by simp [h2, Ne.symm hc]⟩

theorem cutLast_append {sep : Char} (a b : Str) (h : sep ∉ b) : cutLast sep (a ++ sep :: b) = some (a, b) := by
  unfold cutLast
  have : (a ++ sep :: b).reverse = b.reverse ++ sep :: a.reverse := by simp
  rw [this, cutFirst_append _ _ (by simpa using h)]
  simp

theorem cutLast_none {sep : Char} {s : Str} : cutLast sep s = none ↔ sep ∉ s := by
  unfold cutLast
  cases h : cutFirst sep s.reverse with
  | none => simp only [true_iff]; rw [cutFirst_none] at h; simpa using h
  | some ab =>
    simp only [reduceCtorEq, false_iff]
    intro hn
    rw [cutFirst_none.2 (by simpa using hn)] at h
    cases h

theorem cutLast_some {sep : Char} {s a b : Str} (h : cutLast sep s = some (a, b)) : s = a ++ sep :: b ∧ sep ∉ b := by
  unfold cutLast at h
  cases hx : cutFirst sep s.reverse with
  | none => rw [hx] at h; cases h
  | some ab =>
    obtain ⟨a', b'⟩ := ab
    rw [hx] at h
    cases h
    obtain ⟨h1, h2⟩ := cutFirst_some hx
    have := congrArg List.reverse h1
    simp only [List.reverse_reverse, List.reverse_append, List.reverse_cons, List.append_assoc, List.cons_append, List.nil_append] at this
    exact ⟨this, by simpa using h2⟩

/-! ### The property -/

/-- What is known about `net.ParseIP`: it accepts only strings of hexadecimal digits, colons and dots, and
not the empty one. -/
structure IPContract (isIP : Str → Bool) : Prop where
  chars : ∀ s, isIP s = true → ∀ c ∈ s, c ∈ "0123456789abcdefABCDEF:.".toList
  nonempty : isIP [] = false

/-- A host as accepted by the parser. -/
def GoodHost (h : Str) : Prop := h ≠ [] ∧ ∀ c ∈ h, c ≠ '[' ∧ c ≠ ']' ∧ c ≠ '/' ∧ c ≠ '#'

theorem splitChar_mem {sep : Char} {s : Str} {c : Char} (h : c ∈ s) (hc : c ≠ sep) : ∃ l ∈ splitChar sep s, c ∈ l := by
  induction s with
  | nil => cases h
  | cons a s ih =>
    unfold splitChar
    by_cases ha : a = sep
    · rw [if_pos ha]
      rcases List.mem_cons.1 h with rfl | h
      · exact absurd ha hc
      · obtain ⟨l, hl, hcl⟩ := ih h
        exact ⟨l, List.mem_cons_of_mem _ hl, hcl⟩
    · rw [if_neg ha]
      cases hx : splitChar sep s with
      | nil => exact absurd hx (splitChar_ne_nil sep s)
      | cons p ps =>
        rcases List.mem_cons.1 h with rfl | h
        · exact ⟨_, List.mem_cons_self .., List.mem_cons_self ..⟩
        · obtain ⟨l, hl, hcl⟩ := ih h
          rw [hx] at hl
          rcases List.mem_cons.1 hl with rfl | hl
          · exact ⟨_, List.mem_cons_self .., List.mem_cons_of_mem _ hcl⟩
          · exact ⟨l, List.mem_cons_of_mem _ hl, hcl⟩

theorem goodHost_of {isIP : Str → Bool} (hip : IPContract isIP) {h : Str} (hh : (isIP h || validDomain h) = true) :
    GoodHost h ∧ (validDomain h = true → ':' ∉ h) := by
  have hv : validDomain h = true → h ≠ [] ∧ ∀ c ∈ h, QueryLogFile.isAlnum c = true ∨ c = '-' ∨ c = '.' := by
    intro hv
    constructor
    · rintro rfl
      exact absurd hv (by decide)
    intro c hc
    by_cases hd : c = '.'
    · exact Or.inr (Or.inr hd)
    · obtain ⟨l, hl, hcl⟩ := splitChar_mem hc hd
      unfold validDomain at hv
      have := List.all_eq_true.1 hv l hl
      unfold validLabel at this
      simp only [Bool.and_eq_true, List.all_eq_true] at this
      have := this.1.1 c hcl
      simp only [Bool.or_eq_true, beq_iff_eq] at this
      exact this.imp id Or.inl
  have hbad : ∀ c, QueryLogFile.isAlnum c = true ∨ c = '-' ∨ c = '.' → c ≠ '[' ∧ c ≠ ']' ∧ c ≠ '/' ∧ c ≠ '#' ∧ c ≠ ':' := by
    intro c hc
    refine ⟨?_, ?_, ?_, ?_, ?_⟩ <;> (rintro rfl; revert hc; decide)
  refine ⟨?_, ?_⟩
  · rcases Bool.or_eq_true _ _ ▸ hh with hi | hd
    · constructor
      · rintro rfl
        rw [hip.nonempty] at hi
        cases hi
      intro c hc
      have := hip.chars h hi c hc
      have hall : ∀ c ∈ "0123456789abcdefABCDEF:.".toList, c ≠ '[' ∧ c ≠ ']' ∧ c ≠ '/' ∧ c ≠ '#' := by decide +kernel
      exact hall c this
    · obtain ⟨h1, h2⟩ := hv hd
      exact ⟨h1, fun c hc => ⟨(hbad c (h2 c hc)).1, (hbad c (h2 c hc)).2.1, (hbad c (h2 c hc)).2.2.1, (hbad c (h2 c hc)).2.2.2.1⟩⟩
  · intro hd hm
    exact (hbad ':' ((hv hd).2 ':' hm)).2.2.2.2 rfl

/-- What parsing produces. -/
structure Parsed (isIP : Str → Bool) (u : Upstream) : Prop where
  host : (isIP u.host || validDomain u.host) = true
  port : u.port < 65536
  path : u.path = [] ∨ ∃ p, u.path = '/' :: p
  noHash : '#' ∉ u.path

theorem parseUint_lt {s : Str} {p : Nat} (h : parseUint 10 16 s = some p) : p < 65536 := by
  unfold parseUint at h
  split at h
  · cases h
  · cases hd : digitsValue 10 0 s with
    | none => rw [hd] at h; cases h
    | some v =>
      rw [hd] at h
      simp only at h
      split at h
      · rename_i hv
        injection h with h
        omega
      · cases h

theorem defaultPort_lt (n : Net) : n.defaultPort < 65536 := by cases n <;> decide

theorem extractCommonName_free (s : Str) : '#' ∉ (extractCommonName s).1 := by
  unfold extractCommonName
  cases h : cutFirst '#' s with
  | none => exact cutFirst_none.1 h
  | some ab => obtain ⟨a, b⟩ := ab; exact (cutFirst_some h).2

theorem extractNet_subset (s : Str) : ∀ c ∈ (extractNet s).2, c ∈ s := by
  intro c
  unfold extractNet trimPrefix
  repeat' split
  · exact List.mem_of_mem_drop
  · exact List.mem_of_mem_drop
  · intro h; exact List.mem_of_mem_drop (List.mem_of_mem_drop h)
  · exact List.mem_of_mem_drop
  · exact id

theorem extractPath_spec (s : Str) :
    ((extractPath s).1 = [] ∨ ∃ p, (extractPath s).1 = '/' :: p) ∧ (∀ c ∈ (extractPath s).1, c ∈ s) := by
  unfold extractPath
  cases h : cutFirst '/' s with
  | none => exact ⟨Or.inl rfl, fun c hc => by cases hc⟩
  | some ab =>
    obtain ⟨a, b⟩ := ab
    refine ⟨Or.inr ⟨b, rfl⟩, ?_⟩
    intro c hc
    rw [(cutFirst_some h).1]
    exact List.mem_append_right _ hc

theorem parsed_of {isIP : Str → Bool} {s : Str} {u : Upstream} (h : parse isIP s = some u) : Parsed isIP u := by
  unfold parse at h
  simp only at h
  have hb := extractCommonName_free s
  generalize extractCommonName s = sc at h hb
  obtain ⟨s1, cn⟩ := sc
  simp only at h hb
  have hnet := extractNet_subset s1
  generalize extractNet s1 = ns at h hnet
  obtain ⟨n, s2⟩ := ns
  simp only at h hnet
  have hpath := extractPath_spec s2
  generalize extractPath s2 = ps at h hpath
  obtain ⟨path, s3⟩ := ps
  simp only at h hpath
  have hnh : '#' ∉ path := fun hm => hb (hnet _ (hpath.2 _ hm))
  split at h
  · rename_i host portString _
    cases hp : convertPort portString with
    | none => rw [hp] at h; cases h
    | some port =>
      rw [hp] at h
      simp only at h
      split at h
      · rename_i hh
        injection h with h
        subst h
        exact ⟨hh, parseUint_lt hp, hpath.1, hnh⟩
      · cases h
  · split at h
    · rename_i hh
      injection h with h
      subst h
      exact ⟨hh, defaultPort_lt n, hpath.1, hnh⟩
    · cases h

/-- The printed host and port. -/
def hostPort (u : Upstream) : Str :=
  (if ':' ∈ u.host then str! "[" ++ u.host ++ str! "]" else u.host) ++
  (if u.port ≠ u.net.defaultPort then str! ":" ++ Nat.toDigits 10 u.port else [])

theorem mem_hostPort {u : Upstream} {c : Char} (h : c ∈ hostPort u) :
    c = '[' ∨ c = ']' ∨ c = ':' ∨ c ∈ u.host ∨ c ∈ Nat.toDigits 10 u.port := by
  unfold hostPort at h
  rcases List.mem_append.1 h with h | h
  · split at h
    · simp only [List.mem_append, List.mem_cons, List.not_mem_nil, or_false] at h
      rcases h with (rfl | h) | rfl
      · exact Or.inl rfl
      · exact Or.inr (Or.inr (Or.inr (Or.inl h)))
      · exact Or.inr (Or.inl rfl)
    · exact Or.inr (Or.inr (Or.inr (Or.inl h)))
  · split at h
    · simp only [List.mem_append, List.mem_cons, List.not_mem_nil, or_false] at h
      rcases h with rfl | h
      · exact Or.inr (Or.inr (Or.inl rfl))
      · exact Or.inr (Or.inr (Or.inr (Or.inr h)))
    · cases h

/-- Splitting the printed host and port. -/
theorem split_hostPort (u : Upstream) (hg : GoodHost u.host) :
    (u.port ≠ u.net.defaultPort → splitHostPort (hostPort u) = some (u.host, Nat.toDigits 10 u.port)) ∧
    (u.port = u.net.defaultPort → splitHostPort (hostPort u) = none ∧
      trimSuffixChar (trimPrefix (hostPort u) (str! "[")) ']' = u.host) := by
  have hfree := toDigits_free u.port
  have hcolon : ':' ∉ Nat.toDigits 10 u.port := fun h => (hfree _ h).2.1 rfl
  have hlb : '[' ∉ u.host := fun h => (hg.2 _ h).1 rfl
  have hrb : ']' ∉ u.host := fun h => (hg.2 _ h).2.1 rfl
  by_cases h6 : ':' ∈ u.host
  · refine ⟨?_, ?_⟩
    · intro hp
      have e : hostPort u = '[' :: (u.host ++ ']' :: ':' :: Nat.toDigits 10 u.port) := by
        unfold hostPort
        rw [if_pos h6, if_pos hp]
        simp
      have e2 : '[' :: (u.host ++ ']' :: ':' :: Nat.toDigits 10 u.port) = ('[' :: (u.host ++ [']'])) ++ ':' :: Nat.toDigits 10 u.port := by simp
      rw [e]
      unfold splitHostPort
      rw [e2, cutLast_append _ _ hcolon, ← e2]
      simp only
      rw [cutFirst_append _ _ hrb]
      simp only [if_true]
      rw [if_neg, if_neg]
      · intro hm
        simp only [List.mem_cons] at hm
        rcases hm with hm | hm
        · exact absurd hm (by decide)
        · exact (hfree _ hm).2.2.2.1 rfl
      · intro hm
        simp only [List.mem_append, List.mem_cons] at hm
        rcases hm with hm | hm | hm | hm
        · exact hlb hm
        · exact absurd hm (by decide)
        · exact absurd hm (by decide)
        · exact (hfree _ hm).2.2.1 rfl
    · intro hp
      have e : hostPort u = '[' :: (u.host ++ [']']) := by
        unfold hostPort
        rw [if_pos h6, if_neg (by simp [hp])]
        simp
      refine ⟨?_, ?_⟩
      · rw [e]
        unfold splitHostPort
        cases hc : cutLast ':' ('[' :: (u.host ++ [']'])) with
        | none => rfl
        | some ab =>
          obtain ⟨a, b⟩ := ab
          simp only
          rw [cutFirst_append u.host [] hrb]
          simp
      · rw [e]
        simp [trimPrefix, trimSuffixChar, List.isPrefixOf]
  · refine ⟨?_, ?_⟩
    · intro hp
      have e : hostPort u = u.host ++ ':' :: Nat.toDigits 10 u.port := by
        unfold hostPort
        rw [if_neg h6, if_pos hp]
        simp
      rw [e]
      unfold splitHostPort
      rw [cutLast_append _ _ hcolon]
      cases hh : u.host with
      | nil => exact absurd hh hg.1
      | cons c cs =>
        rw [hh] at hlb hrb h6
        have hc : c ≠ '[' := fun e => hlb (by simp [e])
        have key : ∀ (x : Str), (match c :: x with
            | '[' :: rest =>
              match cutFirst ']' rest with
              | none => none
              | some (host, after) =>
                if after = ':' :: Nat.toDigits 10 u.port then
                  if '[' ∈ rest then none else if ']' ∈ after then none else some (host, Nat.toDigits 10 u.port)
                else none
            | _ => if ':' ∈ c :: cs then none else if '[' ∈ c :: x then none else if ']' ∈ c :: x then none
              else some (c :: cs, Nat.toDigits 10 u.port)) =
            if ':' ∈ c :: cs then none else if '[' ∈ c :: x then none else if ']' ∈ c :: x then none
              else some (c :: cs, Nat.toDigits 10 u.port) := by
          intro x
          split
          · rename_i heq; injection heq with h1 _; exact absurd h1 hc
          · rfl
        simp only
        refine (key (cs ++ ':' :: Nat.toDigits 10 u.port)).trans ?_
        rw [if_neg h6, if_neg, if_neg]
        · intro hm
          rw [← List.cons_append] at hm
          simp only [List.mem_append, List.mem_cons (a := ']') (b := ':')] at hm
          rcases hm with hm | hm | hm
          · exact hrb hm
          · exact absurd hm (by decide)
          · exact (hfree _ hm).2.2.2.1 rfl
        · intro hm
          rw [← List.cons_append] at hm
          simp only [List.mem_append, List.mem_cons (a := '[') (b := ':')] at hm
          rcases hm with hm | hm | hm
          · exact hlb hm
          · exact absurd hm (by decide)
          · exact (hfree _ hm).2.2.1 rfl
    · intro hp
      have e : hostPort u = u.host := by
        unfold hostPort
        rw [if_neg h6, if_neg (by simp [hp])]
        simp
      refine ⟨?_, ?_⟩
      · rw [e]
        unfold splitHostPort
        rw [cutLast_none.2 h6]
      · rw [e]
        have h1 : trimPrefix u.host (str! "[") = u.host := by
          unfold trimPrefix
          rw [if_neg]
          intro h
          obtain ⟨t, ht⟩ := List.isPrefixOf_iff_prefix.1 h
          exact hlb (by rw [← ht]; simp)
        rw [h1]
        unfold trimSuffixChar
        rw [if_neg]
        intro h
        exact hrb (List.mem_of_getLast? h)

theorem parse_print (isIP : Str → Bool) (hip : IPContract isIP) (u : Upstream) (h : Parsed isIP u) :
    parse isIP (print u) = some { u with commonName := [] } := by
  obtain ⟨hhost, hport, hpath, hnh⟩ := h
  have hg := (goodHost_of hip hhost).1
  have hdef : u.isDefault = false := by
    unfold Upstream.isDefault
    rw [beq_eq_false_iff_ne]
    intro e
    exact hg.1 (by rw [e])
  have hfree := toDigits_free u.port
  have hpr : print u = u.net.string ++ str! ":" ++ (if u.net = .https then str! "//" else []) ++ hostPort u ++ u.path := by
    unfold print hostPort
    rw [hdef]
    simp only [Bool.false_eq_true, if_false, List.append_assoc]
  -- no `#`
  have hhp : ∀ c ∈ hostPort u, c ≠ '#' ∧ c ≠ '/' := by
    intro c hc
    rcases mem_hostPort hc with rfl | rfl | rfl | h1 | h1
    · decide
    · decide
    · decide
    · exact ⟨(hg.2 c h1).2.2.2, (hg.2 c h1).2.2.1⟩
    · exact ⟨(hfree c h1).2.2.2.2.2, (hfree c h1).2.2.2.2.1⟩
  have hcut : extractCommonName (print u) = (print u, []) := by
    unfold extractCommonName
    rw [cutFirst_none.2]
    rw [hpr]
    intro hm
    simp only [List.mem_append] at hm
    rcases hm with (((hm | hm) | hm) | hm) | hm
    · cases hn : u.net <;> rw [hn] at hm <;> revert hm <;> decide
    · revert hm; decide
    · split at hm
      · revert hm; decide
      · cases hm
    · exact (hhp _ hm).1 rfl
    · exact hnh hm
  have hnet : extractNet (print u) = (u.net, hostPort u ++ u.path) := by
    rw [hpr]
    cases hn : u.net with
    | tcpUdp => simp [Net.string, extractNet, List.isPrefixOf]
    | tcpTls => simp [Net.string, extractNet, List.isPrefixOf]
    | https => simp [Net.string, extractNet, List.isPrefixOf, trimPrefix]
  have hpathE : extractPath (hostPort u ++ u.path) = (u.path, hostPort u) := by
    unfold extractPath
    rcases hpath with hp | ⟨p, hp⟩
    · rw [hp, List.append_nil, cutFirst_none.2 (fun hm => (hhp _ hm).2 rfl)]
    · rw [hp, cutFirst_append _ _ (fun hm => (hhp _ hm).2 rfl)]
  unfold parse
  simp only [hcut, hnet, hpathE]
  obtain ⟨hs1, hs2⟩ := split_hostPort u hg
  by_cases hpd : u.port = u.net.defaultPort
  · obtain ⟨h1, h2⟩ := hs2 hpd
    simp only [h1, h2, hhost, if_true]
    rw [← hpd]
  · rw [hs1 hpd]
    simp only [convertPort_toDigits u.port hport, hhost, if_true]

/-- C46: for every text the parser accepts, the printed form of the result is accepted and gives the same
upstream again - protocol, host, port and path; the name for the certificate check is not printed. -/
theorem C46_round_trip (isIP : Str → Bool) (hip : IPContract isIP) (s : Str) (u : Upstream) (h : parse isIP s = some u) :
    parse isIP (print u) = some { u with commonName := [] } :=
  parse_print isIP hip u (parsed_of h)

/-- C46: upstreams read from the configuration that print alike are the same but for the certificate
name. -/
theorem C46_print_injective (isIP : Str → Bool) (hip : IPContract isIP) (s t : Str) (u v : Upstream)
    (hu : parse isIP s = some u) (hv : parse isIP t = some v) (h : print u = print v) :
    { u with commonName := [] } = { v with commonName := [] } := by
  have h1 := C46_round_trip isIP hip s u hu
  have h2 := C46_round_trip isIP hip t v hv
  rw [h, h2] at h1
  injection h1 with h1
  exact h1.symm

/-- Addresses for the examples. -/
def sampleIsIP (s : Str) : Bool := s == str! "2001:db8::1" || s == str! "9.9.9.9"

theorem sampleIsIP_contract : IPContract sampleIsIP := by
  refine ⟨?_, by decide⟩
  intro s hs
  unfold sampleIsIP at hs
  rcases Bool.or_eq_true _ _ ▸ hs with h | h
  · rw [beq_iff_eq] at h; subst h; decide +kernel
  · rw [beq_iff_eq] at h; subst h; decide +kernel

example : (parse sampleIsIP (str! "tcp-tls:[2001:db8::1]:8853#dns.example")).map (fun u => (u, print u)) =
    some (⟨.tcpTls, str! "2001:db8::1", 8853, [], str! "dns.example"⟩, str! "tcp-tls:[2001:db8::1]:8853") := by decide

example : (parse sampleIsIP (str! "https://dns.example.com/dns-query")).map (fun u => (u, print u)) =
    some (⟨.https, str! "dns.example.com", 443, str! "/dns-query", []⟩, str! "https://dns.example.com/dns-query") := by decide

/-- A label of a host name: letters, digits and hyphens, with a letter or digit at both ends. -/
inductive HostLabel : Str → Prop
  | single (a : Char) : QueryLogFile.isAlnum a = true → HostLabel [a]
  | long (a : Char) (m : Str) (b : Char) : QueryLogFile.isAlnum a = true → QueryLogFile.isAlnum b = true →
      (∀ c ∈ m, QueryLogFile.isAlnum c = true ∨ c = '-') → HostLabel (a :: (m ++ [b]))

/-- Labels with a dot between any two of them. -/
inductive DottedName : Str → Prop
  | last (l : Str) : HostLabel l → DottedName l
  | dot (l s : Str) : HostLabel l → DottedName s → DottedName (l ++ '.' :: s)

theorem hostLabel_iff (l : Str) : validLabel l = true ↔ HostLabel l := by
  constructor
  · intro h
    unfold validLabel at h
    simp only [Bool.and_eq_true, List.all_eq_true, Bool.or_eq_true, beq_iff_eq] at h
    obtain ⟨⟨h1, h2⟩, h3⟩ := h
    cases l with
    | nil => simp at h2
    | cons a t =>
      rcases List.eq_nil_or_concat t with rfl | ⟨m, b, rfl⟩
      · exact .single a (by simpa using h2)
      · rw [List.concat_eq_append] at *
        refine .long a m b (by simpa using h2) ?_ ?_
        · rw [← List.cons_append, List.getLast?_append] at h3
          simpa using h3
        · intro c hc
          exact h1 c (by simp [hc])
  · rintro (⟨a, ha⟩ | ⟨a, m, b, ha, hb, hm⟩)
    · simp [validLabel, ha]
    · unfold validLabel
      rw [← List.cons_append, List.getLast?_append]
      simp only [Bool.and_eq_true, List.all_eq_true, Bool.or_eq_true, beq_iff_eq]
      refine ⟨⟨?_, by simpa using ha⟩, by simpa using hb⟩
      intro c hc
      simp only [List.cons_append, List.mem_cons, List.mem_append, List.not_mem_nil, or_false] at hc
      rcases hc with rfl | hc | rfl
      · exact .inl ha
      · exact hm c hc
      · exact .inl hb

theorem hostLabel_no_dot {l : Str} (h : HostLabel l) : '.' ∉ l := by
  have hd : QueryLogFile.isAlnum '.' = false := by decide
  intro hm
  cases h with
  | single a ha =>
    simp only [List.mem_cons, List.not_mem_nil, or_false] at hm
    rw [← hm, hd] at ha; cases ha
  | long a m b ha hb hmid =>
    simp only [List.mem_cons, List.mem_append, List.not_mem_nil, or_false] at hm
    rcases hm with hm | hm | hm
    · rw [← hm, hd] at ha; cases ha
    · rcases hmid _ hm with h | h
      · rw [hd] at h; cases h
      · exact absurd h (by decide)
    · rw [← hm, hd] at hb; cases hb

/-- C46: the host names the parser takes are exactly the dotted sequences of labels. -/
theorem C46_hosts (s : Str) : validDomain s = true ↔ DottedName s := by
  constructor
  · intro h
    unfold validDomain at h
    generalize hn : s.length = n
    induction n using Nat.strongRecOn generalizing s with
    | ind n ih =>
      cases hc : cutFirst '.' s with
      | none =>
        rw [splitChar_of_not_mem (cutFirst_none.1 hc)] at h
        exact .last s ((hostLabel_iff s).1 (by simpa using h))
      | some ab =>
        obtain ⟨a, b⟩ := ab
        obtain ⟨rfl, ha⟩ := cutFirst_some hc
        rw [splitChar_append_sep b ha] at h
        simp only [List.all_cons, Bool.and_eq_true] at h
        exact .dot a b ((hostLabel_iff a).1 h.1) (ih b.length (by simp at hn; omega) b h.2 rfl)
  · intro h
    unfold validDomain
    induction h with
    | last l hl => rw [splitChar_of_not_mem (hostLabel_no_dot hl)]; simpa using (hostLabel_iff l).2 hl
    | dot l s hl _ ih =>
      rw [splitChar_append_sep s (hostLabel_no_dot hl)]
      simp only [List.all_cons, Bool.and_eq_true]
      exact ⟨(hostLabel_iff l).2 hl, ih⟩

/-- C46: the host of an accepted upstream is an address or a dotted sequence of labels. -/
theorem C46_host_of (isIP : Str → Bool) (s : Str) (u : Upstream) (h : parse isIP s = some u) :
    isIP u.host = true ∨ DottedName u.host := by
  have := (parsed_of h).host
  rw [Bool.or_eq_true, C46_hosts] at this
  exact this

example : DottedName (str! "one-1.x") ∧ ¬ DottedName (str! "-one.x") ∧ ¬ DottedName (str! "one-.x") ∧
    ¬ DottedName (str! "one..x") ∧ ¬ DottedName [] := by
  simp only [← C46_hosts]
  decide

/-- The defaults: without protocol it is plain DNS, without port the protocol's port. -/
theorem C46_defaults (isIP : Str → Bool) (hip : IPContract isIP) (host : Str) (hh : isIP host = true ∨ DottedName host) :
    parse isIP (str! "tcp+udp:" ++ (if ':' ∈ host then str! "[" ++ host ++ str! "]" else host)) = some ⟨.tcpUdp, host, 53, [], []⟩ ∧
    parse isIP (str! "tcp-tls:" ++ (if ':' ∈ host then str! "[" ++ host ++ str! "]" else host)) = some ⟨.tcpTls, host, 853, [], []⟩ ∧
    parse isIP (str! "https:" ++ (str! "//" ++ (if ':' ∈ host then str! "[" ++ host ++ str! "]" else host))) = some ⟨.https, host, 443, [], []⟩ := by
  rw [← C46_hosts, ← Bool.or_eq_true] at hh
  have hg := (goodHost_of hip hh).1
  have key : ∀ n : Net, parse isIP (print ⟨n, host, n.defaultPort, [], []⟩) = some ⟨n, host, n.defaultPort, [], []⟩ := fun n =>
    parse_print isIP hip ⟨n, host, n.defaultPort, [], []⟩ ⟨hh, defaultPort_lt n, Or.inl rfl, by simp⟩
  have hd : ∀ n : Net, Upstream.isDefault ⟨n, host, n.defaultPort, [], []⟩ = false := by
    intro n
    unfold Upstream.isDefault
    rw [beq_eq_false_iff_ne]
    intro e
    injection e with _ e
    exact hg.1 e
  refine ⟨?_, ?_, ?_⟩
  · have := key .tcpUdp
    unfold print at this
    rw [hd .tcpUdp] at this
    simpa [Net.string, Net.defaultPort] using this
  · have := key .tcpTls
    unfold print at this
    rw [hd .tcpTls] at this
    simpa [Net.string, Net.defaultPort] using this
  · have := key .https
    unfold print at this
    rw [hd .https] at this
    simpa [Net.string, Net.defaultPort] using this

/-- C46: what follows the first `#` is the name for the certificate check and touches nothing else. -/
theorem C46_certificate_name (isIP : Str → Bool) (s cn : Str) (h : '#' ∉ s) :
    parse isIP (s ++ '#' :: cn) = (parse isIP s).map (fun u => { u with commonName := cn }) := by
  have h1 : extractCommonName (s ++ '#' :: cn) = (s, cn) := by unfold extractCommonName; rw [cutFirst_append _ _ h]
  have h2 : extractCommonName s = (s, []) := by unfold extractCommonName; rw [cutFirst_none.2 h]
  unfold parse
  rw [h1, h2]
  simp only
  split
  · split
    · rfl
    · split <;> rfl
  · split <;> rfl

example : parse sampleIsIP (str! "tcp-tls:9.9.9.9#dns.example#1") = some ⟨.tcpTls, str! "9.9.9.9", 853, [], str! "dns.example#1"⟩ := by decide

/-- Port 0 is accepted although the error message says "1 - 65535". -/
theorem C46_port_zero : (parse sampleIsIP (str! "9.9.9.9:0")).map (fun u => u.port) = some 0 := by decide

end Verif.Props
