/-
C70, passwords with escapes: what is taken for the password, what is hidden and what is logged.
-/
import Verif.Props.LogSecrets

namespace Verif.Props
open ConfigText Url

/-- The digits of escapes and their values. -/
def escapeDigits : List (Char × Nat) :=
  [('0', 0), ('1', 1), ('2', 2), ('3', 3), ('4', 4), ('5', 5), ('6', 6), ('7', 7), ('8', 8), ('9', 9),
   ('a', 10), ('b', 11), ('c', 12), ('d', 13), ('e', 14), ('f', 15),
   ('A', 10), ('B', 11), ('C', 12), ('D', 13), ('E', 14), ('F', 15)]

/-- A text as it is written in a URL, and what it means: plain characters, and `%` with two digits for any byte. -/
inductive SecretText : Str → Str → Prop where
  | nil : SecretText [] []
  | plain (c : Char) (w m : Str) : PlainSecret c → SecretText w m → SecretText (c :: w) (c :: m)
  | escaped (h l : Char) (a b : Nat) (w m : Str) : (h, a) ∈ escapeDigits → (l, b) ∈ escapeDigits → SecretText w m →
      SecretText ('%' :: h :: l :: w) (Char.ofNat (16 * a + b) :: m)

theorem escapeDigits_hex {c : Char} {n : Nat} (h : (c, n) ∈ escapeDigits) :
    isHex c = true ∧ unhex c = n ∧ (isLetter c || isDigit c) = true := by
  have key : ∀ p ∈ escapeDigits, isHex p.1 = true ∧ unhex p.1 = p.2 ∧ (isLetter p.1 || isDigit p.1) = true := by
    decide +kernel
  exact key _ h

theorem SecretText.unescape {w m : Str} (h : SecretText w m) : Url.unescape w = some m := by
  induction h with
  | nil => rfl
  | plain c w m hc _ ih =>
    have hp : c ≠ '%' := plainSecret_ne hc (by decide) (by decide)
    unfold Url.unescape
    split
    · rename_i heq; simp at heq
    · rename_i heq
      simp only [List.cons.injEq] at heq
      exact absurd heq.1 hp
    · rename_i c' cs' _ heq
      simp only [List.cons.injEq] at heq
      obtain ⟨rfl, rfl⟩ := heq
      rw [if_neg hp, ih]
  | escaped h l a b w m hh hl _ ih =>
    obtain ⟨h1, h2, _⟩ := escapeDigits_hex hh
    obtain ⟨l1, l2, _⟩ := escapeDigits_hex hl
    rw [Url.unescape]
    simp only [h1, l1, Bool.and_self, if_true, ih, h2, l2, Nat.mul_comm a 16]

theorem SecretText.chars {w m : Str} (h : SecretText w m) : ∀ c ∈ w, PlainSecret c ∨ c = '%' := by
  induction h with
  | nil => simp
  | plain c w m hc _ ih =>
    intro d hd
    rcases List.mem_cons.1 hd with rfl | hd
    · exact .inl hc
    · exact ih d hd
  | escaped h l a b w m hh hl _ ih =>
    intro d hd
    simp only [List.mem_cons] at hd
    rcases hd with rfl | rfl | rfl | hd
    · exact .inr rfl
    · exact .inl (.inl ((plainAlnum_iff _).2 (escapeDigits_hex hh).2.2))
    · exact .inl (.inl ((plainAlnum_iff _).2 (escapeDigits_hex hl).2.2))
    · exact ih d hd

/-- A host name, an IPv4 address, or an IPv6 address in brackets. -/
def TargetHost (host : Str) : Prop :=
  (∀ c ∈ host, PlainHost c) ∨ ∃ a, host = '[' :: (a ++ [']']) ∧ ∀ c ∈ a, PlainHost c ∨ c = ':'

theorem targetHost_parse {host port : Str} (hh : TargetHost host) (hp : PlainPort port) :
    parseHost (host ++ port) = true := by
  rcases hh with hh | ⟨a, rfl, ha⟩
  · exact parseHost_plain host port hh hp
  · have hport : ∀ c ∈ port, isHostChar c = true ∧ c ≠ ']' := by
      intro c hc
      rcases hp with rfl | ⟨ds, rfl, hd⟩
      · simp at hc
      · rcases List.mem_cons.1 hc with rfl | hc
        · decide
        · exact ⟨plainHost_hostChar (digit_plain (hd c hc)),
            plainHost_ne (digit_plain (hd c hc)) (by decide) (by decide)⟩
    have hok : hostOK ('[' :: (a ++ [']']) ++ port) = true := by
      apply hostOK_plain
      intro c hc
      simp only [List.cons_append, List.mem_cons, List.mem_append, List.not_mem_nil, or_false] at hc
      rcases hc with rfl | (hc | rfl) | hc
      · decide
      · rcases ha c hc with h | rfl
        · exact plainHost_hostChar h
        · decide
      · decide
      · exact (hport c hc).1
    have e : '[' :: (a ++ [']']) ++ port = ('[' :: a) ++ ']' :: port := by simp
    rw [e] at hok ⊢
    unfold parseHost
    rw [List.cons_append]
    simp only
    rw [← List.cons_append, cutLast_append _ _ (fun h => (hport _ h).2 rfl)]
    simp only [hok, Bool.and_true]
    rcases hp with rfl | ⟨ds, rfl, hd⟩
    · rfl
    · simp only [validOptionalPort, beq_self_eq_true, Bool.true_and, List.all_eq_true]
      exact fun c hc => isDigit_of (hd c hc)

theorem targetHost_chars {host port : Str} (hh : TargetHost host) (hp : PlainPort port) :
    ∀ c ∈ host ++ port, AuthorityChar c ∧ c ≠ '@' := by
  have colon : AuthorityChar ':' ∧ ':' ≠ '@' :=
    ⟨⟨by decide, by decide, by decide, by decide, by decide⟩, by decide⟩
  have plain : ∀ c, PlainHost c → AuthorityChar c ∧ c ≠ '@' :=
    fun c h => ⟨plainHost_authority h, plainHost_ne h (by decide) (by decide)⟩
  intro c hc
  rcases List.mem_append.1 hc with hc | hc
  · rcases hh with hh | ⟨a, rfl, ha⟩
    · exact plain c (hh c hc)
    · simp only [List.mem_cons, List.mem_append, List.not_mem_nil, or_false] at hc
      rcases hc with rfl | hc | rfl
      · exact ⟨⟨by decide, by decide, by decide, by decide, by decide⟩, by decide⟩
      · rcases ha c hc with h | rfl
        · exact plain c h
        · exact colon
      · exact ⟨⟨by decide, by decide, by decide, by decide, by decide⟩, by decide⟩
  · rcases hp with rfl | ⟨ds, rfl, hd⟩
    · simp at hc
    · rcases List.mem_cons.1 hc with rfl | hc
      · exact colon
      · exact plain c (digit_plain (hd c hc))

theorem secret_userinfo {c : Char} (h : PlainSecret c ∨ c = '%') : isUserinfoChar c = true := by
  rcases h with h | rfl
  · exact plainSecret_userinfo h
  · decide

theorem secret_authority {c : Char} (h : PlainSecret c ∨ c = '%') : AuthorityChar c := by
  rcases h with h | rfl
  · exact plainSecret_authority h
  · exact ⟨by decide, by decide, by decide, by decide, by decide⟩

/-- A target of the query log: how user and password are written in it (`user`, `pw`) and what they are (`u`, `p`). -/
structure EncodedTarget (scheme user u pw p host port tail fragment target : Str) : Prop where
  userOK : SecretText user u
  pwOK : SecretText pw p
  hostOK : TargetHost host
  portOK : PlainPort port
  tailOK : PlainTail tail
  fragmentOK : PlainFragment fragment
  text : (PlainScheme scheme ∧
      target = scheme ++ str! "://" ++ (user ++ ':' :: pw ++ '@' :: (host ++ port) ++ tail) ++ fragment) ∨
    (target = (user ++ ':' :: pw ++ '@' :: (host ++ port) ++ tail) ++ fragment ∧ ¬ str! "://" <:+: target)

theorem EncodedTarget.parse (type : LogType) {scheme user u pw p host port tail fragment target : Str}
    (h : EncodedTarget scheme user u pw p host port tail fragment target) :
    Url.parse (withScheme type target) = some (some (u, some p)) := by
  have hau : ∀ c ∈ user ++ ':' :: pw ++ '@' :: (host ++ port), AuthorityChar c := by
    intro c hc
    rcases List.mem_append.1 hc with hc | hc
    · rcases List.mem_append.1 hc with hc | hc
      · exact secret_authority (h.userOK.chars c hc)
      · rcases List.mem_cons.1 hc with rfl | hc
        · exact ⟨by decide, by decide, by decide, by decide, by decide⟩
        · exact secret_authority (h.pwOK.chars c hc)
    · rcases List.mem_cons.1 hc with rfl | hc
      · exact ⟨by decide, by decide, by decide, by decide, by decide⟩
      · exact (targetHost_chars h.hostOK h.portOK c hc).1
  have hpa : parseAuthority (user ++ ':' :: pw ++ '@' :: (host ++ port)) = some (some (u, some p)) := by
    unfold parseAuthority
    rw [cutLast_append _ _ (fun hm => (targetHost_chars h.hostOK h.portOK _ hm).2 rfl)]
    simp only [targetHost_parse h.hostOK h.portOK, Bool.not_true, Bool.false_eq_true, if_false]
    have hall : (user ++ ':' :: pw).all isUserinfoChar = true := by
      rw [List.all_eq_true]
      intro c hc
      rcases List.mem_append.1 hc with hc | hc
      · exact secret_userinfo (h.userOK.chars c hc)
      · rcases List.mem_cons.1 hc with rfl | hc
        · decide
        · exact secret_userinfo (h.pwOK.chars c hc)
    rw [hall]
    simp only [Bool.not_true, Bool.false_eq_true, if_false]
    rw [cutFirst_append user pw (by
      intro hm
      rcases h.userOK.chars _ hm with hc | hc
      · exact plainSecret_ne hc (d := ':') (by decide) (by decide) rfl
      · exact absurd hc (by decide))]
    simp only [h.userOK.unescape, h.pwOK.unescape]
  rcases h.text with ⟨hs, ht⟩ | ⟨ht, hno⟩
  · have : Url.contains (str! "://") target = true := by
      rw [contains_iff, ht]
      exact ⟨scheme, _, by simp only [List.append_assoc]; rfl⟩
    rw [withScheme, if_pos this, ht, parse_fragment _ _ _ _ hs hau h.tailOK h.fragmentOK, hpa]
  · have : ¬ Url.contains (str! "://") target = true := by rw [contains_iff]; exact hno
    rw [withScheme, if_neg this, ht, ← List.append_assoc,
      parse_fragment _ _ _ _ (logType_scheme type) hau h.tailOK h.fragmentOK, hpa]

/-- **C70.** The password itself - with all escapes undone - is not in the text that is logged; hosts may be IPv6
addresses. -/
theorem C70_decoded_hidden (type : LogType) {scheme user u pw p host port tail fragment target : Str}
    (h : EncodedTarget scheme user u pw p host port tail fragment target) (hne : p ≠ []) (hstar : '*' ∉ p) :
    ¬ p <:+: censoredTarget type target := by
  unfold censoredTarget
  rw [h.parse type]
  exact replaceAll_gone hne hstar target

theorem replaceFrom_absent {old new : Str} (s : Str) (h : ¬ old <:+: s) : replaceFrom old new 0 s = s := by
  induction s with
  | nil => rfl
  | cons c cs ih =>
    rw [replaceFrom, if_neg, ih (fun hm => h (hm.trans (List.suffix_cons c cs).isInfix))]
    intro hp
    exact h (List.isPrefixOf_iff_prefix.1 hp).isInfix

/-- **C70 fails for every password with escapes** that does not happen to occur undone somewhere else in the target: the
target is logged as it is, with the password as it is written there. -/
theorem C70_encoded_logged (type : LogType) {scheme user u pw p host port tail fragment target : Str}
    (h : EncodedTarget scheme user u pw p host port tail fragment target) (hp : ¬ p <:+: target) :
    censoredTarget type target = target ∧ pw <:+: censoredTarget type target := by
  have e : censoredTarget type target = target := by
    unfold censoredTarget
    rw [h.parse type]
    simp only [replaceAll]
    rw [if_neg (by rintro rfl; exact hp (List.nil_infix))]
    exact replaceFrom_absent target hp
  refine ⟨e, ?_⟩
  rw [e]
  rcases h.text with ⟨_, ht⟩ | ⟨ht, _⟩
  · exact ⟨scheme ++ str! "://" ++ user ++ [':'], '@' :: (host ++ port) ++ tail ++ fragment, by rw [ht]; simp⟩
  · exact ⟨user ++ [':'], '@' :: (host ++ port) ++ tail ++ fragment, by rw [ht]; simp⟩

/-- An IPv6 host, and a password with all kinds of escapes. -/
example : EncodedTarget (str! "postgres") (str! "us%65r") (str! "user") (str! "p%40%2Fs%aF") (str! "p@/s" ++ [Char.ofNat 0xaf])
      (str! "[fe80::1]") (str! ":5432") (str! "/log") [] (str! "postgres://us%65r:p%40%2Fs%aF@[fe80::1]:5432/log") ∧
    ¬ (str! "p@/s" ++ [Char.ofNat 0xaf]) <:+: (str! "postgres://us%65r:p%40%2Fs%aF@[fe80::1]:5432/log") := by
  have pl : ∀ c, (isLetter c || isDigit c) = true → PlainSecret c := fun c h => .inl ((plainAlnum_iff c).2 h)
  have ph : ∀ c, (isLetter c || isDigit c) = true → PlainHost c := fun c h => .inl ((plainAlnum_iff c).2 h)
  refine ⟨⟨?_, ?_, .inr ⟨str! "fe80::1", rfl, ?_⟩, .inr ⟨str! "5432", rfl, by decide⟩, ⟨.inr ⟨_, .inl rfl⟩, by decide⟩,
    .inl rfl, .inl ⟨⟨'p', str! "ostgres", rfl, .inl (by decide), ?_⟩, rfl⟩⟩, by decide⟩
  · exact .plain _ _ _ (pl _ (by decide)) (.plain _ _ _ (pl _ (by decide))
      (.escaped '6' '5' 6 5 _ _ (by decide) (by decide) (.plain _ _ _ (pl _ (by decide)) .nil)))
  · exact .plain _ _ _ (pl _ (by decide)) (.escaped '4' '0' 4 0 _ _ (by decide) (by decide)
      (.escaped '2' 'F' 2 15 _ _ (by decide) (by decide) (.plain _ _ _ (pl _ (by decide))
      (.escaped 'a' 'F' 10 15 _ _ (by decide) (by decide) .nil))))
  · intro c hc
    simp only [List.mem_cons, List.not_mem_nil, or_false] at hc
    rcases hc with rfl | rfl | rfl | rfl | rfl | rfl | rfl
    all_goals first | exact .inr rfl | exact .inl (ph _ (by decide))
  · intro d hd
    left
    rw [plainAlnum_iff]
    revert d
    decide

end Verif.Props
