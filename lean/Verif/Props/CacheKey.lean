/-
C08: cache keys of different questions never collide.
-/
import Verif.Model.Caching

namespace Verif.Props
open Caching Dns

/-- A fully qualified name: it ends with the root dot, as every name in a decoded DNS message. -/
def IsFqdn (n : Str) : Prop := ∃ s, n = s ++ ['.']

theorem byteChar {n : Nat} (h : n < 256) : (Char.ofNat n).toNat = n :=
  ofNat_toNat (Or.inl (by omega))

/-- **C08 (recoverable).** Type and (lower-cased) name can be read back from a key. -/
theorem C08_key_roundtrip (t : Nat) (ht : t < 65536) (n : Str) :
    extractKey (cacheKey t n) = some (t, lower n) := by
  simp only [cacheKey, extractKey, Option.some.injEq, Prod.mk.injEq, and_true]
  rw [byteChar (Nat.mod_lt _ (by decide)), byteChar (Nat.mod_lt _ (by decide))]
  omega

theorem trimSuffixDot_snoc (s : Str) : trimSuffixDot (s ++ ['.']) = s := by
  simp [trimSuffixDot]

theorem extractDomain_fqdn (s : Str) : extractDomain (s ++ ['.']) = lower s := by
  have : lower (s ++ ['.']) = lower s ++ ['.'] := by rw [lower_append]; rfl
  rw [extractDomain, this, trimSuffixDot_snoc]

theorem lower_trimSuffixDot (s : Str) : lower (trimSuffixDot s) = trimSuffixDot (lower s) := by
  rcases List.eq_nil_or_concat s with rfl | ⟨i, c, rfl⟩
  · rfl
  · rw [List.concat_eq_append, lower_append]
    by_cases hc : c = '.'
    · subst hc
      rw [trimSuffixDot_snoc, show lower ['.'] = ['.'] from rfl, trimSuffixDot_snoc]
    · have hl : lowerChar c ≠ '.' := fun h => hc ((lowerChar_dot_iff c).1 h)
      have h1 : trimSuffixDot (i ++ [c]) = i ++ [c] := by
        unfold trimSuffixDot
        rw [List.getLast?_append]
        simp only [List.getLast?_singleton, Option.some_or]
        split
        · next h => exact absurd (Option.some.inj h) hc
        · rfl
      have h2 : trimSuffixDot (lower i ++ lower [c]) = lower i ++ lower [c] := by
        unfold trimSuffixDot
        rw [List.getLast?_append]
        simp only [lower_cons, lower_nil, List.getLast?_singleton, Option.some_or]
        split
        · next h => exact absurd (Option.some.inj h) hl
        · rfl
      rw [h1, h2, lower_append]

/-- **C08 (no collisions, any names).** Two keys are equal exactly if type and name are, where case
and one final dot of the name do not matter. -/
theorem C08_key_iff (q q' : Question) (ht : q.qtype < 65536) (ht' : q'.qtype < 65536) :
    questionKey q = questionKey q' ↔
      q.qtype = q'.qtype ∧ lower (trimSuffixDot q.name) = lower (trimSuffixDot q'.name) := by
  constructor
  · intro h
    have h1 := C08_key_roundtrip q.qtype ht (extractDomain q.name)
    have h2 := C08_key_roundtrip q'.qtype ht' (extractDomain q'.name)
    unfold questionKey at h
    rw [h, h2] at h1
    simp only [Option.some.injEq, Prod.mk.injEq, extractDomain, lower_trimSuffixDot, lower_idem] at h1
    refine ⟨h1.1.symm, ?_⟩
    rw [lower_trimSuffixDot, lower_trimSuffixDot, h1.2]
  · rintro ⟨h1, h2⟩
    rw [lower_trimSuffixDot, lower_trimSuffixDot] at h2
    simp only [questionKey, extractDomain, h1, h2]

/-- **C08 (no collisions).** For the fully qualified names of DNS messages: two questions share a
key exactly if they ask for the same type and the same name ignoring case. -/
theorem C08_share_iff (q q' : Question) (ht : q.qtype < 65536) (ht' : q'.qtype < 65536)
    (hn : IsFqdn q.name) (hn' : IsFqdn q'.name) :
    questionKey q = questionKey q' ↔ q.qtype = q'.qtype ∧ lower q.name = lower q'.name := by
  rw [C08_key_iff q q' ht ht']
  obtain ⟨s, hs⟩ := hn
  obtain ⟨s', hs'⟩ := hn'
  rw [hs, hs', trimSuffixDot_snoc, trimSuffixDot_snoc, lower_append, lower_append]
  constructor
  · rintro ⟨h1, h2⟩; exact ⟨h1, by rw [h2]⟩
  · rintro ⟨h1, h2⟩; exact ⟨h1, List.append_cancel_right h2⟩

/-- The key of a question gives back exactly its type and domain. -/
theorem C08_question_roundtrip (q : Question) (ht : q.qtype < 65536) :
    extractKey (questionKey q) = some (q.qtype, extractDomain q.name) := by
  rw [questionKey, C08_key_roundtrip _ ht, extractDomain, ← lower_trimSuffixDot, lower_idem]

example : questionKey ⟨str! "Ads.Example.", 28, 1⟩ = questionKey ⟨str! "aDS.example.", 28, 1⟩ ∧
    questionKey ⟨str! "ads.example.", 28, 1⟩ ≠ questionKey ⟨str! "ads.example.", 1, 1⟩ := by decide

example : extractKey (questionKey ⟨str! "Ads.", 65280, 1⟩) = some (65280, str! "ads") := by decide

end Verif.Props
