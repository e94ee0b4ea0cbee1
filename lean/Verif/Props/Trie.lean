/-
C01: wildcard entries match exactly the subdomain closure.
-/
import Verif.Lemmas.Domain

namespace Verif.Props
open Spec Trie

/-- C01.  Whatever keys were inserted (none starting with a dot), in whatever order: a query is
covered exactly if it is, or lies below, a non-empty inserted key. -/
theorem C01_trie_exact (keys : List Str) (hk : ∀ k ∈ keys, k.head? ≠ some '.') (q : Str) :
    hasParentOf (build keys) q = true ↔ ∃ k ∈ keys, k ≠ [] ∧ IsWithin q k := by
  rw [hasParentOf_build keys hk q]
  simp only [rl, List.reverse_prefix, IsWithin]

/-- C01, in terms of the written names: for plainly written names "covered" is "equal to a key or
ending in a dot and a key". -/
theorem C01_trie_exact_plain (keys : List Str) (hk : ∀ k ∈ keys, Plain k) (q : Str)
    (hq : Plain q) :
    hasParentOf (build keys) q = true ↔ ∃ k ∈ keys, q = k ∨ ∃ p, q = p ++ '.' :: k := by
  have hne : ∀ k ∈ keys, k ≠ [] := by
    intro k h he
    subst he
    exact hk _ h [] (by simp [splitChar]) rfl
  have hnl : ∀ k ∈ keys, k.head? ≠ some '.' := by
    intro k h he
    cases k with
    | nil => simp at he
    | cons c cs =>
      have : c = '.' := by simpa using he
      subst this
      exact hk _ h [] (by simp [splitChar]) rfl
  rw [C01_trie_exact keys hnl q]
  constructor
  · rintro ⟨k, h1, _, h2⟩
    exact ⟨k, h1, (isWithin_plain hq (hk k h1)).1 h2⟩
  · rintro ⟨k, h1, h2⟩
    exact ⟨k, h1, hne k h1, (isWithin_plain hq (hk k h1)).2 h2⟩

/-- C01: order and repetition of insertions do not matter. -/
theorem C01_trie_order_irrelevant (keys keys' : List Str) (hk : ∀ k ∈ keys, k.head? ≠ some '.')
    (hsame : ∀ k, k ∈ keys ↔ k ∈ keys') (q : Str) :
    hasParentOf (build keys) q = hasParentOf (build keys') q := by
  have hk' : ∀ k ∈ keys', k.head? ≠ some '.' := fun k h => hk k ((hsame k).2 h)
  rw [Bool.eq_iff_iff, C01_trie_exact keys hk, C01_trie_exact keys' hk']
  simp [hsame]

-- A concrete non-trivial case: path compression is split, a shorter key swallows a longer one.
example : (∀ k ∈ [str! "www.example.com", str! "ads.example.com", str! "example.org", str! "org"],
    k.head? ≠ some '.' ∧ Plain k) ∧ Plain (str! "a.ads.example.com") := by decide
example : hasParentOf (build [str! "www.example.com", str! "ads.example.com"])
    (str! "a.ads.example.com") = true := by
  rw [C01_trie_exact_plain _ (by decide) _ (by decide)]
  exact ⟨str! "ads.example.com", by decide, .inr ⟨str! "a", by decide⟩⟩
example : hasParentOf (build [str! "www.example.com", str! "ads.example.com"])
    (str! "example.com") = false := by
  rw [Bool.eq_false_iff, ne_eq, C01_trie_exact _ (by decide)]
  decide

/-- The hypothesis "no leading dot" is needed: the key `..com` covers `com` but not `a.com`.
(Not reachable from list files: `normalizeWildcard` strips the dots, see C03.) -/
theorem C01_leading_dot_counterexample :
    ¬ (∀ keys q, hasParentOf (build keys) q = true ↔ ∃ k ∈ keys, k ≠ [] ∧ IsWithin q k) := by
  intro h
  have h1 := (h [str! "..com"] (str! "a.com")).2 ⟨str! "..com", by decide, by decide, by decide⟩
  simp [build, Trie.insert, hasParentOf, terminalHasParentOf, terminalLoop, splitTLD, Trie.get,
    Trie.put] at h1

end Verif.Props
