/-
Lemmas about TTL arithmetic.
-/
import Verif.Model.Caching

namespace Verif.Caching
open Dns ExpCache

theorem toNat_min (a b : UInt32) : (min a b).toNat = min a.toNat b.toNat := by
  rw [show min a b = if a ≤ b then a else b from rfl]
  split
  · next h => have := UInt32.le_iff_toNat_le.1 h; omega
  · next h => have : ¬ a.toNat ≤ b.toNat := fun h' => h (UInt32.le_iff_toNat_le.2 h'); omega

theorem toNat_foldl_min (l : List RR) (a : UInt32) :
    (l.foldl (fun m r => min m r.ttl) a).toNat = l.foldl (fun m r => min m r.ttl.toNat) a.toNat := by
  induction l generalizing a with
  | nil => rfl
  | cons r l ih => rw [List.foldl_cons, List.foldl_cons, ih, toNat_min]

theorem foldl_min_le_init (l : List RR) (a : Nat) :
    l.foldl (fun m r => min m r.ttl.toNat) a ≤ a := by
  induction l generalizing a with
  | nil => exact Nat.le_refl _
  | cons r l ih =>
    rw [List.foldl_cons]
    have := ih (min a r.ttl.toNat)
    omega

theorem foldl_min_le {l : List RR} (a : Nat) {r : RR} (h : r ∈ l) :
    l.foldl (fun m r => min m r.ttl.toNat) a ≤ r.ttl.toNat := by
  induction l generalizing a with
  | nil => simp at h
  | cons x l ih =>
    rw [List.foldl_cons]
    rcases List.mem_cons.1 h with rfl | h
    · have := foldl_min_le_init l (min a r.ttl.toNat)
      omega
    · exact ih _ h

theorem foldl_min_attained {l : List RR} (a : Nat) :
    l.foldl (fun m r => min m r.ttl.toNat) a = a ∨
    ∃ r ∈ l, l.foldl (fun m r => min m r.ttl.toNat) a = r.ttl.toNat := by
  induction l generalizing a with
  | nil => exact .inl rfl
  | cons x l ih =>
    rw [List.foldl_cons]
    rcases ih (min a x.ttl.toNat) with h | ⟨r, hr, h⟩
    · rcases Nat.le_total a x.ttl.toNat with h' | h'
      · left; rw [h]; omega
      · right; exact ⟨x, by simp, by rw [h]; omega⟩
    · exact .inr ⟨r, by simp [hr], h⟩

theorem minTTL_toNat (l : List RR) :
    (minTTL l).toNat = l.foldl (fun m r => min m r.ttl.toNat) 2147483647 := by
  rw [minTTL, toNat_foldl_min]; rfl

theorem minTTL_le {l : List RR} {r : RR} (h : r ∈ l) : (minTTL l).toNat ≤ r.ttl.toNat := by
  rw [minTTL_toNat]; exact foldl_min_le _ h

theorem minTTL_le_max (l : List RR) : (minTTL l).toNat ≤ 2147483647 := by
  rw [minTTL_toNat]; exact foldl_min_le_init _ _

theorem minTTL_attained (l : List RR) :
    (minTTL l).toNat = 2147483647 ∨ ∃ r ∈ l, (minTTL l).toNat = r.ttl.toNat := by
  rw [minTTL_toNat]; exact foldl_min_attained _

theorem secondsU32_toNat {ns : Int} (h : ns / 1000000000 < 4294967296) :
    (secondsU32 ns).toNat = (ns / 1000000000).toNat := by
  rw [secondsU32, UInt32.toNat_ofNat']
  apply Nat.mod_eq_of_lt
  have : (ns / 1000000000).toNat < 4294967296 := by omega
  exact this

theorem adjustTTLs_answer (c : Cfg) (l : List RR) :
    (adjustTTLs c l).1 = l.map (fun r => { r with ttl := clampTTL c r.ttl }) := by
  unfold adjustTTLs
  split
  · next h => rw [List.isEmpty_iff] at h; subst h; rfl
  · rfl

theorem adjustTTLs_ttl (c : Cfg) {l : List RR} (h : l ≠ []) :
    (adjustTTLs c l).2 = (minTTL (adjustTTLs c l).1).toNat * 1000000000 := by
  unfold adjustTTLs
  rw [if_neg (by simpa using h)]

end Verif.Caching
