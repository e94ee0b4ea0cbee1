/-
Lemmas about the EDNS0 helpers.
-/
import Verif.Model.Edns

namespace Verif.Dns

/-- The records of a section other than OPT records. -/
def plainRecords (rs : List RR) : List RR := rs.filter (fun r => !r.isOpt)

/-- Number of OPT records. -/
def optCount (rs : List RR) : Nat := (rs.filter (fun r => r.isOpt)).length

theorem lastOpt_none_iff {rs : List RR} : lastOpt rs = none ↔ ∀ r ∈ rs, r.isOpt = false := by
  induction rs with
  | nil => simp [lastOpt]
  | cons r rs ih =>
    simp only [lastOpt, List.mem_cons, forall_eq_or_imp]
    cases h : lastOpt rs with
    | some o =>
      rw [h] at ih
      simp only [reduceCtorEq, false_iff] at ih
      simp only [reduceCtorEq, false_iff]
      exact fun hh => ih hh.2
    | none =>
      have := ih.1 h
      cases hd : r.data <;> simp [RR.isOpt, hd]
      all_goals simpa [RR.isOpt] using this

theorem lastOpt_update (f : List EOption → List EOption) (rs : List RR) :
    lastOpt (updateLastOpt f rs) = (lastOpt rs).map f := by
  induction rs with
  | nil => rfl
  | cons r rs ih =>
    simp only [updateLastOpt]
    cases h : lastOpt rs with
    | some o =>
      simp only [Option.isSome_some, if_true, lastOpt, ih, h, Option.map_some]
    | none =>
      simp only [Option.isSome_none, Bool.false_eq_true, if_false]
      cases hd : r.data <;> simp [lastOpt, h, hd]

theorem lastOpt_snoc_opt (rs : List RR) (r : RR) (os : List EOption) (h : r.data = .opt os) :
    lastOpt (rs ++ [r]) = some os := by
  induction rs with
  | nil => simp [lastOpt, h]
  | cons x rs ih => simp [lastOpt, ih]

theorem plainRecords_update (f : List EOption → List EOption) (rs : List RR) :
    plainRecords (updateLastOpt f rs) = plainRecords rs := by
  induction rs with
  | nil => rfl
  | cons r rs ih =>
    simp only [updateLastOpt]
    split
    · simp only [plainRecords, List.filter_cons] at *
      rw [ih]
    · cases hd : r.data <;> simp [plainRecords, RR.isOpt, hd]

theorem plainRecords_dropFirst (rs : List RR) : plainRecords (dropFirstOpt rs) = plainRecords rs := by
  induction rs with
  | nil => rfl
  | cons r rs ih =>
    simp only [dropFirstOpt]
    split
    · next h => simp [plainRecords, h]
    · next h =>
      simp only [plainRecords, List.filter_cons] at *
      rw [ih]

theorem optCount_cons (r : RR) (rs : List RR) :
    optCount (r :: rs) = (if r.isOpt then 1 else 0) + optCount rs := by
  cases h : r.isOpt <;> simp [optCount, h, Nat.add_comm]

theorem optCount_zero_iff {rs : List RR} : optCount rs = 0 ↔ lastOpt rs = none := by
  rw [lastOpt_none_iff, optCount, List.length_eq_zero_iff, List.filter_eq_nil_iff]
  simp

theorem lastOpt_dropFirst_single {rs : List RR} (h : optCount rs ≤ 1) :
    lastOpt (dropFirstOpt rs) = none := by
  induction rs with
  | nil => rfl
  | cons r rs ih =>
    rw [optCount_cons] at h
    simp only [dropFirstOpt]
    cases hr : r.isOpt with
    | true =>
      simp only [hr, if_true] at h ⊢
      exact optCount_zero_iff.1 (by omega)
    | false =>
      simp only [hr, Bool.false_eq_true, if_false, Nat.zero_add] at h ⊢
      have := ih h
      rw [lastOpt, this]
      cases hd : r.data <;> simp_all [RR.isOpt]

theorem lastOpt_isSome_count {rs : List RR} (h : (lastOpt rs).isSome) : 1 ≤ optCount rs := by
  rcases Nat.eq_zero_or_pos (optCount rs) with h0 | h0
  · rw [optCount_zero_iff.1 h0] at h; simp at h
  · exact h0

/-- Dropping the first of several OPT records does not change the last one. -/
theorem lastOpt_dropFirst_many {rs : List RR} (h : 2 ≤ optCount rs) :
    lastOpt (dropFirstOpt rs) = lastOpt rs := by
  induction rs with
  | nil => rfl
  | cons r rs ih =>
    rw [optCount_cons] at h
    simp only [dropFirstOpt]
    cases hr : r.isOpt with
    | true =>
      simp only [hr, if_true] at h ⊢
      cases hl : lastOpt rs with
      | none => rw [optCount_zero_iff.2 hl] at h; omega
      | some o => simp [lastOpt, hl]
    | false =>
      simp only [hr, Bool.false_eq_true, if_false, Nat.zero_add] at h ⊢
      simp [lastOpt, ih h]

theorem optCount_update (f : List EOption → List EOption) (rs : List RR) :
    optCount (updateLastOpt f rs) = optCount rs := by
  induction rs with
  | nil => rfl
  | cons r rs ih =>
    simp only [updateLastOpt]
    split
    · rw [optCount_cons, optCount_cons, ih]
    · cases hd : r.data <;> simp [optCount_cons, RR.isOpt, hd]

theorem find_filter_append_self (os : List EOption) (o : EOption) :
    (os.filter (fun x => x.code ≠ o.code) ++ [o]).find? (fun x => x.code == o.code) = some o := by
  rw [List.find?_append]
  have : (os.filter (fun x => x.code ≠ o.code)).find? (fun x => x.code == o.code) = none := by
    rw [List.find?_eq_none]
    intro x hx
    simp only [List.mem_filter] at hx
    simpa using hx.2
  rw [this]
  simp

theorem find_filter_append_ne (os : List EOption) (o : EOption) {c : Nat} (h : c ≠ o.code) :
    (os.filter (fun x => x.code ≠ o.code) ++ [o]).find? (fun x => x.code == c) =
      os.find? (fun x => x.code == c) := by
  rw [List.find?_append]
  have h1 : [o].find? (fun x => x.code == c) = none := by
    simp [Ne.symm h]
  rw [h1, Option.or_none]
  induction os with
  | nil => rfl
  | cons x os ih =>
    by_cases hx : x.code = o.code
    · rw [List.filter_cons_of_neg (by simpa using hx), ih, List.find?_cons_of_neg]
      rw [hx]; simpa using Ne.symm h
    · rw [List.filter_cons_of_pos (by simpa using hx)]
      by_cases hc : x.code = c
      · simp [hc]
      · rw [List.find?_cons_of_neg (by simpa using hc), List.find?_cons_of_neg (by simpa using hc),
          ih]

theorem find_dropFirstCode_ne (os : List EOption) {c d : Nat} (h : d ≠ c) :
    (dropFirstCode c os).find? (fun x => x.code == d) = os.find? (fun x => x.code == d) := by
  induction os with
  | nil => rfl
  | cons x os ih =>
    simp only [dropFirstCode]
    split
    · next hx =>
      rw [List.find?_cons_of_neg (by rw [hx]; simpa using Ne.symm h)]
    · by_cases hd : x.code = d
      · simp [hd]
      · rw [List.find?_cons_of_neg (by simpa using hd), List.find?_cons_of_neg (by simpa using hd), ih]

theorem find_dropFirstCode_self (os : List EOption) {c : Nat}
    (h : (os.filter (fun x => x.code == c)).length ≤ 1) :
    (dropFirstCode c os).find? (fun x => x.code == c) = none := by
  induction os with
  | nil => rfl
  | cons x os ih =>
    simp only [dropFirstCode]
    split
    · next hx =>
      rw [List.filter_cons_of_pos (by simpa using hx), List.length_cons] at h
      have : os.filter (fun x => x.code == c) = [] := List.length_eq_zero_iff.1 (by omega)
      rw [List.find?_eq_none]
      exact List.filter_eq_nil_iff.1 this
    · next hx =>
      rw [List.filter_cons_of_neg (by simpa using hx)] at h
      rw [List.find?_cons_of_neg (by simpa using hx)]
      exact ih h

end Verif.Dns
