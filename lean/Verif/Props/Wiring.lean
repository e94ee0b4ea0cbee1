/-
C52: linking of resolvers.
-/
import Verif.Model.Wiring

namespace Verif.Props
open Wiring

theorem chain_other (chained : Nat → Bool) (rs : List Nat) (l : Links) (x : Nat) (h : x ∉ rs) :
    chain chained rs l x = l x := by
  induction rs generalizing l with
  | nil => rfl
  | cons r rest ih =>
    cases rest with
    | nil => rfl
    | cons n rest =>
      rw [chain, ih _ (fun hm => h (List.mem_cons_of_mem _ hm))]
      split
      · unfold setNext
        rw [if_neg (fun e => h (by simp [e]))]
      · rfl

/-- The link set for a resolver. -/
theorem chain_link (chained : Nat → Bool) (pre : List Nat) (r n : Nat) (rest : List Nat) (l : Links)
    (hnd : (pre ++ r :: n :: rest).Nodup) (hc : chained r = true) : chain chained (pre ++ r :: n :: rest) l r = some n := by
  induction pre generalizing l with
  | nil =>
    rw [List.nil_append, chain, if_pos hc, chain_other]
    · simp [setNext]
    · exact (List.nodup_cons.1 hnd).1
  | cons p pre ih =>
    have hnd' := (List.nodup_cons.1 hnd).2
    cases pre with
    | nil => exact ih _ hnd'
    | cons p' pre => exact ih _ hnd'

/-- The last resolver keeps its link. -/
theorem chain_last (chained : Nat → Bool) (pre : List Nat) (r : Nat) (l : Links) (hnd : (pre ++ [r]).Nodup) :
    chain chained (pre ++ [r]) l r = l r := by
  induction pre generalizing l with
  | nil => rfl
  | cons p pre ih =>
    have hp : p ≠ r := by
      rintro rfl
      exact (List.nodup_cons.1 hnd).1 (by simp)
    have hnd' := (List.nodup_cons.1 hnd).2
    have hs : ∀ n, (if chained p = true then setNext l p n else l) r = l r := by
      intro n
      split
      · unfold setNext; rw [if_neg (Ne.symm hp)]
      · rfl
    cases pre with
    | nil => exact (ih _ hnd').trans (hs _)
    | cons p' pre => exact (ih _ hnd').trans (hs _)

/-- C52: after `Chain`, iterating visits the resolvers of the list in order, each once - if all but the last
can be linked and the last has no successor of its own. -/
theorem C52_visited_in_order (chained : Nat → Bool) (pre : List Nat) (last : Nat) (l : Links) (hnd : (pre ++ [last]).Nodup)
    (hc : ∀ r ∈ pre, chained r = true) (hl : chained last = false ∨ l last = none) (fuel : Nat) (hf : pre.length < fuel) :
    ∀ first, (pre ++ [last]).head? = some first →
      forEach chained (chain chained (pre ++ [last]) l) fuel first = pre ++ [last] := by
  have key : ∀ (done todo : List Nat) (fuel : Nat), pre = done ++ todo → todo.length < fuel →
      ∀ first, (todo ++ [last]).head? = some first →
      forEach chained (chain chained (pre ++ [last]) l) fuel first = todo ++ [last] := by
    intro done todo
    induction todo generalizing done with
    | nil =>
      intro fuel hp hf first hfirst
      cases hfirst
      cases fuel with
      | zero => exact absurd hf (by simp)
      | succ fuel =>
        rw [forEach]
        rcases hl with hl | hl
        · rw [hl]; rfl
        · rw [chain_last chained pre last l hnd, hl]
          split <;> rfl
    | cons r todo ih =>
      intro fuel hp hf first hfirst
      cases hfirst
      cases fuel with
      | zero => exact absurd hf (by simp)
      | succ fuel =>
        have hr : chained r = true := hc r (by rw [hp]; simp)
        have hlink : ∀ n rest, todo ++ [last] = n :: rest → chain chained (pre ++ [last]) l r = some n := by
          intro n rest he
          have e : pre ++ [last] = done ++ r :: n :: rest := by rw [hp, List.append_assoc, List.cons_append, he]
          rw [e]
          exact chain_link chained done r n rest l (by rw [← e]; exact hnd) hr
        rw [forEach, if_pos hr]
        cases ht : todo ++ [last] with
        | nil => simp at ht
        | cons n rest =>
          rw [hlink n rest ht]
          simp only
          have := ih (done ++ [r]) fuel (by rw [hp]; simp) (by simp at hf; omega) n (by rw [ht]; rfl)
          rw [this, List.cons_append, ht]
  intro first hfirst
  exact key [] pre fuel rfl hf first hfirst

/-- C52: looking up by type finds the first resolver of that type, and an error if there is none - among the
resolvers that can be linked: the last one is found only if it is the only one or can be linked itself. -/
theorem C52_lookup_partial (chained isT : Nat → Bool) (pre : List Nat) (last : Nat) (l : Links) (hnd : (pre ++ [last]).Nodup)
    (hc : ∀ r ∈ pre, chained r = true) (hl : l last = none) (fuel : Nat) (hf : pre.length < fuel) (hne : pre ≠ []) :
    ∀ first, (pre ++ [last]).head? = some first →
      getFromChain chained isT (chain chained (pre ++ [last]) l) fuel first =
        (pre ++ (if chained last then [last] else [])).find? isT := by
  have key : ∀ (done todo : List Nat) (fuel : Nat), pre = done ++ todo → todo.length < fuel → (todo = [] → chained last = true) →
      ∀ first, (todo ++ [last]).head? = some first →
      getFromChain chained isT (chain chained (pre ++ [last]) l) fuel first =
        (todo ++ (if chained last then [last] else [])).find? isT := by
    intro done todo
    induction todo generalizing done with
    | nil =>
      intro fuel hp hf hch first hfirst
      cases hfirst
      cases fuel with
      | zero => exact absurd hf (by simp)
      | succ fuel =>
        rw [getFromChain, chain_last chained pre last l hnd, hl, hch rfl]
        simp only [List.nil_append, if_true]
        cases ht : isT last <;> simp [ht]
    | cons r todo ih =>
      intro fuel hp hf hch first hfirst
      cases hfirst
      cases fuel with
      | zero => exact absurd hf (by simp)
      | succ fuel =>
        have hr : chained r = true := hc r (by rw [hp]; simp)
        rw [getFromChain, List.cons_append, List.find?_cons]
        cases ht : isT r with
        | true => simp
        | false =>
          simp only [Bool.false_eq_true, if_false]
          cases hn : todo ++ [last] with
          | nil => simp at hn
          | cons n rest =>
            have e : pre ++ [last] = done ++ r :: n :: rest := by rw [hp, List.append_assoc, List.cons_append, hn]
            have hlink : chain chained (pre ++ [last]) l r = some n := by
              rw [e]
              exact chain_link chained done r n rest l (by rw [← e]; exact hnd) hr
            rw [hlink]
            simp only
            by_cases hnc : chained n = true
            · rw [if_pos hnc]
              refine ih (done ++ [r]) fuel (by rw [hp]; simp) (by simp at hf; omega) ?_ n (by rw [hn]; rfl)
              rintro rfl
              cases hn
              exact hnc
            · rw [if_neg hnc]
              cases todo with
              | nil =>
                cases hn
                simp [hnc]
              | cons r' todo =>
                cases hn
                exact absurd (hc n (by rw [hp]; simp)) hnc
  intro first hfirst
  exact key [] pre fuel rfl hf (fun h => absurd h hne) first hfirst

/-- C52: found exactly if present, for the types that can be linked (as those asked for: blocking, list
refreshing, caching). -/
theorem C52_found_iff (chained isT : Nat → Bool) (pre : List Nat) (last : Nat) (l : Links) (hnd : (pre ++ [last]).Nodup)
    (hc : ∀ r ∈ pre, chained r = true) (hl : l last = none) (hT : ∀ r, isT r = true → chained r = true) (hne : pre ≠ [])
    (first : Nat) (hfirst : (pre ++ [last]).head? = some first) (r : Nat) :
    ((∃ r, getFromChain chained isT (chain chained (pre ++ [last]) l) (pre.length + 1) first = some r) ↔
      ∃ r ∈ pre ++ [last], isT r = true) ∧
    (getFromChain chained isT (chain chained (pre ++ [last]) l) (pre.length + 1) first = some r →
      isT r = true ∧ r ∈ pre ++ [last]) := by
  rw [C52_lookup_partial chained isT pre last l hnd hc hl (pre.length + 1) (by omega) hne first hfirst]
  constructor
  · constructor
    · rintro ⟨r, h⟩
      have := List.mem_of_find?_eq_some h
      refine ⟨r, ?_, List.find?_some h⟩
      rcases List.mem_append.1 this with h | h
      · exact List.mem_append_left _ h
      · split at h
        · exact List.mem_append_right _ h
        · cases h
    · rintro ⟨r, hm, ht⟩
      have hm' : r ∈ pre ++ (if chained last then [last] else []) := by
        rcases List.mem_append.1 hm with h | h
        · exact List.mem_append_left _ h
        · simp only [List.mem_cons, List.not_mem_nil, or_false] at h
          subst h
          rw [if_pos (hT r ht)]
          simp
      cases hx : List.find? isT (pre ++ (if chained last then [last] else [])) with
      | some x => exact ⟨x, rfl⟩
      | none => exact absurd ht (List.find?_eq_none.1 hx r hm')
  · intro h
    refine ⟨List.find?_some h, ?_⟩
    have := List.mem_of_find?_eq_some h
    rcases List.mem_append.1 this with h | h
    · exact List.mem_append_left _ h
    · split at h
      · exact List.mem_append_right _ h
      · cases h

/-- The 14 resolvers of server.go 315-330, the last (the upstreams) not linkable. -/
example : forEach (fun r => r != 13) (chain (fun r => r != 13) [0,1,2,3,4,5,6,7,8,9,10,11,12,13] (fun _ => none)) 14 0 =
    [0,1,2,3,4,5,6,7,8,9,10,11,12,13] ∧
    getFromChain (fun r => r != 13) (fun r => r == 9) (chain (fun r => r != 13) [0,1,2,3,4,5,6,7,8,9,10,11,12,13] (fun _ => none)) 14 0 = some 9 := by
  decide

/-- C52 is false for the last resolver: it is in the chain, but looking it up by its type fails. -/
theorem C52_last_not_found :
    getFromChain (fun r => r != 13) (fun r => r == 13) (chain (fun r => r != 13) [0,1,2,3,4,5,6,7,8,9,10,11,12,13] (fun _ => none)) 14 0 = none := by
  decide

end Verif.Props
