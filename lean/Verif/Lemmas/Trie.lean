import Verif.Model.Trie
import Verif.Spec.Domain

namespace Verif.Trie
open Spec

/-- Labels from the right. -/
def rl (s : Str) : List Str := (labels s).reverse

/-- Not starting with a dot. -/
def NoLead (s : Str) : Prop := s.head? ≠ some '.'

theorem splitChar_append_sep' (sep : Char) (s t : Str) :
    splitChar sep (s ++ sep :: t) = splitChar sep s ++ splitChar sep t := by
  induction s with
  | nil => simp [splitChar]
  | cons c cs ih =>
    simp only [List.cons_append]
    rw [splitChar, splitChar, ih]
    split
    · rfl
    · cases h : splitChar sep cs with
      | nil => exact absurd h (splitChar_ne_nil sep cs)
      | cons p ps => simp

theorem labels_dots (n : Nat) : labels (List.replicate n '.') = [] := by
  induction n with
  | zero => rfl
  | succ n ih =>
    simp only [labels, List.replicate_succ, splitChar, if_true] at ih ⊢
    simpa using ih

theorem labels_append_dots (s : Str) (n : Nat) :
    labels (s ++ List.replicate n '.') = labels s := by
  cases n with
  | zero => simp
  | succ n =>
    have := labels_dots n
    simp only [List.replicate_succ, labels, splitChar_append_sep', List.filter_append] at this ⊢
    rw [this]; simp

theorem labels_sep (s t : Str) : labels (s ++ '.' :: t) = labels s ++ labels t := by
  simp [labels, splitChar_append_sep']

theorem labels_label {l : Str} (h : '.' ∉ l) (hne : l ≠ []) : labels l = [l] := by
  simp [labels, splitChar_of_not_mem h, hne]

theorem dropWhile_dots (r : Str) :
    ∃ n, r = List.replicate n '.' ++ r.dropWhile (· == '.') := by
  induction r with
  | nil => exact ⟨0, rfl⟩
  | cons c cs ih =>
    obtain ⟨n, hn⟩ := ih
    by_cases h : c = '.'
    · subst h
      refine ⟨n + 1, ?_⟩
      simp only [List.dropWhile_cons, beq_self_eq_true, if_true, List.replicate_succ,
        List.cons_append]
      rw [← hn]
    · exact ⟨0, by simp [h]⟩

/-- The exact effect of `splitTLD`, on labels. -/
theorem splitTLD_spec (s : Str) :
    (splitTLD s = ([], []) ∧ labels s = []) ∨
    ((splitTLD s).1 ≠ [] ∧ rl s = (splitTLD s).1 :: rl (splitTLD s).2) := by
  obtain ⟨n, hn⟩ := dropWhile_dots s.reverse
  have hs : s = (s.reverse.dropWhile (· == '.')).reverse ++ List.replicate n '.' := by
    have := congrArg List.reverse hn
    simpa using this
  generalize hr : s.reverse.dropWhile (· == '.') = r at hs
  have hhead : r.head? ≠ some '.' := by
    rw [← hr]
    intro h
    have := List.head?_dropWhile_not (p := (· == '.')) (l := s.reverse)
    rw [h] at this
    simp at this
  have hlab : labels s = labels r.reverse := by rw [hs, labels_append_dots]
  cases r with
  | nil =>
    left
    refine ⟨?_, by rw [hlab]; rfl⟩
    simp [splitTLD, hr]
  | cons c cs =>
    right
    have hc : c ≠ '.' := by simpa using hhead
    have hsplit : splitTLD s = (((c :: cs).takeWhile (· != '.')).reverse,
        (((c :: cs).dropWhile (· != '.')).drop 1).reverse) := by
      simp [splitTLD, hr]
    have hl : ((c :: cs).takeWhile (· != '.')) ≠ [] := by
      simp [hc]
    have hnd : '.' ∉ ((c :: cs).takeWhile (· != '.')) := by
      intro h
      have := List.all_takeWhile (p := (· != '.')) (l := c :: cs)
      rw [List.all_eq_true] at this
      have := this _ h
      simp at this
    rw [hsplit]
    refine ⟨by simpa using hl, ?_⟩
    simp only [rl, hlab]
    have happ := List.takeWhile_append_dropWhile (p := (· != '.')) (l := c :: cs)
    cases hd : (c :: cs).dropWhile (· != '.') with
    | nil =>
      rw [hd, List.append_nil] at happ
      rw [happ]
      rw [happ] at hnd
      rw [labels_label (by simpa [and_comm] using hnd) (by simp)]
      simp [labels, splitChar]
    | cons d ds =>
      have hdd : d = '.' := by
        have := List.head?_dropWhile_not (p := (· != '.')) (l := c :: cs)
        rw [hd] at this
        simpa using this
      subst hdd
      rw [hd] at happ
      conv => lhs; rw [← happ]
      have e : (List.takeWhile (· != '.') (c :: cs) ++ '.' :: ds).reverse =
          ds.reverse ++ '.' :: (List.takeWhile (· != '.') (c :: cs)).reverse := by simp
      rw [e, labels_sep, labels_label (l := (List.takeWhile _ _).reverse)
        (by simpa using hnd) (by simpa using hl)]
      simp

theorem splitTLD_rest_prefix (s : Str) : (splitTLD s).2 <+: s := by
  rw [← List.reverse_suffix]
  simp only [splitTLD, List.reverse_reverse]
  exact ((List.drop_suffix _ _).trans (List.dropWhile_suffix _)).trans (List.dropWhile_suffix _)

theorem NoLead.rest {s : Str} (h : NoLead s) : NoLead (splitTLD s).2 := by
  have hp := splitTLD_rest_prefix s
  unfold NoLead at *
  cases hr : (splitTLD s).2 with
  | nil => simp
  | cons c cs =>
    rw [hr] at hp
    obtain ⟨t, ht⟩ := hp
    rw [← ht] at h
    simpa using h

theorem rl_ne_nil {s : Str} (h : NoLead s) (hne : s ≠ []) : rl s ≠ [] := by
  cases s with
  | nil => exact absurd rfl hne
  | cons c cs =>
    have hc : c ≠ '.' := by simpa [NoLead] using h
    simp only [rl, labels]
    rw [splitChar, if_neg hc]
    cases splitChar '.' cs <;> simp

/-- Uniform description of a split of a key that does not start with a dot. -/
theorem split_key {s : Str} (h : NoLead s) (hne : s ≠ []) :
    (splitTLD s).1 ≠ [] ∧ rl s = (splitTLD s).1 :: rl (splitTLD s).2 := by
  rcases splitTLD_spec s with ⟨_, h2⟩ | h2
  · exact absurd (by simp [rl, h2]) (rl_ne_nil h hne)
  · exact h2

theorem terminalLoop_iff {t s : Str} (h : NoLead t) (hne : t ≠ []) :
    terminalLoop t s = true ↔ rl t <+: rl s := by
  fun_induction terminalLoop t s with
  | case1 t s h1 =>
    have ⟨ht, hte⟩ := split_key h hne
    simp only [Bool.false_eq_true, false_iff]
    rw [hte]
    rcases splitTLD_spec s with ⟨_, h2⟩ | ⟨_, h2⟩
    · simp [rl, h2]
    · rw [h2, List.cons_prefix_cons]
      exact fun hh => h1 hh.1.symm
  | case2 t s h1 h2 =>
    have ⟨ht, hte⟩ := split_key h hne
    simp only [true_iff]
    rw [hte, h2]
    rcases splitTLD_spec s with ⟨h3, _⟩ | ⟨_, h3⟩
    · rw [h3] at h1
      exact absurd (Decidable.not_not.1 h1).symm ht
    · rw [h3, Decidable.not_not.1 h1, List.cons_prefix_cons]
      exact ⟨rfl, by simp [rl, labels, splitChar]⟩
  | case3 t s h1 h2 h3 =>
    have ⟨ht, hte⟩ := split_key h hne
    simp only [Bool.false_eq_true, false_iff]
    rw [hte]
    have hn := rl_ne_nil h.rest h2
    rcases splitTLD_spec s with ⟨_, h4⟩ | ⟨_, h4⟩
    · simp [rl, h4]
    · rw [h4, h3, List.cons_prefix_cons]
      rintro ⟨_, hp⟩
      have : rl (([] : Str)) = [] := by simp [rl, labels, splitChar]
      rw [this] at hp
      exact hn (by simpa using hp)
  | case4 t s h1 h2 h3 ih =>
    have ⟨ht, hte⟩ := split_key h hne
    rw [ih h.rest h2, hte]
    rcases splitTLD_spec s with ⟨h4, _⟩ | ⟨_, h4⟩
    · rw [h4] at h3
      exact absurd rfl h3
    · rw [h4, List.cons_prefix_cons]
      simp [Decidable.not_not.1 h1]

theorem rl_nil : rl [] = [] := by simp [rl, labels, splitChar]

theorem terminalHasParentOf_iff {t s : Str} (h : NoLead t) :
    terminalHasParentOf t s = true ↔ rl t <+: rl s := by
  unfold terminalHasParentOf
  split
  · next h' => subst h'; simp [rl_nil]
  · next h' => exact terminalLoop_iff h h'

theorem get_put (cs : Children) (l l' : Str) (v : Node) :
    get (put cs l v) l' = if l = l' then some v else get cs l' := by
  induction cs with
  | nil => simp [put, get]
  | cons x xs ih =>
    obtain ⟨a, n⟩ := x
    unfold put
    by_cases ha : a = l
    · subst ha
      rw [if_pos rfl]
      simp only [get]
      split <;> rfl
    · rw [if_neg ha]
      simp only [get, ih]
      by_cases hl : l = l'
      · subst hl
        simp [ha]
      · simp [hl]

/-- Structural invariant of a trie. -/
inductive Good : Children → Prop where
  | mk (cs : Children) (h0 : get cs [] = none)
      (h1 : ∀ l t, get cs l = some (.terminal t) → NoLead t)
      (h2 : ∀ l cs', get cs l = some (.parent cs') → Good cs') : Good cs

theorem Good.h0 {cs} (h : Good cs) : get cs [] = none := by cases h; assumption
theorem Good.h1 {cs} (h : Good cs) : ∀ l t, get cs l = some (.terminal t) → NoLead t := by
  cases h; assumption
theorem Good.h2 {cs} (h : Good cs) : ∀ l cs', get cs l = some (.parent cs') → Good cs' := by
  cases h; assumption

theorem Good.nil : Good [] := .mk _ rfl (by simp [get]) (by simp [get])

theorem Good.put_terminal {cs l t} (h : Good cs) (hl : l ≠ []) (ht : NoLead t) :
    Good (put cs l (.terminal t)) := by
  refine .mk _ ?_ ?_ ?_
  · rw [get_put, if_neg hl, h.h0]
  · intro l' t' h'
    rw [get_put] at h'
    split at h'
    · cases h'; exact ht
    · exact h.h1 _ _ h'
  · intro l' t' h'
    rw [get_put] at h'
    split at h'
    · cases h'
    · exact h.h2 _ _ h'

theorem Good.put_parent {cs l ps} (h : Good cs) (hl : l ≠ []) (hp : Good ps) :
    Good (put cs l (.parent ps)) := by
  refine .mk _ ?_ ?_ ?_
  · rw [get_put, if_neg hl, h.h0]
  · intro l' t' h'
    rw [get_put] at h'
    split at h'
    · cases h'
    · exact h.h1 _ _ h'
  · intro l' t' h'
    rw [get_put] at h'
    split at h'
    · cases h'; exact hp
    · exact h.h2 _ _ h'

theorem fresh_good {t : Str} (h : NoLead t) (hne : t ≠ []) :
    Good [((splitTLD t).1, .terminal (splitTLD t).2)] := by
  have := Good.nil.put_terminal (split_key h hne).1 h.rest
  simpa [put] using this

theorem insert_good {cs : Children} {k : Str} (hg : Good cs) (hk : NoLead k) :
    Good (insert cs k) := by
  fun_induction insert cs k with
  | case1 => exact hg
  | case2 cs k hne h => exact hg.put_terminal (split_key hk hne).1 hk.rest
  | case3 cs k hne child h hr => exact hg.put_terminal (split_key hk hne).1 hk.rest
  | case4 cs k hne hr cs' h ih =>
    exact hg.put_parent (split_key hk hne).1 (ih (hg.h2 _ _ h) hk.rest)
  | case5 cs k hne hr t ht h => exact hg
  | case6 cs k hne hr t ht h ih =>
    refine hg.put_parent (split_key hk hne).1 (ih ?_ hk.rest)
    unfold freshParent
    split
    · exact Good.nil
    · next ht' => exact fresh_good (hg.h1 _ _ h) ht'

/-- Lookup, one level unfolded, on labels. -/
theorem hasParentOf_of_rl {cs : Children} {q : Str} (hg : Good cs) :
    hasParentOf cs q = true ↔
      ∃ n, rl q = (splitTLD q).1 :: rl (splitTLD q).2 ∧ get cs (splitTLD q).1 = some n ∧
        match n with
        | .terminal t => rl t <+: rl (splitTLD q).2
        | .parent cs' => (splitTLD q).2 ≠ [] ∧ hasParentOf cs' (splitTLD q).2 = true := by
  rw [hasParentOf]
  rcases splitTLD_spec q with ⟨h1, _⟩ | ⟨h1, h2⟩
  · rw [h1]
    simp [hg.h0]
  · constructor
    · intro h
      split at h
      · cases h
      · next cs' hget =>
        refine ⟨_, h2, hget, ?_⟩
        split at h
        · cases h
        · next hr => exact ⟨hr, h⟩
      · next t hget =>
        exact ⟨_, h2, hget, (terminalHasParentOf_iff (hg.h1 _ _ hget)).1 h⟩
    · rintro ⟨n, _, hget, hn⟩
      rw [hget]
      cases n with
      | terminal t => exact (terminalHasParentOf_iff (hg.h1 _ _ hget)).2 hn
      | parent cs' =>
        simp only at hn ⊢
        rw [if_neg hn.1]
        exact hn.2

theorem hasParentOf_fresh {t q : Str} (h : NoLead t) (hne : t ≠ []) :
    hasParentOf [((splitTLD t).1, .terminal (splitTLD t).2)] q = true ↔ rl t <+: rl q := by
  rw [hasParentOf_of_rl (fresh_good h hne)]
  have ⟨h1, h2⟩ := split_key h hne
  rw [h2]
  rcases splitTLD_spec q with ⟨h3, h4⟩ | ⟨h3, h4⟩
  · simp [rl, h4]
  · rw [h4, List.cons_prefix_cons]
    simp only [get]
    constructor
    · rintro ⟨n, _, hn, hm⟩
      split at hn
      · next e => cases hn; exact ⟨e, hm⟩
      · cases hn
    · rintro ⟨e, hp⟩
      exact ⟨.terminal (splitTLD t).2, trivial, by rw [if_pos e], hp⟩

theorem hasParentOf_nil (q : Str) : hasParentOf [] q = false := by
  rw [hasParentOf]; simp [get]

/-- The heart: inserting `k` adds exactly the names within `k`. -/
theorem hasParentOf_insert {cs : Children} {k : Str} (q : Str) (hg : Good cs) (hk : NoLead k) :
    hasParentOf (insert cs k) q = true ↔
      hasParentOf cs q = true ∨ (k ≠ [] ∧ rl k <+: rl q) := by
  fun_induction insert cs k generalizing q with
  | case1 => simp
  | case2 cs k hne h =>
    have ⟨h1, h2⟩ := split_key hk hne
    rw [hasParentOf_of_rl (hg.put_terminal h1 hk.rest), hasParentOf_of_rl hg, h2]
    rcases splitTLD_spec q with ⟨h3, h4⟩ | ⟨h3, h4⟩
    · simp [rl, h4]
    · rw [h4, List.cons_prefix_cons]
      simp only [get_put]
      by_cases e : (splitTLD k).1 = (splitTLD q).1
      · rw [← e] at *
        simp [h, hne]
      · simp [e]
  | case3 cs k hne child h hr =>
    have ⟨h1, h2⟩ := split_key hk hne
    rw [hasParentOf_of_rl (hg.put_terminal h1 hk.rest), hasParentOf_of_rl hg, h2]
    rcases splitTLD_spec q with ⟨h3, h4⟩ | ⟨h3, h4⟩
    · simp [rl, h4]
    · rw [h4, List.cons_prefix_cons]
      simp only [get_put]
      by_cases e : (splitTLD k).1 = (splitTLD q).1
      · simp [e, hne, hr, rl_nil]
      · simp [e]
  | case4 cs k hne hr cs' h ih =>
    have ⟨h1, h2⟩ := split_key hk hne
    have hg' := hg.h2 _ _ h
    rw [hasParentOf_of_rl (hg.put_parent h1 (insert_good hg' hk.rest)), hasParentOf_of_rl hg, h2]
    rcases splitTLD_spec q with ⟨h3, h4⟩ | ⟨h3, h4⟩
    · simp [rl, h4]
    · rw [h4, List.cons_prefix_cons]
      simp only [get_put]
      by_cases e : (splitTLD k).1 = (splitTLD q).1
      · rw [e] at h
        have ih' := ih (splitTLD q).2 hg' hk.rest
        simp only [e, if_true, h, Option.some.injEq, exists_eq_left', true_and, hne, ne_eq,
          not_false_eq_true, hr] at ih' ⊢
        rw [ih']
        constructor
        · rintro ⟨ha, hb | hb⟩
          · exact .inl ⟨ha, hb⟩
          · exact .inr hb
        · rintro (⟨ha, hb⟩ | hb)
          · exact ⟨ha, .inl hb⟩
          · refine ⟨?_, .inr hb⟩
            intro he
            rw [he, rl_nil] at hb
            exact rl_ne_nil hk.rest hr (by simpa using hb)
      · simp [e]
  | case5 cs k hne hr t ht h =>
    have ⟨h1, h2⟩ := split_key hk hne
    rw [terminalHasParentOf_iff (hg.h1 _ _ h)] at ht
    constructor
    · exact .inl
    · rintro (hh | ⟨_, hh⟩)
      · exact hh
      · rw [hasParentOf_of_rl hg]
        rw [h2] at hh
        rcases splitTLD_spec q with ⟨h3, h4⟩ | ⟨h3, h4⟩
        · simp [rl, h4] at hh
        · rw [h4, List.cons_prefix_cons] at hh
          refine ⟨_, h4, by rw [← hh.1]; exact h, ?_⟩
          exact ht.trans hh.2
  | case6 cs k hne hr t ht h ih =>
    have ⟨h1, h2⟩ := split_key hk hne
    have hnl := hg.h1 _ _ h
    have htne : t ≠ [] := by
      rintro rfl
      exact ht (by simp [terminalHasParentOf])
    have hfp : freshParent t = [((splitTLD t).1, .terminal (splitTLD t).2)] := if_neg htne
    rw [hfp]
    simp only [hfp] at ih
    have hg' := fresh_good hnl htne
    rw [hasParentOf_of_rl (hg.put_parent h1 (insert_good hg' hk.rest)), hasParentOf_of_rl hg, h2]
    rcases splitTLD_spec q with ⟨h3, h4⟩ | ⟨h3, h4⟩
    · simp [rl, h4]
    · rw [h4, List.cons_prefix_cons]
      simp only [get_put]
      by_cases e : (splitTLD k).1 = (splitTLD q).1
      · rw [e] at h
        have ih' := ih (splitTLD q).2 hg' hk.rest
        rw [hasParentOf_fresh hnl htne] at ih'
        simp only [e, if_true, h, Option.some.injEq, exists_eq_left', true_and, hne, ne_eq,
          not_false_eq_true, hr] at ih' ⊢
        rw [ih']
        constructor
        · rintro ⟨_, hb⟩
          exact hb
        · intro hb
          refine ⟨?_, hb⟩
          intro he
          rw [he, rl_nil] at hb
          rcases hb with hb | hb
          · exact rl_ne_nil hnl htne (by simpa using hb)
          · exact rl_ne_nil hk.rest hr (by simpa using hb)
      · simp [e]

theorem build_good (keys : List Str) (hk : ∀ k ∈ keys, NoLead k) : Good (build keys) := by
  unfold build
  suffices ∀ cs, Good cs → Good (keys.foldl insert cs) from this _ Good.nil
  induction keys with
  | nil => exact fun cs h => h
  | cons k ks ih =>
    intro cs h
    exact ih (fun k' h' => hk k' (by simp [h'])) _ (insert_good h (hk k (by simp)))

theorem hasParentOf_build (keys : List Str) (hk : ∀ k ∈ keys, NoLead k) (q : Str) :
    hasParentOf (build keys) q = true ↔ ∃ k ∈ keys, k ≠ [] ∧ rl k <+: rl q := by
  unfold build
  suffices ∀ cs, Good cs → (hasParentOf (keys.foldl insert cs) q = true ↔
      hasParentOf cs q = true ∨ ∃ k ∈ keys, k ≠ [] ∧ rl k <+: rl q) by
    rw [this _ Good.nil, hasParentOf_nil]
    simp
  induction keys with
  | nil => intro cs h; simp
  | cons k ks ih =>
    intro cs h
    rw [List.foldl_cons, ih (fun k' h' => hk k' (by simp [h'])) _ (insert_good h (hk k (by simp))),
      hasParentOf_insert q h (hk k (by simp))]
    simp [or_assoc]

end Verif.Trie
