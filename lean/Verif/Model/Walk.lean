/-
The loop "try the name, then cut the first label, and so on" that several resolvers use
(conditional_upstream_resolver.go 61-75, custom_dns_resolver.go 119-160, sudn_resolver.go 126-143).
-/
import Verif.Base.Str
import Verif.Spec.Zone

namespace Verif

/-- `strings.Cut(s, ".")` (or `Index` and slicing): what follows the first dot. -/
def afterDot : Str → Option Str
  | [] => none
  | c :: cs => if c = '.' then some cs else afterDot cs

/-- The loop `for len(domain) > 0 { if v, found := f(domain); found { … } ; cut or break }`.
The first argument bounds the number of rounds; each round shortens the name, so with more rounds than
the length of the name the bound is never reached (`walk_spec` holds for every such bound). -/
def walk {α : Type} (f : Str → Option α) : Nat → Str → Option (Str × α)
  | 0, _ => none
  | n + 1, domain =>
    if domain.isEmpty then none
    else match f domain with
      | some v => some (domain, v)
      | none => match afterDot domain with
        | some d => walk f n d
        | none => none

theorem afterDot_some {s d : Str} (h : afterDot s = some d) : ∃ p, s = p ++ '.' :: d ∧ '.' ∉ p := by
  induction s with
  | nil => simp [afterDot] at h
  | cons c cs ih =>
    unfold afterDot at h
    split at h
    · rename_i hc
      subst hc
      cases h
      exact ⟨[], rfl, by simp⟩
    · rename_i hc
      obtain ⟨p, hp, hn⟩ := ih h
      exact ⟨c :: p, by rw [hp]; rfl, by simp [hn, Ne.symm hc]⟩

theorem afterDot_none {s : Str} : afterDot s = none ↔ '.' ∉ s := by
  induction s with
  | nil => simp [afterDot]
  | cons c cs ih =>
    unfold afterDot
    by_cases hc : c = '.'
    · simp [hc]
    · simp [hc, ih, Ne.symm hc]

theorem afterDot_length {s d : Str} (h : afterDot s = some d) : d.length < s.length := by
  obtain ⟨p, rfl, _⟩ := afterDot_some h
  simp
  omega

open Spec

theorem InZone.length {n z : Str} (h : InZone n z) : z.length ≤ n.length := by
  rcases h with rfl | ⟨p, rfl⟩
  · exact Nat.le_refl _
  · simp; omega

/-- The zones of a name: itself, and the zones of what follows its first dot. -/
theorem inZone_iff (n z : Str) : InZone n z ↔ n = z ∨ ∃ d, afterDot n = some d ∧ InZone d z := by
  constructor
  · rintro (h | ⟨p, rfl⟩)
    · exact .inl h
    · right
      induction p with
      | nil => exact ⟨z, by simp [afterDot], .inl rfl⟩
      | cons c p ih =>
        obtain ⟨d, hd, hz⟩ := ih
        by_cases hc : c = '.'
        · exact ⟨p ++ '.' :: z, by simp [afterDot, hc], .inr ⟨p, rfl⟩⟩
        · exact ⟨d, by simpa [afterDot, hc] using hd, hz⟩
  · rintro (h | ⟨d, hd, hz⟩)
    · exact .inl h
    · obtain ⟨p, rfl, _⟩ := afterDot_some hd
      rcases hz with rfl | ⟨q, rfl⟩
      · exact .inr ⟨p, rfl⟩
      · exact .inr ⟨p ++ '.' :: q, by simp⟩

theorem walk_some {α : Type} {f : Str → Option α} {n : Nat} {d : Str} {z : Str} {v : α}
    (h : walk f n d = some (z, v)) :
    InZone d z ∧ z ≠ [] ∧ f z = some v ∧ ∀ z', InZone d z' → z.length < z'.length → f z' = none := by
  induction n generalizing d with
  | zero => simp [walk] at h
  | succ n ih =>
    unfold walk at h
    by_cases he : d.isEmpty = true
    · simp [he] at h
    · rw [if_neg he] at h
      cases hf : f d with
      | some w =>
        rw [hf] at h
        simp only [Option.some.injEq, Prod.mk.injEq] at h
        obtain ⟨rfl, rfl⟩ := h
        refine ⟨.inl rfl, by simpa using he, hf, ?_⟩
        intro z' hz' hl
        have := InZone.length hz'
        omega
      | none =>
        rw [hf] at h
        cases ha : afterDot d with
        | none => rw [ha] at h; cases h
        | some d' =>
          rw [ha] at h
          obtain ⟨h1, h2, h3, h4⟩ := ih h
          refine ⟨(inZone_iff d z).2 (.inr ⟨d', ha, h1⟩), h2, h3, ?_⟩
          intro z' hz' hl
          rcases (inZone_iff d z').1 hz' with rfl | ⟨d'', hd'', hz''⟩
          · exact hf
          · rw [ha] at hd''
            cases hd''
            exact h4 z' hz'' hl

theorem walk_none {α : Type} {f : Str → Option α} {n : Nat} {d : Str} (hn : d.length < n)
    (h : walk f n d = none) : ∀ z, InZone d z → z ≠ [] → f z = none := by
  induction n generalizing d with
  | zero => omega
  | succ n ih =>
    intro z hz hne
    unfold walk at h
    by_cases he : d.isEmpty = true
    · have : d = [] := by simpa using he
      subst this
      rcases hz with rfl | ⟨p, hp⟩
      · exact absurd rfl hne
      · simp at hp
    · rw [if_neg he] at h
      cases hf : f d with
      | some w => rw [hf] at h; cases h
      | none =>
        rw [hf] at h
        rcases (inZone_iff d z).1 hz with rfl | ⟨d', hd', hz'⟩
        · exact hf
        · rw [hd'] at h
          exact ih (by have := afterDot_length hd'; omega) h z hz' hne

/-- Two zones of one name with the same length are the same. -/
theorem InZone.unique {n z z' : Str} (h : InZone n z) (h' : InZone n z') (hl : z.length = z'.length) :
    z = z' := by
  have key : ∀ {n z : Str}, InZone n z → z = n.drop (n.length - z.length) := by
    rintro n z (rfl | ⟨p, rfl⟩)
    · simp
    · have : (p ++ '.' :: z).length - z.length = (p ++ ['.']).length := by simp; omega
      rw [this, show p ++ '.' :: z = (p ++ ['.']) ++ z by simp, List.drop_left]
  rw [key h, key h', hl]

/-- The loop finds exactly the longest zone of the name the lookup knows. -/
theorem walk_spec {α : Type} (f : Str → Option α) (n : Nat) (d : Str) (hn : d.length < n) (z : Str) (v : α) :
    walk f n d = some (z, v) ↔ Longest (fun z => z ≠ [] ∧ (f z).isSome) d z ∧ f z = some v := by
  constructor
  · intro h
    obtain ⟨h1, h2, h3, h4⟩ := walk_some h
    refine ⟨⟨h1, ⟨h2, by simp [h3]⟩, ?_⟩, h3⟩
    rintro z' hz' ⟨_, hs⟩
    rcases Nat.lt_or_ge z.length z'.length with hl | hl
    · rw [h4 z' hz' hl] at hs; simp at hs
    · exact hl
  · rintro ⟨⟨h1, ⟨h2, h3⟩, h4⟩, h5⟩
    cases h : walk f n d with
    | none => rw [walk_none hn h z h1 h2] at h5; cases h5
    | some x =>
      obtain ⟨z', v'⟩ := x
      obtain ⟨g1, g2, g3, g4⟩ := walk_some h
      have hle := h4 z' g1 ⟨g2, by simp [g3]⟩
      have : z = z' := by
        apply InZone.unique h1 g1
        rcases Nat.lt_or_ge z'.length z.length with hl | hl
        · have := g4 z h1 hl
          rw [h5] at this; cases this
        · omega
      subst this
      rw [h5] at g3
      cases g3
      rfl

theorem walk_eq_none {α : Type} (f : Str → Option α) (n : Nat) (d : Str) (hn : d.length < n) :
    walk f n d = none ↔ ∀ z, InZone d z → z ≠ [] → f z = none := by
  constructor
  · exact walk_none hn
  · intro h
    cases hw : walk f n d with
    | none => rfl
    | some x =>
      obtain ⟨z, v⟩ := x
      obtain ⟨g1, g2, g3, _⟩ := walk_some hw
      rw [h z g1 g2] at g3; cases g3

end Verif
