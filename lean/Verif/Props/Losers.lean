/-
C107: what the goroutines of a query that lost the race still do.
-/
import Verif.Model.Losers

namespace Verif.Props
open Losers

variable {M : Type}

/-- What the upstreams of a group may be sent: those behind the rewriter the rewritten query, the others the query as it
came. -/
def mayGet (rewritten original : M) (g : Bool) : M := if g then original else rewritten

/-- The inner group has been left. -/
def innerOver : Phase → Bool
  | .fresh => false
  | .inGroup g => g
  | .left _ => true
  | .reverted => true
  | .answered => true

/-- The request is as it came. -/
def restored : Phase → Bool
  | .fresh => true
  | .inGroup g => g
  | .left g => g
  | .reverted => true
  | .answered => true

/-- What holds in every execution. -/
structure RaceInv (rewritten original : M) (s : State M) : Prop where
  req : s.req = if restored s.phase then original else rewritten
  after : innerOver s.phase = true → s.cancelled false = true
  askers : ∀ a ∈ s.askers, s.phase ≠ .fresh ∧ (a.group = true → s.phase ≠ .reverted ∧ restored s.phase = true)
  exchanges : ∀ x ∈ s.exchanges, x.msg = mayGet rewritten original x.group ∨
    (s.cancelled x.group = true ∧ x.pos ≠ .toSend ∧ x.pos ≠ .waiting)
  sent : ∀ e ∈ s.sent, e.2.2 = mayGet rewritten original e.1

theorem kill_mem {xs : List (Exchange M)} {js : List Nat} {x : Exchange M} (h : x ∈ kill xs js) :
    ∃ y ∈ xs, x.group = y.group ∧ x.msg = y.msg ∧ x.pos = y.pos := by
  unfold kill at h
  obtain ⟨i, hi, rfl⟩ := List.mem_mapIdx.1 h
  refine ⟨xs[i], List.getElem_mem _, ?_⟩
  split <;> exact ⟨rfl, rfl, rfl⟩

theorem asker_set {l : List Asker} {i : Nat} {a : Asker} (ha : l[i]? = some a) {p : TPos} {b : Asker}
    (hb : b ∈ l.set i { a with pos := p }) : ∃ c ∈ l, b.group = c.group := by
  rcases List.mem_or_eq_of_mem_set hb with h | rfl
  · exact ⟨b, h, rfl⟩
  · exact ⟨a, List.mem_of_getElem? ha, rfl⟩

theorem raceInv_step (rewritten original : M) (s s' : State M) (e : Event) (hi : RaceInv rewritten original s)
    (h : step rewritten original s e = some s') : RaceInv rewritten original s' := by
  obtain ⟨h1, h2, h3, h4, h5⟩ := hi
  cases e with
  | rewrite =>
    simp only [step, Option.ite_none_right_eq_some, Option.some.injEq] at h
    obtain ⟨hp, rfl⟩ := h
    refine ⟨rfl, by simp [innerOver], ?_, h4, h5⟩
    intro a ha
    exact absurd hp (h3 a ha).1
  | spawn udp =>
    simp only [step] at h
    split at h
    · rename_i g hp
      split at h
      · cases h
      · cases h
        refine ⟨h1, h2, ?_, h4, h5⟩
        intro a ha
        rcases List.mem_append.1 ha with ha | ha
        · exact h3 a ha
        · rw [List.mem_singleton] at ha
          subst ha
          simp [hp, restored]
    · cases h
  | collect =>
    simp only [step] at h
    split at h
    · split at h
      · cases h
      · cases h; exact ⟨h1, h2, h3, h4, h5⟩
    · cases h
  | leave =>
    simp only [step] at h
    split at h
    · rename_i g hp
      split at h
      · cases h
        rw [hp] at h1 h2 h3
        refine ⟨?_, ?_, ?_, ?_, h5⟩
        · exact h1
        · intro _
          cases g
          · simp [update]
          · simpa [update] using h2 rfl
        · intro a ha
          have := h3 a ha
          simp only [restored] at this ⊢
          exact ⟨by simp, fun hg => ⟨by simp, (this.2 hg).2⟩⟩
        · intro x hx
          rcases h4 x hx with h | ⟨ha, hb⟩
          · exact .inl h
          · refine .inr ⟨?_, hb⟩
            simp only [update]
            split
            · rfl
            · exact ha
      · cases h
    · cases h
  | revert =>
    simp only [step, Option.ite_none_right_eq_some, Option.some.injEq] at h
    obtain ⟨hp, rfl⟩ := h
    rw [hp] at h2 h3
    refine ⟨rfl, fun _ => h2 rfl, ?_, h4, h5⟩
    intro a ha
    refine ⟨by simp, fun hg => ?_⟩
    have := (h3 a ha).2 hg
    simp [restored] at this
  | next =>
    simp only [step, Option.ite_none_right_eq_some, Option.some.injEq] at h
    obtain ⟨hp, rfl⟩ := h
    rw [hp] at h1 h2 h3
    refine ⟨by simpa [restored] using h1, fun _ => h2 rfl, ?_, h4, h5⟩
    intro a ha
    exact ⟨by simp, fun _ => ⟨by simp, rfl⟩⟩
  | finish =>
    simp only [step, Option.ite_none_right_eq_some, Option.some.injEq] at h
    obtain ⟨hp, rfl⟩ := h
    refine ⟨?_, ?_, ?_, h4, h5⟩
    · rcases hp with hp | hp <;> rw [hp] at h1 <;> simpa [restored] using h1
    · intro _
      rcases hp with hp | hp <;> rw [hp] at h2 <;> exact h2 rfl
    · intro a ha
      exact ⟨by simp, fun _ => ⟨by simp, rfl⟩⟩
  | addresses i ok =>
    simp only [step] at h
    split at h
    · rename_i a ha
      split at h
      · cases h
        refine ⟨h1, h2, ?_, h4, h5⟩
        intro b hb
        obtain ⟨c, hc, hg⟩ := asker_set ha hb
        rw [hg]
        exact h3 c hc
      · cases h
    · cases h
  | call i =>
    simp only [step] at h
    split at h
    · rename_i a ha
      split at h
      · rename_i n hp
        cases h
        refine ⟨h1, h2, ?_, ?_, h5⟩
        · intro b hb
          obtain ⟨c, hc, hg⟩ := asker_set ha hb
          rw [hg]
          exact h3 c hc
        · intro x hx
          have hx' : x ∈ s.exchanges ∨ x = ⟨a.group, i, s.req, .toDial, false⟩ := by
            rcases List.mem_append.1 hx with h | h
            · exact .inl h
            · right
              split at h
              · simpa using h
              · simpa using h
          rcases hx' with hx' | rfl
          · exact h4 x hx'
          · have h6 := h3 a (List.mem_of_getElem? ha)
            cases hg : a.group with
            | true =>
              left
              have := h6.2 hg
              simp only [mayGet, if_true]
              rw [h1, this.2]; rfl
            | false =>
              by_cases hr : restored s.phase = true
              · right
                refine ⟨h2 ?_, by simp, by simp⟩
                cases hph : s.phase with
                | fresh => exact absurd hph h6.1
                | inGroup g => rw [hph] at hr; exact hr
                | left g => rfl
                | reverted => rfl
                | answered => rfl
              · left
                simp only [mayGet]
                rw [h1, if_neg hr]; rfl
      · cases h
    · cases h
  | judge i e =>
    have hk : ∀ js, ∀ x ∈ kill s.exchanges js, x.msg = mayGet rewritten original x.group ∨
        (s.cancelled x.group = true ∧ x.pos ≠ .toSend ∧ x.pos ≠ .waiting) := by
      intro js x hx
      obtain ⟨y, hy, e1, e2, e3⟩ := kill_mem hx
      rw [e1, e2, e3]
      exact h4 y hy
    simp only [step] at h
    split at h
    · rename_i a ha
      split at h
      · split at h
        · cases h
          refine ⟨h1, h2, ?_, hk _, h5⟩
          intro b hb
          obtain ⟨c, hc, hg⟩ := asker_set ha hb
          rw [hg]
          exact h3 c hc
        · split at h
          · cases h
            refine ⟨h1, h2, ?_, hk _, h5⟩
            intro b hb
            obtain ⟨c, hc, hg⟩ := asker_set ha hb
            rw [hg]
            exact h3 c hc
          · cases h
      · cases h
    · cases h
  | put i =>
    simp only [step] at h
    split at h
    · rename_i a ha
      split at h
      · split at h
        · cases h
          refine ⟨h1, h2, ?_, h4, h5⟩
          intro b hb
          obtain ⟨c, hc, hg⟩ := asker_set ha hb
          rw [hg]
          exact h3 c hc
        · cases h
      · cases h
    · cases h
  | dial j ok =>
    simp only [step] at h
    split at h
    · rename_i x hx
      split at h
      · cases h
        refine ⟨h1, h2, h3, ?_, h5⟩
        intro y hy
        rcases List.mem_or_eq_of_mem_set hy with hy | rfl
        · exact h4 y hy
        · rcases h4 x (List.mem_of_getElem? hx) with h | ⟨ha, hb⟩
          · exact .inl h
          · exact .inr ⟨ha, by simp [ha], by simp [ha]⟩
      · cases h
    · cases h
  | write j ok =>
    simp only [step] at h
    split at h
    · rename_i x hx
      split at h
      · rename_i hp
        have hm : x.msg = mayGet rewritten original x.group := by
          rcases h4 x (List.mem_of_getElem? hx) with h | ⟨_, hb, _⟩
          · exact h
          · exact absurd hp hb
        split at h
        · cases h
          refine ⟨h1, h2, h3, ?_, ?_⟩
          · intro y hy
            rcases List.mem_or_eq_of_mem_set hy with hy | rfl
            · exact h4 y hy
            · exact .inl hm
          · intro e he
            rcases List.mem_append.1 he with he | he
            · exact h5 e he
            · rw [List.mem_singleton] at he
              rw [he]; exact hm
        · cases h
          refine ⟨h1, h2, h3, ?_, h5⟩
          intro y hy
          rcases List.mem_or_eq_of_mem_set hy with hy | rfl
          · exact h4 y hy
          · exact .inl hm
      · cases h
    · cases h
  | read j good =>
    simp only [step] at h
    split at h
    · rename_i x hx
      split at h
      · rename_i hp
        cases h
        refine ⟨h1, h2, h3, ?_, h5⟩
        intro y hy
        rcases List.mem_or_eq_of_mem_set hy with hy | rfl
        · exact h4 y hy
        · rcases h4 x (List.mem_of_getElem? hx) with h | ⟨_, _, hb⟩
          · exact .inl h
          · exact absurd hp hb
      · cases h
    · cases h

theorem raceInv_run (rewritten original : M) (es : List Event) (s s' : State M) (hi : RaceInv rewritten original s)
    (h : run rewritten original s es = some s') : RaceInv rewritten original s' := by
  induction es generalizing s with
  | nil => cases h; exact hi
  | cons e es ih =>
    simp only [run] at h
    split at h
    · rename_i s1 h1
      exact ih s1 (raceInv_step _ _ _ _ _ hi h1) h
    · cases h

theorem raceInv_start (rewritten original : M) : RaceInv rewritten original (start original) :=
  ⟨rfl, by simp [start, innerOver], by simp [start], by simp [start], by simp [start]⟩

/-- **C107** However the goroutines run, and whichever of them are late: an upstream behind the rewriter is sent the
rewritten query only, the upstreams of the next resolver the query as it came only. -/
theorem C107_sent (rewritten original : M) (es : List Event) (s : State M)
    (h : run rewritten original (start original) es = some s) (g : Bool) (i : Nat) (m : M) (hm : (g, i, m) ∈ s.sent) :
    (g = false → m = rewritten) ∧ (g = true → m = original) := by
  have := (raceInv_run _ _ _ _ _ (raceInv_start rewritten original) h).sent _ hm
  simp only [mayGet] at this
  constructor <;> rintro rfl <;> simpa using this


theorem countP_put {A : Type} (p : A → Bool) (l : List A) (i : Nat) (a b : A) (h : l[i]? = some a) :
    (l.set i b).countP p + (if p a then 1 else 0) = l.countP p + (if p b then 1 else 0) := by
  induction l generalizing i with
  | nil => simp at h
  | cons x l ih =>
    cases i with
    | zero =>
      simp only [List.getElem?_cons_zero, Option.some.injEq] at h
      subst h
      simp only [List.set_cons_zero, List.countP_cons]
      omega
    | succ i =>
      simp only [List.getElem?_cons_succ] at h
      have := ih i h
      simp only [List.set_cons_succ, List.countP_cons]
      omega

theorem sum_put {A : Type} (f : A → Nat) (l : List A) (i : Nat) (a b : A) (h : l[i]? = some a) :
    ((l.set i b).map f).sum + f a = (l.map f).sum + f b := by
  induction l generalizing i with
  | nil => simp at h
  | cons x l ih =>
    cases i with
    | zero =>
      simp only [List.getElem?_cons_zero, Option.some.injEq] at h
      subst h
      simp only [List.set_cons_zero, List.map_cons, List.sum_cons]
      omega
    | succ i =>
      simp only [List.getElem?_cons_succ] at h
      have := ih i h
      simp only [List.set_cons_succ, List.map_cons, List.sum_cons]
      omega

theorem kill_map {B : Type} (f : Exchange M → B) (hf : ∀ x : Exchange M, f { x with dead := true } = f x)
    (xs : List (Exchange M)) (js : List Nat) : (kill xs js).map f = xs.map f := by
  unfold kill
  apply List.ext_getElem?
  intro i
  simp only [List.getElem?_map, List.getElem?_mapIdx, Option.map_map]
  congr 1
  funext x
  simp only [Function.comp]
  split
  · exact hf x
  · rfl

theorem kill_countP (p : Exchange M → Bool) (hp : ∀ x : Exchange M, p { x with dead := true } = p x)
    (xs : List (Exchange M)) (js : List Nat) : (kill xs js).countP p = xs.countP p := by
  have h := kill_map p hp xs js
  have h2 : ∀ l : List (Exchange M), l.countP p = (l.map p).countP id := by
    intro l; rw [List.countP_map]; rfl
  rw [h2, h2, h]

/-- Exchanges of a group that have a connection and have not sent their query. -/
def connected (s : State M) (g : Bool) : Nat := s.exchanges.countP (fun x => x.group == g && x.pos == .toSend)

/-- What the upstreams of a group have been sent. -/
def sentTo (s : State M) (g : Bool) : List (Bool × Nat × M) := s.sent.filter (fun e => e.1 == g)

theorem late_step (rewritten original : M) (s s' : State M) (e : Event) (g : Bool) (hc : s.cancelled g = true)
    (h : step rewritten original s e = some s') :
    s'.cancelled g = true ∧ (sentTo s' g).length + connected s' g ≤ (sentTo s g).length + connected s g := by
  cases e with
  | rewrite =>
    simp only [step, Option.ite_none_right_eq_some, Option.some.injEq] at h
    obtain ⟨hp, rfl⟩ := h
    exact ⟨hc, Nat.le_refl _⟩
  | spawn udp =>
    simp only [step] at h
    split at h
    · split at h
      · cases h
      · cases h; exact ⟨hc, Nat.le_refl _⟩
    · cases h
  | collect =>
    simp only [step] at h
    split at h
    · split at h
      · cases h
      · cases h; exact ⟨hc, Nat.le_refl _⟩
    · cases h
  | leave =>
    simp only [step] at h
    split at h
    · split at h
      · cases h
        refine ⟨?_, Nat.le_refl _⟩
        simp only [update]
        split
        · rfl
        · exact hc
      · cases h
    · cases h
  | revert =>
    simp only [step, Option.ite_none_right_eq_some, Option.some.injEq] at h
    obtain ⟨hp, rfl⟩ := h
    exact ⟨hc, Nat.le_refl _⟩
  | next =>
    simp only [step, Option.ite_none_right_eq_some, Option.some.injEq] at h
    obtain ⟨hp, rfl⟩ := h
    exact ⟨hc, Nat.le_refl _⟩
  | finish =>
    simp only [step, Option.ite_none_right_eq_some, Option.some.injEq] at h
    obtain ⟨hp, rfl⟩ := h
    exact ⟨hc, Nat.le_refl _⟩
  | addresses i ok =>
    simp only [step] at h
    split at h
    · split at h
      · cases h; exact ⟨hc, Nat.le_refl _⟩
      · cases h
    · cases h
  | call i =>
    simp only [step] at h
    split at h
    · split at h
      · cases h
        refine ⟨hc, ?_⟩
        simp only [sentTo, connected, setAsker, List.countP_append]
        split <;> simp
      · cases h
    · cases h
  | judge i e =>
    simp only [step] at h
    split at h
    · split at h
      · split at h
        · cases h
          refine ⟨hc, ?_⟩
          simp only [sentTo, connected, setAsker]
          rw [kill_countP _ (fun _ => rfl)]
          exact Nat.le_refl _
        · split at h
          · cases h
            refine ⟨hc, ?_⟩
            simp only [sentTo, connected, setAsker]
            rw [kill_countP _ (fun _ => rfl)]
            exact Nat.le_refl _
          · cases h
      · cases h
    · cases h
  | put i =>
    simp only [step] at h
    split at h
    · split at h
      · split at h
        · cases h; exact ⟨hc, Nat.le_refl _⟩
        · cases h
      · cases h
    · cases h
  | dial j ok =>
    simp only [step] at h
    split at h
    · rename_i x hx
      split at h
      · cases h
        refine ⟨hc, ?_⟩
        simp only [sentTo, connected]
        have := countP_put (fun x => x.group == g && x.pos == .toSend) s.exchanges j x { x with
          pos := if (ok && !(s.cancelled x.group) && !x.dead) = true then .toSend else .over false } hx
        by_cases hg : x.group = g
        · subst hg
          simp [hc] at this ⊢
          omega
        · simp [hg] at this ⊢
          omega
      · cases h
    · cases h
  | write j ok =>
    simp only [step] at h
    split at h
    · rename_i x hx
      split at h
      · rename_i hp
        split at h
        · cases h
          refine ⟨hc, ?_⟩
          simp only [sentTo, connected]
          have := countP_put (fun x => x.group == g && x.pos == .toSend) s.exchanges j x { x with pos := .waiting } hx
          by_cases hg : x.group = g
          · simp [hg, hp, List.filter_append] at this ⊢
            omega
          · simp [hg, List.filter_append] at this ⊢
            omega
        · cases h
          refine ⟨hc, ?_⟩
          simp only [sentTo, connected]
          have := countP_put (fun x => x.group == g && x.pos == .toSend) s.exchanges j x { x with pos := .over false } hx
          simp at this ⊢
          omega
      · cases h
    · cases h
  | read j good =>
    simp only [step] at h
    split at h
    · rename_i x hx
      split at h
      · cases h
        refine ⟨hc, ?_⟩
        simp only [sentTo, connected]
        have := countP_put (fun x => x.group == g && x.pos == .toSend) s.exchanges j x { x with pos := .over good } hx
        simp at this ⊢
        omega
      · cases h
    · cases h

/-- **C107** Once a group has been left, the upstreams of this group are sent at most one message for each connection that
was already there, however many steps follow. -/
theorem C107_late (rewritten original : M) (es : List Event) (s s' : State M) (g : Bool) (hc : s.cancelled g = true)
    (h : run rewritten original s es = some s') :
    (sentTo s' g).length ≤ (sentTo s g).length + connected s g := by
  have : (sentTo s' g).length + connected s' g ≤ (sentTo s g).length + connected s g := by
    induction es generalizing s with
    | nil => cases h; exact Nat.le_refl _
    | cons e es ih =>
      simp only [run] at h
      split at h
      · rename_i s1 h1
        have h2 := late_step _ _ _ _ _ g hc h1
        exact Nat.le_trans (ih s1 h2.1 h) h2.2
      · cases h
  omega

/-- Steps of the goroutines that were started, which need nothing of the goroutine of the query. -/
def ownStep : Event → Bool
  | .addresses _ _ => true
  | .call _ => true
  | .judge _ _ => true
  | .put _ => true
  | .dial _ _ => true
  | .write _ _ => true
  | .read _ _ => true
  | _ => false

/-- Goroutines of a group that have not ended. -/
def notEnded (s : State M) (g : Bool) : Nat := s.askers.countP (fun a => a.group == g && a.pos != .ended)

/-- A position in range. -/
def sound (n : Nat) : TPos → Prop
  | .ready k => 1 ≤ k ∧ k ≤ 3
  | .racing k js => k ≤ 2 ∧ js ≠ [] ∧ ∀ j ∈ js, j < n
  | _ => True

/-- What holds in every execution and keeps the goroutines going. -/
structure GoInv (s : State M) : Prop where
  room : ∀ g, (s.chan g).length + notEnded s g ≤ s.askers.countP (fun a => a.group == g)
  pos : ∀ a ∈ s.askers, sound s.exchanges.length a.pos

theorem sound_mono {n m : Nat} (h : n ≤ m) {p : TPos} (hp : sound n p) : sound m p := by
  cases p with
  | racing k js => exact ⟨hp.1, hp.2.1, fun j hj => Nat.lt_of_lt_of_le (hp.2.2 j hj) h⟩
  | ready k => exact hp
  | _ => trivial

theorem count_eq (s : State M) (g : Bool) : count s g = s.askers.countP (fun a => a.group == g) := by
  rw [List.countP_eq_length_filter]; rfl

/-- Moving one goroutine keeps the room in the channels, if it was not at its end and does not get there. -/
theorem room_move (s : State M) (i : Nat) (a : Asker) (p : TPos) (ha : s.askers[i]? = some a) (h1 : a.pos ≠ .ended)
    (hr : ∀ g, (s.chan g).length + notEnded s g ≤ s.askers.countP (fun a => a.group == g)) (g : Bool) :
    (s.chan g).length + (s.askers.set i { a with pos := p }).countP (fun a => a.group == g && a.pos != .ended) ≤
      (s.askers.set i { a with pos := p }).countP (fun a => a.group == g) := by
  have h2 := countP_put (fun a : Asker => a.group == g && a.pos != .ended) s.askers i a { a with pos := p } ha
  have h3 := countP_put (fun a : Asker => a.group == g) s.askers i a { a with pos := p } ha
  have h4 := hr g
  simp only [notEnded] at h4
  by_cases hg : a.group = g
  · subst hg
    simp only [beq_self_eq_true, Bool.true_and, if_true, bne_iff_ne, ne_eq, h1, not_false_eq_true] at h2 h3
    split at h2 <;> omega
  · have : (a.group == g) = false := by simpa using hg
    simp only [this, Bool.false_and, Bool.false_eq_true, if_false] at h2 h3
    omega

theorem pos_move (l : List Asker) (n : Nat) (i : Nat) (a : Asker) (p : TPos) (h : ∀ a ∈ l, sound n a.pos) (hp : sound n p) :
    ∀ b ∈ l.set i { a with pos := p }, sound n b.pos := by
  intro b hb
  rcases List.mem_or_eq_of_mem_set hb with hb | rfl
  · exact h b hb
  · exact hp

theorem goInv_step (rewritten original : M) (s s' : State M) (e : Event) (hi : GoInv s)
    (h : step rewritten original s e = some s') : GoInv s' := by
  obtain ⟨hr, hs⟩ := hi
  cases e with
  | rewrite =>
    simp only [step, Option.ite_none_right_eq_some, Option.some.injEq] at h
    obtain ⟨hp, rfl⟩ := h
    exact ⟨hr, hs⟩
  | spawn udp =>
    simp only [step] at h
    split at h
    · rename_i g0 hp
      split at h
      · cases h
      · cases h
        constructor
        · intro g
          have := hr g
          simp only [notEnded, List.countP_append, List.countP_singleton] at this ⊢
          by_cases hg : g0 = g
          · simp [hg]; omega
          · simp [hg]; omega
        · intro a ha
          rcases List.mem_append.1 ha with ha | ha
          · exact hs a ha
          · rw [List.mem_singleton] at ha
            subst ha; trivial
    · cases h
  | collect =>
    simp only [step] at h
    split at h
    · rename_i g0 hp
      split at h
      · cases h
      · rename_i ok rest hc
        cases h
        refine ⟨?_, hs⟩
        intro g
        have := hr g
        simp only [notEnded, update] at this ⊢
        split
        · rename_i hg
          subst hg
          rw [hc, List.length_cons] at this
          omega
        · exact this
    · cases h
  | leave =>
    simp only [step] at h
    split at h
    · split at h
      · cases h; exact ⟨hr, hs⟩
      · cases h
    · cases h
  | revert =>
    simp only [step, Option.ite_none_right_eq_some, Option.some.injEq] at h
    obtain ⟨hp, rfl⟩ := h
    exact ⟨hr, hs⟩
  | next =>
    simp only [step, Option.ite_none_right_eq_some, Option.some.injEq] at h
    obtain ⟨hp, rfl⟩ := h
    exact ⟨hr, hs⟩
  | finish =>
    simp only [step, Option.ite_none_right_eq_some, Option.some.injEq] at h
    obtain ⟨hp, rfl⟩ := h
    exact ⟨hr, hs⟩
  | addresses i ok =>
    simp only [step] at h
    split at h
    · rename_i a ha
      split at h
      · rename_i hp
        cases h
        refine ⟨fun g => room_move s i a _ ha (by simp [hp]) hr g, pos_move _ _ _ _ _ hs ?_⟩
        split
        · exact ⟨by decide, by decide⟩
        · trivial
      · cases h
    · cases h
  | call i =>
    simp only [step] at h
    split at h
    · rename_i a ha
      split at h
      · rename_i n hp
        have h5 := hs a (List.mem_of_getElem? ha)
        rw [hp] at h5
        cases h
        refine ⟨fun g => room_move s i a _ ha (by simp [hp]) hr g, ?_⟩
        simp only [setAsker]
        refine pos_move _ _ _ _ _ (fun a ha => sound_mono (by simp) (hs a ha)) ?_
        refine ⟨by have := h5.2; omega, ?_, ?_⟩
        · split <;> simp
        · cases a.udp <;> simp
      · cases h
    · cases h
  | judge i e =>
    have hl : ∀ js, (kill s.exchanges js).length = s.exchanges.length := by intro js; simp [kill]
    simp only [step] at h
    split at h
    · rename_i a ha
      split at h
      · rename_i n js hp
        have h5 := hs a (List.mem_of_getElem? ha)
        rw [hp] at h5
        split at h
        · cases h
          refine ⟨fun g => room_move s i a _ ha (by simp [hp]) hr g, ?_⟩
          simp only [setAsker, hl]
          exact pos_move _ _ _ _ _ hs trivial
        · split at h
          · cases h
            refine ⟨fun g => room_move s i a _ ha (by simp [hp]) hr g, ?_⟩
            simp only [setAsker, hl]
            refine pos_move _ _ _ _ _ hs ?_
            cases e with
            | timeout =>
              simp only
              split
              · rename_i hn
                exact ⟨hn, by have := h5.1; omega⟩
              · trivial
            | error => trivial
            | truncated => trivial
          · cases h
      · cases h
    · cases h
  | put i =>
    simp only [step] at h
    split at h
    · rename_i a ha
      split at h
      · rename_i ok hp
        split at h
        · cases h
          refine ⟨?_, pos_move _ _ _ _ _ hs trivial⟩
          intro g
          have h2 := countP_put (fun a : Asker => a.group == g && a.pos != .ended) s.askers i a { a with pos := .ended } ha
          have h3 := countP_put (fun a : Asker => a.group == g) s.askers i a { a with pos := .ended } ha
          have h4 := hr g
          simp only [notEnded, setAsker, update] at h4 ⊢
          by_cases hg : a.group = g
          · subst hg
            simp [hp] at h2 h3 ⊢
            omega
          · have h6 : ¬ g = a.group := fun h => hg h.symm
            simp [hg] at h2 h3
            simp only [h6, if_false]
            simp
            omega
        · cases h
      · cases h
    · cases h
  | dial j ok =>
    simp only [step] at h
    split at h
    · split at h
      · cases h
        exact ⟨hr, by simpa using hs⟩
      · cases h
    · cases h
  | write j ok =>
    simp only [step] at h
    split at h
    · split at h
      · split at h
        · cases h
          exact ⟨hr, by simpa using hs⟩
        · cases h
          exact ⟨hr, by simpa using hs⟩
      · cases h
    · cases h
  | read j good =>
    simp only [step] at h
    split at h
    · split at h
      · cases h
        exact ⟨hr, by simpa using hs⟩
      · cases h
    · cases h

theorem goInv_run (rewritten original : M) (es : List Event) (s s' : State M) (hi : GoInv s)
    (h : run rewritten original s es = some s') : GoInv s' := by
  induction es generalizing s with
  | nil => cases h; exact hi
  | cons e es ih =>
    simp only [run] at h
    split at h
    · rename_i s1 h1
      exact ih s1 (goInv_step _ _ _ _ _ hi h1) h
    · cases h

theorem goInv_start (original : M) : GoInv (start original) :=
  ⟨by simp [start, notEnded], by simp [start]⟩

/-- An exchange that is not over can go on. -/
theorem exchange_goes (rewritten original : M) (s : State M) (j : Nat) (x : Exchange M) (hx : s.exchanges[j]? = some x)
    (hp : ∀ b, x.pos ≠ .over b) : ∃ e s', ownStep e = true ∧ step rewritten original s e = some s' := by
  cases hq : x.pos with
  | toDial => exact ⟨.dial j true, _, rfl, by simp only [step, hx, hq, if_true]; rfl⟩
  | toSend => exact ⟨.write j false, _, rfl, by simp only [step, hx, hq, if_true]; rfl⟩
  | waiting => exact ⟨.read j false, _, rfl, by simp only [step, hx, hq, if_true]; rfl⟩
  | over b => exact absurd hq (hp b)

theorem asker_goes (rewritten original : M) (s : State M) (hi : GoInv s) (i : Nat) (a : Asker) (ha : s.askers[i]? = some a)
    (hp : a.pos ≠ .ended) : ∃ e s', ownStep e = true ∧ step rewritten original s e = some s' := by
  have hs := hi.pos a (List.mem_of_getElem? ha)
  cases hq : a.pos with
  | looking => exact ⟨.addresses i true, _, rfl, by simp only [step, ha, hq, if_true]; rfl⟩
  | ready n =>
    rw [hq] at hs
    cases n with
    | zero => exact absurd hs.1 (by decide)
    | succ n => exact ⟨.call i, _, rfl, by simp only [step, ha, hq]; rfl⟩
  | racing n js =>
    rw [hq] at hs
    by_cases h1 : js.any (fun j => posOf s j == some (.over true)) = true
    · exact ⟨.judge i .error, _, rfl, by simp only [step, ha, hq, h1, if_true]; rfl⟩
    · by_cases h2 : js.all (fun j => posOf s j == some (.over false)) = true
      · refine ⟨.judge i .error, { (setAsker s i a (.done false)) with exchanges := kill s.exchanges js }, rfl, ?_⟩
        simp only [step, ha, hq]
        rw [if_neg h1, if_pos h2]
      · have : ∃ j ∈ js, ¬ (posOf s j = some (.over false)) := by
          simp only [List.all_eq_true, beq_iff_eq] at h2
          exact Classical.byContradiction fun hn => h2 fun j hj => Classical.byContradiction fun hk => hn ⟨j, hj, hk⟩
        obtain ⟨j, hj, hk⟩ := this
        have hlt := hs.2.2 j hj
        refine exchange_goes rewritten original s j s.exchanges[j] (List.getElem?_eq_getElem hlt) ?_
        intro b hb
        have h3 : posOf s j = some (.over b) := by
          simp only [posOf, List.getElem?_eq_getElem hlt, Option.map_some, hb]
        cases b with
        | false => exact hk h3
        | true =>
          apply h1
          simp only [List.any_eq_true, beq_iff_eq]
          exact ⟨j, hj, h3⟩
  | done ok =>
    refine ⟨.put i, { (setAsker s i a .ended) with chan := update s.chan a.group (s.chan a.group ++ [ok]) }, rfl, ?_⟩
    have h1 := hi.room a.group
    have h2 : 0 < notEnded s a.group := by
      simp only [notEnded, List.countP_pos_iff]
      exact ⟨a, List.mem_of_getElem? ha, by simp [hq]⟩
    have h3 : (s.chan a.group).length < count s a.group := by rw [count_eq]; omega
    simp only [step, ha, hq, h3, if_true]
  | ended => exact absurd hq hp

/-- Everything that was started for a query has ended. -/
def AllEnded (s : State M) : Prop :=
  (∀ a ∈ s.askers, a.pos = .ended) ∧ (∀ x ∈ s.exchanges, ∃ b, x.pos = .over b)

/-- **C107** No goroutine waits for ever for the goroutine of the query: as long as one of those that were started has not
ended, one of them can go on, whatever the goroutine of the query does or has done. -/
theorem C107_goes_on (rewritten original : M) (es : List Event) (s : State M)
    (h : run rewritten original (start original) es = some s) (hn : ¬ AllEnded s) :
    ∃ e s', ownStep e = true ∧ step rewritten original s e = some s' := by
  have hi := goInv_run _ _ _ _ _ (goInv_start original) h
  by_cases h1 : ∀ a ∈ s.askers, a.pos = .ended
  · have h2 : ¬ ∀ x ∈ s.exchanges, ∃ b, x.pos = .over b := fun h2 => hn ⟨h1, h2⟩
    obtain ⟨x, hx, hp⟩ : ∃ x ∈ s.exchanges, ∀ b, x.pos ≠ .over b :=
      Classical.byContradiction fun hk => h2 fun x hx => Classical.byContradiction fun hb =>
        hk ⟨x, hx, fun b hb' => hb ⟨b, hb'⟩⟩
    obtain ⟨j, hj⟩ := List.mem_iff_getElem?.1 hx
    exact exchange_goes _ _ s j x hj hp
  · obtain ⟨a, ha, hp⟩ : ∃ a ∈ s.askers, a.pos ≠ .ended :=
      Classical.byContradiction fun hk => h1 fun a ha => Classical.byContradiction fun hb => hk ⟨a, ha, hb⟩
    obtain ⟨i, hi'⟩ := List.mem_iff_getElem?.1 ha
    exact asker_goes _ _ s hi i a hi' hp

/-- How many steps a goroutine may still take. -/
def askerLeft : TPos → Nat
  | .looking => 26
  | .ready n => 8 * n + 1
  | .racing n _ => 8 * n + 2
  | .done _ => 1
  | .ended => 0

/-- How many steps an exchange may still take. -/
def exchangeLeft : XPos → Nat
  | .toDial => 3
  | .toSend => 2
  | .waiting => 1
  | .over _ => 0

/-- How many steps there may still be. -/
def allLeft (s : State M) : Nat :=
  (s.askers.map (fun a => askerLeft a.pos)).sum + (s.exchanges.map (fun x => exchangeLeft x.pos)).sum

theorem sl_looking : askerLeft .looking = 26 := rfl
theorem sl_ready (n : Nat) : askerLeft (.ready n) = 8 * n + 1 := rfl
theorem sl_racing (n : Nat) (js : List Nat) : askerLeft (.racing n js) = 8 * n + 2 := rfl
theorem sl_done (b : Bool) : askerLeft (.done b) = 1 := rfl
theorem sl_ended : askerLeft .ended = 0 := rfl
theorem xl_dial : exchangeLeft .toDial = 3 := rfl
theorem xl_send : exchangeLeft .toSend = 2 := rfl
theorem xl_waiting : exchangeLeft .waiting = 1 := rfl
theorem xl_over (b : Bool) : exchangeLeft (.over b) = 0 := rfl

theorem kill_left (xs : List (Exchange M)) (js : List Nat) :
    ((kill xs js).map (fun x => exchangeLeft x.pos)).sum = (xs.map (fun x => exchangeLeft x.pos)).sum := by
  rw [kill_map _ (fun _ => rfl)]

theorem left_step (rewritten original : M) (s s' : State M) (e : Event) (ho : ownStep e = true)
    (h : step rewritten original s e = some s') : allLeft s' < allLeft s := by
  have hm : ∀ (i : Nat) (a : Asker) (p : TPos), s.askers[i]? = some a →
      ((s.askers.set i { a with pos := p }).map (fun a => askerLeft a.pos)).sum + askerLeft a.pos =
        (s.askers.map (fun a => askerLeft a.pos)).sum + askerLeft p :=
    fun i a p ha => sum_put (fun a => askerLeft a.pos) s.askers i a { a with pos := p } ha
  have hx : ∀ (j : Nat) (x : Exchange M) (p : XPos), s.exchanges[j]? = some x →
      ((s.exchanges.set j { x with pos := p }).map (fun a => exchangeLeft a.pos)).sum + exchangeLeft x.pos =
        (s.exchanges.map (fun a => exchangeLeft a.pos)).sum + exchangeLeft p :=
    fun j x p hx => sum_put (fun a => exchangeLeft a.pos) s.exchanges j x { x with pos := p } hx
  cases e with
  | addresses i ok =>
    simp only [step] at h
    split at h
    · rename_i a ha
      split at h
      · rename_i hp
        cases h
        have h1 := hm i a (if ok then .ready retryAttempts else .done false) ha
        simp only [allLeft, setAsker]
        rw [hp] at h1
        have h2 : askerLeft (if ok then .ready retryAttempts else .done false) ≤ 25 := by cases ok <;> decide
        simp only [sl_looking] at h1
        omega
      · cases h
    · cases h
  | call i =>
    simp only [step] at h
    split at h
    · rename_i a ha
      split at h
      · rename_i n hp
        cases h
        have h1 := hm i a (.racing n (if a.udp then [s.exchanges.length, s.exchanges.length + 1] else [s.exchanges.length])) ha
        simp only [allLeft, setAsker, List.map_append, List.sum_append]
        rw [hp] at h1
        have h2 : ((if a.udp = true then ([⟨a.group, i, s.req, .toDial, false⟩, ⟨a.group, i, s.req, .toDial, false⟩] : List (Exchange M))
            else [⟨a.group, i, s.req, .toDial, false⟩]).map (fun x => exchangeLeft x.pos)).sum ≤ 6 := by
          split <;> simp [exchangeLeft]
        simp only [sl_looking, sl_ready, sl_racing, sl_done, sl_ended] at h1
        omega
      · cases h
    · cases h
  | judge i e =>
    simp only [step] at h
    split at h
    · rename_i a ha
      split at h
      · rename_i n js hp
        split at h
        · cases h
          have h1 := hm i a (.done true) ha
          simp only [allLeft, setAsker, kill_left]
          rw [hp] at h1
          simp only [sl_looking, sl_ready, sl_racing, sl_done, sl_ended] at h1
          omega
        · split at h
          · cases h
            simp only [allLeft, setAsker, kill_left]
            have done_lt : ∀ b, ((s.askers.set i { a with pos := .done b }).map (fun a => askerLeft a.pos)).sum <
                (s.askers.map (fun a => askerLeft a.pos)).sum := by
              intro b
              have h1 := hm i a (.done b) ha
              rw [hp, sl_done, sl_racing] at h1
              omega
            cases e with
            | timeout =>
              simp only
              split
              · have h1 := hm i a (.ready n) ha
                rw [hp, sl_ready, sl_racing] at h1
                omega
              · have := done_lt false
                omega
            | error => have := done_lt false; simp only; omega
            | truncated => have := done_lt true; simp only; omega
          · cases h
      · cases h
    · cases h
  | put i =>
    simp only [step] at h
    split at h
    · rename_i a ha
      split at h
      · rename_i ok hp
        split at h
        · cases h
          have h1 := hm i a .ended ha
          simp only [allLeft, setAsker]
          rw [hp] at h1
          simp only [sl_looking, sl_ready, sl_racing, sl_done, sl_ended] at h1
          omega
        · cases h
      · cases h
    · cases h
  | dial j ok =>
    simp only [step] at h
    split at h
    · rename_i x hx'
      split at h
      · rename_i hp
        cases h
        have h1 := hx j x (if (ok && !(s.cancelled x.group) && !x.dead) = true then .toSend else .over false) hx'
        rw [hp] at h1
        have h2 : exchangeLeft (if (ok && !(s.cancelled x.group) && !x.dead) = true then .toSend else .over false) ≤ 2 := by
          split <;> decide
        have h3 : exchangeLeft .toDial = 3 := rfl
        simp only [allLeft]
        omega
      · cases h
    · cases h
  | write j ok =>
    simp only [step] at h
    split at h
    · rename_i x hx'
      split at h
      · rename_i hp
        split at h
        · cases h
          have h1 := hx j x .waiting hx'
          rw [hp] at h1
          simp only [xl_send, xl_waiting, xl_over] at h1
          simp only [allLeft]
          omega
        · cases h
          have h1 := hx j x (.over false) hx'
          rw [hp] at h1
          simp only [xl_send, xl_waiting, xl_over] at h1
          simp only [allLeft]
          omega
      · cases h
    · cases h
  | read j good =>
    simp only [step] at h
    split at h
    · rename_i x hx'
      split at h
      · rename_i hp
        cases h
        have h1 := hx j x (.over good) hx'
        rw [hp] at h1
        simp only [xl_send, xl_waiting, xl_over] at h1
        simp only [allLeft]
        omega
      · cases h
    · cases h
  | _ => cases ho

/-- When the query is answered, only the goroutines that were started take steps. -/
theorem answered_own (rewritten original : M) (s s' : State M) (e : Event) (ha : s.phase = .answered)
    (h : step rewritten original s e = some s') : ownStep e = true ∧ s'.phase = .answered := by
  cases e with
  | addresses i ok =>
    simp only [step] at h
    split at h
    · split at h
      · cases h; exact ⟨rfl, ha⟩
      · cases h
    · cases h
  | call i =>
    simp only [step] at h
    split at h
    · split at h
      · cases h; exact ⟨rfl, ha⟩
      · cases h
    · cases h
  | judge i e =>
    simp only [step] at h
    split at h
    · split at h
      · split at h
        · cases h; exact ⟨rfl, ha⟩
        · split at h
          · cases h; exact ⟨rfl, ha⟩
          · cases h
      · cases h
    · cases h
  | put i =>
    simp only [step] at h
    split at h
    · split at h
      · split at h
        · cases h; exact ⟨rfl, ha⟩
        · cases h
      · cases h
    · cases h
  | dial j ok =>
    simp only [step] at h
    split at h
    · split at h
      · cases h; exact ⟨rfl, ha⟩
      · cases h
    · cases h
  | write j ok =>
    simp only [step] at h
    split at h
    · split at h
      · split at h
        · cases h; exact ⟨rfl, ha⟩
        · cases h; exact ⟨rfl, ha⟩
      · cases h
    · cases h
  | read j good =>
    simp only [step] at h
    split at h
    · split at h
      · cases h; exact ⟨rfl, ha⟩
      · cases h
    · cases h
  | _ => simp [step, ha] at h

theorem answered_run (rewritten original : M) (es : List Event) (s s' : State M) (ha : s.phase = .answered)
    (h : run rewritten original s es = some s') : es.length + allLeft s' ≤ allLeft s := by
  induction es generalizing s with
  | nil => cases h; simp
  | cons e es ih =>
    simp only [run] at h
    split at h
    · rename_i s1 h1
      have h2 := answered_own _ _ _ _ _ ha h1
      have h3 := left_step _ _ _ _ _ h2.1 h1
      have h4 := ih s1 h2.2 h
      simp only [List.length_cons]
      omega
    · cases h

theorem sum_bound {A : Type} (f : A → Nat) (k : Nat) (l : List A) (h : ∀ a ∈ l, f a ≤ k) : (l.map f).sum ≤ k * l.length := by
  induction l with
  | nil => simp
  | cons a l ih =>
    have h1 := h a (List.mem_cons_self)
    have h2 := ih (fun b hb => h b (List.mem_cons_of_mem _ hb))
    simp only [List.map_cons, List.sum_cons, List.length_cons, Nat.mul_add, Nat.mul_one]
    omega

/-- **C107** When the query has been answered, what was started for it comes to its end: there are at most 26 more steps for each
goroutine and 3 for each exchange, and when no further step is possible, all have ended. -/
theorem C107_ends (rewritten original : M) (es : List Event) (s : State M)
    (h : run rewritten original (start original) es = some s) (ha : s.phase = .answered) :
    (∀ more s', run rewritten original s more = some s' → more.length ≤ 26 * s.askers.length + 3 * s.exchanges.length) ∧
    (∀ more s', run rewritten original s more = some s' → (∀ e, step rewritten original s' e = none) → AllEnded s') := by
  have hi := goInv_run _ _ _ _ _ (goInv_start original) h
  have run_append : ∀ (l m : List Event) (a b c : State M), run rewritten original a l = some b →
      run rewritten original b m = some c → run rewritten original a (l ++ m) = some c := by
    intro l
    induction l with
    | nil => intro m a b c h1 h2; cases h1; exact h2
    | cons e l ih =>
      intro m a b c h1 h2
      simp only [run] at h1
      simp only [List.cons_append, run]
      split at h1
      · rename_i s1 h3
        exact ih m s1 b c h1 h2
      · cases h1
  constructor
  · intro more s' hm
    have h1 := answered_run _ _ _ _ _ ha hm
    have h2 : (s.askers.map (fun a => askerLeft a.pos)).sum ≤ 26 * s.askers.length := by
      apply sum_bound
      intro a ha
      have := hi.pos a ha
      revert this
      cases a.pos with
      | looking => intro _; exact Nat.le_refl _
      | ready n => intro hn; have := hn.2; simp only [askerLeft]; omega
      | racing n js => intro hn; have := hn.1; simp only [askerLeft]; omega
      | done ok => intro _; simp only [askerLeft]; omega
      | ended => intro _; simp only [askerLeft]; omega
    have h3 : (s.exchanges.map (fun x => exchangeLeft x.pos)).sum ≤ 3 * s.exchanges.length := by
      apply sum_bound
      intro x _
      cases x.pos <;> simp [exchangeLeft]
    simp only [allLeft] at h1
    omega
  · intro more s' hm hno
    refine Classical.byContradiction fun hn => ?_
    obtain ⟨e, s2, _, h2⟩ := C107_goes_on _ _ _ _ (run_append _ _ _ _ _ h hm) hn
    rw [hno e] at h2
    cases h2

/-- Attempts an asker may still begin. -/
def attemptsLeft : TPos → Nat
  | .looking => 3
  | .ready n => n
  | .racing n _ => n
  | _ => 0

/-- Exchanges of goroutine `i` that may still send. -/
def maySend (s : State M) (i : Nat) : Nat :=
  s.exchanges.countP (fun x => x.asker == i && (x.pos == .toDial || x.pos == .toSend))

/-- What goroutine `i` has sent. -/
def sentBy (s : State M) (i : Nat) : Nat := s.sent.countP (fun e => e.2.1 == i)

/-- Exchanges per attempt. -/
def width (a : Asker) : Nat := if a.udp then 2 else 1

/-- What bounds the messages of a goroutine. -/
structure SendInv (s : State M) : Prop where
  bound : ∀ i a, s.askers[i]? = some a → sentBy s i + maySend s i + width a * attemptsLeft a.pos ≤ 3 * width a
  exchanges : ∀ x ∈ s.exchanges, x.asker < s.askers.length
  sent : ∀ e ∈ s.sent, e.2.1 < s.askers.length

theorem bound_move (s : State M) (i : Nat) (a : Asker) (p : TPos) (ha : s.askers[i]? = some a)
    (hp : attemptsLeft p ≤ attemptsLeft a.pos)
    (h : ∀ i a, s.askers[i]? = some a → sentBy s i + maySend s i + width a * attemptsLeft a.pos ≤ 3 * width a) :
    ∀ k b, (s.askers.set i { a with pos := p })[k]? = some b →
      sentBy s k + maySend s k + width b * attemptsLeft b.pos ≤ 3 * width b := by
  intro k b hb
  have hlt : i < s.askers.length := (List.getElem?_eq_some_iff.1 ha).1
  rw [List.getElem?_set] at hb
  split at hb
  · rename_i hik
    subst hik
    simp only [Option.some.injEq] at hb
    subst hb
    have h1 := h i a ha
    have h2 : width a * attemptsLeft p ≤ width a * attemptsLeft a.pos := Nat.mul_le_mul_left _ hp
    have h3 : width { a with pos := p } = width a := rfl
    simp only [h3]
    omega
  · exact h k b hb

/-- Changing the position of an exchange. -/
theorem maySend_put (s : State M) (j : Nat) (x : Exchange M) (p : XPos) (hx : s.exchanges[j]? = some x) (i : Nat) :
    (s.exchanges.set j { x with pos := p }).countP (fun x => x.asker == i && (x.pos == .toDial || x.pos == .toSend)) +
      (if x.asker = i ∧ (x.pos = .toDial ∨ x.pos = .toSend) then 1 else 0) =
    maySend s i + (if x.asker = i ∧ (p = .toDial ∨ p = .toSend) then 1 else 0) := by
  have := countP_put (fun x : Exchange M => x.asker == i && (x.pos == .toDial || x.pos == .toSend)) s.exchanges j x
    { x with pos := p } hx
  simpa [maySend] using this

theorem exchange_put (s : State M) (j : Nat) (x : Exchange M) (p : XPos) (hx : s.exchanges[j]? = some x)
    (h : ∀ x ∈ s.exchanges, x.asker < s.askers.length) :
    ∀ y ∈ s.exchanges.set j { x with pos := p }, y.asker < s.askers.length := by
  intro y hy
  rcases List.mem_or_eq_of_mem_set hy with hy | rfl
  · exact h y hy
  · exact h x (List.mem_of_getElem? hx)

theorem sendInv_step (rewritten original : M) (s s' : State M) (e : Event) (hi : SendInv s)
    (h : step rewritten original s e = some s') : SendInv s' := by
  obtain ⟨hb, hx, hs⟩ := hi
  cases e with
  | rewrite =>
    simp only [step, Option.ite_none_right_eq_some, Option.some.injEq] at h
    obtain ⟨hp, rfl⟩ := h
    exact ⟨hb, hx, hs⟩
  | spawn udp =>
    simp only [step] at h
    split at h
    · split at h
      · cases h
      · rename_i g0 _ _
        cases h
        refine ⟨?_, ?_, ?_⟩
        · intro i a ha
          rw [List.getElem?_append] at ha
          split at ha
          · exact hb i a ha
          · rename_i hlt
            have hlt : s.askers.length ≤ i := Nat.le_of_not_lt hlt
            have h1 : s.sent.countP (fun e => e.2.1 == i) = 0 := by
              rw [List.countP_eq_zero]
              intro e he
              have := hs e he
              simp only [beq_iff_eq]
              omega
            have h2 : s.exchanges.countP (fun x => x.asker == i && (x.pos == .toDial || x.pos == .toSend)) = 0 := by
              rw [List.countP_eq_zero]
              intro x hx'
              have := hx x hx'
              simp only [Bool.and_eq_true, beq_iff_eq, not_and]
              intro h; omega
            have h3 : a.pos = .looking := by
              have := List.mem_of_getElem? ha
              rw [List.mem_singleton] at this
              rw [this]
            simp only [sentBy, maySend, h1, h2, h3, attemptsLeft]
            omega
        · intro x hx'
          simp only [List.length_append]
          exact Nat.lt_add_right _ (hx x hx')
        · intro e he
          simp only [List.length_append]
          exact Nat.lt_add_right _ (hs e he)
    · cases h
  | collect =>
    simp only [step] at h
    split at h
    · split at h
      · cases h
      · cases h; exact ⟨hb, hx, hs⟩
    · cases h
  | leave =>
    simp only [step] at h
    split at h
    · split at h
      · cases h; exact ⟨hb, hx, hs⟩
      · cases h
    · cases h
  | revert =>
    simp only [step, Option.ite_none_right_eq_some, Option.some.injEq] at h
    obtain ⟨hp, rfl⟩ := h
    exact ⟨hb, hx, hs⟩
  | next =>
    simp only [step, Option.ite_none_right_eq_some, Option.some.injEq] at h
    obtain ⟨hp, rfl⟩ := h
    exact ⟨hb, hx, hs⟩
  | finish =>
    simp only [step, Option.ite_none_right_eq_some, Option.some.injEq] at h
    obtain ⟨hp, rfl⟩ := h
    exact ⟨hb, hx, hs⟩
  | addresses i ok =>
    simp only [step] at h
    split at h
    · rename_i a ha
      split at h
      · rename_i hp
        cases h
        refine ⟨bound_move s i a _ ha ?_ hb, by simpa [setAsker] using hx, by simpa [setAsker] using hs⟩
        rw [hp]
        cases ok <;> decide
      · cases h
    · cases h
  | call i =>
    simp only [step] at h
    split at h
    · rename_i a ha
      have hlt : i < s.askers.length := (List.getElem?_eq_some_iff.1 ha).1
      split at h
      · rename_i n hp
        cases h
        refine ⟨?_, ?_, by simpa [setAsker] using hs⟩
        · intro k b hb'
          simp only [setAsker, sentBy, maySend, List.countP_append] at hb' ⊢
          rw [List.getElem?_set] at hb'
          split at hb'
          · rename_i hik
            subst hik
            simp only [Option.some.injEq] at hb'
            subst hb'
            have h1 := hb i a ha
            rw [hp] at h1
            simp only [sentBy, maySend, attemptsLeft, Nat.succ_eq_add_one, Nat.mul_add, Nat.mul_one] at h1
            have h3 : ∀ p, width { a with pos := p } = width a := fun _ => rfl
            simp only [h3, attemptsLeft]
            have h4 : (if a.udp = true then ([⟨a.group, i, s.req, .toDial, false⟩, ⟨a.group, i, s.req, .toDial, false⟩] : List (Exchange M))
                else [⟨a.group, i, s.req, .toDial, false⟩]).countP
                  (fun x => x.asker == i && (x.pos == .toDial || x.pos == .toSend)) = width a := by
              simp only [width]
              split <;> simp
            rw [h4]
            omega
          · rename_i hik
            have h1 := hb k b hb'
            simp only [sentBy, maySend] at h1
            have h4 : (if a.udp = true then ([⟨a.group, i, s.req, .toDial, false⟩, ⟨a.group, i, s.req, .toDial, false⟩] : List (Exchange M))
                else [⟨a.group, i, s.req, .toDial, false⟩]).countP
                  (fun x => x.asker == k && (x.pos == .toDial || x.pos == .toSend)) = 0 := by
              split <;> simp [hik]
            rw [h4]
            omega
        · intro x hx'
          simp only [setAsker, List.length_set] at hx' ⊢
          rcases List.mem_append.1 hx' with h | h
          · exact hx x h
          · have : x.asker = i := by
              split at h
              · simp at h; rw [h]
              · simp at h; rw [h]
            omega
      · cases h
    · cases h
  | judge i e =>
    have hk : ∀ js, ∀ x ∈ kill s.exchanges js, x.asker < s.askers.length := by
      intro js x hx'
      have h1 : x.asker ∈ (kill s.exchanges js).map (·.asker) := List.mem_map_of_mem hx'
      rw [kill_map _ (fun _ => rfl)] at h1
      obtain ⟨y, hy, e⟩ := List.mem_map.1 h1
      rw [← e]
      exact hx y hy
    have hc : ∀ js k, (kill s.exchanges js).countP (fun x => x.asker == k && (x.pos == .toDial || x.pos == .toSend)) =
        maySend s k := fun js k => kill_countP _ (fun _ => rfl) _ _
    simp only [step] at h
    split at h
    · rename_i a ha
      split at h
      · rename_i n js hp
        split at h
        · cases h
          refine ⟨?_, by simpa [setAsker] using hk js, by simpa [setAsker] using hs⟩
          have h1 := bound_move s i a (.done true) ha (by simp [attemptsLeft]) hb
          simp only [setAsker, maySend, hc]
          exact h1
        · split at h
          · cases h
            refine ⟨?_, by simpa [setAsker] using hk js, by simpa [setAsker] using hs⟩
            have h1 := bound_move s i a (match e with
              | .timeout => if 0 < n then .ready n else .done false
              | .error => .done false
              | .truncated => .done true) ha (by
                rw [hp]
                cases e with
                | timeout =>
                  simp only
                  split <;> simp [attemptsLeft]
                | error => simp [attemptsLeft]
                | truncated => simp [attemptsLeft]) hb
            simp only [setAsker, maySend, hc]
            exact h1
          · cases h
      · cases h
    · cases h
  | put i =>
    simp only [step] at h
    split at h
    · rename_i a ha
      split at h
      · rename_i ok hp
        split at h
        · cases h
          exact ⟨bound_move s i a _ ha (by simp [attemptsLeft]) hb, by simpa [setAsker] using hx, by simpa [setAsker] using hs⟩
        · cases h
      · cases h
    · cases h
  | dial j ok =>
    simp only [step] at h
    split at h
    · rename_i x hx'
      split at h
      · rename_i hp
        cases h
        refine ⟨?_, exchange_put s j x _ hx' hx, hs⟩
        intro i a ha
        have h1 := hb i a ha
        have h2 := maySend_put s j x (if (ok && !(s.cancelled x.group) && !x.dead) = true then .toSend else .over false) hx' i
        simp only [hp, sentBy, maySend] at h1 h2 ⊢
        generalize (if (ok && !(s.cancelled x.group) && !x.dead) = true then XPos.toSend else XPos.over false) = q at h2 ⊢
        by_cases hi : x.asker = i
        · subst hi
          simp only [true_and, true_or, if_true] at h2
          split at h2 <;> omega
        · simp only [hi, false_and, if_false] at h2
          omega
      · cases h
    · cases h
  | write j ok =>
    simp only [step] at h
    split at h
    · rename_i x hx'
      split at h
      · rename_i hp
        split at h
        · cases h
          refine ⟨?_, exchange_put s j x _ hx' hx, ?_⟩
          · intro i a ha
            have h1 := hb i a ha
            have h2 := maySend_put s j x .waiting hx' i
            simp only [hp, sentBy, maySend, List.countP_append, List.countP_singleton] at h1 h2 ⊢
            by_cases hi : x.asker = i
            · simp [hi] at h2 ⊢
              omega
            · simp [hi] at h2 ⊢
              omega
          · intro e he
            rcases List.mem_append.1 he with he | he
            · exact hs e he
            · rw [List.mem_singleton] at he
              subst he
              exact hx x (List.mem_of_getElem? hx')
        · cases h
          refine ⟨?_, exchange_put s j x _ hx' hx, hs⟩
          intro i a ha
          have h1 := hb i a ha
          have h2 := maySend_put s j x (.over false) hx' i
          simp [sentBy, maySend] at h1 h2 ⊢
          omega
      · cases h
    · cases h
  | read j good =>
    simp only [step] at h
    split at h
    · rename_i x hx'
      split at h
      · rename_i hp
        cases h
        refine ⟨?_, exchange_put s j x _ hx' hx, hs⟩
        intro i a ha
        have h1 := hb i a ha
        have h2 := maySend_put s j x (.over good) hx' i
        simp [sentBy, maySend] at h1 h2 ⊢
        omega
      · cases h
    · cases h

/-- **C107** A goroutine sends its upstream at most three messages; at most six, if it asks over UDP and TCP at once. -/
theorem C107_messages (rewritten original : M) (es : List Event) (s : State M)
    (h : run rewritten original (start original) es = some s) (i : Nat) (a : Asker) (ha : s.askers[i]? = some a) :
    (s.sent.filter (fun e => e.2.1 == i)).length ≤ if a.udp then 6 else 3 := by
  have inv : ∀ (es : List Event) (s s' : State M), SendInv s → run rewritten original s es = some s' → SendInv s' := by
    intro es
    induction es with
    | nil => intro s s' hi h; cases h; exact hi
    | cons e es ih =>
      intro s s' hi h
      simp only [run] at h
      split at h
      · rename_i s1 h1
        exact ih s1 s' (sendInv_step _ _ _ _ _ hi h1) h
      · cases h
  have h1 := (inv es _ _ ⟨by simp [start], by simp [start], by simp [start]⟩ h).bound i a ha
  rw [← List.countP_eq_length_filter]
  simp only [sentBy, width] at h1
  split <;> simp_all <;> omega

/-- Two upstreams are asked in parallel for a rewritten query; the first answers, the other one has a connection only. -/
def raceRun : List Event :=
  [.rewrite, .spawn false, .spawn false, .addresses 0 true, .addresses 1 true, .call 0, .call 1, .dial 0 true, .dial 1 true,
   .write 0 true, .read 0 true, .judge 0 .error, .put 0, .collect, .leave, .revert, .finish]

/-- **C107** Upstreams are sent queries although the query has been answered: the other goroutine sends its message when the client
has its answer, and its connection stays until the upstream answers or the time is over. -/
theorem C107_quiet_false : ∃ s s' : State Nat, run 7 5 (start 5) raceRun = some s ∧ s.phase = .answered ∧
    s.sent = [(false, 0, 7)] ∧ run 7 5 s [.write 1 true] = some s' ∧ s'.sent = [(false, 0, 7), (false, 1, 7)] := by
  exact ⟨_, _, rfl, rfl, rfl, rfl, rfl⟩

/-- A goroutine that is slow to find the addresses of its upstream holds the query as it came, but gets no connection any more. -/
def slowRun : List Event :=
  [.rewrite, .spawn false, .spawn true, .addresses 0 true, .call 0, .dial 0 true, .write 0 true, .read 0 true, .judge 0 .error, .put 0,
   .collect, .leave, .revert, .finish, .addresses 1 true, .call 1, .dial 1 true, .dial 2 true, .judge 1 .timeout, .call 1]

example : ∃ s : State Nat, run 7 5 (start 5) slowRun = some s ∧ s.sent = [(false, 0, 7)] ∧
    s.exchanges.map (fun x => (x.msg, x.pos)) =
      [(7, .over true), (5, .over false), (5, .over false), (5, .toDial), (5, .toDial)] := by
  exact ⟨_, rfl, rfl, rfl⟩

/-- `C107_sent` is about executions with messages to both groups. -/
example : ∃ s : State Nat, run 7 5 (start 5) [.rewrite, .spawn false, .addresses 0 false, .put 0, .collect, .leave, .revert, .next,
    .spawn true, .addresses 1 true, .call 1, .dial 0 true, .dial 1 true, .write 1 true] = some s ∧ s.sent = [(true, 1, 5)] := by
  exact ⟨_, rfl, rfl⟩

/-- `C107_late`: one message may follow. -/
example : ∃ s : State Nat, run 7 5 (start 5) raceRun = some s ∧ s.cancelled false = true ∧ connected s false = 1 := by
  exact ⟨_, rfl, rfl, rfl⟩

/-- `C107_goes_on` and `C107_ends`: an answered query with a goroutine left. -/
example : ∃ s : State Nat, run 7 5 (start 5) raceRun = some s ∧ s.phase = .answered ∧ ¬ AllEnded s := by
  refine ⟨_, rfl, rfl, ?_⟩
  intro h
  obtain ⟨b, hb⟩ := h.2 _ (List.mem_cons_of_mem _ List.mem_cons_self)
  cases hb

/-- Three attempts send three messages. -/
example : ∃ s : State Nat, run 7 5 (start 5) [.rewrite, .spawn false, .addresses 0 true,
    .call 0, .dial 0 true, .write 0 true, .read 0 false, .judge 0 .timeout,
    .call 0, .dial 1 true, .write 1 true, .read 1 false, .judge 0 .timeout,
    .call 0, .dial 2 true, .write 2 true, .read 2 false, .judge 0 .timeout] = some s ∧
    s.sent.length = 3 ∧ (step 7 5 s (.call 0)).isNone = true := by
  exact ⟨_, rfl, rfl, rfl⟩

/-! ### The end of an attempt -/

/-- The exchanges that are alive are those of the attempts that go on. -/
structure AttemptInv (askers : List Asker) (ks : List (Nat × Bool)) : Prop where
  alive : ∀ (i : Nat) (a : Asker) n js, askers[i]? = some a → a.pos = .racing n js → ∀ j ∈ js, ks[j]? = some (i, false)
  racing : ∀ (j i : Nat), ks[j]? = some (i, false) → ∃ (a : Asker) (n : Nat) (js : List Nat), askers[i]? = some a ∧ a.pos = TPos.racing n js ∧ j ∈ js

/-- What it is about: the goroutine of an exchange, and whether it is over. -/
def keyOf (x : Exchange M) : Nat × Bool := (x.asker, x.dead)

def notRacing : TPos → Bool
  | .racing _ _ => false
  | _ => true

theorem attempt_move {l : List Asker} {ks : List (Nat × Bool)} (hi : AttemptInv l ks) {i : Nat} {a : Asker} (ha : l[i]? = some a)
    (h1 : notRacing a.pos = true) {p : TPos} (h2 : notRacing p = true) : AttemptInv (l.set i { a with pos := p }) ks := by
  constructor
  · intro i' a' n js h hp
    rw [List.getElem?_set] at h
    split at h
    · split at h
      · cases h
        simp only at hp
        rw [hp] at h2
        cases h2
      · cases h
    · exact hi.alive i' a' n js h hp
  · intro j i' h
    obtain ⟨b, n, js, hb, hp, hj⟩ := hi.racing j i' h
    by_cases e : i = i'
    · subst e
      rw [ha] at hb
      cases hb
      rw [hp] at h1
      cases h1
    · exact ⟨b, n, js, by rw [List.getElem?_set_ne e]; exact hb, hp, hj⟩

theorem attempt_spawn {l : List Asker} {ks : List (Nat × Bool)} (hi : AttemptInv l ks) (b : Asker) (h2 : notRacing b.pos = true) :
    AttemptInv (l ++ [b]) ks := by
  constructor
  · intro i' a' n js h hp
    rw [List.getElem?_append] at h
    split at h
    · exact hi.alive i' a' n js h hp
    · have hm := List.mem_of_getElem? h
      rw [List.mem_singleton] at hm
      subst hm
      rw [hp] at h2
      cases h2
  · intro j i' h
    obtain ⟨b', n, js, hb, hp, hj⟩ := hi.racing j i' h
    refine ⟨b', n, js, ?_, hp, hj⟩
    rw [List.getElem?_append_left (List.getElem?_eq_some_iff.1 hb).1]
    exact hb

theorem attempt_call {l : List Asker} {ks : List (Nat × Bool)} (hi : AttemptInv l ks) {i : Nat} {a : Asker} (ha : l[i]? = some a)
    (h1 : notRacing a.pos = true) (n : Nat) (m : Nat) :
    AttemptInv (l.set i { a with pos := .racing n (List.range' ks.length m) }) (ks ++ List.replicate m (i, false)) := by
  constructor
  · intro i' a' n' js h hp j hj
    rw [List.getElem?_set] at h
    split at h
    · rename_i e
      subst e
      split at h
      · cases h
        simp only [TPos.racing.injEq] at hp
        obtain ⟨rfl, rfl⟩ := hp
        rw [List.mem_range'_1] at hj
        rw [List.getElem?_append_right hj.1, List.getElem?_replicate, if_pos (by omega)]
      · cases h
    · have := hi.alive i' a' n' js h hp j hj
      rw [List.getElem?_append_left (List.getElem?_eq_some_iff.1 this).1]
      exact this
  · intro j i' h
    have hl : i < l.length := (List.getElem?_eq_some_iff.1 ha).1
    rw [List.getElem?_append] at h
    split at h
    · obtain ⟨b, n', js, hb, hp, hj⟩ := hi.racing j i' h
      by_cases e : i = i'
      · subst e
        rw [ha] at hb
        cases hb
        rw [hp] at h1
        cases h1
      · exact ⟨b, n', js, by rw [List.getElem?_set_ne e]; exact hb, hp, hj⟩
    · rename_i hj
      rw [List.getElem?_replicate] at h
      split at h
      · simp only [Option.some.injEq, Prod.mk.injEq, and_true] at h
        subst h
        refine ⟨_, n, _, List.getElem?_set_self hl, rfl, ?_⟩
        rw [List.mem_range'_1]
        omega
      · cases h

theorem attempt_judge {l : List Asker} {xs : List (Exchange M)} (hi : AttemptInv l (xs.map keyOf)) {i : Nat} {a : Asker}
    (ha : l[i]? = some a) {n : Nat} {js : List Nat} (h1 : a.pos = .racing n js) {p : TPos} (h2 : notRacing p = true) :
    AttemptInv (l.set i { a with pos := p }) ((kill xs js).map keyOf) := by
  have hk : ∀ j, ((kill xs js).map keyOf)[j]? = (xs[j]?).map (fun x => (x.asker, if j ∈ js then true else x.dead)) := by
    intro j
    simp only [kill, List.getElem?_map, List.getElem?_mapIdx, Option.map_map]
    congr 1
    funext x
    simp only [Function.comp, keyOf]
    split <;> rfl
  constructor
  · intro i' a' n' js' h hp j hj
    rw [List.getElem?_set] at h
    split at h
    · split at h
      · cases h
        simp only at hp
        rw [hp] at h2
        cases h2
      · cases h
    · rename_i e
      have h3 := hi.alive i' a' n' js' h hp j hj
      have hn : j ∉ js := by
        intro hj'
        have h4 := hi.alive i a n js ha h1 j hj'
        rw [h3] at h4
        simp only [Option.some.injEq, Prod.mk.injEq, and_true] at h4
        exact e h4.symm
      rw [hk]
      rw [List.getElem?_map] at h3
      cases hx : xs[j]? with
      | none => rw [hx] at h3; cases h3
      | some x =>
        rw [hx] at h3
        simpa [hn, keyOf] using h3
  · intro j i' h
    rw [hk] at h
    cases hx : xs[j]? with
    | none => rw [hx] at h; cases h
    | some x =>
      rw [hx] at h
      simp only [Option.map_some, Option.some.injEq, Prod.mk.injEq] at h
      obtain ⟨e1, e2⟩ := h
      by_cases hn : j ∈ js
      · rw [if_pos hn] at e2; cases e2
      · rw [if_neg hn] at e2
        obtain ⟨b, n', js', hb, hp, hj⟩ := hi.racing j i' (by rw [List.getElem?_map, hx]; simp [keyOf, e1, e2])
        refine ⟨b, n', js', ?_, hp, hj⟩
        have e : i ≠ i' := by
          intro e
          subst e
          rw [ha] at hb
          cases hb
          rw [h1] at hp
          cases hp
          exact hn hj
        rw [List.getElem?_set_ne e]
        exact hb

theorem keys_put (xs : List (Exchange M)) (j : Nat) (x : Exchange M) (hx : xs[j]? = some x) (p : XPos) :
    (xs.set j { x with pos := p }).map keyOf = xs.map keyOf := by
  rw [List.map_set]
  apply List.ext_getElem?
  intro k
  rw [List.getElem?_set]
  split
  · rename_i e
    subst e
    have hl := (List.getElem?_eq_some_iff.1 hx).1
    rw [if_pos (by simpa using hl), List.getElem?_map, hx]
    rfl
  · rfl

theorem attemptInv_step (rewritten original : M) (s s' : State M) (e : Event) (hi : AttemptInv s.askers (s.exchanges.map keyOf))
    (h : step rewritten original s e = some s') : AttemptInv s'.askers (s'.exchanges.map keyOf) := by
  cases e with
  | rewrite => simp only [step] at h; split at h <;> cases h; exact hi
  | spawn udp =>
    simp only [step] at h
    split at h
    · split at h <;> cases h
      exact attempt_spawn hi _ rfl
    · cases h
  | collect =>
    simp only [step] at h
    split at h
    · split at h <;> cases h
      exact hi
    · cases h
  | leave =>
    simp only [step] at h
    split at h
    · split at h <;> cases h
      exact hi
    · cases h
  | revert => simp only [step] at h; split at h <;> cases h; exact hi
  | next => simp only [step] at h; split at h <;> cases h; exact hi
  | finish => simp only [step] at h; split at h <;> cases h; exact hi
  | addresses i ok =>
    simp only [step] at h
    split at h
    · rename_i a ha
      split at h <;> cases h
      rename_i hp
      exact attempt_move hi ha (by rw [hp]; rfl) (by split <;> rfl)
    · cases h
  | call i =>
    simp only [step] at h
    split at h
    · rename_i a ha
      split at h
      · rename_i n hp
        cases h
        have := attempt_call hi ha (by rw [hp]; rfl) n (if a.udp then 2 else 1)
        simp only [List.length_map] at this
        cases hu : a.udp with
        | true => simpa [setAsker, hu, keyOf, List.range', List.replicate] using this
        | false => simpa [setAsker, hu, keyOf, List.range', List.replicate] using this
      · cases h
    · cases h
  | judge i e =>
    simp only [step] at h
    split at h
    · rename_i a ha
      split at h
      · rename_i n js hp
        split at h
        · cases h
          exact attempt_judge hi ha hp rfl
        · split at h <;> cases h
          refine attempt_judge hi ha hp ?_
          cases e with
          | timeout => simp only; split <;> rfl
          | error => rfl
          | truncated => rfl
      · cases h
    · cases h
  | put i =>
    simp only [step] at h
    split at h
    · rename_i a ha
      split at h
      · rename_i ok hp
        split at h <;> cases h
        exact attempt_move hi ha (by rw [hp]; rfl) rfl
      · cases h
    · cases h
  | dial j ok =>
    simp only [step] at h
    split at h
    · rename_i x hx
      split at h <;> cases h
      simp only [keys_put _ _ _ hx]
      exact hi
    · cases h
  | write j ok =>
    simp only [step] at h
    split at h
    · rename_i x hx
      split at h
      · split at h <;> cases h <;> (simp only [keys_put _ _ _ hx]; exact hi)
      · cases h
    · cases h
  | read j good =>
    simp only [step] at h
    split at h
    · rename_i x hx
      split at h <;> cases h
      simp only [keys_put _ _ _ hx]
      exact hi
    · cases h

/-- **C107** An exchange whose attempt is over gets no connection any more, and one whose attempt goes on does, unless its group has
been left or the upstream refuses it: the end of an attempt does not touch the exchanges of other goroutines or of later attempts. -/
theorem C107_attempt (rewritten original : M) (es : List Event) (s : State M)
    (h : run rewritten original (start original) es = some s) (j : Nat) (x : Exchange M) (hx : s.exchanges[j]? = some x)
    (ok : Bool) (s' : State M) (hd : step rewritten original s (.dial j ok) = some s') :
    ((∀ (a : Asker) n js, s.askers[x.asker]? = some a → a.pos = .racing n js → j ∉ js) → (s'.exchanges[j]?).map (·.pos) = some (.over false)) ∧
    ((∃ (a : Asker) (n : Nat) (js : List Nat), s.askers[x.asker]? = some a ∧ a.pos = .racing n js ∧ j ∈ js) → s.cancelled x.group = false → ok = true →
      (s'.exchanges[j]?).map (·.pos) = some .toSend) := by
  have inv : ∀ (es : List Event) (s s' : State M), AttemptInv s.askers (s.exchanges.map keyOf) → run rewritten original s es = some s' →
      AttemptInv s'.askers (s'.exchanges.map keyOf) := by
    intro es
    induction es with
    | nil => intro s s' hi h; cases h; exact hi
    | cons e es ih =>
      intro s s' hi h
      simp only [run] at h
      split at h
      · rename_i s1 h1
        exact ih s1 s' (attemptInv_step _ _ _ _ _ hi h1) h
      · cases h
  have hi := inv es _ _ ⟨by simp [start], by simp [start]⟩ h
  have hl := (List.getElem?_eq_some_iff.1 hx).1
  simp only [step, hx] at hd
  split at hd <;> cases hd
  simp only [List.getElem?_set_self hl, Option.map_some, Option.some.injEq]
  constructor
  · intro hn
    have : x.dead = true := by
      cases hdd : x.dead with
      | true => rfl
      | false =>
        obtain ⟨a, n, js, h1, h2, h3⟩ := hi.racing j x.asker (by rw [List.getElem?_map, hx]; simp [keyOf, hdd])
        exact absurd h3 (hn a n js h1 h2)
    simp [this]
  · rintro ⟨a, n, js, h1, h2, h3⟩ hc ho
    have h4 := hi.alive x.asker a n js h1 h2 j h3
    rw [List.getElem?_map, hx] at h4
    simp only [Option.map_some, keyOf, Option.some.injEq, Prod.mk.injEq, true_and] at h4
    simp [h4, hc, ho]

/-- UDP wins; TCP gets no connection any more, but the attempt of the other goroutine does. -/
example : ∃ s : State Nat, run 7 5 (start 5) [.rewrite, .spawn true, .spawn false, .addresses 0 true, .addresses 1 true, .call 0, .call 1,
    .dial 0 true, .write 0 true, .read 0 true, .judge 0 .error, .dial 1 true, .dial 2 true] = some s ∧
    s.exchanges.map (·.pos) = [.over true, .over false, .toSend] := by
  exact ⟨_, rfl, rfl⟩

end Verif.Props
