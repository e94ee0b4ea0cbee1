/-
C112: how many queries to upstreams one query of a client can cause.
-/
import Verif.Props.Asked

namespace Verif.Props
open Dns Spec ExpCache StringCache

variable {W V : Type} {E : RegexEngine}

/-! ### Costs of resolvers -/

/-- A resolver that asks upstreams (`μ` counts) at most `f n` times for a message with `n` questions, and does not change
the number of questions. -/
def CostM (μ : V → Nat) (f : Nat → Nat) (n : Cond.MResolver V) : Prop :=
  ∀ r w, (n r w).2.1.question.length = r.req.question.length ∧ μ (n r w).2.2 ≤ μ w + f r.req.question.length

/-- The same for a resolver with the message in the world. -/
def Cost (μ : V → Nat) (f : Nat → Nat) (n : Chain.MR V) : Prop :=
  ∀ r w, w.1.question.length = r.req.question.length →
    (n r w).2.1.question.length = r.req.question.length ∧ μ (n r w).2.2 ≤ μ w.2 + f r.req.question.length

/-- An upstream (or a group of them): each call is one query. -/
def AsksOnce (μ : W → Nat) (up : Resolver W) : Prop := ∀ r w, μ (up r w).2 ≤ μ w + 1

variable {μ : V → Nat} {f g : Nat → Nat}

theorem cost_toM {n : Chain.MR V} (h : Cost μ f n) : CostM μ f (Chain.toM n) := fun r w => h r (r.req, w) rfl

theorem cost_ofM {n : Cond.MResolver V} (h : CostM μ f n) : Cost μ f (Chain.ofM n) := fun r w _ => h r w.2

theorem cost_weaken {n : Cond.MResolver V} (h : CostM μ f n) (hfg : ∀ k, f k ≤ g k) : CostM μ g n := fun r w =>
  ⟨(h r w).1, Nat.le_trans (h r w).2 (Nat.add_le_add_left (hfg _) _)⟩

theorem setName_length (name : Str) (qs : List Question) : (Cond.setName name qs).length = qs.length := by
  cases qs <;> rfl

theorem internal_cost {ν : W → Nat} {reso : Resolver W} (h : AsksOnce ν reso) (d : Str) (r : Request) (w : W) :
    (Cond.internalResolve reso d r w).2.1.question.length = r.req.question.length ∧
      ν (Cond.internalResolve reso d r w).2.2 ≤ ν w + 1 := by
  have := h { r with req := { r.req with question := Cond.setName (fqdn d) r.req.question } } w
  revert this
  unfold Cond.internalResolve
  simp only
  generalize reso { r with req := { r.req with question := Cond.setName (fqdn d) r.req.question } } w = y
  obtain ⟨o, w'⟩ := y
  intro this
  cases o <;> exact ⟨setName_length _ _, this⟩

theorem internal_decides (reso : Resolver W) (d : Str) (r : Request) (w : W) : (Cond.internalResolve reso d r w).1 ≠ .noResponse := by
  unfold Cond.internalResolve
  simp only
  generalize reso { r with req := { r.req with question := Cond.setName (fqdn d) r.req.question } } w = y
  obtain ⟨o, w'⟩ := y
  cases o <;> simp

theorem lookup_mem {mapping : AMap Str (Resolver W)} {P : Resolver W → Prop} (hm : ∀ z r, AMap.get mapping z = some r → P r)
    (d : Str) (reso : Resolver W) (hl : Cond.lookup mapping d = some reso) : P reso := by
  unfold Cond.lookup at hl
  split at hl
  · cases hw : walk (AMap.get mapping) (d.length + 1) d with
    | none => rw [hw] at hl; cases hl
    | some x =>
      rw [hw] at hl
      cases hl
      exact hm _ _ (walk_some hw).2.2.1
  · exact hm _ _ hl

theorem conditional_cost {ν : W → Nat} {mapping : AMap Str (Resolver W)} (hm : ∀ z r, AMap.get mapping z = some r → AsksOnce ν r)
    {n : Cond.MResolver W} (h : CostM ν f n) (hf : ∀ k, f k ≤ 1) : CostM ν (fun _ => 1) (Cond.conditional mapping n) := by
  have hn := cost_weaken h (g := fun _ => 1) hf
  intro r w
  unfold Cond.conditional
  split
  · split
    · exact ⟨rfl, Nat.le_add_right _ _⟩
    · split
      · rename_i reso hl
        exact internal_cost (lookup_mem hm _ reso hl) _ r w
      · exact hn r w
  · exact hn r w

/-- Without answer of the inner resolver no upstream was asked. -/
theorem conditional_silent {ν : W → Nat} (mapping : AMap Str (Resolver W)) (r : Request) (w : W) (h : (Cond.conditional mapping (fun request w => (.noResponse, request.req, w)) r w).1 = .noResponse) :
    ν (Cond.conditional mapping (fun request w => (.noResponse, request.req, w)) r w).2.2 = ν w := by
  revert h
  unfold Cond.conditional
  split
  · split
    · intro h; cases h
    · split
      · exact fun h => absurd h (internal_decides _ _ r w)
      · exact fun _ => rfl
  · exact fun _ => rfl

theorem rewriteQuestions_length (order : Nat → List (Str × Str)) (qs : List Question) : ∀ (i : Nat) (names : AMap Str Str),
    (Cond.rewriteQuestions order i qs names).1.length = qs.length := by
  induction qs with
  | nil => exact fun _ _ => rfl
  | cons q qs ih =>
    intro i names
    unfold Cond.rewriteQuestions
    simp only
    split
    · simp only [List.length_cons, ih]
    · simp only [List.length_cons, ih]

/-- The rewriter asks its inner resolver, then possibly the next. If that happens only without answer (no fallback), the
costs do not add up. -/
theorem rewriter_cost (fallback : Bool) (order : Nat → List (Str × Str)) {i n : Cond.MResolver V} (hi : CostM μ f i) (hn : CostM μ g n)
    {t : Nat → Nat} (ht : ∀ k, f k + g k ≤ t k ∨
      (fallback = false ∧ f k ≤ t k ∧ g k ≤ t k ∧ ∀ r w, (i r w).1 = .noResponse → μ (i r w).2.2 = μ w)) :
    CostM μ t (Cond.rewriter fallback order i n) := by
  intro r w
  have ht := ht r.req.question.length
  unfold Cond.rewriter
  have hq := rewriteQuestions_length order r.req.question 0 []
  revert hq
  generalize Cond.rewriteQuestions order 0 r.req.question [] = y
  obtain ⟨questions, rewritten, names⟩ := y
  intro hq
  simp only at hq ⊢
  have hlen : (if rewritten then { r with req := { r.req with question := questions } } else r : Request).req.question.length =
      r.req.question.length := by
    split
    · exact hq
    · rfl
  have h := hi (if rewritten then { r with req := { r.req with question := questions } } else r) w
  have hs : fallback = false ∧ f r.req.question.length ≤ t r.req.question.length ∧ g r.req.question.length ≤ t r.req.question.length ∧
      (∀ r w, (i r w).1 = .noResponse → μ (i r w).2.2 = μ w) → (i (if rewritten then { r with req := { r.req with question := questions } } else r) w).1 =
      .noResponse → μ (i (if rewritten then { r with req := { r.req with question := questions } } else r) w).2.2 = μ w := fun h => h.2.2.2 _ _
  rw [hlen] at h
  revert h hs
  generalize i _ w = z
  obtain ⟨o, msg, w'⟩ := z
  intro h hs
  obtain ⟨h1, h2⟩ := h
  simp only at h1 h2 hs
  have hor : (if rewritten then r.req else msg).question.length = r.req.question.length := by
    split
    · rfl
    · exact h1
  have hnext := hn { r with req := if rewritten then r.req else msg } w'
  simp only [hor] at hnext
  have hf : f r.req.question.length ≤ t r.req.question.length := by
    rcases ht with ht | ht
    · omega
    · exact ht.2.1
  have stay : ∀ (m : Msg), m.question.length = r.req.question.length → m.question.length = r.req.question.length ∧
      μ w' ≤ μ w + t r.req.question.length := fun m hm => ⟨hm, by omega⟩
  have both : fallback = true → (n { r with req := if rewritten then r.req else msg } w').2.1.question.length = r.req.question.length ∧
      μ (n { r with req := if rewritten then r.req else msg } w').2.2 ≤ μ w + t r.req.question.length := by
    intro hb
    refine ⟨hnext.1, ?_⟩
    rcases ht with ht | ht
    · have := hnext.2; omega
    · rw [hb] at ht; cases ht.1
  cases o with
  | panic => exact stay _ h1
  | err e => simp only; split
             · exact both (by assumption)
             · exact stay _ hor
  | noResponse =>
    refine ⟨hnext.1, ?_⟩
    have := hnext.2
    rcases ht with ht | ht
    · simp only; omega
    · have := hs ht rfl
      have := ht.2.2.1
      simp only; omega
  | ok x =>
    simp only
    split
    · rename_i hb
      simp only [Bool.and_eq_true] at hb
      exact both hb.1
    · split
      · rename_i hb
        subst hb
        exact stay _ rfl
      · exact stay _ h1

/-- How often one call of what is behind the cache asks an upstream: conditional rewriting with fallback may ask the
upstream of the mapping and then the others. -/
def condCost (c : Chain.Config E W) : Nat := if c.condRewrite.rewrite ≠ [] ∧ c.condRewrite.fallbackUpstream = true then 2 else 1

theorem condCost_pos (c : Chain.Config E W) : 1 ≤ condCost c := by
  unfold condCost
  split <;> decide

theorem cond_cost {c : Chain.Config E W} {ν : W → Nat} (hm : ∀ z r, AMap.get c.condMapping z = some r → AsksOnce ν r) {up : Resolver W}
    (hu : AsksOnce ν up) :
    Cost ν (fun _ => condCost c) (Chain.cond c up) := by
  have htail : Cost ν (fun _ => 1) (Chain.tail c up) := by
    intro r w hw
    have hl : (Chain.liftUp up r w).2.1.question.length = r.req.question.length ∧ ν (Chain.liftUp up r w).2.2 ≤ ν w.2 + 1 := ⟨hw, hu r w.2⟩
    have h0 : w.1.question.length = r.req.question.length ∧ ν w.2 ≤ ν w.2 + 1 := ⟨hw, Nat.le_succ _⟩
    unfold Chain.tail Small.sudn
    split
    · exact hl
    · split
      · exact h0
      · split
        · exact h0
        · exact hl
  refine cost_ofM ?_
  unfold Cond.newRewriter
  split
  · exact cost_weaken (conditional_cost hm (cost_toM htail) (fun _ => Nat.le_refl _)) (fun _ => condCost_pos c)
  · rename_i hne
    refine rewriter_cost _ _ (conditional_cost hm (f := fun _ => 0) (fun r w => ⟨rfl, Nat.le_refl _⟩) (fun _ => by omega)) (cost_toM htail)
      (fun k => ?_)
    have hne : c.condRewrite.rewrite ≠ [] := fun h => hne (by rw [h]; rfl)
    unfold condCost
    cases hb : c.condRewrite.fallbackUpstream with
    | true => rw [if_pos ⟨hne, rfl⟩]; exact .inl (Nat.le_refl _)
    | false =>
      rw [if_neg (fun h => (nomatch h.2))]
      exact .inr ⟨rfl, Nat.le_refl _, Nat.le_refl _, fun r w h => conditional_silent _ r w h⟩

/-! ### The cache -/

theorem loop_cost {ν : W → Nat} {k : Nat} (env : Caching.Env) (cfg : Caching.Cfg) {next : Chain.MR W} (hn : Cost ν (fun _ => k) next) (req : Request)
    (qs : List Question) : ∀ (last : Outcome) (s : Caching.CState) (m : Msg) (w : W), m.question.length = req.req.question.length →
      (Caching.resolveLoop env cfg next req qs last s (m, w)).2.2.1.question.length = req.req.question.length ∧
        ν (Caching.resolveLoop env cfg next req qs last s (m, w)).2.2.2 ≤ ν w + k * qs.length := by
  induction qs with
  | nil => exact fun _ _ _ _ hm => ⟨hm, Nat.le_refl _⟩
  | cons q qs ih =>
    intro last s m w hm
    unfold Caching.resolveLoop
    generalize Caching.cacheGet cfg s (Caching.questionKey q) = y
    obtain ⟨found, s1⟩ := y
    have hl : k * (q :: qs).length = k * qs.length + k := by rw [List.length_cons, Nat.mul_succ]
    cases found with
    | some x => exact ⟨hm, Nat.le_add_right _ _⟩
    | none =>
      simp only
      have h2 := hn req (m, w) hm
      revert h2
      generalize next req (m, w) = z
      obtain ⟨o, m1, w1⟩ := z
      intro h2
      obtain ⟨h2, h3⟩ := h2
      simp only at h2 h3
      have h4 : ν w1 ≤ ν w + k * (q :: qs).length := by rw [hl]; omega
      cases o with
      | ok r =>
        have := ih (.ok (Caching.adjusted cfg r)) (Caching.store env cfg s1 (Caching.questionKey q) r) m1 w1 h2
        exact ⟨this.1, by have := this.2; simp only; rw [hl]; omega⟩
      | err e =>
        have := ih (.err e) s1 m1 w1 h2
        exact ⟨this.1, by have := this.2; simp only; rw [hl]; omega⟩
      | noResponse => exact ⟨h2, h4⟩
      | panic => exact ⟨h2, h4⟩

theorem caching_cost {ν : W → Nat} {k : Nat} (env : Caching.Env) (cfg : Caching.Cfg) {next : Chain.MR W} (hn : Cost ν (fun _ => k) next) :
    Cost (fun v : Caching.CState × W => ν v.2) (fun n => k * max 1 n) (Chain.caching env cfg next) := by
  intro r w hw
  have hk : k ≤ k * max 1 r.req.question.length := Nat.le_mul_of_pos_right _ (by omega)
  have hk' : k * r.req.question.length ≤ k * max 1 r.req.question.length := Nat.mul_le_mul_left _ (by omega)
  unfold Chain.caching Caching.resolve
  by_cases hb : (!cfg.enabled || !Caching.isRequestCacheable r.req) = true
  · rw [if_pos hb]
    have := hn r (w.1, w.2.2) hw
    exact ⟨this.1, Nat.le_trans this.2 (Nat.add_le_add_left hk _)⟩
  · rw [if_neg hb]
    have := loop_cost env cfg hn r r.req.question .noResponse w.2.1 w.1 w.2.2 hw
    revert this
    generalize Caching.resolveLoop env cfg next r r.req.question .noResponse w.2.1 (w.1, w.2.2) = y
    obtain ⟨o, s, m, w'⟩ := y
    intro this
    exact ⟨this.1, Nat.le_trans this.2 (Nat.add_le_add_left hk' _)⟩

/-! ### Aliases -/

/-- How many targets of aliases can be reached, with at most `a` aliases per name and `d` steps. -/
def reachable (a : Nat) : Nat → Nat
  | 0 => 0
  | d + 1 => a * (1 + reachable a d)

/-- Is the record an alias? -/
def isAlias (e : RR) : Bool := match e.data with
  | .cname _ => true
  | _ => false

/-- No custom name has more than `a` aliases. -/
def AliasesAtMost (a : Nat) (mapping : CustomDns.Mapping) : Prop :=
  ∀ z es, AMap.get mapping z = some es → (es.filter isAlias).length ≤ a

theorem processEntries_cost (env : CustomDns.Env) (I : V → Prop) {recur : Request → List Str → V → Option (Outcome × V)} {k : Nat}
    (r : Request) (hrec : ∀ t ty cs cs' w y, I w → recur (CustomDns.targetRequest env r t ty cs) cs' w = some y → I y.2 ∧ μ y.2 ≤ μ w + k)
    (resolved : List Str) (q : Question) (es : List RR) : ∀ acc w y, I w → CustomDns.processEntries env recur r resolved q es acc w = some y →
      I y.2 ∧ μ y.2 ≤ μ w + (es.filter isAlias).length * k := by
  induction es with
  | nil => intro acc w y hw h; cases h; exact ⟨hw, Nat.le_add_right _ _⟩
  | cons e es ih =>
    intro acc w y hw h
    have he : ∀ z, CustomDns.processEntry env recur r resolved q e w = some z → I z.2 ∧ μ z.2 ≤ μ w + if isAlias e then k else 0 := by
      intro z hz
      have h0 : I w ∧ μ w ≤ μ w + if isAlias e then k else 0 := ⟨hw, Nat.le_add_right _ _⟩
      unfold CustomDns.processEntry at hz
      split at hz
      · cases hz; exact h0
      · cases hz; exact h0
      · rename_i t hd
        have hal : isAlias e = true := by unfold isAlias; rw [hd]
        unfold CustomDns.processCNAME at hz
        simp only at hz
        split at hz
        · cases hz; exact h0
        · split at hz
          · cases hz; exact h0
          · rw [if_pos hal]
            split at hz
            · cases hz
            all_goals
              rename_i hp
              cases hz
              exact hrec _ _ _ _ _ _ hw hp
      · split at hz
        · cases hz; exact h0
        · cases hz; exact h0
    have hc : ((e :: es).filter isAlias).length * k = (if isAlias e then k else 0) + (es.filter isAlias).length * k := by
      rw [List.filter_cons]
      split
      · rw [List.length_cons, Nat.succ_mul, Nat.add_comm]
      · rw [Nat.zero_add]
    rw [hc]
    unfold CustomDns.processEntries at h
    split at h
    · cases h
    · rename_i rrs w' hz
      obtain ⟨h1, h2⟩ := he _ hz
      obtain ⟨h3, h4⟩ := ih _ _ _ h1 h
      exact ⟨h3, by simp only at h2 h4; omega⟩
    · rename_i x' w' _ hz
      cases h
      obtain ⟨h1, h2⟩ := he _ hz
      exact ⟨h1, by simp only at h2 ⊢; omega⟩

theorem processRequest_cost {a : Nat} {mapping : CustomDns.Mapping} (ha : AliasesAtMost a mapping) (env : CustomDns.Env) (I : V → Prop)
    (A : Request → Prop) {n : Resolver V} (hn : ∀ r w, A r → I w → I (n r w).2 ∧ μ (n r w).2 ≤ μ w + f r.req.question.length)
    (hA : ∀ r t ty cs, A (CustomDns.targetRequest env r t ty cs)) (depth : Nat) :
    ∀ (r : Request) (resolved : List Str) (w : V) (x : Outcome × V), A r → I w →
      CustomDns.processRequest env mapping n depth r resolved w = some x →
      I x.2 ∧ μ x.2 ≤ μ w + (f r.req.question.length + f 1 * reachable a (depth - 1)) := by
  induction depth with
  | zero => intro r resolved w x _ _ h; cases h
  | succ d ih =>
    intro r resolved w x hr hw h
    have hent : ∀ q z es, AMap.get mapping z = some es → ∀ y, CustomDns.processEntries env (CustomDns.processRequest env mapping n d) r resolved q es [] w = some y →
        I y.2 ∧ μ y.2 ≤ μ w + f 1 * reachable a d := by
      intro q z es hg y hy
      have hle := ha z es hg
      cases d with
      | zero =>
        obtain ⟨h1, h2⟩ := processEntries_cost (μ := μ) (k := 0) env I r (fun t ty cs cs' w y _ hy => by cases hy) resolved q es [] w y hw hy
        exact ⟨h1, by rw [Nat.mul_zero] at h2; omega⟩
      | succ d =>
        obtain ⟨h1, h2⟩ := processEntries_cost (k := f 1 + f 1 * reachable a d) env I r
          (fun t ty cs cs' w y hw hy => ih _ _ _ _ (hA r t ty cs) hw hy) resolved q es [] w y hw hy
        refine ⟨h1, Nat.le_trans h2 (Nat.add_le_add_left ?_ _)⟩
        refine Nat.le_trans (Nat.mul_le_mul_right _ hle) (Nat.le_of_eq ?_)
        show a * (f 1 + f 1 * reachable a d) = f 1 * (a * (1 + reachable a d))
        rw [Nat.mul_left_comm (f 1) a, Nat.mul_add (f 1) 1, Nat.mul_one]
    show I x.2 ∧ μ x.2 ≤ μ w + (f r.req.question.length + f 1 * reachable a d)
    unfold CustomDns.processRequest at h
    split at h
    · cases h; exact ⟨hw, Nat.le_add_right _ _⟩
    · rename_i q qs hq
      split at h
      · cases h
        obtain ⟨h1, h2⟩ := hn r w hr hw
        exact ⟨h1, by omega⟩
      · rename_i z es hwalk
        have hent := hent q z es (walk_some hwalk).2.2.1
        have fin : ∀ y : V, I y ∧ μ y ≤ μ w + f 1 * reachable a d → I y ∧ μ y ≤ μ w + (f r.req.question.length + f 1 * reachable a d) :=
          fun y hy => ⟨hy.1, by have := hy.2; omega⟩
        split at h
        · cases h
        · rename_i hz; cases h; exact fin _ (hent _ hz)
        · rename_i hz; cases h; exact fin _ (hent _ hz)
        · rename_i hz
          have h1 := hent _ hz
          split at h
          · cases h; exact fin _ h1
          · split at h
            · cases h
              obtain ⟨h3, h4⟩ := hn r _ hr h1.1
              exact ⟨h3, by have := h1.2; simp only at *; omega⟩
            · cases h; exact fin _ h1

theorem customDns_cost {c : Chain.Config E W} {a : Nat} (ha : AliasesAtMost a c.customMapping) {n : Chain.MR V} (h : Cost μ f n) :
    Cost μ (fun k => f k + f 1 * reachable a (c.customDepth - 1))
      (Chain.customDns c.customEnv c.customMapping c.customReverse c.customDepth n) := by
  intro r w hw
  unfold Chain.customDns CustomDns.resolve
  have h0 : w.1.question.length = r.req.question.length ∧ μ w.2 ≤ μ w.2 + (f r.req.question.length + f 1 * reachable a (c.customDepth - 1)) :=
    ⟨hw, Nat.le_add_right _ _⟩
  have key : ∀ x, CustomDns.processRequest c.customEnv c.customMapping
      (fun (r : Request) (w : Msg × V) => if r.internal then ((n r (r.req, w.2)).1, (w.1, (n r (r.req, w.2)).2.2)) else n r w)
      c.customDepth r [] w = some x → x.2.1.question.length = r.req.question.length ∧
        μ x.2.2 ≤ μ w.2 + (f r.req.question.length + f 1 * reachable a (c.customDepth - 1)) := by
    intro x hx
    refine processRequest_cost (μ := fun v : Msg × V => μ v.2) (f := f) ha c.customEnv (fun v => v.1.question.length = r.req.question.length)
      (fun r' => r'.internal = true ∨ r'.req.question.length = r.req.question.length) ?_ (fun _ _ _ _ => .inl rfl) c.customDepth r [] w x (.inr rfl) hw hx
    intro r' v hr' hv
    show (if r'.internal then ((n r' (r'.req, v.2)).1, (v.1, (n r' (r'.req, v.2)).2.2)) else n r' v).2.1.question.length = _ ∧
      μ (if r'.internal then ((n r' (r'.req, v.2)).1, (v.1, (n r' (r'.req, v.2)).2.2)) else n r' v).2.2 ≤ _
    split
    · exact ⟨hv, (h r' (r'.req, v.2) rfl).2⟩
    · rename_i hi
      have hl : r'.req.question.length = r.req.question.length := by
        rcases hr' with hr' | hr'
        · exact absurd hr' hi
        · exact hr'
      have := h r' v (by rw [hl]; exact hv)
      exact ⟨by rw [this.1, hl], this.2⟩
  cases hq : r.req.question with
  | nil => rw [hq] at h0; exact h0
  | cons q qs =>
    rw [hq] at h0 key
    simp only
    cases CustomDns.handleReverse c.customEnv c.customReverse r q with
    | some y => exact h0
    | none =>
      simp only
      revert key
      generalize CustomDns.processRequest c.customEnv c.customMapping _ c.customDepth r [] w = z
      intro key
      cases z with
      | none => exact h0
      | some x => exact key x rfl

/-! ### The whole server -/

/-- `k` for each question (at least one) and each target of an alias. -/
def askBound (k a d questions : Nat) : Nat := k * (max 1 questions + reachable a (d - 1))

theorem block_cost (env : Blocking.Env) (b : Blocking.BState E) {n : Chain.MR V} (h : Cost μ f n) : Cost μ f (Blocking.resolve env b n) := by
  intro r w hw
  have hask : ∀ groups, (Blocking.askNext env b groups n r w).2.1.question.length = r.req.question.length ∧
      μ (Blocking.askNext env b groups n r w).2.2 ≤ μ w.2 + f r.req.question.length := by
    intro groups
    unfold Blocking.askNext
    have := h r w hw
    revert this
    generalize n r w = y
    obtain ⟨o, w'⟩ := y
    intro this
    cases o with
    | ok x => simp only; split
              · split <;> exact this
              · exact this
    | _ => exact this
  unfold Blocking.resolve
  simp only
  split
  · split
    · exact h r w hw
    · exact ⟨hw, Nat.le_add_right _ _⟩
    · exact hask _
  · exact hask _

theorem hosts_cost (e : Bool) (cfg : HostsFile.Cfg) (hs : HostsFile.Hosts) (o4 o6 : List (Str × (IP × List Str))) {n : Chain.MR V} (h : Cost μ f n) :
    Cost μ f (HostsFile.resolve e cfg hs o4 o6 n) := by
  intro r w hw
  have h0 : w.1.question.length = r.req.question.length ∧ μ w.2 ≤ μ w.2 + f r.req.question.length := ⟨hw, Nat.le_add_right _ _⟩
  unfold HostsFile.resolve
  split
  · exact h r w hw
  · split
    · exact h0
    · split
      · exact h0
      · split
        · exact h0
        · exact h r w hw

theorem local_cost {c : Chain.Config E W} {a k : Nat} (ha : AliasesAtMost a c.customMapping) {n : Chain.MR V} (h : Cost μ (fun n => k * max 1 n) n) :
    Cost μ (fun n => askBound k a c.customDepth n) (Chain.ofM (Cond.newRewriter c.customRewrite c.customOrder
      (fun next => Chain.toM (Chain.customDns c.customEnv c.customMapping c.customReverse c.customDepth (Chain.ofM next))) (Chain.toM n))) := by
  refine cost_ofM ?_
  have hb : ∀ j, k * max 1 j + k * max 1 1 * reachable a (c.customDepth - 1) = askBound k a c.customDepth j := by
    intro j
    unfold askBound
    rw [Nat.mul_add, show max 1 1 = 1 from rfl, Nat.mul_one]
  unfold Cond.newRewriter
  split
  · exact cost_weaken (cost_toM (customDns_cost ha (cost_ofM (cost_toM h)))) (fun k => Nat.le_of_eq (hb k))
  · refine rewriter_cost _ _ (f := fun _ => 0) (cost_weaken (cost_toM (customDns_cost ha (f := fun _ => 0)
      (cost_ofM (fun r w => ⟨rfl, Nat.le_refl _⟩)))) (fun k => by simp)) (cost_toM h) (fun j => .inl ?_)
    rw [← hb j]
    omega

theorem metrics_cost (b : Bool) {n : Chain.MR V} (h : Cost μ f n) : Cost μ f (Chain.metrics b n) := by
  intro r w hw
  unfold Chain.metrics
  have := h r w hw
  revert this
  generalize n r w = y
  obtain ⟨o, w'⟩ := y
  intro this
  cases o <;> simp only <;> first | exact this | (split <;> first | exact this | (split <;> first | exact this))

theorem observed_cost {c : Chain.Config E W} {a : Nat} (ha : AliasesAtMost a c.customMapping) {ν : W → Nat}
    (hm : ∀ z r, AMap.get c.condMapping z = some r → AsksOnce ν r) {up : Resolver W}
    (hu : AsksOnce ν up) : ∀ r w, w.1.question.length = r.req.question.length →
      ν (Chain.observed c up r w).2.2.2.2 ≤ ν w.2.2.2 + askBound (condCost c) a c.customDepth r.req.question.length := by
  have hcache := caching_cost c.cacheEnv c.cache (cond_cost hm hu)
  have hmet : Cost (fun v : Caching.CState × W => ν v.2) (fun n => askBound (condCost c) a c.customDepth n)
      (Chain.metrics c.metrics (Chain.local c up)) := metrics_cost _ (local_cost ha (hosts_cost _ _ _ _ _ (block_cost _ _ hcache)))
  have hlog : ∀ r w, w.1.question.length = r.req.question.length → ν
      (Chain.queryLog c.log c.logEnv c.logStart c.logDuration (Chain.metrics c.metrics (Chain.local c up)) r w).2.2.2.2 ≤
        ν w.2.2.2 + askBound (condCost c) a c.customDepth r.req.question.length := by
    intro r w hw
    unfold Chain.queryLog Chain.ofM QueryLog.resolve
    have : ν (Chain.toM (Chain.metrics c.metrics (Chain.local c up)) r w.2.2).2.2.2 ≤
        ν w.2.2.2 + askBound (condCost c) a c.customDepth r.req.question.length := (hmet r (r.req, w.2.2) rfl).2
    revert this
    generalize Chain.toM (Chain.metrics c.metrics (Chain.local c up)) r w.2.2 = y
    obtain ⟨o, m, w'⟩ := y
    intro this
    cases o with
    | ok x =>
      simp only
      split
      · exact this
      · split <;> exact this
    | _ => exact this
  intro r w hw
  unfold Chain.observed Small.ede
  split
  · exact hlog r w hw
  · have := hlog r w hw
    revert this
    generalize Chain.queryLog c.log c.logEnv c.logStart c.logDuration (Chain.metrics c.metrics (Chain.local c up)) r w = y
    obtain ⟨o, w'⟩ := y
    intro this
    cases o <;> exact this

/-- Lookups of client names have upstreams of their own, which are not counted. -/
def NamesFree (ν : W → Nat) (c : Chain.Config E W) : Prop :=
  ∀ l, c.namesLookup = some l → ∀ ip v, ν (l ip v).2.2 = ν v.2

theorem whole_cost {c : Chain.Config E W} {a : Nat} (ha : AliasesAtMost a c.customMapping) {ν : W → Nat} (hl : NamesFree ν c)
    (hm : ∀ z r, AMap.get c.condMapping z = some r → AsksOnce ν r) {up : Resolver W}
    (hu : AsksOnce ν up) (request : Request) (w : Chain.World W) :
    ν (Chain.whole c up request (request.req, w)).2.2.2.2.2 ≤ ν w.2.2.2 + askBound (condCost c) a c.customDepth request.req.question.length := by
  obtain ⟨cn, q, v⟩ := w
  have h0 : ν v.2 ≤ ν v.2 + askBound (condCost c) a c.customDepth request.req.question.length := Nat.le_add_right _ _
  have hecs : ν (Chain.ecs c.ecs (Chain.clientNames c.names (c.namesLookup.map Chain.liftLookup) (Chain.observed c up)) request
      (request.req, (cn, (q, v)))).2.2.2.2.2 ≤ ν v.2 + askBound (condCost c) a c.customDepth request.req.question.length := by
    unfold Chain.ecs
    cases h : Ecs.transform c.ecs request with
    | none => exact h0
    | some r =>
      have hq : r.req.question = request.req.question := by
        have hm := (C28_rest_unchanged c.ecs request r h).1
        unfold SameOutsideExtra at hm
        have e := congrArg Msg.question hm
        simp only at e
        exact e
      simp only [Chain.clientNames, withNames_lift]
      have he' := withNames_keeps c.names c.namesLookup (fun w => ν w.2 = ν v.2)
        (fun ask ha ip w hw => by rw [hl ask ha ip w]; exact hw) r cn v rfl
      have hsame : (ClientNames.withNames c.names c.namesLookup r cn v).1.req = r.req := rfl
      revert he' hsame
      generalize ClientNames.withNames c.names c.namesLookup r cn v = y
      obtain ⟨r', cn', w'⟩ := y
      intro he' hsame
      simp only at hsame he'
      have := observed_cost ha hm hu r' (r.req, (q, w')) (by rw [hsame])
      rw [hsame, hq] at this
      simp only [he'] at this
      exact this
  unfold Chain.whole Small.filtering
  split
  · exact h0
  · split
    · exact h0
    · unfold Small.fqdnOnly
      split
      · split
        · exact h0
        · split
          · exact h0
          · exact hecs
      · exact hecs

/-- **C112.** A message of a client makes the server ask upstreams at most once for each question in it, and for each target of an
alias that can be reached from its name; twice with conditional rewriting and `fallbackUpstream`. (`reachable a d` counts the targets:
at most `a` aliases per name and chains of aliases of less than `customDepth`, for which one more than the number of aliases is
enough: C31_terminates.) -/
theorem C112_query (senv : Server.Env) (c : Chain.Config E W) (up : Resolver W) (ν : W → Nat) (a : Nat) (ha : AliasesAtMost a c.customMapping)
    (hl : NamesFree ν c) (hm : ∀ z r, AMap.get c.condMapping z = some r → AsksOnce ν r) (hu : AsksOnce ν up)
    (remote : Server.Addr) (sni : Option Str) (msg : Msg) (w : Chain.World W) :
    ν (Chain.serve senv c up remote sni msg w).2.2.2.2 ≤ ν w.2.2.2 +
      (if c.condRewrite.rewrite ≠ [] ∧ c.condRewrite.fallbackUpstream = true then 2 else 1) * (msg.question.length + reachable a (c.customDepth - 1)) := by
  rw [serve_world]
  by_cases hq : msg.question = []
  · rw [if_pos hq]
    exact Nat.le_add_right _ _
  · rw [if_neg hq]
    have := whole_cost ha hl hm hu (Server.newRequestFromDNS remote sni msg) w
    have hlen : 1 ≤ msg.question.length := List.length_pos_iff.2 hq
    have hreq : (Server.newRequestFromDNS remote sni msg).req = msg := rfl
    unfold askBound condCost at this
    rw [hreq, show max 1 msg.question.length = msg.question.length from by omega] at this
    exact this

theorem reachable_zero (d : Nat) : reachable 0 d = 0 := by
  cases d with
  | zero => rfl
  | succ d => exact Nat.zero_mul _

/-- Without aliases, and without conditional rewriting or without fallback, an ordinary query (with one question) is sent to upstreams
once at most. -/
theorem C112_once (senv : Server.Env) (c : Chain.Config E W) (up : Resolver W) (ν : W → Nat) (ha : AliasesAtMost 0 c.customMapping)
    (hf : c.condRewrite.rewrite = [] ∨ c.condRewrite.fallbackUpstream = false)
    (hl : NamesFree ν c) (hm : ∀ z r, AMap.get c.condMapping z = some r → AsksOnce ν r) (hu : AsksOnce ν up)
    (remote : Server.Addr) (sni : Option Str) (msg : Msg) (hq : msg.question.length = 1) (w : Chain.World W) :
    ν (Chain.serve senv c up remote sni msg w).2.2.2.2 ≤ ν w.2.2.2 + 1 := by
  have := C112_query senv c up ν 0 ha hl hm hu remote sni msg w
  rw [if_neg (by
    rintro ⟨h1, h2⟩
    rcases hf with h | h
    · exact h1 h
    · rw [h] at h2; cases h2), hq, reachable_zero] at this
  exact this

theorem reachable_mono (a : Nat) {d e : Nat} (h : d ≤ e) : reachable a d ≤ reachable a e := by
  induction d generalizing e with
  | zero => exact Nat.zero_le _
  | succ d ih =>
    cases e with
    | zero => omega
    | succ e => exact Nat.mul_le_mul_left _ (Nat.add_le_add_left (ih (by omega)) _)

/-! ### Cleaning up -/

theorem reload_cost {ν : W → Nat} {k : Nat} (env : Caching.Env) (cfg : Caching.Cfg) {next : Chain.MR W}
    (hn : ∀ r w, ν (next r w).2.2 ≤ ν w.2 + k) (key : Str) (w : Msg × W) : ν (Caching.reload env cfg next key w).2.2 ≤ ν w.2 + k := by
  unfold Caching.reload
  cases Caching.extractKey key with
  | none => exact Nat.le_add_right _ _
  | some x =>
    obtain ⟨t, n⟩ := x
    simp only
    have := hn (Caching.reloadRequest env t n) w
    revert this
    generalize next (Caching.reloadRequest env t n) w = y
    obtain ⟨o, w'⟩ := y
    intro this
    cases o with
    | ok r =>
      simp only
      split
      · split <;> exact this
      · exact this
    | _ => exact this

theorem reloadLoop_cost {ν : W → Nat} {k : Nat} (env : Caching.Env) (cfg : Caching.Cfg) {next : Chain.MR W}
    (hn : ∀ r w, ν (next r w).2.2 ≤ ν w.2 + k) (ks : List Str) : ∀ (del : List Str) (s : Caching.CState) (w : Msg × W),
      ν (Caching.reloadLoop env cfg next ks del s w).2.2 ≤ ν w.2 + if cfg.prefetching then k * ks.length else 0 := by
  induction ks with
  | nil => exact fun _ _ _ => Nat.le_add_right _ _
  | cons key ks ih =>
    intro del s w
    have h1 : ν (Caching.onExpired env cfg next s w key).2.2.2 ≤ ν w.2 + if cfg.prefetching then k else 0 := by
      unfold Caching.onExpired
      split
      · split
        · exact reload_cost env cfg hn key w
        · exact Nat.le_add_right _ _
      · exact Nat.le_refl _
    have hs : (if cfg.prefetching then k * (key :: ks).length else 0) = (if cfg.prefetching then k else 0) + if cfg.prefetching then k * ks.length else 0 := by
      split
      · rw [List.length_cons, Nat.mul_succ, Nat.add_comm]
      · rfl
    rw [hs]
    unfold Caching.reloadLoop
    revert h1
    generalize Caching.onExpired env cfg next s w key = y
    obtain ⟨o, s1, w1⟩ := y
    intro h1
    simp only at h1
    cases o with
    | none => simp only; omega
    | some o =>
      cases o with
      | none =>
        have := ih (del ++ [key]) s1 w1
        simp only at this ⊢; omega
      | some x =>
        obtain ⟨m, ttl⟩ := x
        have := ih del { s1 with main := step s1.main (.put key m ttl) } w1
        simp only at this ⊢; omega

/-- **C112, prefetching.** When expired answers are removed, upstreams are asked at most once for each of them (twice with conditional
rewriting and fallback), and without prefetching not at all. -/
theorem C112_clean_up (senv : Server.Env) (c : Chain.Config E W) (up : Resolver W) (ν : W → Nat)
    (hm : ∀ z r, AMap.get c.condMapping z = some r → AsksOnce ν r) (hu : AsksOnce ν up) (w w' : Chain.World W)
    (h : (befall senv c up w (.event .cleanUp)).2 = some w') :
    ν w'.2.2.2 ≤ ν w.2.2.2 + if c.cache.prefetching then
      (if c.condRewrite.rewrite ≠ [] ∧ c.condRewrite.fallbackUpstream = true then 2 else 1) *
        (w.2.2.1.main.cache.items.filter (fun e => decide (e.2.expires < w.2.2.1.main.now))).length else 0 := by
  have hn : ∀ r w, ν (Chain.cond c up r w).2.2 ≤ ν w.2 + condCost c := fun r w =>
    (cond_cost hm hu r (r.req, w.2) rfl).2
  have key := reloadLoop_cost c.cacheEnv c.cache hn (w.2.2.1.main.cache.expiredKeys w.2.2.1.main.now) [] w.2.2.1 ({}, w.2.2.2)
  have hlen : (w.2.2.1.main.cache.expiredKeys w.2.2.1.main.now).length ≤
      (w.2.2.1.main.cache.items.filter (fun e => decide (e.2.expires < w.2.2.1.main.now))).length := by
    unfold Cache.expiredKeys
    rw [List.length_map, List.filter_reverse, List.length_reverse]
    rw [← List.countP_eq_length_filter, ← List.countP_eq_length_filter]
    refine List.countP_mono_left ?_
    intro e _ he
    unfold isExpired at he
    simp only [Bool.and_eq_true] at he
    exact he.2
  have hk : (if c.cache.prefetching then condCost c * (w.2.2.1.main.cache.expiredKeys w.2.2.1.main.now).length else 0) ≤
      if c.cache.prefetching then (if c.condRewrite.rewrite ≠ [] ∧ c.condRewrite.fallbackUpstream = true then 2 else 1) *
        (w.2.2.1.main.cache.items.filter (fun e => decide (e.2.expires < w.2.2.1.main.now))).length else 0 := by
    split
    · exact Nat.mul_le_mul_left _ hlen
    · exact Nat.le_refl _
  revert h key
  unfold befall happen Caching.cleanUpCache
  simp only
  generalize Caching.reloadLoop c.cacheEnv c.cache (Chain.cond c up) (w.2.2.1.main.cache.expiredKeys w.2.2.1.main.now) [] w.2.2.1 ({}, w.2.2.2) = y
  obtain ⟨o, mw⟩ := y
  intro h key
  cases o with
  | none => cases h
  | some s =>
    cases h
    exact Nat.le_trans key (Nat.add_le_add_left hk _)

/-! ### Histories -/

/-- How many questions a client's message has; nothing else that happens has questions. -/
def questionsOf : Incident → Nat
  | .event (.query _ _ msg) => msg.question.length
  | _ => 0

/-- How many targets of aliases that adds. -/
def targetsOf (a d : Nat) : Incident → Nat
  | .event (.query _ _ _) => reachable a (d - 1)
  | _ => 0

/-- **C112, histories.** Without prefetching the upstreams are never asked more often than clients have asked questions (plus targets of
aliases, twice with conditional rewriting and fallback), whatever else happens: time passing, clean-ups, answers from redis. -/
theorem C112_history (senv : Server.Env) (ν : W → Nat) (a d k : Nat) (xs : List (Chain.Config E W × Resolver W × Incident))
    (ha : ∀ x ∈ xs, AliasesAtMost a x.1.customMapping ∧ x.1.customDepth ≤ d)
    (hk : ∀ x ∈ xs, k = 2 ∨ (k = 1 ∧ (x.1.condRewrite.rewrite = [] ∨ x.1.condRewrite.fallbackUpstream = false)))
    (hp : ∀ x ∈ xs, x.1.cache.prefetching = false) (hl : ∀ x ∈ xs, NamesFree ν x.1)
    (hm : ∀ x ∈ xs, ∀ z r, AMap.get x.1.condMapping z = some r → AsksOnce ν r) (hu : ∀ x ∈ xs, AsksOnce ν x.2.1)
    (w w' : Chain.World W) (h : endures senv xs w = some w') :
    ν w'.2.2.2 ≤ ν w.2.2.2 + k * (xs.map (fun x => questionsOf x.2.2 + targetsOf a d x.2.2)).sum := by
  induction xs generalizing w with
  | nil => cases h; exact Nat.le_add_right _ _
  | cons x xs ih =>
    unfold endures at h
    cases hb : (befall senv x.1 x.2.1 w x.2.2).2 with
    | none => rw [hb] at h; cases h
    | some w1 =>
      rw [hb] at h
      have ih := ih (fun y hy => ha y (List.mem_cons_of_mem _ hy)) (fun y hy => hk y (List.mem_cons_of_mem _ hy))
        (fun y hy => hp y (List.mem_cons_of_mem _ hy)) (fun y hy => hl y (List.mem_cons_of_mem _ hy))
        (fun y hy => hm y (List.mem_cons_of_mem _ hy)) (fun y hy => hu y (List.mem_cons_of_mem _ hy)) w1 h
      replace ha := ha x List.mem_cons_self
      replace hk := hk x List.mem_cons_self
      replace hp := hp x List.mem_cons_self
      replace hl := hl x List.mem_cons_self
      replace hm := hm x List.mem_cons_self
      replace hu := hu x List.mem_cons_self
      have hstep : ν w1.2.2.2 ≤ ν w.2.2.2 + k * (questionsOf x.2.2 + targetsOf a d x.2.2) := by
        obtain ⟨c, up, i⟩ := x
        simp only at *
        cases i with
        | event e =>
          cases e with
          | query remote sni msg =>
            cases hb
            refine Nat.le_trans (C112_query senv c up ν a ha.1 hl hm hu remote sni msg w) (Nat.add_le_add_left ?_ _)
            refine Nat.mul_le_mul ?_ (Nat.add_le_add_left ?_ _)
            · split
              · rename_i hc
                rcases hk with hk | ⟨_, hk | hk⟩
                · omega
                · exact absurd hk hc.1
                · rw [hk] at hc; cases hc.2
              · omega
            · exact reachable_mono a (by omega)
          | pass ms => cases hb; exact Nat.le_add_right _ _
          | cleanUp =>
            have := C112_clean_up senv c up ν hm hu w w1 hb
            rw [hp] at this
            exact Nat.le_trans this (Nat.add_le_add_left (Nat.zero_le _) _)
        | message id m =>
          revert hb
          unfold befall
          simp only
          split
          · intro hb; cases hb; exact Nat.le_add_right _ _
          · intro hb; cases hb; exact Nat.le_add_right _ _
        | load store now later key => cases hb; exact Nat.le_add_right _ _
        | flush => cases hb; exact Nat.le_add_right _ _
      rw [List.map_cons, List.sum_cons, Nat.mul_add]
      omega

/-! ### The bounds are reached -/

theorem countingUp_once : AsksOnce id countingUp := by
  intro r w
  unfold countingUp
  split
  · exact Nat.le_refl _
  · split <;> exact Nat.le_refl _

theorem counting_mapping {z : Str} {r : Resolver Nat} (h : AMap.get sampleConfig.condMapping z = some r) : AsksOnce id r := by
  have hm := AMap.get_eq_some_mem h
  have : r = countingUp := by
    simp only [sampleConfig, List.mem_singleton, Prod.mk.injEq] at hm
    exact hm.2
  rw [this]
  exact countingUp_once

/-- The hypotheses of `C112_query` are met by the sample server, which has one alias, and `customDepth` 5: never more than five queries
for a question. (There are four steps from a name to aliases; with the single alias only one can happen.) -/
example (msg : Msg) (w : Chain.World Nat) : (Chain.serve sampleServer sampleConfig countingUp (.udp none) none msg w).2.2.2.2 ≤
    w.2.2.2 + (msg.question.length + 4) := by
  have := C112_query sampleServer sampleConfig countingUp id 1 (by
    intro z es h
    have hm := AMap.get_eq_some_mem h
    simp only [sampleConfig, List.mem_cons, Prod.mk.injEq, List.not_mem_nil, or_false] at hm
    rcases hm with ⟨_, h⟩ | ⟨_, h⟩ | ⟨_, h⟩ <;> rw [h] <;> decide) (fun _ h => (nomatch h)) (fun _ _ h => counting_mapping h)
    countingUp_once (.udp none) none msg w
  simpa [sampleConfig, reachable] using this

/-- The sample server without any custom names. -/
def namelessConfig : Chain.Config prefixEngine Nat := { sampleConfig with customMapping := [] }

/-- The hypotheses of `C112_once` are met. -/
example (name : Str) (w : Chain.World Nat) : (Chain.serve sampleServer namelessConfig countingUp (.udp none) none (query name) w).2.2.2.2 ≤ w.2.2.2 + 1 :=
  C112_once sampleServer namelessConfig countingUp id (fun _ _ h => (nomatch h)) (.inr rfl) (fun _ h => (nomatch h))
    (fun _ _ h => counting_mapping h) countingUp_once (.udp none) none (query name) rfl w

/-- How often upstreams are asked for one message, starting with everything empty. -/
def timesAsked (c : Chain.Config prefixEngine Nat) (msg : Msg) : Nat :=
  (Chain.serve sampleServer c countingUp (.tcp none) none msg sampleWorld).2.2.2.2

/-- A message with many questions. -/
def manyQuestions (ns : List Str) : Msg := { id := 5, recursionDesired := true, question := ns.map (fun n => ⟨n, typeA, 1⟩) }

/-- Aliases in layers: each name of a layer is an alias of the two names of the next one. -/
def layers : Nat → CustomDns.Mapping
  | 0 => []
  | n + 1 => [(('a' :: List.replicate n 'x') ++ str! ".lan", both n), (('b' :: List.replicate n 'x') ++ str! ".lan", both n)] ++ layers n
where both (n : Nat) : List RR := match n with
  | 0 => [⟨[], typeCNAME, 1, 60, .cname (str! "www.org.")⟩, ⟨[], typeCNAME, 1, 60, .cname (str! "www.net.")⟩]
  | n + 1 => [⟨[], typeCNAME, 1, 60, .cname (('a' :: List.replicate n 'x') ++ str! ".lan.")⟩,
      ⟨[], typeCNAME, 1, 60, .cname (('b' :: List.replicate n 'x') ++ str! ".lan.")⟩]

/-- The sample server with these aliases, without cache. -/
def layeredConfig (n : Nat) : Chain.Config prefixEngine Nat :=
  { sampleConfig with customMapping := layers n, customDepth := n + 1, cache := { maxTime := -1 } }

/-- The sample server with `fallbackUpstream` for conditional upstreams. -/
def fallbackConfig : Chain.Config prefixEngine Nat := { sampleConfig with condRewrite := ⟨[(str! "old", str! "broken")], true⟩ }

/-- **C112 cannot be improved to one query per query.** A message with five questions (over HTTPS; over UDP and TCP such messages are
refused before they reach blocky) makes five queries of one; five layers of two aliases make 32; rewriting with fallback makes two. -/
theorem C112_single_false :
    timesAsked namelessConfig (manyQuestions [str! "a.org.", str! "b.org.", str! "c.org.", str! "d.org.", str! "e.org."]) = 5 ∧
    timesAsked (layeredConfig 5) (query (str! "axxxx.lan.")) = 32 ∧ timesAsked fallbackConfig (query (str! "host.old.")) = 2 := by
  refine ⟨?_, ?_, ?_⟩ <;> decide +kernel

/-- The same server, prefetching every name. -/
def eagerConfig : Chain.Config prefixEngine Nat := { namelessConfig with cache := { prefetching := true, prefetchThreshold := 0 } }

/-- Two names are asked for, 61 seconds pass, the cache is cleaned up: the upstream is asked twice, and twice more; without prefetching not
again. -/
example : (endures sampleServer ([Incident.event (.query (.udp none) none (query (str! "a.org."))),
      .event (.query (.udp none) none (query (str! "b.org."))), .event (.pass 61000), .event .cleanUp].map (fun i => (eagerConfig, countingUp, i)))
      sampleWorld).map (fun w => w.2.2.2) = some 4 ∧
    (endures sampleServer ([Incident.event (.query (.udp none) none (query (str! "a.org."))),
      .event (.query (.udp none) none (query (str! "b.org."))), .event (.pass 61000), .event .cleanUp].map (fun i => (namelessConfig, countingUp, i)))
      sampleWorld).map (fun w => w.2.2.2) = some 2 := by
  refine ⟨?_, ?_⟩ <;> decide +kernel

/-- The hypotheses of `C112_clean_up` are met. -/
example (w w' : Chain.World Nat) (h : (befall sampleServer eagerConfig countingUp w (.event .cleanUp)).2 = some w') : w'.2.2.2 ≤ w.2.2.2 +
    (w.2.2.1.main.cache.items.filter (fun e => decide (e.2.expires < w.2.2.1.main.now))).length := by
  have := C112_clean_up sampleServer eagerConfig countingUp id (fun _ _ h => counting_mapping h) countingUp_once w w' h
  simpa [eagerConfig, namelessConfig, sampleConfig] using this

/-- The hypotheses of `C112_history` are met: queries and whatever else happens to a server without aliases. -/
example (is : List Incident) (w w' : Chain.World Nat)
    (h : endures sampleServer (is.map (fun i => (namelessConfig, countingUp, i))) w = some w') :
    w'.2.2.2 ≤ w.2.2.2 + (is.map questionsOf).sum := by
  have hx : ∀ x ∈ is.map (fun i => (namelessConfig, countingUp, i)), x.1 = namelessConfig ∧ x.2.1 = countingUp := by
    intro x hx
    obtain ⟨i, _, rfl⟩ := List.mem_map.1 hx
    exact ⟨rfl, rfl⟩
  have := C112_history sampleServer id 0 5 1 (is.map (fun i => (namelessConfig, countingUp, i)))
    (fun x hm => by rw [(hx x hm).1]; exact ⟨fun _ _ h => (nomatch h), Nat.le_refl _⟩)
    (fun x hm => by rw [(hx x hm).1]; exact .inr ⟨rfl, .inr rfl⟩) (fun x hm => by rw [(hx x hm).1]; rfl)
    (fun x hm => by rw [(hx x hm).1]; exact fun _ h => (nomatch h)) (fun x hm => by rw [(hx x hm).1]; exact fun _ _ h => counting_mapping h)
    (fun x hm => by rw [(hx x hm).2]; exact countingUp_once) w w' h
  have ht : ∀ i, targetsOf 0 5 i = 0 := by
    intro i
    unfold targetsOf
    split
    · exact reachable_zero _
    · rfl
  simpa [Function.comp_def, ht] using this

end Verif.Props
