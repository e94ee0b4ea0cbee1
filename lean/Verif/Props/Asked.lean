/-
C110: upstreams are asked only what clients have asked for.
-/
import Verif.Props.Survival
import Verif.Props.Origin

namespace Verif.Props
open Dns Spec ExpCache StringCache

variable {W V : Type} {E : RegexEngine}

/-! ### Resolvers pass on allowed questions only -/

/-- A set of questions that what the resolvers do to questions does not lead out of. -/
structure Closed (c : Chain.Config E W) (J : Question → Prop) : Prop where
  plain : ∀ q, J q → J { q with name := fqdn (extractDomain q.name) }
  cond : c.condRewrite.rewrite ≠ [] → ∀ q i k v p, J q → (k, v) ∈ c.condOrder i → extractDomain q.name = p ++ '.' :: k → J { q with name := fqdn (p ++ '.' :: v) }
  custom : c.customRewrite.rewrite ≠ [] → ∀ q i k v p, J q → (k, v) ∈ c.customOrder i → extractDomain q.name = p ++ '.' :: k → J { q with name := fqdn (p ++ '.' :: v) }
  target : ∀ q z es e t, J q → InZone (extractDomain q.name) z → AMap.get c.customMapping z = some es → e ∈ es → e.data = .cname t →
    J ⟨fqdn (trimSuffixDot t), q.qtype, 1⟩
  reload : ∀ q, J q → J ⟨fqdn (fqdn (extractDomain q.name)), q.qtype, 1⟩

/-- All questions of a message are allowed. -/
def OkMsg (J : Question → Prop) (m : Msg) : Prop := ∀ q ∈ m.question, J q

/-- Allowed questions stay allowed, and the property of the world holds on. -/
def TightM (J : Question → Prop) (P : V → Prop) (n : Cond.MResolver V) : Prop :=
  ∀ r w, OkMsg J r.req → P w → OkMsg J (n r w).2.1 ∧ P (n r w).2.2

/-- The same for a resolver with the message in the world. -/
def Tight (J : Question → Prop) (P : V → Prop) (n : Chain.MR V) : Prop :=
  ∀ r w, OkMsg J r.req → OkMsg J w.1 → P w.2 → OkMsg J (n r w).2.1 ∧ P (n r w).2.2

/-- The log of the upstreams: which questions they were asked. -/
def Notes (log : W → List Question) (up : Resolver W) : Prop := ∀ r w, log (up r w).2 = log w ++ r.req.question

/-- Since the log was `old`, only allowed questions have been asked. -/
def Grown (J : Question → Prop) (log : W → List Question) (old : List Question) (w : W) : Prop := ∃ new, log w = old ++ new ∧ ∀ q ∈ new, J q

variable {J : Question → Prop} {P : V → Prop} {old : List Question} {keys : Bool}

theorem tight_toM {n : Chain.MR V} (h : Tight J P n) : TightM J P (Chain.toM n) := fun r w hr hw => h r (r.req, w) hr hr hw

theorem tight_ofM {n : Cond.MResolver V} (h : TightM J P n) : Tight J P (Chain.ofM n) := fun r w hr _ hw => h r w.2 hr hw

theorem notes_log {log : W → List Question} {up : Resolver W} (h : Notes log up) (r : Request) (w : W) (hr : OkMsg J r.req)
    (hw : Grown J log old w) : Grown J log old (up r w).2 := by
  obtain ⟨new, h1, h2⟩ := hw
  refine ⟨new ++ r.req.question, ?_, ?_⟩
  · rw [h r w, h1, List.append_assoc]
  · intro q hq
    rcases List.mem_append.1 hq with hq | hq
    · exact h2 q hq
    · exact hr q hq

theorem okMsg_setName {c : Chain.Config E W} (hJ : Closed c J) {q : Question} {qs : List Question} (h : ∀ x ∈ q :: qs, J x) :
    ∀ x ∈ Cond.setName (fqdn (extractDomain q.name)) (q :: qs), J x := by
  intro x hx
  rcases List.mem_cons.1 hx with rfl | hx
  · exact hJ.plain q (h q List.mem_cons_self)
  · exact h x (List.mem_cons_of_mem _ hx)

theorem tight_internal {c : Chain.Config E W} (hJ : Closed c J) {log : W → List Question} {reso : Resolver W} (hs : Notes log reso)
    (r : Request) (q : Question) (qs : List Question) (hq : r.req.question = q :: qs) (w : W) (hr : OkMsg J r.req) (hw : Grown J log old w) :
    OkMsg J (Cond.internalResolve reso (extractDomain q.name) r w).2.1 ∧
      Grown J log old (Cond.internalResolve reso (extractDomain q.name) r w).2.2 := by
  have hn : OkMsg J { r.req with question := Cond.setName (fqdn (extractDomain q.name)) r.req.question } := by
    unfold OkMsg
    rw [hq]
    refine okMsg_setName hJ ?_
    rw [← hq]
    exact hr
  have := notes_log hs { r with req := { r.req with question := Cond.setName (fqdn (extractDomain q.name)) r.req.question } } w hn hw
  revert this
  unfold Cond.internalResolve
  simp only
  generalize reso { r with req := { r.req with question := Cond.setName (fqdn (extractDomain q.name)) r.req.question } } w = y
  obtain ⟨o, w'⟩ := y
  intro this
  cases o <;> exact ⟨hn, this⟩

theorem notes_lookup {log : W → List Question} {mapping : AMap Str (Resolver W)} (hm : ∀ z r, AMap.get mapping z = some r → Notes log r)
    (d : Str) (reso : Resolver W) (hl : Cond.lookup mapping d = some reso) : Notes log reso := by
  unfold Cond.lookup at hl
  split at hl
  · cases hw : walk (AMap.get mapping) (d.length + 1) d with
    | none => rw [hw] at hl; cases hl
    | some x =>
      rw [hw] at hl
      cases hl
      exact hm _ _ (walk_some hw).2.2.1
  · exact hm _ _ hl

theorem tight_conditional {c : Chain.Config E W} (hJ : Closed c J) {log : W → List Question} {mapping : AMap Str (Resolver W)}
    (hm : ∀ z r, AMap.get mapping z = some r → Notes log r) {n : Cond.MResolver W} (h : TightM J (Grown J log old) n) :
    TightM J (Grown J log old) (Cond.conditional mapping n) := by
  intro r w hr hw
  unfold Cond.conditional
  split
  · split
    · exact ⟨hr, hw⟩
    · rename_i q qs hq
      split
      · rename_i reso hl
        exact tight_internal hJ (notes_lookup hm _ reso hl) r q qs hq w hr hw
      · exact h r w hr hw
  · exact h r w hr hw

theorem rewriteDomain_rule (rules : List (Str × Str)) (d : Str) :
    Cond.rewriteDomain rules d = d ∨ ∃ k v p, (k, v) ∈ rules ∧ d = p ++ '.' :: k ∧ Cond.rewriteDomain rules d = p ++ '.' :: v := by
  induction rules with
  | nil => exact .inl rfl
  | cons r rules ih =>
    obtain ⟨k, v⟩ := r
    unfold Cond.rewriteDomain
    cases hc : Cond.cutSuffix d ('.' :: k) with
    | some p =>
      refine .inr ⟨k, v, p, List.mem_cons_self, ?_, rfl⟩
      unfold Cond.cutSuffix at hc
      split at hc
      · rename_i hs
        cases hc
        obtain ⟨t, ht⟩ := List.isSuffixOf_iff_suffix.1 hs
        rw [← ht]
        simp
      · cases hc
    | none =>
      rcases ih with ih | ⟨k', v', p, h1, h2, h3⟩
      · exact .inl ih
      · exact .inr ⟨k', v', p, List.mem_cons_of_mem _ h1, h2, h3⟩

theorem rewriteQuestions_ok {order : Nat → List (Str × Str)}
    (hr : ∀ q i k v p, J q → (k, v) ∈ order i → extractDomain q.name = p ++ '.' :: k → J { q with name := fqdn (p ++ '.' :: v) })
    (qs : List Question) : ∀ (i : Nat) (names : AMap Str Str), (∀ q ∈ qs, J q) → ∀ q ∈ (Cond.rewriteQuestions order i qs names).1, J q := by
  induction qs with
  | nil => exact fun _ _ h => h
  | cons q qs ih =>
    intro i names h
    have h0 := h q List.mem_cons_self
    have h1 : ∀ x ∈ qs, J x := fun x hx => h x (List.mem_cons_of_mem _ hx)
    unfold Cond.rewriteQuestions
    simp only
    split
    · rename_i hne
      intro x hx
      rcases List.mem_cons.1 hx with rfl | hx
      · rcases rewriteDomain_rule (order i) (extractDomain q.name) with he | ⟨k, v, p, e1, e2, e3⟩
        · exact absurd he hne
        · rw [e3]
          exact hr q i k v p h0 e1 e2
      · exact ih _ _ h1 x hx
    · intro x hx
      rcases List.mem_cons.1 hx with rfl | hx
      · exact h0
      · exact ih _ _ h1 x hx

theorem tight_rewriter {order : Nat → List (Str × Str)} (fallback : Bool)
    (ho : ∀ q i k v p, J q → (k, v) ∈ order i → extractDomain q.name = p ++ '.' :: k → J { q with name := fqdn (p ++ '.' :: v) })
    {i n : Cond.MResolver V} (hi : TightM J P i) (hn : TightM J P n) : TightM J P (Cond.rewriter fallback order i n) := by
  intro r w hr hw
  unfold Cond.rewriter
  have hq := rewriteQuestions_ok ho r.req.question 0 [] hr
  revert hq
  generalize Cond.rewriteQuestions order 0 r.req.question [] = y
  obtain ⟨questions, rewritten, names⟩ := y
  intro hq
  simp only at hq ⊢
  have h := hi (if rewritten then { r with req := { r.req with question := questions } } else r) w (by
    split
    · exact hq
    · exact hr) hw
  revert h
  generalize i _ w = z
  obtain ⟨o, msg, w'⟩ := z
  intro h
  obtain ⟨h1, h2⟩ := h
  simp only at h1 h2
  have hor : OkMsg J (if rewritten then r.req else msg) := by
    split
    · exact hr
    · exact h1
  cases o with
  | panic => exact ⟨h1, h2⟩
  | err e => simp only; split
             · exact hn _ _ hor h2
             · exact ⟨hor, h2⟩
  | noResponse => exact hn _ _ hor h2
  | ok x =>
    simp only
    split
    · exact hn _ _ hor h2
    · split
      · rename_i hb
        subst hb
        exact ⟨hor, h2⟩
      · exact ⟨h1, h2⟩

theorem tight_newRewriter (cfg : Cond.RewriteCfg) {order : Nat → List (Str × Str)}
    (ho : cfg.rewrite ≠ [] → ∀ q i k v p, J q → (k, v) ∈ order i → extractDomain q.name = p ++ '.' :: k → J { q with name := fqdn (p ++ '.' :: v) })
    {i : Cond.MResolver V → Cond.MResolver V} {n : Cond.MResolver V} (hi : ∀ m, TightM J P m → TightM J P (i m)) (hn : TightM J P n) :
    TightM J P (Cond.newRewriter cfg order i n) := by
  unfold Cond.newRewriter
  split
  · exact hi _ hn
  · rename_i hne
    exact tight_rewriter _ (ho (fun h => hne (by rw [h]; rfl))) (hi _ (fun _ _ hr hw => ⟨hr, hw⟩)) hn

theorem tight_cond {c : Chain.Config E W} (hJ : Closed c J) {log : W → List Question}
    (hm : ∀ z r, AMap.get c.condMapping z = some r → Notes log r) {up : Resolver W} (hu : Notes log up) :
    Tight J (Grown J log old) (Chain.cond c up) := by
  have htail : Tight J (Grown J log old) (Chain.tail c up) := by
    intro r w hr hm hw
    have hl : OkMsg J (Chain.liftUp up r w).2.1 ∧ Grown J log old (Chain.liftUp up r w).2.2 := ⟨hm, notes_log hu r w.2 hr hw⟩
    unfold Chain.tail Small.sudn
    split
    · exact hl
    · split
      · exact ⟨hm, hw⟩
      · split
        · exact ⟨hm, hw⟩
        · exact hl
  exact tight_ofM (tight_newRewriter _ hJ.cond (fun _ h => tight_conditional hJ hm h) (tight_toM htail))

/-! ### The cache -/

/-- What is asked for when the entry of a key is reloaded is allowed. -/
def OkKey (J : Question → Prop) (key : Str) : Prop := ∀ t n, Caching.extractKey key = some (t, n) → J ⟨fqdn (fqdn n), t, 1⟩

/-- The cache holds such keys only (if `keys`), and the rest of the world is as it should be. -/
def OkCache (keys : Bool) (J : Question → Prop) (log : W → List Question) (old : List Question) (v : Caching.CState × W) : Prop :=
  (keys = true → ∀ e ∈ v.1.main.cache.items, OkKey J e.1) ∧ Grown J log old v.2

theorem lower_extract (n : Str) : lower (extractDomain n) = extractDomain n := by
  have h : ∀ s : Str, lower (trimSuffixDot (lower s)) = trimSuffixDot (lower s) := by
    intro s
    unfold trimSuffixDot
    split
    · have : lower (lower s).dropLast = (lower (lower s)).dropLast := by
        unfold lower
        rw [List.map_dropLast]
      rw [this, lower_idem]
    · exact lower_idem s
  exact h n

theorem byteOf {n : Nat} (h : n < 256) : (Char.ofNat n).toNat = n := by
  have hv : n.isValidChar := .inl (by omega)
  unfold Char.ofNat
  rw [dif_pos hv]
  show (UInt32.ofNatLT n _).toNat = n
  simp

theorem okKey_question {c : Chain.Config E W} (hJ : Closed c J) {q : Question} (hs : q.qtype < 65536) (hq : J q) :
    OkKey J (Caching.questionKey q) := by
  intro t n h
  unfold Caching.questionKey Caching.cacheKey Caching.extractKey at h
  rw [lower_extract] at h
  simp only [Option.some.injEq, Prod.mk.injEq] at h
  obtain ⟨h1, rfl⟩ := h
  rw [byteOf (by omega), byteOf (by omega)] at h1
  have : t = q.qtype := by omega
  rw [this]
  exact hJ.reload q hq

theorem okCache_get {log : W → List Question} {s : Caching.CState} {w : W} (h : OkCache keys J log old (s, w)) (cfg : Caching.Cfg) (k : Str) :
    OkCache keys J log old ((Caching.cacheGet cfg s k).2, w) := by
  refine ⟨fun hk => ?_, h.2⟩
  unfold Caching.cacheGet
  simp only
  split
  · exact cacheGet_all (P := OkKey J) (h.1 hk) _ _
  · exact cacheGet_all (P := OkKey J) (h.1 hk) _ _

theorem okCache_put {log : W → List Question} {s : Caching.CState} {w : W} (h : OkCache keys J log old (s, w)) {k : Str} (hk : keys = true → OkKey J k) (m : Msg) (ttl : Int) :
    OkCache keys J log old ({ s with main := step s.main (.put k m ttl) }, w) :=
  ⟨fun hh => cachePut_all (P := OkKey J) (h.1 hh) (hk hh) _ _ _, h.2⟩

theorem okCache_store {log : W → List Question} {s : Caching.CState} {w : W} (h : OkCache keys J log old (s, w)) (env : Caching.Env) (cfg : Caching.Cfg)
    {k : Str} (hk : keys = true → OkKey J k) (r : Response) : OkCache keys J log old (Caching.store env cfg s k r, w) := by
  unfold Caching.store Caching.putOps
  simp only
  split
  · split
    · exact okCache_put h hk _ _
    · split
      · split
        · exact okCache_put h hk _ _
        · exact h
      · exact h
  · exact h

theorem okCache_loop {c : Chain.Config E W} (hJ : Closed c J) (hs : keys = true → ∀ q, J q → q.qtype < 65536) {log : W → List Question} (env : Caching.Env) (cfg : Caching.Cfg) {next : Chain.MR W}
    (hn : Tight J (Grown J log old) next) (req : Request) (hr : OkMsg J req.req) (qs : List Question) :
    (∀ q ∈ qs, J q) → ∀ (last : Outcome) (s : Caching.CState) (m : Msg) (w : W), OkMsg J m → OkCache keys J log old (s, w) →
      OkMsg J (Caching.resolveLoop env cfg next req qs last s (m, w)).2.2.1 ∧
        OkCache keys J log old ((Caching.resolveLoop env cfg next req qs last s (m, w)).2.1, (Caching.resolveLoop env cfg next req qs last s (m, w)).2.2.2) := by
  induction qs with
  | nil => exact fun _ _ _ _ _ hm h => ⟨hm, h⟩
  | cons q qs ih =>
    intro hqs last s m w hm h
    have h0 := fun hk => okKey_question hJ (hs hk q (hqs q List.mem_cons_self)) (hqs q List.mem_cons_self)
    have ih := ih (fun x hx => hqs x (List.mem_cons_of_mem _ hx))
    have h1 := okCache_get h cfg (Caching.questionKey q)
    unfold Caching.resolveLoop
    revert h1
    generalize Caching.cacheGet cfg s (Caching.questionKey q) = y
    obtain ⟨found, s1⟩ := y
    intro h1
    cases found with
    | some x => exact ⟨hm, h1⟩
    | none =>
      simp only
      have h2 := hn req (m, w) hr hm h.2
      revert h2
      generalize next req (m, w) = z
      obtain ⟨o, m1, w1⟩ := z
      intro h2
      have h3 : OkCache keys J log old (s1, w1) := ⟨h1.1, h2.2⟩
      cases o with
      | ok r => exact ih _ _ _ _ h2.1 (okCache_store h3 env cfg h0 r)
      | err e => exact ih _ _ _ _ h2.1 h3
      | noResponse => exact ⟨h2.1, h3⟩
      | panic => exact ⟨h2.1, h3⟩

theorem tight_caching {c : Chain.Config E W} (hJ : Closed c J) (hs : keys = true → ∀ q, J q → q.qtype < 65536) {log : W → List Question} (env : Caching.Env) (cfg : Caching.Cfg) {next : Chain.MR W}
    (hn : Tight J (Grown J log old) next) : Tight J (OkCache keys J log old) (Chain.caching env cfg next) := by
  intro r w hr hm hw
  unfold Chain.caching Caching.resolve
  by_cases hb : (!cfg.enabled || !Caching.isRequestCacheable r.req) = true
  · rw [if_pos hb]
    have := hn r (w.1, w.2.2) hr hm hw.2
    exact ⟨this.1, hw.1, this.2⟩
  · rw [if_neg hb]
    have := okCache_loop hJ hs env cfg hn r hr r.req.question hr .noResponse w.2.1 w.1 w.2.2 hm hw
    revert this
    generalize Caching.resolveLoop env cfg next r r.req.question .noResponse w.2.1 (w.1, w.2.2) = y
    obtain ⟨o, s, m, w'⟩ := y
    exact fun this => this

/-! ### Custom DNS -/

theorem processRequest_tight {c : Chain.Config E W} (hJ : Closed c J) (env : CustomDns.Env) (I : V → Prop) {n : Resolver V}
    (hn : ∀ r w, OkMsg J r.req → I w → I (n r w).2) (depth : Nat) (r : Request) (resolved : List Str) (w : V) (hx : OkMsg J r.req) (hw : I w)
    (x : Outcome × V) (h : CustomDns.processRequest env c.customMapping n depth r resolved w = some x) : I x.2 := by
  induction depth generalizing r resolved w x with
  | zero => cases h
  | succ depth ih =>
    have hent : ∀ q, J q → ∀ z es0, InZone (extractDomain q.name) z → AMap.get c.customMapping z = some es0 → ∀ es, (∀ e ∈ es, e ∈ es0) →
        ∀ acc w y, I w →
        CustomDns.processEntries env (CustomDns.processRequest env c.customMapping n depth) r resolved q es acc w = some y → I y.2 := by
      intro q hq z es0 hz hg es
      induction es with
      | nil => intro _ acc w y hw h; cases h; exact hw
      | cons e es ihe =>
        intro hsub acc w y hw h
        have he : ∀ z, CustomDns.processEntry env (CustomDns.processRequest env c.customMapping n depth) r resolved q e w = some z → I z.2 := by
          intro z hz'
          unfold CustomDns.processEntry at hz'
          split at hz'
          · cases hz'; exact hw
          · cases hz'; exact hw
          · rename_i t hd
            have htq : ∀ cs, OkMsg J (CustomDns.targetRequest env r (trimSuffixDot t) q.qtype cs).req := by
              intro cs x hx
              rw [List.mem_singleton.1 hx]
              exact hJ.target q _ es0 e t hq hz hg (hsub e List.mem_cons_self) hd
            unfold CustomDns.processCNAME at hz'
            simp only at hz'
            split at hz'
            · cases hz'; exact hw
            · split at hz'
              · cases hz'; exact hw
              · split at hz'
                · cases hz'
                all_goals
                  rename_i hp
                  cases hz'
                  exact ih _ _ _ (htq _) hw _ hp
          · split at hz'
            · cases hz'; exact hw
            · cases hz'; exact hw
        unfold CustomDns.processEntries at h
        split at h
        · cases h
        · rename_i rrs w' hz'
          exact ihe (fun x hx => hsub x (List.mem_cons_of_mem _ hx)) _ _ _ (he _ hz') h
        · rename_i x' w' _ hz'
          cases h
          exact he _ hz'
    unfold CustomDns.processRequest at h
    split at h
    · cases h; exact hw
    · rename_i q qs hq
      have hq0 : J q := hx q (by rw [hq]; exact List.mem_cons_self)
      split at h
      · cases h; exact hn r w hx hw
      · rename_i z es hwalk
        obtain ⟨hz, _, hg, _⟩ := walk_some hwalk
        have hent := hent q hq0 z es hz hg es (fun _ h => h)
        split at h
        · cases h
        · rename_i hz; cases h; exact hent _ _ _ hw hz
        · rename_i hz; cases h; exact hent _ _ _ hw hz
        · rename_i hz
          have := hent _ _ _ hw hz
          split at h
          · cases h; exact this
          · split at h
            · cases h; exact hn r _ hx this
            · cases h; exact this

theorem tight_customDns {c : Chain.Config E W} (hJ : Closed c J) {n : Chain.MR V} (h : Tight J P n) :
    Tight J P (Chain.customDns c.customEnv c.customMapping c.customReverse c.customDepth n) := by
  intro r w hr hm hw
  unfold Chain.customDns CustomDns.resolve
  have key : ∀ x, CustomDns.processRequest c.customEnv c.customMapping
      (fun (r : Request) (w : Msg × V) => if r.internal then ((n r (r.req, w.2)).1, (w.1, (n r (r.req, w.2)).2.2)) else n r w)
      c.customDepth r [] w = some x → OkMsg J x.2.1 ∧ P x.2.2 := by
    intro x hx
    refine processRequest_tight hJ c.customEnv (fun v => OkMsg J v.1 ∧ P v.2) ?_ c.customDepth r [] w hr ⟨hm, hw⟩ x hx
    intro r v hr hv
    show OkMsg J (if r.internal then ((n r (r.req, v.2)).1, (v.1, (n r (r.req, v.2)).2.2)) else n r v).2.1 ∧
      P (if r.internal then ((n r (r.req, v.2)).1, (v.1, (n r (r.req, v.2)).2.2)) else n r v).2.2
    split
    · exact ⟨hv.1, (h r (r.req, v.2) hr hr hv.2).2⟩
    · exact h r v hr hv.1 hv.2
  cases r.req.question with
  | nil => exact ⟨hm, hw⟩
  | cons q qs =>
    simp only
    cases CustomDns.handleReverse c.customEnv c.customReverse r q with
    | some y => exact ⟨hm, hw⟩
    | none =>
      simp only
      revert key
      generalize CustomDns.processRequest c.customEnv c.customMapping _ c.customDepth r [] w = z
      intro key
      cases z with
      | none => exact ⟨hm, hw⟩
      | some x => exact key x rfl

/-! ### The whole server -/

theorem tight_observed {c : Chain.Config E W} (hJ : Closed c J) (hs : keys = true → ∀ q, J q → q.qtype < 65536) {log : W → List Question}
    (hm : ∀ z r, AMap.get c.condMapping z = some r → Notes log r) {up : Resolver W} (hu : Notes log up) :
    ∀ r w, OkMsg J r.req → OkMsg J w.1 → OkCache keys J log old w.2.2 → OkCache keys J log old (Chain.observed c up r w).2.2.2 := by
  have hcache := tight_caching (old := old) hJ hs c.cacheEnv c.cache (tight_cond hJ hm hu)
  have hblock : Tight J (OkCache keys J log old) (Chain.block c up) := by
    intro r w hr hm hw
    have hask : ∀ groups, OkMsg J (Blocking.askNext c.blockEnv c.blockState groups
        (Chain.caching c.cacheEnv c.cache (Chain.cond c up)) r w).2.1 ∧ OkCache keys J log old (Blocking.askNext c.blockEnv c.blockState groups
        (Chain.caching c.cacheEnv c.cache (Chain.cond c up)) r w).2.2 := by
      intro groups
      unfold Blocking.askNext
      have := hcache r w hr hm hw
      revert this
      generalize Chain.caching c.cacheEnv c.cache (Chain.cond c up) r w = y
      obtain ⟨o, w'⟩ := y
      intro this
      cases o with
      | ok x => simp only; split
                · split <;> exact this
                · exact this
      | _ => exact this
    unfold Chain.block Blocking.resolve
    simp only
    split
    · split
      · exact hcache r w hr hm hw
      · exact ⟨hm, hw⟩
      · exact hask _
    · exact hask _
  have hhosts : Tight J (OkCache keys J log old)
      (HostsFile.resolve c.hostsEnabled c.hostsCfg c.hosts c.hostsOrder4 c.hostsOrder6 (Chain.block c up)) := by
    intro r w hr hm hw
    unfold HostsFile.resolve
    split
    · exact hblock r w hr hm hw
    · split
      · exact ⟨hm, hw⟩
      · split
        · exact ⟨hm, hw⟩
        · split
          · exact ⟨hm, hw⟩
          · exact hblock r w hr hm hw
  have hlocal : Tight J (OkCache keys J log old) (Chain.local c up) :=
    tight_ofM (tight_newRewriter _ hJ.custom (fun _ h => tight_toM (tight_customDns hJ (tight_ofM h))) (tight_toM hhosts))
  have hmet : Tight J (OkCache keys J log old) (Chain.metrics c.metrics (Chain.local c up)) := by
    intro r w hr hm hw
    unfold Chain.metrics
    have := hlocal r w hr hm hw
    revert this
    generalize Chain.local c up r w = y
    obtain ⟨o, w'⟩ := y
    intro this
    cases o <;> simp only <;> first | exact this | (split <;> first | exact this | (split <;> first | exact this))
  have hlog : ∀ r w, OkMsg J r.req → OkMsg J w.1 → OkCache keys J log old w.2.2 → OkCache keys J log old
      (Chain.queryLog c.log c.logEnv c.logStart c.logDuration (Chain.metrics c.metrics (Chain.local c up)) r w).2.2.2 := by
    intro r w hr hm hw
    unfold Chain.queryLog Chain.ofM QueryLog.resolve
    have : OkCache keys J log old (Chain.toM (Chain.metrics c.metrics (Chain.local c up)) r w.2.2).2.2 := (hmet r (r.req, w.2.2) hr hr hw).2
    revert this
    generalize Chain.toM (Chain.metrics c.metrics (Chain.local c up)) r w.2.2 = y
    obtain ⟨o, m, w'⟩ := y
    intro this
    cases o with
    | ok x =>
      simp only
      split
      · exact this
      · split <;> exact this
    | _ => exact this
  intro r w hr hm hw
  unfold Chain.observed Small.ede
  split
  · exact hlog r w hr hm hw
  · have := hlog r w hr hm hw
    revert this
    generalize Chain.queryLog c.log c.logEnv c.logStart c.logDuration (Chain.metrics c.metrics (Chain.local c up)) r w = y
    obtain ⟨o, w'⟩ := y
    intro this
    cases o <;> exact this

/-- Lookups of client names neither touch the answer cache nor ask the upstreams of the log (they have one of their own). -/
def NamesApart (log : W → List Question) (c : Chain.Config E W) : Prop :=
  ∀ l, c.namesLookup = some l → ∀ ip v, (l ip v).2.1 = v.1 ∧ log (l ip v).2.2 = log v.2

theorem tight_whole {c : Chain.Config E W} (hJ : Closed c J) (hs : keys = true → ∀ q, J q → q.qtype < 65536) {log : W → List Question} (hl : NamesApart log c)
    (hm : ∀ z r, AMap.get c.condMapping z = some r → Notes log r) {up : Resolver W} (hu : Notes log up) (request : Request)
    (w : Chain.World W) (hr : OkMsg J request.req) (hw : OkCache keys J log old w.2.2) :
    OkCache keys J log old (Chain.whole c up request (request.req, w)).2.2.2.2 := by
  obtain ⟨cn, q, v⟩ := w
  have hecs : OkCache keys J log old (Chain.ecs c.ecs (Chain.clientNames c.names (c.namesLookup.map Chain.liftLookup) (Chain.observed c up)) request
      (request.req, (cn, (q, v)))).2.2.2.2 := by
    unfold Chain.ecs
    cases h : Ecs.transform c.ecs request with
    | none => exact hw
    | some r =>
      have hq : OkMsg J r.req := by
        have hm := (C28_rest_unchanged c.ecs request r h).1
        unfold SameOutsideExtra at hm
        have e := congrArg Msg.question hm
        simp only at e
        unfold OkMsg
        rw [e]
        exact hr
      simp only [Chain.clientNames, withNames_lift]
      have he' := withNames_keeps c.names c.namesLookup (fun w => OkCache keys J log old w)
        (fun ask ha ip w hw => by
          obtain ⟨h1, h2⟩ := hl ask ha ip w
          unfold OkCache Grown
          rw [h1, h2]
          exact hw) r cn v hw
      have hsame : (ClientNames.withNames c.names c.namesLookup r cn v).1.req = r.req := rfl
      revert he' hsame
      generalize ClientNames.withNames c.names c.namesLookup r cn v = y
      obtain ⟨r', cn', w'⟩ := y
      intro he' hsame
      simp only at hsame
      exact tight_observed hJ hs hm hu r' (r.req, (q, w')) (by rw [hsame]; exact hq) hq he'
  unfold Chain.whole Small.filtering
  split
  · exact hw
  · split
    · exact hw
    · unfold Small.fqdnOnly
      split
      · split
        · exact hw
        · split
          · exact hw
          · exact hecs
      · exact hecs

/-! ### Cleaning up -/

theorem okCache_reload {log : W → List Question} (env : Caching.Env) (cfg : Caching.Cfg) {next : Chain.MR W}
    (hn : Tight J (Grown J log old) next) {k : Str} (hk : OkKey J k) (w : Msg × W) (hm : OkMsg J w.1) (hw : Grown J log old w.2) :
    OkMsg J (Caching.reload env cfg next k w).2.1 ∧ Grown J log old (Caching.reload env cfg next k w).2.2 := by
  unfold Caching.reload
  cases he : Caching.extractKey k with
  | none => exact ⟨hm, hw⟩
  | some x =>
    obtain ⟨t, n⟩ := x
    simp only
    have := hn (Caching.reloadRequest env t n) w (by
      intro q hq
      rw [List.mem_singleton.1 hq]
      exact hk t n he) hm hw
    revert this
    generalize next (Caching.reloadRequest env t n) w = y
    obtain ⟨o, w'⟩ := y
    intro this
    cases o with
    | ok r =>
      simp only
      split
      · split <;> exact this
      · exact this
    | _ => exact this

theorem okCache_onExpired {log : W → List Question} (env : Caching.Env) (cfg : Caching.Cfg) {next : Chain.MR W}
    (hn : Tight J (Grown J log old) next) {k : Str} (hk : cfg.prefetching = true → OkKey J k) (s : Caching.CState) (w : Msg × W) (hm : OkMsg J w.1)
    (hw : OkCache keys J log old (s, w.2)) :
    OkMsg J (Caching.onExpired env cfg next s w k).2.2.1 ∧
      OkCache keys J log old ((Caching.onExpired env cfg next s w k).2.1, (Caching.onExpired env cfg next s w k).2.2.2) := by
  have hmain : (Caching.shouldPrefetch cfg s k).2.main = s.main := by
    unfold Caching.shouldPrefetch
    split <;> rfl
  have hs : ∀ v, Grown J log old v → OkCache keys J log old ((Caching.shouldPrefetch cfg s k).2, v) := by
    intro v hv
    unfold OkCache
    rw [hmain]
    exact ⟨hw.1, hv⟩
  unfold Caching.onExpired
  split
  · split
    · have := okCache_reload env cfg hn (hk (by assumption)) w hm hw.2
      exact ⟨this.1, hs _ this.2⟩
    · exact ⟨hm, hs _ hw.2⟩
  · exact ⟨hm, hw⟩

theorem okCache_reloadLoop {log : W → List Question} (env : Caching.Env) (cfg : Caching.Cfg) {next : Chain.MR W}
    (hn : Tight J (Grown J log old) next) (ks : List Str)
    (hk : ∀ k ∈ ks, cfg.prefetching = true ∨ keys = true → OkKey J k) :
    ∀ (del : List Str) (s : Caching.CState) (w : Msg × W), OkMsg J w.1 → OkCache keys J log old (s, w.2) →
      Grown J log old (Caching.reloadLoop env cfg next ks del s w).2.2 ∧
      ∀ x, (Caching.reloadLoop env cfg next ks del s w).1 = some x → OkCache keys J log old (x.2, (Caching.reloadLoop env cfg next ks del s w).2.2) := by
  induction ks with
  | nil =>
    intro del s w _ h
    refine ⟨h.2, fun x hx => ?_⟩
    cases hx
    exact h
  | cons k ks ih =>
    intro del s w hm h
    have hk0 := hk k List.mem_cons_self
    have ih := ih (fun x hx => hk x (List.mem_cons_of_mem _ hx))
    have h1 := okCache_onExpired env cfg hn (fun hp => hk0 (.inl hp)) s w hm h
    unfold Caching.reloadLoop
    revert h1
    generalize Caching.onExpired env cfg next s w k = y
    obtain ⟨o, s1, w1⟩ := y
    intro h1
    cases o with
    | none => exact ⟨h1.2.2, fun x hx => nomatch hx⟩
    | some o =>
      cases o with
      | none => exact ih _ _ _ h1.1 h1.2
      | some x => exact ih _ _ _ h1.1 (okCache_put h1.2 (fun hh => hk0 (.inr hh)) _ _)

theorem okCache_removes {log : W → List Question} (del : List Str) : ∀ (s : Caching.CState) (w : W), OkCache keys J log old (s, w) →
    OkCache keys J log old ({ s with main := run s.main (del.map Op.remove) }, w) := by
  induction del with
  | nil => exact fun _ _ h => h
  | cons k ks ih =>
    intro s w h
    exact ih { s with main := step s.main (.remove k) } w ⟨fun hh e he => h.1 hh e (List.mem_filter.1 he).1, h.2⟩

theorem okCache_cleanUp {log : W → List Question} (env : Caching.Env) (cfg : Caching.Cfg) {next : Chain.MR W}
    (hn : Tight J (Grown J log old) next) (s : Caching.CState) (w : W)
    (hk : ∀ k ∈ s.main.cache.expiredKeys s.main.now, cfg.prefetching = true ∨ keys = true → OkKey J k)
    (hw : OkCache keys J log old (s, w)) (s' : Caching.CState) (h : (Caching.cleanUpCache env cfg next s ({}, w)).1 = some s') :
    OkCache keys J log old (s', (Caching.cleanUpCache env cfg next s ({}, w)).2.2) := by
  have hl := okCache_reloadLoop env cfg hn _ hk [] s ({}, w) (fun _ h => nomatch h) hw
  revert h hl
  unfold Caching.cleanUpCache
  generalize Caching.reloadLoop env cfg next (s.main.cache.expiredKeys s.main.now) [] s ({}, w) = y
  obtain ⟨o, w'⟩ := y
  intro h hl
  cases o with
  | none => cases h
  | some x =>
    cases h
    exact okCache_removes x.1 x.2 w'.2 (hl.2 x rfl)

/-! ### The claim -/

/-- What a question asked of an upstream may stem from: type and name of a question in `told`, the name rewritten or replaced by an
alias as one of the configurations says. -/
inductive Stems (cs : Chain.Config E W → Prop) (told : Question → Prop) : Nat → Str → Prop
  | asked {q} : told q → Stems cs told q.qtype (bare q.name)
  | leads {c t n m} : Stems cs told t n → cs c → Leads c n m → Stems cs told t m

/-- Type and name stem from a question in `told`; the class is one of those or IN. -/
def Warranted (cs : Chain.Config E W → Prop) (told : Question → Prop) (q : Question) : Prop :=
  Stems cs told q.qtype (bare q.name) ∧ (q.qclass = 1 ∨ ∃ q0, told q0 ∧ q0.qclass = q.qclass)

/-- The questions that come to the server: those of clients, and those in the keys of answers that come from redis (two bytes for the
type, then the name). -/
inductive Heard : Incident → Question → Prop
  | query {remote sni msg q} : q ∈ msg.question → Heard (.event (.query remote sni msg)) q
  | message {id m msg a b name} : m.payload = .cache (a :: b :: name) msg → Heard (.message id m) ⟨name, a.toNat * 256 + b.toNat, 1⟩
  | load {store now later a b name} :
      Heard (.load store now later (str! "blocky:cache:" ++ a :: b :: name)) ⟨name, a.toNat * 256 + b.toNat, 1⟩

theorem warranted_closed {cs : Chain.Config E W → Prop} {told : Question → Prop} {c : Chain.Config E W} (hc : cs c) (T : Nat → Prop) :
    Closed c (fun q => T q.qtype ∧ Warranted cs told q) where
  plain := by
    rintro q ⟨ht, h1, h2⟩
    refine ⟨ht, ?_, h2⟩
    show Stems cs told q.qtype (bare (fqdn (extractDomain q.name)))
    rw [bare_fqdn, bare_extractDomain]
    exact h1
  cond := by
    rintro hne q i k v p ⟨ht, h1, h2⟩ hm he
    refine ⟨ht, .leads h1 hc ?_, h2⟩
    rw [bare_fqdn, ← bare_extractDomain q.name, he]
    exact .conditional .self hne hm
  custom := by
    rintro hne q i k v p ⟨ht, h1, h2⟩ hm he
    refine ⟨ht, .leads h1 hc ?_, h2⟩
    rw [bare_fqdn, ← bare_extractDomain q.name, he]
    exact .custom .self hne hm
  target := by
    rintro q z es e t ⟨ht, h1, h2⟩ hz hg he hd
    refine ⟨ht, .leads h1 hc ?_, .inl rfl⟩
    rw [bare_fqdn, bare_trimSuffixDot, ← bare_extractDomain q.name]
    exact .alias .self hz hg he hd
  reload := by
    rintro q ⟨ht, h1, h2⟩
    refine ⟨ht, ?_, .inl rfl⟩
    show Stems cs told q.qtype (bare (fqdn (fqdn (extractDomain q.name))))
    rw [bare_fqdn, bare_fqdn, bare_extractDomain]
    exact h1

theorem warranted_told {cs : Chain.Config E W → Prop} {told : Question → Prop} {q : Question} (h : told q) : Warranted cs told q :=
  ⟨.asked h, .inr ⟨q, h, rfl⟩⟩

theorem warranted_key {cs : Chain.Config E W → Prop} {told : Question → Prop} {name : Str} {t : Nat} (h : told ⟨name, t, 1⟩) :
    Warranted cs told ⟨fqdn (fqdn name), t, 1⟩ := by
  refine ⟨?_, .inl rfl⟩
  show Stems cs told t (bare (fqdn (fqdn name)))
  rw [bare_fqdn, bare_fqdn]
  exact .asked (q := ⟨name, t, 1⟩) h

/-- **C110.** While a query of a client is being answered, in any state of the server, the upstreams (conditional ones included) are asked only
what stems from the questions of this query. -/
theorem C110_query (senv : Server.Env) (c : Chain.Config E W) (up : Resolver W) (log : W → List Question) (hl : NamesApart log c)
    (hm : ∀ z r, AMap.get c.condMapping z = some r → Notes log r) (hu : Notes log up) (remote : Server.Addr) (sni : Option Str)
    (msg : Msg) (w : Chain.World W) :
    ∃ new, log (Chain.serve senv c up remote sni msg w).2.2.2.2 = log w.2.2.2 ++ new ∧
      ∀ q ∈ new, Warranted (· = c) (· ∈ msg.question) q := by
  have h0 : OkCache false (fun q => True ∧ Warranted (· = c) (· ∈ msg.question) q) log (log w.2.2.2) w.2.2 :=
    ⟨fun h => (nomatch h), [], (List.append_nil _).symm, fun _ h => nomatch h⟩
  have h1 : OkCache false (fun q => True ∧ Warranted (· = c) (· ∈ msg.question) q) log (log w.2.2.2)
      (Chain.serve senv c up remote sni msg w).2.2.2 := by
    rw [serve_world]
    split
    · exact h0
    · exact tight_whole (keys := false) (warranted_closed (cs := (· = c)) (told := (· ∈ msg.question)) rfl (fun _ => True)) (fun h => nomatch h) hl hm hu (Server.newRequestFromDNS remote sni msg) w
        (fun q hq => ⟨trivial, warranted_told hq⟩) h0
  obtain ⟨_, new, e1, e2⟩ := h1
  exact ⟨new, e1, fun q hq => (e2 q hq).2⟩

/-- **C110.** When the cache is cleaned up, they are asked only what stems from the keys of expired entries, and nothing without
prefetching. -/
theorem C110_clean_up (senv : Server.Env) (c : Chain.Config E W) (up : Resolver W) (log : W → List Question)
    (hm : ∀ z r, AMap.get c.condMapping z = some r → Notes log r) (hu : Notes log up) (w w' : Chain.World W)
    (h : (befall senv c up w (.event .cleanUp)).2 = some w') :
    ∃ new, log w'.2.2.2 = log w.2.2.2 ++ new ∧
      ∀ q ∈ new, c.cache.prefetching = true ∧ Warranted (· = c) (fun q => ∃ e ∈ w.2.2.1.main.cache.items, e.2.expires < w.2.2.1.main.now ∧
        ∃ a b, e.1 = a :: b :: q.name ∧ q.qtype = a.toNat * 256 + b.toNat ∧ q.qclass = 1) q := by
  have hT := tight_cond (old := log w.2.2.2) (warranted_closed (cs := (· = c)) (told := fun q => ∃ e ∈ w.2.2.1.main.cache.items,
    e.2.expires < w.2.2.1.main.now ∧ ∃ a b, e.1 = a :: b :: q.name ∧ q.qtype = a.toNat * 256 + b.toNat ∧ q.qclass = 1) rfl
    (fun _ => c.cache.prefetching = true)) hm hu
  have key := okCache_cleanUp (keys := false) c.cacheEnv c.cache hT w.2.2.1 w.2.2.2 (by
    intro k hk hp t n hkey
    have hp : c.cache.prefetching = true := by
      rcases hp with hp | hp
      · exact hp
      · cases hp
    refine ⟨hp, warranted_key ?_⟩
    unfold Cache.expiredKeys at hk
    obtain ⟨e, he, rfl⟩ := List.mem_map.1 hk
    obtain ⟨he1, he2⟩ := List.mem_filter.1 he
    refine ⟨e, List.mem_reverse.1 he1, ?_, ?_⟩
    · unfold isExpired at he2
      simp only [Bool.and_eq_true, decide_eq_true_eq] at he2
      exact he2.2
    · unfold Caching.extractKey at hkey
      split at hkey
      · rename_i a b name hx
        cases hkey
        exact ⟨a, b, hx, rfl, rfl⟩
      · cases hkey) ⟨fun h => (nomatch h), [], (List.append_nil _).symm, fun _ h => nomatch h⟩
  revert h key
  unfold befall happen
  simp only
  generalize Caching.cleanUpCache c.cacheEnv c.cache (Chain.cond c up) w.2.2.1 ({}, w.2.2.2) = y
  obtain ⟨o, mw⟩ := y
  intro h key
  cases o with
  | none => cases h
  | some s =>
    cases h
    exact (key s rfl).2

/-- The keys in the cache, and what the upstreams have been asked, all stem from what came to the server. -/
def AllHeard (xs : List (Chain.Config E W × Resolver W × Incident)) : Question → Prop := fun q =>
  q.qtype < 65536 ∧ Warranted (fun c => ∃ x ∈ xs, x.1 = c) (fun q => ∃ x ∈ xs, Heard x.2.2 q) q

theorem okKey_heard {xs : List (Chain.Config E W × Resolver W × Incident)} (hs : ∀ x ∈ xs, ∀ q, Heard x.2.2 q → q.qtype < 65536)
    {x : Chain.Config E W × Resolver W × Incident} (hx : x ∈ xs) {key : Str}
    (h : ∀ a b name, key = a :: b :: name → Heard x.2.2 ⟨name, a.toNat * 256 + b.toNat, 1⟩) : OkKey (AllHeard xs) key := by
  intro t n hk
  unfold Caching.extractKey at hk
  split at hk
  · rename_i a b name
    cases hk
    have hh := h a b n rfl
    exact ⟨show a.toNat * 256 + b.toNat < 65536 from hs x hx _ hh, warranted_key ⟨x, hx, hh⟩⟩
  · cases hk

theorem befall_heard (senv : Server.Env) {log : W → List Question} (xs : List (Chain.Config E W × Resolver W × Incident))
    (hs : ∀ x ∈ xs, ∀ q, Heard x.2.2 q → q.qtype < 65536) (x : Chain.Config E W × Resolver W × Incident) (hx : x ∈ xs)
    (hl : NamesApart log x.1) (hm : ∀ z r, AMap.get x.1.condMapping z = some r → Notes log r) (hu : Notes log x.2.1) (w w' : Chain.World W)
    (hw : OkCache true (AllHeard xs) log old w.2.2) (h : (befall senv x.1 x.2.1 w x.2.2).2 = some w') :
    OkCache true (AllHeard xs) log old w'.2.2 := by
  have hJ : Closed x.1 (AllHeard xs) :=
    warranted_closed (cs := fun c => ∃ x ∈ xs, x.1 = c) (told := fun q => ∃ x ∈ xs, Heard x.2.2 q) ⟨x, hx, rfl⟩ (· < 65536)
  obtain ⟨c, up, i⟩ := x
  simp only at *
  cases i with
  | event e =>
    cases e with
    | query remote sni msg =>
      cases h
      rw [serve_world]
      split
      · exact hw
      · refine tight_whole hJ (fun _ q hq => hq.1) hl hm hu (Server.newRequestFromDNS remote sni msg) w (fun q hq => ?_) hw
        exact ⟨hs _ hx q (.query hq), warranted_told ⟨_, hx, .query hq⟩⟩
    | pass ms =>
      cases h
      exact hw
    | cleanUp =>
      have key := okCache_cleanUp (keys := true) c.cacheEnv c.cache (tight_cond (old := old) hJ hm hu) w.2.2.1 w.2.2.2 (by
        intro k hk _
        unfold Cache.expiredKeys at hk
        obtain ⟨e, he, rfl⟩ := List.mem_map.1 hk
        exact hw.1 rfl e (List.mem_reverse.1 (List.mem_filter.1 he).1)) hw
      revert h key
      unfold befall happen
      simp only
      generalize Caching.cleanUpCache c.cacheEnv c.cache (Chain.cond c up) w.2.2.1 ({}, w.2.2.2) = y
      obtain ⟨o, mw⟩ := y
      intro h key
      cases o with
      | none => cases h
      | some s =>
        cases h
        exact key s rfl
  | message id m =>
    revert h
    unfold befall Redis.processReceivedMessage
    simp only
    split
    · rename_i key msg hx'
      intro h
      cases h
      refine okCache_store hw _ _ (fun _ => okKey_heard hs hx ?_) _
      rintro a b name rfl
      refine .message (msg := msg) ?_
      split at hx'
      · cases hp : m.payload with
        | cache k m' => rw [hp] at hx'; cases hx'; rfl
        | enable e => rw [hp] at hx'; cases hx'
        | other => rw [hp] at hx'; cases hx'
      · cases hx'
    · intro h
      cases h
      exact hw
  | load store now later k =>
    cases h
    show OkCache true (AllHeard xs) log old (RedisStore.loadKey c.cacheEnv c.cache store now later k w.2.2.1, w.2.2.2)
    unfold RedisStore.loadKey
    split
    · rename_i hp
      unfold RedisStore.getResponse
      cases RedisStore.fetch store now k with
      | none => exact hw
      | some e =>
        refine okCache_store hw _ _ (fun _ => okKey_heard hs hx ?_) _
        intro a b name he
        unfold RedisStore.cleanKey at he
        rw [if_pos hp] at he
        obtain ⟨t, rfl⟩ := List.isPrefixOf_iff_prefix.1 hp
        rw [List.drop_left] at he
        rw [he]
        exact .load
    · exact hw
  | flush =>
    cases h
    exact ⟨fun _ _ h => (nomatch h), hw.2⟩

/-- **C110.** A server started with empty caches, its configuration being another at every moment, clients sending arbitrary messages,
arbitrary messages and stored answers coming from redis, entries being prefetched: all that upstreams are ever asked stems from the
questions clients have asked, or from the keys of answers that came from redis. -/
theorem C110_history (senv : Server.Env) (log : W → List Question) (xs : List (Chain.Config E W × Resolver W × Incident))
    (hs : ∀ x ∈ xs, ∀ q, Heard x.2.2 q → q.qtype < 65536) (hl : ∀ x ∈ xs, NamesApart log x.1)
    (hm : ∀ x ∈ xs, ∀ z r, AMap.get x.1.condMapping z = some r → Notes log r) (hu : ∀ x ∈ xs, Notes log x.2.1) (w w' : Chain.World W)
    (hw : EmptyCaches w) (h : endures senv xs w = some w') :
    ∃ new, log w'.2.2.2 = log w.2.2.2 ++ new ∧
      ∀ q ∈ new, Warranted (fun c => ∃ x ∈ xs, x.1 = c) (fun q => ∃ x ∈ xs, Heard x.2.2 q) q := by
  have key : ∀ ys, (∀ y ∈ ys, y ∈ xs) → ∀ v, OkCache true (AllHeard xs) log (log w.2.2.2) v.2.2 → endures senv ys v = some w' →
      OkCache true (AllHeard xs) log (log w.2.2.2) w'.2.2 := by
    intro ys
    induction ys with
    | nil =>
      intro _ v hv h
      cases h
      exact hv
    | cons y ys ih =>
      intro hsub v hv h
      have hy := hsub y List.mem_cons_self
      unfold endures at h
      cases hb : (befall senv y.1 y.2.1 v y.2.2).2 with
      | none => rw [hb] at h; cases h
      | some w1 =>
        rw [hb] at h
        exact ih (fun z hz => hsub z (List.mem_cons_of_mem _ hz)) w1
          (befall_heard senv xs hs y hy (hl y hy) (hm y hy) (hu y hy) v w1 hv hb) h
  obtain ⟨_, new, e1, e2⟩ := key xs (fun _ h => h) w
    ⟨fun _ e he => (by rw [hw.1] at he; cases he), [], (List.append_nil _).symm, fun _ h => nomatch h⟩ h
  exact ⟨new, e1, fun q hq => (e2 q hq).2⟩

/-! ### Other instances -/

theorem jsonString_ascii {s : Str} (h : ∀ c ∈ s, c.toNat < 128) : Redis.jsonString s = s := by
  induction s with
  | nil => rfl
  | cons c s ih =>
    have : Redis.jsonString (c :: s) = (if c.toNat < 128 then [c] else [Char.ofNat 0xEF, Char.ofNat 0xBF, Char.ofNat 0xBD]) ++ Redis.jsonString s := rfl
    rw [this, if_pos (h c List.mem_cons_self), ih (fun x hx => h x (List.mem_cons_of_mem _ hx))]
    rfl

theorem lower_ascii {s : Str} (h : ∀ c ∈ s, c.toNat < 128) : ∀ c ∈ lower s, c.toNat < 128 := by
  intro c hc
  unfold lower at hc
  obtain ⟨x, hx, rfl⟩ := List.mem_map.1 hc
  have := h x hx
  unfold lowerChar
  split
  · rename_i hr
    have e : 'Z'.toNat = 90 := rfl
    rw [byteOf (by omega)]
    omega
  · exact this

theorem trimSuffixDot_sub (s : Str) : ∀ c ∈ trimSuffixDot s, c ∈ s := by
  intro c hc
  unfold trimSuffixDot at hc
  split at hc
  · exact List.dropLast_subset _ hc
  · exact hc

/-- **C110.** What an instance keeps in redis for a question stands for this question when another instance loads it; so does what it publishes,
if the name is ASCII and the type has no byte from 128 on. Missing: the other types - `C110_type_any_false`. -/
theorem C110_other_instance_partial (env : Caching.Env) (q : Question) (hq : q.qtype < 65536) (res : Msg) (client id : Str) (now : Nat)
    (store : RedisStore.Store) (q' : Question) :
    (q.qtype / 256 < 128 → q.qtype % 256 < 128 → (∀ c ∈ q.name, c.toNat < 128) →
      ∀ p, Redis.publishCache env (Caching.questionKey q) res = some p → Heard (.message id ⟨client, p⟩) q' →
        q' = ⟨extractDomain q.name, q.qtype, 1⟩) ∧
    (∀ k, AMap.get (RedisStore.keep env now (Caching.questionKey q) res store) k ≠ AMap.get store k →
      ∀ s t u, Heard (.load s t u k) q' → q' = ⟨extractDomain q.name, q.qtype, 1⟩) := by
  have hkey : Caching.questionKey q = Char.ofNat (q.qtype / 256) :: Char.ofNat (q.qtype % 256) :: extractDomain q.name := by
    unfold Caching.questionKey Caching.cacheKey
    rw [lower_extract, show q.qtype / 256 % 256 = q.qtype / 256 by omega]
  have hread : ∀ {a b : Char} {name : Str}, Caching.questionKey q = a :: b :: name →
      (⟨name, a.toNat * 256 + b.toNat, 1⟩ : Question) = ⟨extractDomain q.name, q.qtype, 1⟩ := by
    intro a b name h
    rw [hkey] at h
    cases h
    rw [byteOf (by omega), byteOf (by omega), show q.qtype / 256 * 256 + q.qtype % 256 = q.qtype by omega]
  constructor
  · intro h1 h2 h3 p hp hh
    unfold Redis.publishCache at hp
    split at hp
    · cases hp
      have hascii : Redis.jsonString (Caching.questionKey q) = Caching.questionKey q := by
        refine jsonString_ascii (fun c hc => ?_)
        rw [hkey] at hc
        rcases List.mem_cons.1 hc with rfl | hc
        · rw [byteOf (by omega)]
          exact h1
        · rcases List.mem_cons.1 hc with rfl | hc
          · rw [byteOf (by omega)]
            exact h2
          · exact lower_ascii h3 c (trimSuffixDot_sub _ c hc)
      rw [hascii] at hh
      cases hh with
      | message hm =>
        injection hm with hm1 _
        exact hread hm1
    · cases hp
  · intro k hk s t u hh
    unfold RedisStore.keep at hk
    split at hk
    · by_cases he : k = RedisStore.prefixKey (Caching.questionKey q)
      · cases hh with
        | load =>
          refine hread ?_
          unfold RedisStore.prefixKey RedisStore.storePrefix at he
          exact (List.append_cancel_left he).symm
      · exact absurd (AMap.get_put_ne _ _ (Ne.symm he)) hk
    · exact absurd rfl hk

/-! ### A concrete history -/

/-- An upstream that notes what it is asked; its answers live for a second. -/
def notingUp : Resolver (List Question) := fun request w =>
  match request.req.question with
  | [] => (.err (str! "no question"), w ++ request.req.question)
  | q :: _ => (.ok { res := { ({} : Msg).setReply request.req with
      answer := [{ name := q.name, rtype := typeA, ttl := 1, data := .a (.v4 0x01020304#32) }] } }, w ++ request.req.question)

theorem notingUp_notes : Notes id notingUp := by
  intro r w
  unfold notingUp
  cases h : r.req.question <;> simp [h]

/-- The sample server with that upstream, prefetching all names. -/
def notingConfig : Chain.Config prefixEngine (List Question) :=
  { filterTypes := [28], fqdnOnly := false, ecs := sampleConfig.ecs, names := sampleConfig.names, namesLookup := none, ede := true,
    log := sampleConfig.log, logEnv := sampleConfig.logEnv, logStart := 0, logDuration := 1, metrics := true,
    customRewrite := sampleConfig.customRewrite, customOrder := sampleConfig.customOrder, customEnv := sampleConfig.customEnv,
    customMapping := sampleConfig.customMapping, customReverse := [], customDepth := 5, hostsEnabled := true,
    hostsCfg := sampleConfig.hostsCfg, hosts := {}, hostsOrder4 := [], hostsOrder6 := [], blockEnv := sampleConfig.blockEnv,
    blockState := sampleConfig.blockState, cacheEnv := sampleConfig.cacheEnv, cache := { prefetching := true, prefetchThreshold := 0 },
    condRewrite := sampleConfig.condRewrite, condOrder := sampleConfig.condOrder, condMapping := [(str! "broken", notingUp)],
    sudn := sampleConfig.sudn }

/-- Everything empty. -/
def notingWorld : Chain.World (List Question) := (⟨⟨10, []⟩, 0⟩, {}, ⟨⟨⟨10, []⟩, 0⟩, ⟨10, []⟩⟩, [])

/-- What another instance publishes for its answer to a question. -/
def published (q : Question) : Redis.Wire :=
  ⟨str! "other", (Redis.publishCache notingConfig.cacheEnv (Caching.questionKey q)
    { response := true, answer := [{ name := q.name, rtype := typeA, ttl := 1, data := .a (.v4 7#32) }] }).getD .other⟩

/-- Something happens, two seconds pass, the cache is cleaned up. -/
def notingHistory (i : List Incident) : List (Chain.Config prefixEngine (List Question) × Resolver (List Question) × Incident) :=
  (i ++ [Incident.event (.pass 2000), Incident.event .cleanUp]).map (fun i => (notingConfig, notingUp, i))

theorem notingConfig_notes : NamesApart id notingConfig ∧ ∀ z r, AMap.get notingConfig.condMapping z = some r → Notes id r := by
  refine ⟨fun l hl => (nomatch hl), fun z r h => ?_⟩
  have hm := AMap.get_eq_some_mem h
  have : r = notingUp := by
    simp only [notingConfig, List.mem_singleton, Prod.mk.injEq] at hm
    exact hm.2
  rw [this]
  exact notingUp_notes

/-- What the upstreams have been asked in a history. -/
def askedIn (i : List Incident) : Option (List Question) := (endures sampleServer (notingHistory i) notingWorld).map (fun w => w.2.2.2)

/-- A query for a rewritten name (class CH), one for an alias and one with mixed case: the conditional upstreams are asked for the
rewritten name and the target of the alias, and everything is prefetched later, in class IN. -/
example : askedIn [.event (.query (.udp none) none { query (str! "Host.OLD.") with question := [⟨str! "Host.OLD.", 16, 3⟩] }),
      .event (.query (.udp none) none (query (str! "alias.lan."))), .event (.query (.udp none) none (query (str! "Www.Org.")))] =
    some [⟨str! "host.broken.", 16, 3⟩, ⟨str! "host.broken.", 1, 1⟩, ⟨str! "Www.Org.", 1, 1⟩,
      ⟨str! "host.broken.", 16, 1⟩, ⟨str! "host.broken.", 1, 1⟩, ⟨str! "www.org.", 1, 1⟩] := by decide +kernel

/-- An answer of another instance is prefetched, too: here for the type TXT... -/
example : askedIn [.message (str! "me") (published ⟨str! "x.org.", 16, 1⟩)] = some [⟨str! "x.org.", 16, 1⟩] := by decide +kernel

/-- **C110 is false between instances for some types.** A client of another instance asks for the type ANY (255) of "x.org."; the key published
is not the one of this question, and this instance asks its upstream for a type and a name that no client has ever asked for. -/
theorem C110_type_any_false :
    ∃ q, askedIn [.message (str! "me") (published ⟨str! "x.org.", 255, 1⟩)] = some [q] ∧
      ¬ Warranted (· = notingConfig) (· = ⟨str! "x.org.", 255, 1⟩) q ∧ q = ⟨Char.ofNat 191 :: Char.ofNat 189 :: str! "x.org.", 239, 1⟩ := by
  refine ⟨⟨Char.ofNat 191 :: Char.ofNat 189 :: str! "x.org.", 239, 1⟩, by decide +kernel, ?_, rfl⟩
  rintro ⟨h, _⟩
  have : ∀ t n, Stems (· = notingConfig) (· = (⟨str! "x.org.", 255, 1⟩ : Question)) t n → t = 255 := by
    intro t n h
    induction h with
    | asked hq => rw [hq]
    | leads _ _ _ ih => exact ih
  exact absurd (this _ _ h) (by decide)

/-- The hypotheses of `C110_history` are met. -/
example : ∃ w', endures sampleServer (notingHistory [.event (.query (.udp none) none (query (str! "Www.Org.")))]) notingWorld = some w' ∧
    ∃ new, w'.2.2.2 = [] ++ new ∧ ∀ q ∈ new, Warranted
      (fun c => ∃ x ∈ notingHistory [.event (.query (.udp none) none (query (str! "Www.Org.")))], x.1 = c)
      (fun q => ∃ x ∈ notingHistory [.event (.query (.udp none) none (query (str! "Www.Org.")))], Heard x.2.2 q) q := by
  have hs : (endures sampleServer (notingHistory [.event (.query (.udp none) none (query (str! "Www.Org.")))]) notingWorld).isSome = true := by
    decide +kernel
  obtain ⟨w', hw'⟩ := Option.isSome_iff_exists.1 hs
  refine ⟨w', hw', C110_history sampleServer id _ ?_ ?_ ?_ ?_ notingWorld w' ⟨rfl, rfl⟩ hw'⟩
  all_goals
    intro x hx
    obtain ⟨i, hi, rfl⟩ := List.mem_map.1 hx
  · intro q hq
    simp only [List.cons_append, List.nil_append, List.mem_cons, List.not_mem_nil, or_false] at hi
    rcases hi with rfl | rfl | rfl
    · cases hq with
      | query hq =>
        rw [List.mem_singleton.1 hq]
        decide
    · cases hq
    · cases hq
  · exact notingConfig_notes.1
  · exact notingConfig_notes.2
  · exact notingUp_notes

end Verif.Props
