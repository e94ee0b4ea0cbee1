/-
C120, second part: the resolvers in front of the cache show the same with and without cache.
-/
import Verif.Props.CacheRight

namespace Verif.Props
open Verif.Dns Verif.ExpCache Verif.StringCache Verif.Spec

variable {E : RegexEngine} {W : Type} {V : Type} {V' : Type}

/-- The messages are equal but for their questions, and have questions. -/
def Near (m m' : Msg) : Prop := { m with question := [] } = { m' with question := [] } ∧ m.question ≠ [] ∧ m'.question ≠ []

theorem Near.trans {a b c : Msg} (h : Near a b) (h' : Near b c) : Near a c := ⟨h.1.trans h'.1, h.2.1, h'.2.2⟩

theorem Near.symm {a b : Msg} (h : Near a b) : Near b a := ⟨h.1.symm, h.2.2, h.2.1⟩

theorem near_refl {m : Msg} (h : m.question ≠ []) : Near m m := ⟨rfl, h, h⟩

theorem near_question {m : Msg} (h : m.question ≠ []) {qs : List Question} (hq : qs ≠ []) : Near { m with question := qs } m := ⟨rfl, hq, h⟩

variable {S : Question → Prop}

theorem Plain.some {m : Msg} (h : Plain S m) : m.question ≠ [] := by
  obtain ⟨q, h, _⟩ := h
  rw [h]
  simp

/-- The two resolvers show the same to the outside, in whatever state each of them is; the first one keeps the invariant. -/
def Shows (S : Question → Prop) (I : V → Prop) (n : Chain.MR V) (n' : Chain.MR V') : Prop :=
  ∀ r m m' v v', Plain S r.req → Near m r.req → Near m' r.req → I v →
    LikeOut (n r (m, v)).1 (n' r (m', v')).1 ∧ Near (n r (m, v)).2.1 r.req ∧ Near (n' r (m', v')).2.1 r.req ∧ I (n r (m, v)).2.2

/-- The same for resolvers that give the message back. -/
def ShowsM (S : Question → Prop) (I : V → Prop) (n : Cond.MResolver V) (n' : Cond.MResolver V') : Prop :=
  ∀ r v v', Plain S r.req → I v →
    LikeOut (n r v).1 (n' r v').1 ∧ Near (n r v).2.1 r.req ∧ Near (n' r v').2.1 r.req ∧ I (n r v).2.2

variable {I : V → Prop}

theorem shows_toM {n : Chain.MR V} {n' : Chain.MR V'} (h : Shows S I n n') : ShowsM S I (Chain.toM n) (Chain.toM n') :=
  fun r v v' hr hv => h r r.req r.req v v' hr (near_refl hr.some) (near_refl hr.some) hv

theorem shows_ofM {n : Cond.MResolver V} {n' : Cond.MResolver V'} (h : ShowsM S I n n') : Shows S I (Chain.ofM n) (Chain.ofM n') :=
  fun r _ _ v v' hr _ _ hv => h r v v' hr hv

/-! ### Behind the cache -/

/-- The message afterwards differs from the one before in its questions at most. -/
def NearM (n : Cond.MResolver W) : Prop := ∀ r w, r.req.question ≠ [] → Near (n r w).2.1 r.req

theorem near_conditional (mapping : AMap Str (Dns.Resolver W)) {n : Cond.MResolver W} (hn : NearM n) : NearM (Cond.conditional mapping n) := by
  intro r w hr
  unfold Cond.conditional
  split
  · split
    · exact near_refl hr
    · split
      · rename_i q _ _ reso _
        unfold Cond.internalResolve
        simp only
        generalize reso _ w = y
        obtain ⟨o, w'⟩ := y
        cases o <;> exact near_question hr (setName_some hr)
      · exact hn r w hr
  · exact hn r w hr

theorem near_rewriter (fallback : Bool) (order : Nat → List (Str × Str)) {i n : Cond.MResolver W} (hi : NearM i) (hn : NearM n) :
    NearM (Cond.rewriter fallback order i n) := by
  intro r w hr
  unfold Cond.rewriter
  have hq := rewriteQuestions_some order 0 r.req.question [] hr
  revert hq
  generalize Cond.rewriteQuestions order 0 r.req.question [] = y
  obtain ⟨questions, rewritten, names⟩ := y
  intro hq
  simp only
  have h : Near (i (if rewritten then { r with req := { r.req with question := questions } } else r) w).2.1 r.req := by
    cases rewritten
    · exact hi r w hr
    · exact (hi { r with req := { r.req with question := questions } } w hq).trans (near_question hr hq)
  revert h
  generalize i _ w = z
  obtain ⟨o, msg, w'⟩ := z
  intro h
  have ho : Near (if rewritten then r.req else msg) r.req := by
    split
    · exact near_refl hr
    · exact h
  have hx : Near (n { r with req := if rewritten then r.req else msg } w').2.1 r.req :=
    (hn { r with req := if rewritten then r.req else msg } w' ho.2.1).trans ho
  cases o with
  | panic => exact h
  | err e =>
    simp only
    split
    · exact hx
    · exact ho
  | noResponse => exact hx
  | ok a =>
    simp only
    split
    · exact hx
    · revert ho
      cases rewritten <;> exact fun ho => ho

theorem near_cond (c : Chain.Config E W) (up : Dns.Resolver W) (r : Request) (m : Msg) (w : W) (hr : r.req.question ≠ []) :
    Near (Chain.cond c up r (m, w)).2.1 r.req := by
  have ht : NearM (Chain.toM (Chain.tail c up)) := by
    intro r w hr
    show Near (Chain.tail c up r (r.req, w)).2.1 r.req
    unfold Chain.tail Small.sudn
    split
    · exact near_refl hr
    · split
      · exact near_refl hr
      · split <;> exact near_refl hr
  have : NearM (Cond.newRewriter c.condRewrite c.condOrder (Cond.conditional c.condMapping) (Chain.toM (Chain.tail c up))) := by
    unfold Cond.newRewriter
    split
    · exact near_conditional _ ht
    · exact near_rewriter _ _ (near_conditional _ (fun r w hr => near_refl hr)) ht
  exact this r w hr

/-! ### The cache -/

/-- What stands behind the cache: steady, its answers depending on the request alone, never without answer. -/
structure Behind (S : Question → Prop) (n : Chain.MR W) : Prop where
  steady : Steady S n
  blind : ∀ r x x', (n r x).1 = (n r x').1
  firm : Firm n
  near : ∀ r m w, r.req.question ≠ [] → Near (n r (m, w)).2.1 r.req

theorem shows_caching {n : Chain.MR W} (hn : Behind S n) (env env' : Caching.Env) (c : Caching.Cfg) {c' : Caching.Cfg} (hoff : c'.enabled = false) :
    Shows S (fun v : Caching.CState × W => CacheRight S n v.1) (Chain.caching env c n) (Chain.caching env' c' n) := by
  intro r m m' v v' hr hm hm' hv
  obtain ⟨s, w⟩ := v
  obtain ⟨s', w'⟩ := v'
  have hv : CacheRight S n s := hv
  have e' : Chain.caching env' c' n r (m', (s', w')) = ((n r (m', w')).1, ((n r (m', w')).2.1, (s', (n r (m', w')).2.2))) := by
    unfold Chain.caching Caching.resolve
    simp [hoff]
  rw [e']
  have hn' := hn.near r m' w' hr.some
  obtain ⟨q, hq, hp⟩ := hr
  have hr : Plain S r.req := ⟨q, hq, hp⟩
  unfold Chain.caching Caching.resolve
  by_cases hcb : (!c.enabled || !Caching.isRequestCacheable r.req) = true
  · rw [if_pos hcb]
    refine ⟨?_, hn.near r m w hr.some, hn', hv⟩
    show LikeOut (n r (m, w)).1 _
    rw [hn.blind r (m, w) (m', w')]
    exact LikeOut.refl _
  · rw [if_neg hcb, hq]
    unfold Caching.resolveLoop
    have h1 := right_get hv c (Caching.questionKey q)
    have h2 := right_found hv c (Caching.questionKey q)
    revert h1 h2
    generalize Caching.cacheGet c s (Caching.questionKey q) = y
    obtain ⟨found, s1⟩ := y
    intro h1 h2
    cases found with
    | some x =>
      obtain ⟨res, ttl⟩ := x
      obtain ⟨a, ha, hl⟩ := (h2 res ttl rfl).2 r q (m', w') hq hp rfl
      refine ⟨?_, hm, hn', h1⟩
      rw [ha]
      exact (like_hit _ _ _).trans hl
    | none =>
      have hb := hn.blind r (m, w) (m', w')
      have hf := hn.firm r (m, w) hr.some
      have hnear := hn.near r m w hr.some
      have hst : ∀ a, (n r (m, w)).1 = .ok a → ∀ x, Like x a.res → Right S n (Caching.questionKey q) x :=
        fun a ha x hx => right_of hn.steady hq hp (fun q' _ hk => sameQuestion_of_key hk.symm) ⟨q, hp, rfl⟩ ha hx
      revert hb hf hnear hst
      simp only
      generalize n r (m, w) = z
      obtain ⟨o, m1, w1⟩ := z
      intro hb hf hnear hst
      simp only at hb
      rw [← hb]
      cases o with
      | ok a => exact ⟨like_adjusted c a, hnear, hn', right_store h1 env c (hst a rfl)⟩
      | err e => exact ⟨rfl, hnear, hn', h1⟩
      | noResponse => exact absurd rfl hf.2
      | panic => exact absurd rfl hf.1

/-! ### Blocking, hosts files -/

theorem checkAnswer_bare (env : Blocking.Env) (b : Blocking.BState E) (g : List Str) (r : Request) : ∀ (l l' : List RR),
    l.map bareRecord = l'.map bareRecord → Blocking.checkAnswer env b g r l = Blocking.checkAnswer env b g r l' := by
  intro l
  induction l with
  | nil => intro l' h; rw [List.map_eq_nil_iff.1 h.symm]
  | cons a l ih =>
    intro l' h
    cases l' with
    | nil => cases h
    | cons a' l' =>
      simp only [List.map_cons, List.cons.injEq] at h
      have he : Blocking.extractEntry env a = Blocking.extractEntry env a' := by
        have hd : foldData a.data = foldData a'.data := congrArg RR.data h.1
        unfold Blocking.extractEntry
        revert hd
        generalize a.data = d
        generalize a'.data = d'
        intro hd
        cases d <;> cases d' <;> simp only [foldData, RData.a.injEq, RData.aaaa.injEq, RData.cname.injEq, reduceCtorEq] at hd ⊢
        · rw [hd]
        · rw [hd]
        · unfold extractDomain; rw [hd]
      unfold Blocking.checkAnswer
      rw [he, ih l' h.2]

theorem shows_blocking (env : Blocking.Env) (b : Blocking.BState E) {n : Chain.MR V} {n' : Chain.MR V'} (h : Shows S I n n') :
    Shows S I (Blocking.resolve env b n) (Blocking.resolve env b n') := by
  intro r m m' v v' hr hm hm' hv
  have hn := h r m m' v v' hr hm hm' hv
  have hask : ∀ g, LikeOut (Blocking.askNext env b g n r (m, v)).1 (Blocking.askNext env b g n' r (m', v')).1 ∧
      Near (Blocking.askNext env b g n r (m, v)).2.1 r.req ∧ Near (Blocking.askNext env b g n' r (m', v')).2.1 r.req ∧
      I (Blocking.askNext env b g n r (m, v)).2.2 := by
    intro g
    unfold Blocking.askNext
    revert hn
    generalize n r (m, v) = y
    generalize n' r (m', v') = y'
    obtain ⟨o, m1, v1⟩ := y
    obtain ⟨o', m1', v1'⟩ := y'
    rintro ⟨h1, h2⟩
    cases o with
    | ok a =>
      cases o' with
      | ok a' =>
        have h1 : Like a.res a'.res := h1
        simp only
        split
        · rw [checkAnswer_bare env b g r _ _ h1.answer]
          split
          · exact ⟨LikeOut.refl _, h2⟩
          · exact ⟨h1, h2⟩
        · exact ⟨h1, h2⟩
      | _ => cases h1
    | _ =>
      cases o' with
      | ok a' => cases h1
      | _ => exact ⟨h1, h2⟩
  unfold Blocking.resolve
  simp only
  split
  · split
    · exact hn
    · exact ⟨LikeOut.refl _, hm, hm', hv⟩
    · exact hask _
  · exact hask _

theorem shows_hosts (b : Bool) (cfg : HostsFile.Cfg) (hosts : HostsFile.Hosts) (o4 o6 : List (Str × (IP × List Str)))
    {n : Chain.MR V} {n' : Chain.MR V'} (h : Shows S I n n') : Shows S I (HostsFile.resolve b cfg hosts o4 o6 n) (HostsFile.resolve b cfg hosts o4 o6 n') := by
  intro r m m' v v' hr hm hm' hv
  unfold HostsFile.resolve
  split
  · exact h r m m' v v' hr hm hm' hv
  · split
    · exact ⟨rfl, hm, hm', hv⟩
    · split
      · exact ⟨LikeOut.refl _, hm, hm', hv⟩
      · split
        · exact ⟨LikeOut.refl _, hm, hm', hv⟩
        · exact h r m m' v v' hr hm hm' hv

/-! ### Custom DNS -/

/-- Like results of custom DNS entries. -/
def BareEntry : CustomDns.Entry → CustomDns.Entry → Prop
  | .ok l, .ok l' => l.map bareRecord = l'.map bareRecord
  | o, o' => o = o'

/-- The same shown by what may need another round (`none`), the states being related. -/
def ShowsOpt {R : Type} (L : R → R → Prop) (J : V → V' → Prop) : Option (R × V) → Option (R × V') → Prop
  | none, none => True
  | some x, some y => L x.1 y.1 ∧ J x.2 y.2
  | _, _ => False

/-- Questions for targets of aliases are of those that are asked. -/
def ProperAliases (S : Question → Prop) (mapping : CustomDns.Mapping) : Prop :=
  ∀ z es, AMap.get mapping z = some es → ∀ e ∈ es, ∀ t, e.data = .cname t → ∀ q, S q → S ⟨fqdn (trimSuffixDot t), q.qtype, 1⟩

theorem shows_entries {J : V → V' → Prop} (env : CustomDns.Env) {recur : Request → List Str → V → Option (Outcome × V)}
    {recur' : Request → List Str → V' → Option (Outcome × V')}
    (hrec : ∀ r l v v', r.internal = true → Plain S r.req → J v v' → ShowsOpt LikeOut J (recur r l v) (recur' r l v'))
    (r : Request) (l : List Str) (q : Question) (es : List RR)
    (he : ∀ e ∈ es, ∀ t, e.data = .cname t → S ⟨fqdn (trimSuffixDot t), q.qtype, 1⟩) :
    ∀ (acc acc' : List RR) (v : V) (v' : V'), acc.map bareRecord = acc'.map bareRecord → J v v' →
      ShowsOpt BareEntry J (CustomDns.processEntries env recur r l q es acc v) (CustomDns.processEntries env recur' r l q es acc' v') := by
  induction es with
  | nil => intro acc acc' v v' ha hj; exact ⟨ha, hj⟩
  | cons e es ih =>
    intro acc acc' v v' ha hj
    have ih := ih (fun x hx => he x (List.mem_cons_of_mem _ hx))
    have h1 : ShowsOpt BareEntry J (CustomDns.processEntry env recur r l q e v) (CustomDns.processEntry env recur' r l q e v') := by
      unfold CustomDns.processEntry
      cases hd : e.data with
      | a ip => exact ⟨rfl, hj⟩
      | aaaa ip => exact ⟨rfl, hj⟩
      | cname target =>
        simp only
        unfold CustomDns.processCNAME
        simp only
        split
        · exact ⟨rfl, hj⟩
        · split
          · exact ⟨rfl, hj⟩
          · have := hrec (CustomDns.targetRequest env r (trimSuffixDot target) q.qtype (l ++ [trimSuffixDot target]))
              (l ++ [trimSuffixDot target]) v v' rfl ⟨_, rfl, he e (List.mem_cons_self ..) target hd⟩ hj
            revert this
            generalize recur _ _ v = y
            generalize recur' _ _ v' = y'
            intro this
            cases y with
            | none =>
              cases y' with
              | none => trivial
              | some x' => exact this.elim
            | some x =>
              cases y' with
              | none => exact this.elim
              | some x' =>
                obtain ⟨o, v1⟩ := x
                obtain ⟨o', v1'⟩ := x'
                obtain ⟨h1, h2⟩ := this
                cases o with
                | ok a =>
                  cases o' with
                  | ok a' =>
                    refine ⟨?_, h2⟩
                    show List.map bareRecord (_ :: a.res.answer) = List.map bareRecord (_ :: a'.res.answer)
                    rw [List.map_cons, List.map_cons, (h1 : Like a.res a'.res).answer]
                  | _ => cases h1
                | noResponse =>
                  cases o' with
                  | noResponse => exact ⟨rfl, h2⟩
                  | _ => cases h1
                | err x =>
                  cases o' with
                  | err y => cases h1; exact ⟨rfl, h2⟩
                  | _ => cases h1
                | panic =>
                  cases o' with
                  | panic => exact ⟨rfl, h2⟩
                  | _ => cases h1
      | ptr t => simp only; split <;> exact ⟨rfl, hj⟩
      | opt t => simp only; split <;> exact ⟨rfl, hj⟩
      | other t => simp only; split <;> exact ⟨rfl, hj⟩
    rw [CustomDns.processEntries, CustomDns.processEntries]
    revert h1
    generalize CustomDns.processEntry env recur r l q e v = y
    generalize CustomDns.processEntry env recur' r l q e v' = y'
    intro h1
    cases y with
    | none =>
      cases y' with
      | none => trivial
      | some x' => exact h1.elim
    | some x =>
      cases y' with
      | none => exact h1.elim
      | some x' =>
        obtain ⟨o, v1⟩ := x
        obtain ⟨o', v1'⟩ := x'
        obtain ⟨h1, h2⟩ := h1
        cases o with
        | ok a =>
          cases o' with
          | ok a' =>
            refine ih _ _ _ _ ?_ h2
            rw [List.map_append, List.map_append, ha, (h1 : a.map bareRecord = a'.map bareRecord)]
          | _ => cases h1
        | err x =>
          cases o' with
          | err y => cases h1; exact ⟨rfl, h2⟩
          | _ => cases h1
        | panic =>
          cases o' with
          | panic => exact ⟨rfl, h2⟩
          | _ => cases h1

theorem shows_processRequest {J : V → V' → Prop} (env : CustomDns.Env) {mapping : CustomDns.Mapping} (ha : ProperAliases S mapping) (r0 : Request)
    {n : Dns.Resolver V} {n' : Dns.Resolver V'} (hn : ∀ r v v', r = r0 ∨ r.internal = true → Plain S r.req → J v v' →
      LikeOut (n r v).1 (n' r v').1 ∧ J (n r v).2 (n' r v').2) (depth : Nat) :
    ∀ (r : Request) (l : List Str) (v : V) (v' : V'), r = r0 ∨ r.internal = true → Plain S r.req → J v v' →
      ShowsOpt LikeOut J (CustomDns.processRequest env mapping n depth r l v) (CustomDns.processRequest env mapping n' depth r l v') := by
  induction depth with
  | zero => intro r l v v' _ _ _; trivial
  | succ depth ih =>
    intro r l v v' hi hr hj
    rw [CustomDns.processRequest, CustomDns.processRequest]
    have hr' := hr
    obtain ⟨q, hq, hp⟩ := hr'
    rw [hq]
    simp only
    cases hw : walk (AMap.get mapping) ((extractDomain q.name).length + 1) (extractDomain q.name) with
    | none => exact hn r v v' hi hr hj
    | some x =>
      obtain ⟨z, es⟩ := x
      obtain ⟨_, _, h3, _⟩ := walk_some hw
      simp only
      have := shows_entries env (fun r l v v' hx hy hz => ih r l v v' (.inr hx) hy hz) r l q es (fun e he t ht => ha z es h3 e he t ht q hp) [] [] v v' rfl hj
      revert this
      generalize CustomDns.processEntries env (CustomDns.processRequest env mapping n depth) r l q es [] v = y
      generalize CustomDns.processEntries env (CustomDns.processRequest env mapping n' depth) r l q es [] v' = y'
      intro this
      cases y with
      | none =>
        cases y' with
        | none => trivial
        | some x' => exact this.elim
      | some x =>
        cases y' with
        | none => exact this.elim
        | some x' =>
          obtain ⟨o, v1⟩ := x
          obtain ⟨o', v1'⟩ := x'
          obtain ⟨h1, h2⟩ := this
          cases o with
          | ok a =>
            cases o' with
            | ok a' =>
              have h1 : a.map bareRecord = a'.map bareRecord := h1
              have hlen : a.length = a'.length := by simpa using congrArg List.length h1
              simp only
              rw [hlen]
              split
              · exact ⟨⟨rfl, h1, rfl, rfl⟩, h2⟩
              · split
                · exact hn r v1 v1' hi hr h2
                · exact ⟨LikeOut.refl _, h2⟩
            | _ => cases h1
          | err x =>
            cases o' with
            | err y => cases h1; exact ⟨rfl, h2⟩
            | _ => cases h1
          | panic =>
            cases o' with
            | panic => exact ⟨rfl, h2⟩
            | _ => cases h1

theorem shows_customDns (env : CustomDns.Env) {mapping : CustomDns.Mapping} (ha : ProperAliases S mapping) (reverse : AMap Str (List Str))
    (depth : Nat) {n : Chain.MR V} {n' : Chain.MR V'} (h : Shows S I n n') :
    Shows S I (Chain.customDns env mapping reverse depth n) (Chain.customDns env mapping reverse depth n') := by
  intro r m m' v v' hr hm hm' hv
  have key := shows_processRequest (J := fun (x : Msg × V) (x' : Msg × V') => Near x.1 r.req ∧ Near x'.1 r.req ∧ I x.2) env ha r
    (n := fun (r : Request) (w : Msg × V) => if r.internal then ((n r (r.req, w.2)).1, (w.1, (n r (r.req, w.2)).2.2)) else n r w)
    (n' := fun (r : Request) (w : Msg × V') => if r.internal then ((n' r (r.req, w.2)).1, (w.1, (n' r (r.req, w.2)).2.2)) else n' r w)
    (by
      rintro r1 ⟨m1, v1⟩ ⟨m1', v1'⟩ hi hr1 ⟨j1, j2, j3⟩
      simp only at j1 j2 j3
      simp only
      split
      · obtain ⟨g1, _, _, g4⟩ := h r1 r1.req r1.req v1 v1' hr1 (near_refl hr1.some) (near_refl hr1.some) j3
        exact ⟨g1, j1, j2, g4⟩
      · rename_i hni
        rcases hi with rfl | hi
        · exact h r1 m1 m1' v1 v1' hr1 j1 j2 j3
        · exact absurd hi hni)
    depth r [] (m, v) (m', v') (.inl rfl) hr ⟨hm, hm', hv⟩
  unfold Chain.customDns CustomDns.resolve
  have hr' := hr
  obtain ⟨q, hq, _⟩ := hr'
  rw [hq]
  simp only
  cases CustomDns.handleReverse env reverse r q with
  | some y => exact ⟨LikeOut.refl _, hm, hm', hv⟩
  | none =>
    simp only
    revert key
    generalize CustomDns.processRequest env mapping _ depth r [] (m, v) = y
    generalize CustomDns.processRequest env mapping _ depth r [] (m', v') = y'
    intro key
    cases y with
    | none =>
      cases y' with
      | none => exact ⟨rfl, hm, hm', hv⟩
      | some x' => exact key.elim
    | some x =>
      cases y' with
      | none => exact key.elim
      | some x' => exact key

/-- Custom DNS with nothing behind it leaves the message as it is. -/
theorem customDns_leaves (env : CustomDns.Env) (m : CustomDns.Mapping) (rev : AMap Str (List Str)) (depth : Nat) (r : Request) (w : W) :
    (Chain.toM (Chain.customDns env m rev depth (Chain.ofM (fun request w => (.noResponse, request.req, w)))) r w).2.1 = r.req := by
  unfold Chain.toM Chain.customDns CustomDns.resolve
  simp only
  have key : ∀ x, CustomDns.processRequest env m
      (fun (r : Request) (w : Msg × W) => if r.internal then
        ((Chain.ofM (fun request w => (Outcome.noResponse, request.req, w)) r (r.req, w.2)).1,
          (w.1, (Chain.ofM (fun request w => (Outcome.noResponse, request.req, w)) r (r.req, w.2)).2.2))
        else Chain.ofM (fun request w => (.noResponse, request.req, w)) r w)
      depth r [] (r.req, w) = some x → x.2.1 = r.req := by
    intro x hx'
    refine processRequest_keeps (fun r1 => r1.internal = true ∨ r1.req = r.req) (fun w => w.1 = r.req) env m
      (fun _ _ _ _ => .inl rfl) ?_ depth r [] (r.req, w) (.inr rfl) rfl x hx'
    intro r w hx hw
    split
    · exact hw
    · rename_i hi
      rcases hx with hx | hx
      · exact absurd hx hi
      · exact hx
  cases r.req.question with
  | nil => rfl
  | cons q qs =>
    simp only
    cases CustomDns.handleReverse env rev r q with
    | some y => rfl
    | none =>
      simp only
      revert key
      generalize CustomDns.processRequest env m _ depth r [] (r.req, w) = z
      intro key
      cases z with
      | none => rfl
      | some x => exact key x rfl

theorem shows_rewriter (fallback : Bool) (order : Nat → List (Str × Str)) {i n : Cond.MResolver V} {i' n' : Cond.MResolver V'}
    (hb : ∀ r v v', (i r v).1 = (i' r v').1 ∧ (i r v).2.1 = (i' r v').2.1)
    (hk : ∀ r v, (i r v).2.1 = r.req) (hi : ∀ r v, I v → I (i r v).2.2) (hn : ShowsM S I n n') :
    ShowsM S I (Cond.rewriter fallback order i n) (Cond.rewriter fallback order i' n') := by
  intro r v v' hr hv
  have hq := rewriteQuestions_some order 0 r.req.question [] hr.some
  unfold Cond.rewriter
  revert hq
  generalize Cond.rewriteQuestions order 0 r.req.question [] = y
  obtain ⟨questions, rewritten, names⟩ := y
  intro hq
  simp only
  have h1 := hb (if rewritten then { r with req := { r.req with question := questions } } else r) v v'
  have h2 := hi (if rewritten then { r with req := { r.req with question := questions } } else r) v hv
  have h3 := hk (if rewritten then { r with req := { r.req with question := questions } } else r) v
  revert h1 h2 h3
  generalize i _ v = z
  generalize i' _ v' = z'
  obtain ⟨o, msg, v1⟩ := z
  obtain ⟨o', msg', v1'⟩ := z'
  rintro ⟨h1, h2⟩ hv1 h3
  simp only at h1 h2 h3
  subst h1 h2
  have hor : (if rewritten = true then r.req else msg) = r.req := by
    cases rewritten
    · exact h3
    · rfl
  have hmsg : Near msg r.req := by
    rw [h3]
    cases rewritten
    · exact near_refl hr.some
    · exact near_question hr.some hq
  simp only [hor]
  have hx := hn r v1 v1' hr hv1
  have hs : Near r.req r.req := near_refl hr.some
  cases o with
  | panic => exact ⟨rfl, hmsg, hmsg, hv1⟩
  | err e =>
    simp only
    split
    · exact hx
    · exact ⟨rfl, hs, hs, hv1⟩
  | noResponse => exact hx
  | ok a =>
    simp only
    split
    · exact hx
    · split <;> exact ⟨LikeOut.refl _, hs, hs, hv1⟩

theorem shows_local {c c' : Chain.Config E W} {up : Dns.Resolver W} (hc' : c' = { c with cache := c'.cache }) (hoff : c'.cache.enabled = false)
    (hn : Behind S (Chain.cond c up)) (ha : ProperAliases S c.customMapping) :
    Shows S (fun v : Caching.CState × W => CacheRight S (Chain.cond c up) v.1) (Chain.local c up) (Chain.local c' up) := by
  have hcond : Chain.cond c' up = Chain.cond c up := by rw [hc']; rfl
  have hb : Shows S (fun v : Caching.CState × W => CacheRight S (Chain.cond c up) v.1) (Chain.block c up) (Chain.block c' up) := by
    unfold Chain.block
    rw [hcond]
    have e1 : c'.blockEnv = c.blockEnv := by rw [hc']
    have e2 : c'.blockState = c.blockState := by rw [hc']
    rw [e1, e2]
    exact shows_blocking _ _ (shows_caching hn _ _ _ hoff)
  unfold Chain.local
  have e1 : c'.customRewrite = c.customRewrite := by rw [hc']
  have e2 : c'.customOrder = c.customOrder := by rw [hc']
  have e3 : c'.customEnv = c.customEnv := by rw [hc']
  have e4 : c'.customMapping = c.customMapping := by rw [hc']
  have e5 : c'.customReverse = c.customReverse := by rw [hc']
  have e6 : c'.customDepth = c.customDepth := by rw [hc']
  have e7 : c'.hostsEnabled = c.hostsEnabled := by rw [hc']
  have e8 : c'.hostsCfg = c.hostsCfg := by rw [hc']
  have e9 : c'.hosts = c.hosts := by rw [hc']
  have e10 : c'.hostsOrder4 = c.hostsOrder4 := by rw [hc']
  have e11 : c'.hostsOrder6 = c.hostsOrder6 := by rw [hc']
  rw [e1, e2, e3, e4, e5, e6, e7, e8, e9, e10, e11]
  have hh := shows_toM (shows_hosts c.hostsEnabled c.hostsCfg c.hosts c.hostsOrder4 c.hostsOrder6 hb)
  refine shows_ofM ?_
  unfold Cond.newRewriter
  split
  · exact shows_toM (shows_customDns _ ha _ _ (shows_ofM hh))
  · refine shows_rewriter _ _ ?_ (fun r v => customDns_leaves _ _ _ _ r v) ?_ hh
    · exact blind_toM (sees_customDns _ _ _ _ (sees_ofM (fun _ _ _ => ⟨rfl, rfl⟩)))
    · intro r v hv
      exact kept_customDns (P := fun v : Caching.CState × W => CacheRight S (Chain.cond c up) v.1) _ _ _ _
        (kept_ofM (P := fun v : Caching.CState × W => CacheRight S (Chain.cond c up) v.1) (fun _ _ hw => hw)) r (r.req, v) hv

end Verif.Props
