/-
Reasoning about the resolvers that only pass questions on and change answers, in any of several ways at once: a relation between runs with
different states that holds for runs that do nothing, and for one after the other, holds for these resolvers if it holds for the next one.
-/
import Verif.Props.CustomDns
import Verif.Model.Chain

namespace Verif.Props
open Verif.Dns Verif.ExpCache Verif.StringCache Verif.Chain

variable {E : RegexEngine} {A B X Y : Type}

/-- A relation of that kind. -/
structure Logic (A B : Type) where
  rel : {X : Type} → (Msg × A → X × (Msg × A)) → (Msg × B → X × (Msg × B)) → Prop
  pure : ∀ {X : Type} (a : Msg → X) (φ : Msg → Msg), rel (fun w => (a w.1, (φ w.1, w.2))) (fun w => (a w.1, (φ w.1, w.2)))
  bind : ∀ {X Y : Type} {f : Msg × A → X × (Msg × A)} {g : Msg × B → X × (Msg × B)}
    {k : X → Msg × A → Y × (Msg × A)} {l : X → Msg × B → Y × (Msg × B)}, rel f g → (∀ x, rel (k x) (l x)) →
    rel (fun w => k (f w).1 (f w).2) (fun w => l (g w).1 (g w).2)

/-- Between resolvers. -/
def Logic.R (L : Logic A B) (n : MR A) (n' : MR B) : Prop := ∀ r, L.rel (n r) (n' r)

/-- Between resolvers that return the message. -/
def Logic.M (L : Logic A B) (n : Cond.MResolver A) (n' : Cond.MResolver B) : Prop := ∀ r, L.rel (ofM n r) (ofM n' r)

/-- Between runs that might need more depth, but do not. -/
def Logic.O (L : Logic A B) (f : Msg × A → Option (X × (Msg × A))) (g : Msg × B → Option (X × (Msg × B))) : Prop :=
  ∃ f1 g1, (∀ w, f w = some (f1 w)) ∧ (∀ w, g w = some (g1 w)) ∧ L.rel f1 g1

section
variable {L : Logic A B} {n : MR A} {n' : MR B}

theorem logic_ret (a : X) : L.rel (fun w => (a, w)) (fun w => (a, w)) := L.pure (fun _ => a) id

theorem logic_congr {f f' : Msg × A → X × (Msg × A)} {g g' : Msg × B → X × (Msg × B)}
    (h : L.rel f g) (hf : ∀ w, f' w = f w) (hg : ∀ w, g' w = g w) : L.rel f' g' := by
  rw [show f' = f from funext hf, show g' = g from funext hg]
  exact h

/-- What comes before does not matter but for the message. -/
theorem logic_msg {k : Msg → Msg × A → Y × (Msg × A)} {l : Msg → Msg × B → Y × (Msg × B)}
    (hk : ∀ x, L.rel (k x) (l x)) : L.rel (fun w => k w.1 w) (fun w => l w.1 w) :=
  L.bind (L.pure (fun m => m) id) hk

theorem logic_map {f : Msg × A → X × (Msg × A)} {g : Msg × B → X × (Msg × B)}
    (h : L.rel f g) (φ : X → Y) : L.rel (fun w => (φ (f w).1, (f w).2)) (fun w => (φ (g w).1, (g w).2)) :=
  L.bind h (fun x => logic_ret (φ x))

/-- With another message. -/
theorem logic_with {f : Msg × A → X × (Msg × A)} {g : Msg × B → X × (Msg × B)}
    (h : L.rel f g) (φ : Msg → Msg) : L.rel (fun w => f (φ w.1, w.2)) (fun w => g (φ w.1, w.2)) :=
  L.bind (L.pure (fun _ => ()) φ) (fun _ => h)

theorem logic_filtering (ts : List Nat) (h : L.R n n') :
    L.R (Small.filtering ts n) (Small.filtering ts n') := by
  intro r
  unfold Small.filtering
  cases r.req.question with
  | nil => exact logic_ret _
  | cons q _ =>
    by_cases hq : ts.contains q.qtype
    · simp only [hq, if_true]
      exact logic_ret _
    · simp only [hq]
      exact h r

theorem logic_fqdnOnly (e : Bool) (h : L.R n n') :
    L.R (Small.fqdnOnly e n) (Small.fqdnOnly e n') := by
  intro r
  unfold Small.fqdnOnly
  cases e with
  | false => exact h r
  | true =>
    simp only [if_true]
    cases r.req.question with
    | nil => exact logic_ret _
    | cons q _ =>
      by_cases hq : (!(extractDomain q.name).contains '.') = true
      · simp only [hq, if_true]
        exact logic_ret _
      · simp only [hq]
        exact h r

theorem logic_ecs (cfg : Ecs.Cfg) (h : L.R n n') : L.R (Chain.ecs cfg n) (Chain.ecs cfg n') := by
  intro r
  unfold Chain.ecs
  cases Ecs.transform cfg r with
  | none => exact logic_ret _
  | some r1 => exact logic_with (h r1) (fun _ => r1.req)

theorem logic_ede (e : Bool) (h : L.R n n') : L.R (Small.ede e n) (Small.ede e n') := by
  intro r
  cases e with
  | false => exact h r
  | true =>
    have e1 : ∀ {S : Type} (n : Resolver S), Small.ede true n r =
        fun w => ((fun (o : Outcome) => match o with | .ok x => .ok (Small.addExtraReasoning x) | o => o) (n r w).1, (n r w).2) := by
      intro S n
      funext w
      simp only [Small.ede, Bool.not_true]
      generalize n r w = y
      obtain ⟨o, w1⟩ := y
      cases o <;> rfl
    rw [e1, e1]
    exact logic_map (Y := Outcome) (h r) (fun (o : Outcome) => match o with | .ok x => .ok (Small.addExtraReasoning x) | o => o)

theorem logic_metrics (e : Bool) (h : L.R n n') :
    L.R (Chain.metrics e n) (Chain.metrics e n') := by
  intro r
  have e1 : ∀ {V : Type} (n : MR V), Chain.metrics e n r =
      fun w => (fun (o : Outcome) (w : Msg × V) => ((match o with
        | .panic => .panic
        | o => if e then match w.1.question, o with | [], _ => .panic | _ :: _, .noResponse => .panic | _ :: _, o => o else o), w)) (n r w).1 (n r w).2 := by
    intro V n
    funext w
    simp only [Chain.metrics]
    generalize n r w = y
    obtain ⟨o, m1, w1⟩ := y
    cases e <;> cases o <;> cases hq : m1.question <;> simp [hq]
  rw [e1, e1]
  exact L.bind (Y := Outcome) (h r) (fun o => L.pure (fun m => match o with
        | .panic => .panic
        | o => if e then match m.question, o with | [], _ => .panic | _ :: _, .noResponse => .panic | _ :: _, o => o else o) id)

theorem logic_hosts (en : Bool) (cfg : HostsFile.Cfg) (hs : HostsFile.Hosts) (o4 o6 : List (Str × (IP × List Str)))
    (h : L.R n n') : L.R (HostsFile.resolve en cfg hs o4 o6 n) (HostsFile.resolve en cfg hs o4 o6 n') := by
  intro r
  unfold HostsFile.resolve
  cases en with
  | false => exact h r
  | true =>
    simp only [Bool.not_true]
    cases r.req.question with
    | nil => exact logic_ret _
    | cons q _ =>
      simp only
      cases HostsFile.handleReverse cfg o4 o6 r q with
      | some x => exact logic_ret _
      | none =>
        simp only
        cases hs.getIP q.qtype (extractDomain q.name) with
        | some ip => exact logic_ret _
        | none => exact h r

theorem logic_blocking (env : Blocking.Env) (b : Blocking.BState E) (h : L.R n n') :
    L.R (Blocking.resolve env b n) (Blocking.resolve env b n') := by
  intro r
  have e1 : ∀ (groups : List Str), L.rel (Blocking.askNext env b groups n r) (Blocking.askNext env b groups n' r) := by
    intro groups
    have e2 : ∀ {S : Type} (n : Resolver S), Blocking.askNext env b groups n r =
        fun w => ((match (n r w).1 with
          | .ok x => if groups.length > 0 then
              match Blocking.checkAnswer env b groups r x.res.answer with | some o => o | none => .ok x else .ok x
          | o => o), (n r w).2) := by
      intro S n
      funext w
      simp only [Blocking.askNext]
      generalize n r w = y
      obtain ⟨o, w1⟩ := y
      cases o with
      | ok x =>
        simp only
        split
        · cases Blocking.checkAnswer env b groups r x.res.answer <;> rfl
        · rfl
      | _ => rfl
    rw [e2, e2]
    exact logic_map (Y := Outcome) (h r) (fun (o : Outcome) => match o with
          | .ok x => if groups.length > 0 then
              match Blocking.checkAnswer env b groups r x.res.answer with | some o => o | none => .ok x else .ok x
          | o => o)
  unfold Blocking.resolve
  simp only
  split
  · cases Blocking.handleDenylist b _ r r.req.question with
    | allowed => exact h r
    | blocked o => exact logic_ret _
    | no => exact e1 _
  · exact e1 _

theorem logic_sudn (cfg : Small.SudnCfg) (h : L.R n n') : L.R (Small.sudn cfg n) (Small.sudn cfg n') := by
  intro r
  unfold Small.sudn
  cases cfg.enable with
  | false => exact h r
  | true =>
    simp only [Bool.not_true]
    cases r.req.question with
    | nil => exact logic_ret _
    | cons q _ =>
      simp only
      cases (Small.sudnHandler q.name).bind (Small.callSudn cfg r q) with
      | some x => exact logic_ret _
      | none => exact h r

/-! ### Resolvers that return the message -/

theorem logic_toM (h : L.R n n') : L.M (toM n) (toM n') := fun r => logic_with (h r) (fun _ => r.req)

theorem logic_ofM {i : Cond.MResolver A} {i' : Cond.MResolver B} (h : L.M i i') : L.R (ofM i) (ofM i') := h

/-- What the rewriter does once the inner resolver is done. -/
def afterInner {V : Type} (fb rewritten : Bool) (names : AMap Str Str) (r : Request) (k : Cond.MResolver V) (o : Outcome) (msg : Msg)
    (w : Msg × V) : Outcome × (Msg × V) :=
  match o with
  | .panic => (.panic, w)
  | .err e => if fb then ofM k { r with req := if rewritten then r.req else msg } w else (.err e, (if rewritten then r.req else w.1, w.2))
  | .noResponse => ofM k { r with req := if rewritten then r.req else msg } w
  | .ok x =>
    if fb && x.res.answer.isEmpty then ofM k { r with req := if rewritten then r.req else msg } w
    else (.ok (if rewritten then Cond.revert names x else x), (if rewritten then r.req else w.1, w.2))

theorem logic_rewriter (fb : Bool) (order : Nat → List (Str × Str)) {i k : Cond.MResolver A} {i' k' : Cond.MResolver B}
    (hi : L.M i i') (hk : L.M k k') :
    L.M (Cond.rewriter fb order i k) (Cond.rewriter fb order i' k') := by
  intro r
  obtain ⟨qs, rw', names, hq⟩ : ∃ qs rw' names, Cond.rewriteQuestions order 0 r.req.question [] = (qs, rw', names) := ⟨_, _, _, rfl⟩
  have e1 : ∀ {V : Type} (i k : Cond.MResolver V), ofM (Cond.rewriter fb order i k) r = fun w =>
      (fun (o : Outcome) (w : Msg × V) => (fun (msg : Msg) (w : Msg × V) => afterInner fb rw' names r k o msg w) w.1 w)
        (ofM i (if rw' then { r with req := { r.req with question := qs } } else r) w).1
        (ofM i (if rw' then { r with req := { r.req with question := qs } } else r) w).2 := by
    intro V i k
    funext w
    simp only [ofM, Cond.rewriter, hq, afterInner]
    generalize i _ w.2 = y
    obtain ⟨o, m1, w1⟩ := y
    cases o with
    | ok x =>
      simp only
      by_cases hfb : (fb && x.res.answer.isEmpty) = true
      · simp only [hfb, if_true]
      · simp only [hfb]
        cases rw' <;> rfl
    | err e => cases fb <;> rfl
    | noResponse => rfl
    | panic => rfl
  rw [e1, e1]
  refine L.bind (Y := Outcome) (k := fun o w => afterInner fb rw' names r k o w.1 w) (l := fun o w => afterInner fb rw' names r k' o w.1 w)
    (hi _) (fun o => logic_msg (k := fun msg w => afterInner fb rw' names r k o msg w) (l := fun msg w => afterInner fb rw' names r k' o msg w)
      (fun msg => ?_))
  cases o with
  | panic => exact logic_ret _
  | err e =>
    cases fb with
    | true => exact hk _
    | false => exact L.pure (fun _ => Outcome.err e) (fun m => if rw' then r.req else m)
  | noResponse => exact hk _
  | ok x =>
    simp only [afterInner]
    by_cases hfb : (fb && x.res.answer.isEmpty) = true
    · simp only [hfb, if_true]
      exact hk _
    · simp only [hfb]
      exact L.pure (fun _ => Outcome.ok (if rw' then Cond.revert names x else x)) (fun m => if rw' then r.req else m)

theorem logic_newRewriter (cfg : Cond.RewriteCfg) (order : Nat → List (Str × Str)) {i : Cond.MResolver A → Cond.MResolver A}
    {i' : Cond.MResolver B → Cond.MResolver B} {k : Cond.MResolver A} {k' : Cond.MResolver B}
    (hi : ∀ {k k'}, L.M k k' → L.M (i k) (i' k')) (hk : L.M k k') :
    L.M (Cond.newRewriter cfg order i k) (Cond.newRewriter cfg order i' k') := by
  unfold Cond.newRewriter
  split
  · exact hi hk
  · exact logic_rewriter _ _ (hi (fun r => L.pure (fun _ => Outcome.noResponse) (fun _ => r.req))) hk

/-! ### Custom DNS -/

theorem logicO_ret (a : X) : L.O (fun w => some (a, w)) (fun w => some (a, w)) :=
  ⟨_, _, fun _ => rfl, fun _ => rfl, logic_ret a⟩

theorem logicO_of {f : Msg × A → X × (Msg × A)} {g : Msg × B → X × (Msg × B)} (h : L.rel f g) :
    L.O (fun w => some (f w)) (fun w => some (g w)) := ⟨f, g, fun _ => rfl, fun _ => rfl, h⟩

theorem logicO_bind {f : Msg × A → Option (X × (Msg × A))} {g : Msg × B → Option (X × (Msg × B))}
    {k : X → Msg × A → Option (Y × (Msg × A))} {l : X → Msg × B → Option (Y × (Msg × B))}
    (h : L.O f g) (hk : ∀ x, L.O (k x) (l x)) :
    L.O (fun w => (f w).bind (fun y => k y.1 y.2)) (fun w => (g w).bind (fun y => l y.1 y.2)) := by
  obtain ⟨f1, g1, hf, hg, hm⟩ := h
  obtain ⟨k1, hk1⟩ := Classical.axiomOfChoice hk
  obtain ⟨l1, hl1⟩ := Classical.axiomOfChoice hk1
  refine ⟨fun w => k1 (f1 w).1 (f1 w).2, fun w => l1 (g1 w).1 (g1 w).2, fun w => ?_, fun w => ?_, L.bind hm (fun x => (hl1 x).2.2)⟩
  · simp only [hf, Option.bind_some, (hl1 _).1]
  · simp only [hg, Option.bind_some, (hl1 _).2.1]

theorem logicO_congr {f f' : Msg × A → Option (X × (Msg × A))} {g g' : Msg × B → Option (X × (Msg × B))}
    (h : L.O f g) (hf : ∀ w, f' w = f w) (hg : ∀ w, g' w = g w) : L.O f' g' := by
  obtain ⟨f1, g1, h1, h2, h3⟩ := h
  exact ⟨f1, g1, fun w => (hf w).trans (h1 w), fun w => (hg w).trans (h2 w), h3⟩

theorem logic_processRequest (env : CustomDns.Env) (mapping : CustomDns.Mapping) (h : L.R n n') (d : Nat)
    (request : Request) (resolved : List Str) (hnd : resolved.Nodup) (hsub : ∀ t ∈ resolved, t ∈ aliases mapping)
    (hd : (aliases mapping).length < d + resolved.length) :
    L.O (CustomDns.processRequest env mapping n d request resolved)
      (CustomDns.processRequest env mapping n' d request resolved) := by
  induction d generalizing request resolved with
  | zero =>
    have := nodup_length_le hnd hsub
    omega
  | succ d ih =>
    cases hq : request.req.question with
    | nil => exact logicO_congr (logicO_ret .panic) (fun w => by rw [CustomDns.processRequest]; simp only [hq]) (fun w => by rw [CustomDns.processRequest]; simp only [hq])
    | cons q qs =>
      cases hw : walk (AMap.get mapping) ((extractDomain q.name).length + 1) (extractDomain q.name) with
      | none => exact logicO_congr (logicO_of (h request)) (fun w => by rw [CustomDns.processRequest]; simp only [hq, hw]) (fun w => by rw [CustomDns.processRequest]; simp only [hq, hw])
      | some z =>
        obtain ⟨z, entries⟩ := z
        have hg := (walk_some hw).2.2.1
        have key : ∀ (es acc : List RR), (∀ e ∈ es, e ∈ entries) →
            L.O (CustomDns.processEntries env (CustomDns.processRequest env mapping n d) request resolved q es acc)
              (CustomDns.processEntries env (CustomDns.processRequest env mapping n' d) request resolved q es acc) := by
          intro es
          induction es with
          | nil => intro acc _; exact logicO_ret _
          | cons e es ihe =>
            intro acc hsubs
            have he : L.O (CustomDns.processEntry env (CustomDns.processRequest env mapping n d) request resolved q e)
                (CustomDns.processEntry env (CustomDns.processRequest env mapping n' d) request resolved q e) := by
              unfold CustomDns.processEntry
              cases ht : e.data with
              | a ip => exact logicO_ret _
              | aaaa ip => exact logicO_ret _
              | cname t =>
                simp only
                unfold CustomDns.processCNAME
                simp only
                by_cases h1 : q.qtype = typeCNAME
                · simp only [h1, if_true]
                  exact logicO_ret _
                · by_cases h2 : resolved.contains (trimSuffixDot t) = true
                  · simp only [h1, h2, if_true, if_false]
                    exact logicO_ret _
                  · simp only [h1, h2]
                    have hnotin : trimSuffixDot t ∉ resolved := by simpa using h2
                    have := ih (CustomDns.targetRequest env request (trimSuffixDot t) q.qtype (resolved ++ [trimSuffixDot t]))
                      (resolved ++ [trimSuffixDot t])
                      (by
                        rw [List.nodup_append]
                        refine ⟨hnd, by simp, ?_⟩
                        intro a ha b hb
                        rw [List.mem_singleton.1 hb]
                        rintro rfl
                        exact hnotin ha)
                      (by
                        intro x hx
                        rcases List.mem_append.1 hx with hx | hx
                        · exact hsub x hx
                        · rw [List.mem_singleton.1 hx]
                          exact mem_aliases hg (hsubs e (by simp)) ht)
                      (by simp; omega)
                    refine logicO_congr (logicO_bind this (k := fun o w => some ((match o with
                        | .err e => .err e | .panic => .panic | .noResponse => .panic
                        | .ok r => .ok ({ name := q.name, rtype := typeCNAME, ttl := e.ttl, data := .cname (fqdn t) } :: r.res.answer)), w))
                      (l := fun o w => some ((match o with
                        | .err e => .err e | .panic => .panic | .noResponse => .panic
                        | .ok r => .ok ({ name := q.name, rtype := typeCNAME, ttl := e.ttl, data := .cname (fqdn t) } :: r.res.answer)), w))
                      (fun o => logicO_ret _)) (fun w => ?_) (fun w => ?_)
                    · generalize CustomDns.processRequest env mapping n d _ _ w = y
                      cases y with
                      | none => rfl
                      | some y => obtain ⟨o, w1⟩ := y; cases o <;> rfl
                    · generalize CustomDns.processRequest env mapping n' d _ _ w = y
                      cases y with
                      | none => rfl
                      | some y => obtain ⟨o, w1⟩ := y; cases o <;> rfl
              | _ => simp only; split <;> exact logicO_ret _
            refine logicO_congr (logicO_bind he (k := fun y w => match y with
                | .ok rrs => CustomDns.processEntries env (CustomDns.processRequest env mapping n d) request resolved q es (acc ++ rrs) w
                | x => some (x, w))
              (l := fun y w => match y with
                | .ok rrs => CustomDns.processEntries env (CustomDns.processRequest env mapping n' d) request resolved q es (acc ++ rrs) w
                | x => some (x, w)) (fun y => ?_)) (fun w => ?_) (fun w => ?_)
            · cases y with
              | ok rrs => exact ihe _ (fun e' he' => hsubs e' (by simp [he']))
              | err e => exact logicO_ret _
              | panic => exact logicO_ret _
            · rw [CustomDns.processEntries]
              generalize CustomDns.processEntry env _ request resolved q e w = y
              cases y with
              | none => rfl
              | some y => obtain ⟨o, w1⟩ := y; cases o <;> rfl
            · rw [CustomDns.processEntries]
              generalize CustomDns.processEntry env _ request resolved q e w = y
              cases y with
              | none => rfl
              | some y => obtain ⟨o, w1⟩ := y; cases o <;> rfl
        refine logicO_congr (logicO_bind (key entries [] (fun _ h => h)) (k := fun y w => match y with
            | .ok rrs => if rrs.length > 0 then some (.ok (CustomDns.respond request rrs), w)
                else if !env.filterUnmappedTypes then some (n request w) else some (.ok (CustomDns.respond request []), w)
            | .err e => some (.err e, w)
            | .panic => some (.panic, w))
          (l := fun y w => match y with
            | .ok rrs => if rrs.length > 0 then some (.ok (CustomDns.respond request rrs), w)
                else if !env.filterUnmappedTypes then some (n' request w) else some (.ok (CustomDns.respond request []), w)
            | .err e => some (.err e, w)
            | .panic => some (.panic, w)) (fun y => ?_)) (fun w => ?_) (fun w => ?_)
        · cases y with
          | ok rrs =>
            simp only
            split
            · exact logicO_ret _
            · split
              · exact logicO_of (h request)
              · exact logicO_ret _
          | err e => exact logicO_ret _
          | panic => exact logicO_ret _
        · rw [CustomDns.processRequest]
          simp only [hq, hw]
          generalize CustomDns.processEntries env _ request resolved q entries [] w = y
          cases y with
          | none => rfl
          | some y => obtain ⟨o, w1⟩ := y; cases o <;> rfl
        · rw [CustomDns.processRequest]
          simp only [hq, hw]
          generalize CustomDns.processEntries env _ request resolved q entries [] w = y
          cases y with
          | none => rfl
          | some y => obtain ⟨o, w1⟩ := y; cases o <;> rfl

theorem logic_customDns (env : CustomDns.Env) (mapping : CustomDns.Mapping) (reverse : AMap Str (List Str)) (depth : Nat)
    (hd : (aliases mapping).length < depth) (h : L.R n n') :
    L.R (Chain.customDns env mapping reverse depth n) (Chain.customDns env mapping reverse depth n') := by
  intro r
  have hn : L.R
      (fun r w => if r.internal then ((n r (r.req, w.2)).1, (w.1, (n r (r.req, w.2)).2.2)) else n r w)
      (fun r w => if r.internal then ((n' r (r.req, w.2)).1, (w.1, (n' r (r.req, w.2)).2.2)) else n' r w) := by
    intro r
    by_cases hi : r.internal = true
    · simp only [hi, if_true]
      exact logic_msg (k := fun m w => ((n r (r.req, w.2)).1, (m, (n r (r.req, w.2)).2.2)))
        (l := fun m w => ((n' r (r.req, w.2)).1, (m, (n' r (r.req, w.2)).2.2)))
        (fun m => L.bind (logic_with (h r) (fun _ => r.req)) (k := fun o w => (o, (m, w.2))) (l := fun o w => (o, (m, w.2)))
          (fun o => L.pure (fun _ => o) (fun _ => m)))
    · simp only [hi]
      exact h r
  unfold Chain.customDns CustomDns.resolve
  cases r.req.question with
  | nil => exact logic_ret _
  | cons q _ =>
    simp only
    cases CustomDns.handleReverse env reverse r q with
    | some x => exact logic_ret _
    | none =>
      simp only
      obtain ⟨f, g, hf, hg, hm⟩ := logic_processRequest env mapping hn depth r [] (by simp) (by simp) (by simpa using hd)
      simp only [hf, hg]
      exact hm

/-! ### Asking again for an entry of the cache -/

/-- What is made of the outcome. -/
def reloaded (env : Caching.Env) (cfg : Caching.Cfg) : Outcome → Option (Option (Msg × Int))
  | .ok r =>
    if r.res.rcode == rcodeSuccess then
      if env.packs r.res then some (some (r.res, (Caching.adjustTTLs cfg r.res.answer).2)) else some none
    else some none
  | .err _ => some none
  | _ => none

theorem logic_reload (env : Caching.Env) (cfg : Caching.Cfg) (key : Str) (h : L.R n n') :
    L.rel (Caching.reload env cfg n key) (Caching.reload env cfg n' key) := by
  unfold Caching.reload
  cases Caching.extractKey key with
  | none => exact logic_ret _
  | some tn =>
    obtain ⟨t, name⟩ := tn
    refine logic_congr (logic_map (h (Caching.reloadRequest env t name)) (reloaded env cfg)) (fun w => ?_) (fun w => ?_)
    · simp only
      generalize n _ w = y
      obtain ⟨o, w1⟩ := y
      cases o with
      | ok r =>
        simp only [reloaded]
        repeat (first | rfl | split)
      | _ => rfl
    · simp only
      generalize n' _ w = y
      obtain ⟨o, w1⟩ := y
      cases o with
      | ok r =>
        simp only [reloaded]
        repeat (first | rfl | split)
      | _ => rfl

end
end Verif.Props
