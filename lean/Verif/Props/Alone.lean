/-
C121, the other half: a query whose steps nothing comes between is handled as by the chain of resolvers run in one go.
-/
import Verif.Props.Threads
import Verif.Lemmas.Logic

namespace Verif.Props
open Verif.Dns Verif.ExpCache Verif.StringCache Verif.Threads Verif.Chain

variable {E : RegexEngine} {V X Y : Type}

/-- What upstreams answer to a step. -/
def answerTo (c : Config E Unit) (up : Resolver Unit) : Threads.Op → Outcome
  | .ask none r => (up r ()).1
  | .ask (some z) r => match AMap.get c.condMapping z with | some u => (u r ()).1 | none => .noResponse
  | _ => .noResponse

/-- What the upstream for client names answers to a step. -/
def recordsFor (c : Config E Unit) : Threads.Op → Option (List RR)
  | .askNames ip => match c.namesLookup with | some l => (l ip (noCache, ())).1 | none => none
  | _ => none

/-- Steps with the results they have if nothing comes between. -/
def Stepwise (c : Config E Unit) (up : Resolver Unit) : Sys E → List (Threads.Op × Res) → Sys E → Prop
  | s, [], s' => s = s'
  | s, e :: es, s' => ∃ s1, perform c s (answerTo c up e.1) (recordsFor c e.1) e.1 = (e.2, s1) ∧ Stepwise c up s1 es s'

theorem stepwise_append {c : Config E Unit} {up : Resolver Unit} : ∀ {es fs : List (Threads.Op × Res)} {s s1 s2 : Sys E},
    Stepwise c up s es s1 → Stepwise c up s1 fs s2 → Stepwise c up s (es ++ fs) s2
  | [], _, _, _, _, h, h' => by cases h; exact h'
  | _ :: _, _, _, _, _, ⟨s', h1, h2⟩, h' => ⟨s', h1, stepwise_append h2 h'⟩

/-- The run `f` makes the steps that `g` does in one go on the shared state, `emb` being where that is. -/
def Mirrors (c : Config E Unit) (up : Resolver Unit) (emb : V → Sys E) (f : Msg × Replay → X × (Msg × Replay))
    (g : Msg × V → X × (Msg × V)) : Prop :=
  (∀ m op, (f (m, ⟨[], some op⟩)).2.2 = ⟨[], some op⟩) ∧
  ∀ m s, ∃ es, Stepwise c up (emb s) es (emb (g (m, s)).2.2) ∧
    (∀ rest, f (m, ⟨es ++ rest, none⟩) = ((g (m, s)).1, ((g (m, s)).2.1, ⟨rest, none⟩))) ∧
    ∀ p e q, es = p ++ e :: q → (f (m, ⟨p, none⟩)).2.2 = ⟨[], some e.1⟩

section
variable {c : Config E Unit} {up : Resolver Unit} {emb : V → Sys E}

theorem mirrors_pure (a : Msg → X) (φ : Msg → Msg) :
    Mirrors c up emb (fun w => (a w.1, (φ w.1, w.2))) (fun w => (a w.1, (φ w.1, w.2))) := by
  refine ⟨fun m op => rfl, fun m s => ⟨[], rfl, fun rest => rfl, ?_⟩⟩
  intro p e q h
  cases p <;> simp at h

theorem mirrors_ret (a : X) : Mirrors c up emb (fun w => (a, w)) (fun w => (a, w)) := mirrors_pure (fun _ => a) id

theorem mirrors_bind {f : Msg × Replay → X × (Msg × Replay)} {g : Msg × V → X × (Msg × V)}
    {k : X → Msg × Replay → Y × (Msg × Replay)} {l : X → Msg × V → Y × (Msg × V)}
    (h : Mirrors c up emb f g) (hk : ∀ x, Mirrors c up emb (k x) (l x)) :
    Mirrors c up emb (fun w => k (f w).1 (f w).2) (fun w => l (g w).1 (g w).2) := by
  constructor
  · intro m op
    show (k (f (m, ⟨[], some op⟩)).1 (f (m, ⟨[], some op⟩)).2).2.2 = _
    have h1 := h.1 m op
    generalize f (m, ⟨[], some op⟩) = y at h1 ⊢
    obtain ⟨x, m', v⟩ := y
    simp only at h1
    subst h1
    exact (hk x).1 m' op
  · intro m s
    obtain ⟨es, h1, h2, h3⟩ := h.2 m s
    simp only
    generalize g (m, s) = y at h1 h2 ⊢
    obtain ⟨x, m', s'⟩ := y
    obtain ⟨fs, k1, k2, k3⟩ := (hk x).2 m' s'
    refine ⟨es ++ fs, stepwise_append h1 k1, ?_, ?_⟩
    · intro rest
      simp only [List.append_assoc, h2, k2]
    · intro p e q hp
      rcases List.append_eq_append_iff.1 hp with ⟨p', e1, e2⟩ | ⟨p', e1, e2⟩
      · subst e1
        simp only [h2]
        exact k3 p' e q e2
      · cases p' with
        | nil =>
          simp only [List.append_nil] at e1
          simp only [List.nil_append] at e2
          subst e1
          have := h2 []
          simp only [List.append_nil] at this
          simp only [this]
          exact k3 [] e q e2.symm
        | cons e' q' =>
          simp only [List.cons_append, List.cons.injEq] at e2
          obtain ⟨rfl, rfl⟩ := e2
          have := h3 p e q' e1
          generalize f (m, ⟨p, none⟩) = z at this ⊢
          obtain ⟨x, m'', v⟩ := z
          simp only at this
          subst this
          exact (hk x).1 m'' e.1

/-- The relation of `Lemmas/Logic`. -/
def mirrorsLogic (c : Config E Unit) (up : Resolver Unit) (emb : V → Sys E) : Logic Replay V where
  rel := Mirrors c up emb
  pure := mirrors_pure
  bind := mirrors_bind

theorem mirrors_congr {f f' : Msg × Replay → X × (Msg × Replay)} {g g' : Msg × V → X × (Msg × V)}
    (h : Mirrors c up emb f g) (hf : ∀ w, f' w = f w) (hg : ∀ w, g' w = g w) : Mirrors c up emb f' g' :=
  logic_congr (L := mirrorsLogic c up emb) h hf hg

theorem mirrors_msg {k : Msg → Msg × Replay → Y × (Msg × Replay)} {l : Msg → Msg × V → Y × (Msg × V)}
    (hk : ∀ x, Mirrors c up emb (k x) (l x)) : Mirrors c up emb (fun w => k w.1 w) (fun w => l w.1 w) :=
  logic_msg (L := mirrorsLogic c up emb) hk

theorem mirrors_map {f : Msg × Replay → X × (Msg × Replay)} {g : Msg × V → X × (Msg × V)}
    (h : Mirrors c up emb f g) (φ : X → Y) : Mirrors c up emb (fun w => (φ (f w).1, (f w).2)) (fun w => (φ (g w).1, (g w).2)) :=
  logic_map (L := mirrorsLogic c up emb) h φ

theorem mirrors_with {f : Msg × Replay → X × (Msg × Replay)} {g : Msg × V → X × (Msg × V)}
    (h : Mirrors c up emb f g) (φ : Msg → Msg) : Mirrors c up emb (fun w => f (φ w.1, w.2)) (fun w => g (φ w.1, w.2)) :=
  logic_with (L := mirrorsLogic c up emb) h φ

/-- A resolver and a model of it in one go. -/
def MirrorsR (c : Config E Unit) (up : Resolver Unit) (emb : V → Sys E) (n : MR Replay) (n' : MR V) : Prop :=
  ∀ r, Mirrors c up emb (n r) (n' r)

/-- As `MirrorsR`, for resolvers that return the message. -/
def MirrorsM (c : Config E Unit) (up : Resolver Unit) (emb : V → Sys E) (n : Cond.MResolver Replay) (n' : Cond.MResolver V) : Prop :=
  ∀ r, Mirrors c up emb (ofM n r) (ofM n' r)

variable {n : MR Replay} {n' : MR V}

/-! ### Steps -/

theorem mirrors_op (op : Threads.Op) (res : X → Res) {F : Replay → X × Replay} {G : V → X × V}
    (h1 : ∀ x rest, F ⟨(op, res x) :: rest, none⟩ = (x, ⟨rest, none⟩)) (h2 : (F ⟨[], none⟩).2 = ⟨[], some op⟩)
    (h3 : ∀ o, (F ⟨[], some o⟩).2 = ⟨[], some o⟩)
    (h4 : ∀ s, perform c (emb s) (answerTo c up op) (recordsFor c op) op = (res (G s).1, emb (G s).2)) :
    Mirrors c up emb (fun w => ((F w.2).1, (w.1, (F w.2).2))) (fun w => ((G w.2).1, (w.1, (G w.2).2))) := by
  refine ⟨fun m o => h3 o, fun m s => ⟨[(op, res (G s).1)], ⟨_, h4 s, rfl⟩, fun rest => ?_, ?_⟩⟩
  · show ((F ⟨(op, res (G s).1) :: rest, none⟩).1, (m, (F ⟨(op, res (G s).1) :: rest, none⟩).2)) = _
    rw [h1]
  · intro p e q hp
    cases p with
    | nil =>
      simp only [List.nil_append, List.cons.injEq] at hp
      rw [← hp.1]
      exact h2
    | cons x p => cases p <;> simp at hp

/-- What does not concern a part of the state leaves it alone. -/
theorem mirrors_lift {S : Type} {emb : S × V → Sys E} {f : Msg × Replay → X × (Msg × Replay)} {g : Msg × V → X × (Msg × V)}
    (s0 : S) (h : ∀ s, Mirrors c up (fun v => emb (s, v)) f g) :
    Mirrors c up emb f (fun w => ((g (w.1, w.2.2)).1, ((g (w.1, w.2.2)).2.1, (w.2.1, (g (w.1, w.2.2)).2.2)))) := by
  exact ⟨(h s0).1, fun m s => (h s.1).2 m s.2⟩

theorem mirrors_ask {u : Resolver Unit} {zone : Option Str} {emb : Unit → Sys E} (r : Request)
    (hu : answerTo c up (.ask zone r) = (u r ()).1) :
    Mirrors c up emb (fun w => ((ask u zone r w.2).1, (w.1, (ask u zone r w.2).2))) (fun w => ((u r w.2).1, (w.1, (u r w.2).2))) := by
  refine mirrors_op (F := ask u zone r) (G := u r) (.ask zone r) Res.answer ?_ rfl (fun o => rfl) ?_
  · intro x rest
    simp [ask]
  · intro s
    cases s
    rw [hu]
    rfl

theorem mirrors_tail {emb : Unit → Sys E} : MirrorsR c up emb (Threads.tail c up) (Chain.tail c up) :=
  logic_sudn (L := mirrorsLogic c up _) _ (fun r => mirrors_ask r rfl)

/-- What the conditional resolver makes of the outcome of an upstream. -/
def fromZone (d : Str) : Outcome → Outcome
  | .ok x => .ok { res := { x.res with question := Cond.setName (fqdn d) x.res.question }, reason := str! "CONDITIONAL",
                   rtype := .conditional }
  | .noResponse => .panic
  | o => o

theorem mirrors_conditional {emb : Unit → Sys E} {k : Cond.MResolver Replay} {k' : Cond.MResolver Unit} (hk : MirrorsM c up emb k k') :
    MirrorsM c up emb (Cond.conditional (zones c.condMapping) k) (Cond.conditional c.condMapping k') := by
  intro r
  have hlen : (zones c.condMapping).length = c.condMapping.length := by simp [zones]
  have e1 : ∀ {V : Type} (m : AMap Str (Resolver V)) (k : Cond.MResolver V), ofM (Cond.conditional m k) r =
      if m.length > 0 then
        match r.req.question with
        | [] => fun w => (.panic, (r.req, w.2))
        | q :: _ =>
          match Cond.lookup m (extractDomain q.name) with
          | some reso => fun w => ((Cond.internalResolve reso (extractDomain q.name) r w.2).1,
              ((Cond.internalResolve reso (extractDomain q.name) r w.2).2.1, (Cond.internalResolve reso (extractDomain q.name) r w.2).2.2))
          | none => ofM k r
      else ofM k r := by
    intro V m k
    funext w
    simp only [ofM, Cond.conditional]
    split
    · cases r.req.question with
      | nil => rfl
      | cons q _ =>
        simp only
        cases Cond.lookup m (extractDomain q.name) <;> rfl
    · rfl
  rw [e1, e1, hlen]
  split
  · cases r.req.question with
    | nil => exact mirrors_pure (fun _ => Outcome.panic) (fun _ => r.req)
    | cons q _ =>
      simp only
      rcases zones_lookup c.condMapping (extractDomain q.name) with ⟨z, u, h1, h2, h3⟩ | ⟨h2, h3⟩
      · rw [h2, h3]
        simp only
        have e2 : ∀ {V : Type} (reso : Resolver V) (d : Str) (w : Msg × V),
            ((Cond.internalResolve reso d r w.2).1, ((Cond.internalResolve reso d r w.2).2.1, (Cond.internalResolve reso d r w.2).2.2)) =
            (fun (o : Outcome) (w : Msg × V) => (fromZone d o, ({ r.req with question := Cond.setName (fqdn d) r.req.question }, w.2)))
              (reso { r with req := { r.req with question := Cond.setName (fqdn d) r.req.question } } w.2).1
              (w.1, (reso { r with req := { r.req with question := Cond.setName (fqdn d) r.req.question } } w.2).2) := by
          intro V reso d w
          simp only [Cond.internalResolve]
          generalize reso _ w.2 = y
          obtain ⟨o, w1⟩ := y
          cases o <;> rfl
        refine mirrors_congr ?_ (fun w => e2 _ _ w) (fun w => e2 _ _ w)
        exact mirrors_bind (mirrors_ask (u := u) (zone := some z)
            { r with req := { r.req with question := Cond.setName (fqdn (extractDomain q.name)) r.req.question } } (by simp only [answerTo, h1]))
          (fun o => mirrors_pure (fun _ => fromZone (extractDomain q.name) o)
            (fun _ => { r.req with question := Cond.setName (fqdn (extractDomain q.name)) r.req.question }))
      · rw [h2, h3]
        exact hk r
  · exact hk r

theorem mirrors_cond {emb : Unit → Sys E} : MirrorsR c up emb (Threads.cond c up) (Chain.cond c up) :=
  logic_ofM (L := mirrorsLogic c up _) (logic_newRewriter (L := mirrorsLogic c up _) _ _ (fun hk => mirrors_conditional hk) (logic_toM (L := mirrorsLogic c up _) mirrors_tail))

/-! ### The caches and the query log -/

/-- The shared state. -/
def embCache (names : St (List Str)) (queue : QueryLog.Queue) (threads : List (Thread E)) (p : Caching.CState × Unit) : Sys E :=
  { names := names, queue := queue, cache := p.1, threads := threads }

/-- The shared state. -/
def embQueue (names : St (List Str)) (threads : List (Thread E)) (p : QueryLog.Queue × Caching.CState × Unit) : Sys E :=
  embCache names p.1 threads p.2

/-- The shared state. -/
def embWorld (threads : List (Thread E)) (p : World Unit) : Sys E := embQueue p.1 threads p.2

theorem mirrors_keepAll (ns : St (List Str)) (qu : QueryLog.Queue) (ts : List (Thread E)) (env : Caching.Env) (cc : Caching.Cfg)
    (key : Str) (m : Msg) (ttl : Int) (a : X) :
    Mirrors c up (embCache ns qu ts) (fun w => (a, (w.1, keepAll (Caching.putOps env cc key m ttl) w.2)))
      (fun w => (a, (w.1, ({ w.2.1 with main := run w.2.1.main (Caching.putOps env cc key m ttl) }, w.2.2)))) := by
  have one : ∀ (m : Msg) (ttl : Int), Mirrors c up (embCache ns qu ts) (fun w => (a, (w.1, keepAll [.put key m ttl] w.2)))
      (fun w => (a, (w.1, ({ w.2.1 with main := run w.2.1.main [.put key m ttl] }, w.2.2)))) := by
    intro m ttl
    exact mirrors_bind (mirrors_op (c := c) (up := up) (emb := embCache ns qu ts) (X := Unit) (.keep key m ttl) (fun _ => .done)
      (F := fun v => ((), keep key m ttl v))
      (G := fun (p : Caching.CState × Unit) => ((), ({ p.1 with main := step p.1.main (.put key m ttl) }, p.2)))
      (fun x rest => rfl) rfl (fun o => rfl) (fun s => rfl)) (fun _ => logic_ret (L := mirrorsLogic c up _) a)
  have none' : Mirrors c up (embCache ns qu ts) (fun w => (a, (w.1, keepAll [] w.2)))
      (fun w => (a, (w.1, ({ w.2.1 with main := run w.2.1.main [] }, w.2.2)))) := logic_ret (L := mirrorsLogic c up _) a
  unfold Caching.putOps
  simp only
  split
  · split
    · exact one _ _
    · split
      · split
        · exact one _ _
        · exact none'
      · exact none'
  · exact none'

theorem mirrors_find (ns : St (List Str)) (qu : QueryLog.Queue) (ts : List (Thread E)) (key : Str) :
    Mirrors c up (embCache ns qu ts) (fun w => ((find key w.2).1, (w.1, (find key w.2).2)))
      (fun w => ((Caching.cacheGet c.cache w.2.1 key).1, (w.1, ((Caching.cacheGet c.cache w.2.1 key).2, w.2.2)))) := by
  refine mirrors_op (c := c) (up := up) (emb := embCache ns qu ts) (F := find key) (G := fun p => ((Caching.cacheGet c.cache p.1 key).1, ((Caching.cacheGet c.cache p.1 key).2, p.2)))
    (.find key) Res.found ?_ rfl (fun o => rfl) (fun s => rfl)
  intro x rest
  simp [find]

theorem mirrors_caching (ns : St (List Str)) (qu : QueryLog.Queue) (ts : List (Thread E)) (env : Caching.Env) {n' : MR Unit}
    (h : ∀ s, MirrorsR c up (fun v => embCache ns qu ts (s, v)) n n') :
    MirrorsR c up (embCache ns qu ts) (Threads.caching env c.cache n) (Chain.caching env c.cache n') := by
  intro r
  have hl : Mirrors c up (embCache ns qu ts) (n r)
      (fun w => ((n' r (w.1, w.2.2)).1, ((n' r (w.1, w.2.2)).2.1, (w.2.1, (n' r (w.1, w.2.2)).2.2)))) :=
    mirrors_lift noCache (fun s => h s r)
  by_cases hc : (!c.cache.enabled || !Caching.isRequestCacheable r.req) = true
  · refine mirrors_congr hl (fun w => ?_) (fun w => ?_)
    · simp only [Threads.caching, hc, if_true]
    · simp only [Chain.caching, Caching.resolve, hc, if_true]
  · have loop : ∀ (qs : List Question) (last : Outcome), Mirrors c up (embCache ns qu ts) (cachingLoop env c.cache n r qs last)
        (fun w => ((Caching.resolveLoop env c.cache n' r qs last w.2.1 (w.1, w.2.2)).1,
          ((Caching.resolveLoop env c.cache n' r qs last w.2.1 (w.1, w.2.2)).2.2.1,
            ((Caching.resolveLoop env c.cache n' r qs last w.2.1 (w.1, w.2.2)).2.1,
              (Caching.resolveLoop env c.cache n' r qs last w.2.1 (w.1, w.2.2)).2.2.2)))) := by
      intro qs
      induction qs with
      | nil => intro last; exact logic_ret (L := mirrorsLogic c up _) last
      | cons q qs ih =>
        intro last
        have hmiss : Mirrors c up (embCache ns qu ts)
            (fun w => match n r w with
              | (.ok x, (m1, v1)) => cachingLoop env c.cache n r qs (.ok (Caching.adjusted c.cache x))
                  (m1, keepAll (Caching.putOps env c.cache (Caching.questionKey q) (Caching.adjusted c.cache x).res
                    (Caching.adjustTTLs c.cache x.res.answer).2) v1)
              | (.err e, w1) => cachingLoop env c.cache n r qs (.err e) w1
              | (.noResponse, w1) => (.panic, w1)
              | (.panic, w1) => (.panic, w1))
            (fun w => match n' r (w.1, w.2.2) with
              | (.ok x, w1) => ((Caching.resolveLoop env c.cache n' r qs (.ok (Caching.adjusted c.cache x)) (Caching.store env c.cache w.2.1 (Caching.questionKey q) x) w1).1,
                  ((Caching.resolveLoop env c.cache n' r qs (.ok (Caching.adjusted c.cache x)) (Caching.store env c.cache w.2.1 (Caching.questionKey q) x) w1).2.2.1,
                  ((Caching.resolveLoop env c.cache n' r qs (.ok (Caching.adjusted c.cache x)) (Caching.store env c.cache w.2.1 (Caching.questionKey q) x) w1).2.1,
                  (Caching.resolveLoop env c.cache n' r qs (.ok (Caching.adjusted c.cache x)) (Caching.store env c.cache w.2.1 (Caching.questionKey q) x) w1).2.2.2)))
              | (.err e, w1) => ((Caching.resolveLoop env c.cache n' r qs (.err e) w.2.1 w1).1,
                  ((Caching.resolveLoop env c.cache n' r qs (.err e) w.2.1 w1).2.2.1,
                  ((Caching.resolveLoop env c.cache n' r qs (.err e) w.2.1 w1).2.1, (Caching.resolveLoop env c.cache n' r qs (.err e) w.2.1 w1).2.2.2)))
              | (.noResponse, w1) => (.panic, (w1.1, (w.2.1, w1.2)))
              | (.panic, w1) => (.panic, (w1.1, (w.2.1, w1.2)))) := by
          refine mirrors_congr (mirrors_bind hl
            (k := fun o w => match o with
              | .ok x => cachingLoop env c.cache n r qs (.ok (Caching.adjusted c.cache x))
                  (w.1, keepAll (Caching.putOps env c.cache (Caching.questionKey q) (Caching.adjusted c.cache x).res
                    (Caching.adjustTTLs c.cache x.res.answer).2) w.2)
              | .err e => cachingLoop env c.cache n r qs (.err e) w
              | .noResponse => (.panic, w)
              | .panic => (.panic, w))
            (l := fun o w => match o with
              | .ok x => ((Caching.resolveLoop env c.cache n' r qs (.ok (Caching.adjusted c.cache x)) (Caching.store env c.cache w.2.1 (Caching.questionKey q) x) (w.1, w.2.2)).1,
                  ((Caching.resolveLoop env c.cache n' r qs (.ok (Caching.adjusted c.cache x)) (Caching.store env c.cache w.2.1 (Caching.questionKey q) x) (w.1, w.2.2)).2.2.1,
                  ((Caching.resolveLoop env c.cache n' r qs (.ok (Caching.adjusted c.cache x)) (Caching.store env c.cache w.2.1 (Caching.questionKey q) x) (w.1, w.2.2)).2.1,
                  (Caching.resolveLoop env c.cache n' r qs (.ok (Caching.adjusted c.cache x)) (Caching.store env c.cache w.2.1 (Caching.questionKey q) x) (w.1, w.2.2)).2.2.2)))
              | .err e => ((Caching.resolveLoop env c.cache n' r qs (.err e) w.2.1 (w.1, w.2.2)).1,
                  ((Caching.resolveLoop env c.cache n' r qs (.err e) w.2.1 (w.1, w.2.2)).2.2.1,
                  ((Caching.resolveLoop env c.cache n' r qs (.err e) w.2.1 (w.1, w.2.2)).2.1, (Caching.resolveLoop env c.cache n' r qs (.err e) w.2.1 (w.1, w.2.2)).2.2.2)))
              | .noResponse => (.panic, w)
              | .panic => (.panic, w)) (fun o => ?_)) (fun w => ?_) (fun w => ?_)
          · cases o with
            | ok x => exact mirrors_bind (mirrors_keepAll ns qu ts env c.cache (Caching.questionKey q) _ _ ()) (fun _ => ih _)
            | err e => exact ih _
            | noResponse => exact logic_ret (L := mirrorsLogic c up _) _
            | panic => exact logic_ret (L := mirrorsLogic c up _) _
          · generalize n r w = y
            obtain ⟨o, m1, v1⟩ := y
            cases o <;> rfl
          · generalize n' r (w.1, w.2.2) = y
            obtain ⟨o, m1, v1⟩ := y
            cases o <;> rfl
        refine mirrors_congr (mirrors_bind (mirrors_find ns qu ts (Caching.questionKey q))
          (k := fun x w => match x with
            | some (m, ttl) => (.ok (Caching.hitResponse r.req m ttl), w)
            | none => match n r w with
              | (.ok x, (m1, v1)) => cachingLoop env c.cache n r qs (.ok (Caching.adjusted c.cache x))
                  (m1, keepAll (Caching.putOps env c.cache (Caching.questionKey q) (Caching.adjusted c.cache x).res
                    (Caching.adjustTTLs c.cache x.res.answer).2) v1)
              | (.err e, w1) => cachingLoop env c.cache n r qs (.err e) w1
              | (.noResponse, w1) => (.panic, w1)
              | (.panic, w1) => (.panic, w1))
          (l := fun x w => match x with
            | some (m, ttl) => (.ok (Caching.hitResponse r.req m ttl), w)
            | none => match n' r (w.1, w.2.2) with
              | (.ok x, w1) => ((Caching.resolveLoop env c.cache n' r qs (.ok (Caching.adjusted c.cache x)) (Caching.store env c.cache w.2.1 (Caching.questionKey q) x) w1).1,
                  ((Caching.resolveLoop env c.cache n' r qs (.ok (Caching.adjusted c.cache x)) (Caching.store env c.cache w.2.1 (Caching.questionKey q) x) w1).2.2.1,
                  ((Caching.resolveLoop env c.cache n' r qs (.ok (Caching.adjusted c.cache x)) (Caching.store env c.cache w.2.1 (Caching.questionKey q) x) w1).2.1,
                  (Caching.resolveLoop env c.cache n' r qs (.ok (Caching.adjusted c.cache x)) (Caching.store env c.cache w.2.1 (Caching.questionKey q) x) w1).2.2.2)))
              | (.err e, w1) => ((Caching.resolveLoop env c.cache n' r qs (.err e) w.2.1 w1).1,
                  ((Caching.resolveLoop env c.cache n' r qs (.err e) w.2.1 w1).2.2.1,
                  ((Caching.resolveLoop env c.cache n' r qs (.err e) w.2.1 w1).2.1, (Caching.resolveLoop env c.cache n' r qs (.err e) w.2.1 w1).2.2.2)))
              | (.noResponse, w1) => (.panic, (w1.1, (w.2.1, w1.2)))
              | (.panic, w1) => (.panic, (w1.1, (w.2.1, w1.2)))) (fun x => ?_)) (fun w => ?_) (fun w => ?_)
        · cases x with
          | some y => exact logic_ret (L := mirrorsLogic c up _) _
          | none => exact hmiss
        · rw [cachingLoop]
          generalize find (Caching.questionKey q) w.2 = y
          obtain ⟨o, v⟩ := y
          cases o with
          | some y => rfl
          | none =>
            simp only
            generalize n r (w.1, v) = z
            obtain ⟨o, m1, v1⟩ := z
            cases o <;> rfl
        · rw [Caching.resolveLoop]
          generalize Caching.cacheGet c.cache w.2.1 (Caching.questionKey q) = y
          obtain ⟨o, v⟩ := y
          cases o with
          | some y => rfl
          | none =>
            simp only
            generalize n' r (w.1, w.2.2) = z
            obtain ⟨o, m1, v1⟩ := z
            cases o <;> rfl
    refine mirrors_congr (loop r.req.question .noResponse) (fun w => ?_) (fun w => ?_)
    · simp only [Threads.caching, hc]
      rfl
    · simp only [Chain.caching, Caching.resolve, hc]
      rfl

theorem mirrors_queryLog (ns : St (List Str)) (ts : List (Thread E)) (cfg : QueryLog.Cfg) (env : QueryLog.Env) (start dur : Int)
    {n' : MR (Caching.CState × Unit)} (h : ∀ q, MirrorsR c up (fun v => embQueue ns ts (q, v)) n n') (q0 : QueryLog.Queue) :
    MirrorsR c up (embQueue ns ts) (ofM (Threads.queryLog cfg env start dur (toM n))) (Chain.queryLog cfg env start dur n') := by
  intro r
  have hl : Mirrors c up (embQueue ns ts) (fun w => n r (r.req, w.2))
      (fun w => ((n' r (r.req, w.2.2)).1, ((n' r (r.req, w.2.2)).2.1, (w.2.1, (n' r (r.req, w.2.2)).2.2)))) :=
    mirrors_with (mirrors_lift q0 (fun s => h s r)) (fun _ => r.req)
  refine mirrors_congr (mirrors_bind hl
    (k := fun o w => match o with
      | .ok x => match QueryLog.createLogEntry cfg env r w.1 x start dur with
        | none => (Outcome.panic, w)
        | some entry => if QueryLog.ignore cfg x then (.ok x, w) else (.ok x, (w.1, log entry w.2))
      | .err e => (.err e, w)
      | _ => (.panic, w))
    (l := fun o w => match o with
      | .ok x => match QueryLog.createLogEntry cfg env r w.1 x start dur with
        | none => (Outcome.panic, w)
        | some entry => if QueryLog.ignore cfg x then (.ok x, w) else (.ok x, (w.1, (QueryLog.offer w.2.1 entry, w.2.2)))
      | .err e => (.err e, w)
      | _ => (.panic, w)) (fun o => ?_)) (fun w => ?_) (fun w => ?_)
  · cases o with
    | ok x =>
      refine mirrors_msg (k := fun m w => match QueryLog.createLogEntry cfg env r m x start dur with
          | none => (Outcome.panic, w)
          | some entry => if QueryLog.ignore cfg x then (.ok x, w) else (.ok x, (w.1, log entry w.2)))
        (l := fun m w => match QueryLog.createLogEntry cfg env r m x start dur with
          | none => (Outcome.panic, w)
          | some entry => if QueryLog.ignore cfg x then (.ok x, w) else (.ok x, (w.1, (QueryLog.offer w.2.1 entry, w.2.2)))) (fun m => ?_)
      cases QueryLog.createLogEntry cfg env r m x start dur with
      | none => exact logic_ret (L := mirrorsLogic c up _) _
      | some entry =>
        simp only
        split
        · exact logic_ret (L := mirrorsLogic c up _) _
        · exact mirrors_bind (mirrors_op (X := Unit) (.log entry) (fun _ => .done) (F := fun v => ((), log entry v))
            (G := fun p => ((), (QueryLog.offer p.1 entry, p.2))) (fun x rest => rfl) rfl (fun o => rfl) (fun s => rfl))
            (fun _ => logic_ret (L := mirrorsLogic c up _) _)
    | err e => exact logic_ret (L := mirrorsLogic c up _) _
    | noResponse => exact logic_ret (L := mirrorsLogic c up _) _
    | panic => exact logic_ret (L := mirrorsLogic c up _) _
  · simp only [ofM, Threads.queryLog, toM]
    generalize n r (r.req, w.2) = y
    obtain ⟨o, m1, v⟩ := y
    cases o with
    | ok x =>
      simp only
      cases QueryLog.createLogEntry cfg env r m1 x start dur with
      | none => rfl
      | some entry => simp only
    | _ => rfl
  · simp only [Chain.queryLog, ofM, QueryLog.resolve, toM]
    generalize n' r (r.req, w.2.2) = y
    obtain ⟨o, m1, v⟩ := y
    cases o with
    | ok x =>
      simp only
      cases QueryLog.createLogEntry cfg env r m1 x start dur with
      | none => rfl
      | some entry => simp only
    | _ => rfl

/-- The lookup of client names always gives the same, and does not touch the answer cache. -/
def Detached (c : Config E Unit) : Prop := ∀ l, c.namesLookup = some l → ∀ ip s, l ip s = ((l ip (noCache, ())).1, s)

theorem mirrors_askNames (emb : QueryLog.Queue × Caching.CState × Unit → Sys E) (hd : Detached c) {l : ClientNames.Lookup (Caching.CState × Unit)}
    (hl : c.namesLookup = some l) (ip : IP) :
    Mirrors c up emb (fun w => ((askNames l ip w.2).1, (w.1, (askNames l ip w.2).2)))
      (fun w => ((liftLookup l ip w.2).1, (w.1, (liftLookup l ip w.2).2))) := by
  refine mirrors_op (c := c) (up := up) (emb := emb) (F := askNames l ip) (G := liftLookup l ip) (.askNames ip) Res.records ?_ rfl (fun o => rfl)
    (fun s => ?_)
  · intro x rest
    simp [askNames]
  · simp only [perform, recordsFor, hl, liftLookup]
    rw [hd l hl ip s.2]

theorem mirrors_resolveNames (emb : QueryLog.Queue × Caching.CState × Unit → Sys E) (hd : Detached c) (cfg : ClientNames.Cfg) (ip : IP) :
    Mirrors c up emb
      (fun w => ((ClientNames.resolveClientNames cfg (c.namesLookup.map askNames) ip w.2).1,
        (w.1, (ClientNames.resolveClientNames cfg (c.namesLookup.map askNames) ip w.2).2)))
      (fun w => ((ClientNames.resolveClientNames cfg (c.namesLookup.map liftLookup) ip w.2).1,
        (w.1, (ClientNames.resolveClientNames cfg (c.namesLookup.map liftLookup) ip w.2).2))) := by
  unfold ClientNames.resolveClientNames
  split
  · exact logic_ret (L := mirrorsLogic c up _) _
  · cases hl : c.namesLookup with
    | none => exact logic_ret (L := mirrorsLogic c up _) _
    | some l =>
      simp only [Option.map_some]
      refine mirrors_congr (mirrors_map (mirrors_askNames emb hd hl ip) (fun x => match x with
        | none => [cfg.ipString ip]
        | some answer => if cfg.order.length > 0 then ClientNames.pickName (ClientNames.fromAnswer cfg answer ip) cfg.order
            else ClientNames.fromAnswer cfg answer ip)) (fun w => ?_) (fun w => ?_)
      · generalize askNames l ip w.2 = y
        obtain ⟨o, v⟩ := y
        cases o with
        | none => rfl
        | some a => simp only; split <;> rfl
      · generalize liftLookup l ip w.2 = y
        obtain ⟨o, v⟩ := y
        cases o with
        | none => rfl
        | some a => simp only; split <;> rfl

theorem mirrors_getNames (ts : List (Thread E)) (hd : Detached c) (cfg : ClientNames.Cfg) (r : Request) (n0 : St (List Str)) :
    Mirrors c up (embWorld ts)
      (fun w => ((Threads.getNames cfg (c.namesLookup.map askNames) r w.2).1, (w.1, (Threads.getNames cfg (c.namesLookup.map askNames) r w.2).2)))
      (fun w => ((ClientNames.getClientNames cfg (c.namesLookup.map liftLookup) r w.2.1 w.2.2).1,
        (w.1, (ClientNames.getClientNames cfg (c.namesLookup.map liftLookup) r w.2.1 w.2.2).2))) := by
  unfold Threads.getNames ClientNames.getClientNames
  split
  · exact logic_ret (L := mirrorsLogic c up _) _
  · cases r.clientIP with
    | none => exact logic_ret (L := mirrorsLogic c up _) _
    | some ip =>
      simp only
      have hf : Mirrors c up (embWorld ts) (fun w => ((findNames (cfg.ipString ip) w.2).1, (w.1, (findNames (cfg.ipString ip) w.2).2)))
          (fun w => (((w.2.1.cache.get w.2.1.now (cfg.ipString ip)).1.map Prod.fst),
            (w.1, ({ w.2.1 with cache := (w.2.1.cache.get w.2.1.now (cfg.ipString ip)).2 }, w.2.2)))) := by
        refine mirrors_op (c := c) (up := up) (emb := embWorld ts) (F := findNames (cfg.ipString ip))
          (G := fun (p : World Unit) => (((p.1.cache.get p.1.now (cfg.ipString ip)).1.map Prod.fst),
            ({ p.1 with cache := (p.1.cache.get p.1.now (cfg.ipString ip)).2 }, p.2))) (.findNames (cfg.ipString ip)) Res.names ?_ rfl
          (fun o => rfl) (fun s => rfl)
        intro x rest
        simp [findNames]
      have hmiss : Mirrors c up (embWorld ts)
          (fun w => ((ClientNames.resolveClientNames cfg (c.namesLookup.map askNames) ip w.2).1,
            (w.1, keepNames (cfg.ipString ip) (ClientNames.resolveClientNames cfg (c.namesLookup.map askNames) ip w.2).1
              (ClientNames.resolveClientNames cfg (c.namesLookup.map askNames) ip w.2).2)))
          (fun w => ((ClientNames.resolveClientNames cfg (c.namesLookup.map liftLookup) ip w.2.2).1,
            (w.1, (step w.2.1 (.put (cfg.ipString ip) (ClientNames.resolveClientNames cfg (c.namesLookup.map liftLookup) ip w.2.2).1
              ClientNames.hour), (ClientNames.resolveClientNames cfg (c.namesLookup.map liftLookup) ip w.2.2).2)))) :=
        mirrors_bind (mirrors_lift n0 (fun s => mirrors_resolveNames (fun v => embWorld ts (s, v)) hd cfg ip))
          (k := fun names w => (names, (w.1, keepNames (cfg.ipString ip) names w.2)))
          (l := fun names w => (names, (w.1, (step w.2.1 (.put (cfg.ipString ip) names ClientNames.hour), w.2.2))))
          (fun names => mirrors_bind (mirrors_op (c := c) (up := up) (emb := embWorld ts) (X := Unit) (.keepNames (cfg.ipString ip) names)
            (fun _ => .done) (F := fun v => ((), keepNames (cfg.ipString ip) names v))
            (G := fun (p : World Unit) => ((), (step p.1 (.put (cfg.ipString ip) names ClientNames.hour), p.2)))
            (fun x rest => rfl) rfl (fun o => rfl) (fun s => rfl)) (fun _ => logic_ret (L := mirrorsLogic c up _) names))
      refine mirrors_congr (mirrors_bind hf
        (k := fun x w => match x with
          | some names => (names, w)
          | none => ((ClientNames.resolveClientNames cfg (c.namesLookup.map askNames) ip w.2).1,
            (w.1, keepNames (cfg.ipString ip) (ClientNames.resolveClientNames cfg (c.namesLookup.map askNames) ip w.2).1
              (ClientNames.resolveClientNames cfg (c.namesLookup.map askNames) ip w.2).2)))
        (l := fun x w => match x with
          | some names => (names, w)
          | none => ((ClientNames.resolveClientNames cfg (c.namesLookup.map liftLookup) ip w.2.2).1,
            (w.1, (step w.2.1 (.put (cfg.ipString ip) (ClientNames.resolveClientNames cfg (c.namesLookup.map liftLookup) ip w.2.2).1
              ClientNames.hour), (ClientNames.resolveClientNames cfg (c.namesLookup.map liftLookup) ip w.2.2).2)))) (fun x => ?_))
        (fun w => ?_) (fun w => ?_)
      · cases x with
        | some names => exact logic_ret (L := mirrorsLogic c up _) _
        | none => exact hmiss
      · generalize findNames (cfg.ipString ip) w.2 = y
        obtain ⟨o, v⟩ := y
        cases o <;> rfl
      · generalize w.2.1.cache.get w.2.1.now (cfg.ipString ip) = y
        obtain ⟨o, v⟩ := y
        cases o <;> rfl

theorem mirrors_clientNames (ts : List (Thread E)) (hd : Detached c) (cfg : ClientNames.Cfg) (n0 : St (List Str))
    {n' : MR (QueryLog.Queue × Caching.CState × Unit)} (h : ∀ s, MirrorsR c up (fun v => embWorld ts (s, v)) n n') :
    MirrorsR c up (embWorld ts) (Threads.clientNames cfg (c.namesLookup.map askNames) n)
      (Chain.clientNames cfg (c.namesLookup.map liftLookup) n') := by
  intro r
  exact mirrors_bind (mirrors_getNames ts hd cfg r n0)
    (k := fun names w => n { r with clientNames := names } w)
    (l := fun names w => ((n' { r with clientNames := names } (w.1, w.2.2)).1, ((n' { r with clientNames := names } (w.1, w.2.2)).2.1,
      (w.2.1, (n' { r with clientNames := names } (w.1, w.2.2)).2.2))))
    (fun names => mirrors_lift n0 (fun s => h s _))

/-! ### The whole server -/

theorem mirrors_local (ns : St (List Str)) (qu : QueryLog.Queue) (ts : List (Thread E)) (hd : (aliases c.customMapping).length < c.customDepth) :
    MirrorsR c up (embCache ns qu ts) (Threads.locally c up) (Chain.local c up) :=
  logic_ofM (L := mirrorsLogic c up _) (logic_newRewriter (L := mirrorsLogic c up _) _ _ (fun hk => logic_toM (L := mirrorsLogic c up _) (logic_customDns (L := mirrorsLogic c up _) _ _ _ _ hd (logic_ofM (L := mirrorsLogic c up _) hk)))
    (logic_toM (L := mirrorsLogic c up _) (logic_hosts (L := mirrorsLogic c up _) _ _ _ _ _ (logic_blocking (L := mirrorsLogic c up _) _ _ (mirrors_caching ns qu ts _ (fun _ => mirrors_cond))))))

theorem mirrors_whole (ts : List (Thread E)) (hd : (aliases c.customMapping).length < c.customDepth) (hn : Detached c) (w : World Unit) :
    MirrorsR c up (embWorld ts) (Threads.whole c up) (Chain.whole c up) :=
  logic_filtering (L := mirrorsLogic c up _) _ (logic_fqdnOnly (L := mirrorsLogic c up _) _ (logic_ecs (L := mirrorsLogic c up _) _ (mirrors_clientNames ts hn _ w.1 (fun ns =>
    logic_ede (L := mirrorsLogic c up _) _ (mirrors_queryLog ns ts _ _ _ _ (fun qu => logic_metrics (L := mirrorsLogic c up _) _ (mirrors_local ns qu ts hd)) w.2.1)))))

end

/-- The i-th goroutine makes so many steps, nothing comes between; upstreams answer as `up`, the upstreams of the zones of `c` and its lookup of
client names do. -/
def alone (senv : Server.Env) (c : Config E Unit) (up : Resolver Unit) (i : Nat) : Nat → Sys E → Sys E
  | 0, s => s
  | k + 1, s =>
    alone senv c up i k
      (match s.threads[i]?.bind (Thread.next senv up) with
       | some op => advance senv up s (.move i (answerTo c up op) (recordsFor c op))
       | none => s)

theorem perform_threads (c : Config E Unit) (s : Sys E) (ts : List (Thread E)) (o : Outcome) (x : Option (List RR)) (op : Threads.Op) :
    perform c { s with threads := ts } o x op = ((perform c s o x op).1, { (perform c s o x op).2 with threads := ts }) := by
  cases op <;> rfl

theorem alone_steps (senv : Server.Env) {c : Config E Unit} {up : Resolver Unit} {i : Nat} {j : Job E} (hj : j.config = c)
    {es : List (Threads.Op × Res)} (hnext : ∀ p e q, es = p ++ e :: q → ({ job := j, made := p } : Thread E).next senv up = some e.1)
    {s' : Sys E} : ∀ (q p : List (Threads.Op × Res)) (s : Sys E), es = p ++ q → Stepwise c up { s with threads := [] } q s' →
      s.threads[i]? = some { job := j, made := p } →
      alone senv c up i q.length s = { s' with threads := s.threads.set i { job := j, made := es } } := by
  intro q
  induction q with
  | nil =>
    intro p s hes hst hi
    rw [List.append_nil] at hes
    subst hes
    cases hst
    obtain ⟨h, hi'⟩ := List.getElem?_eq_some_iff.1 hi
    have : s.threads.set i { job := j, made := es } = s.threads := by
      rw [← hi']
      exact List.set_getElem_self h
    rw [this]
    rfl
  | cons e q ih =>
    intro p s hes hst hi
    obtain ⟨s1, h1, h2⟩ := hst
    have hn := hnext p e q hes
    rw [perform_threads] at h1
    have hlen := (List.getElem?_eq_some_iff.1 hi).1
    show alone senv c up i (q.length + 1) s = _
    rw [alone, hi, Option.bind_some, hn]
    simp only [advance, hi, hn, hj]
    have e1 : (perform c s (answerTo c up e.1) (recordsFor c e.1) e.1).1 = e.2 := congrArg Prod.fst h1
    have e2 : { (perform c s (answerTo c up e.1) (recordsFor c e.1) e.1).2 with threads := [] } = s1 := congrArg Prod.snd h1
    rw [ih (p ++ [e]) _ (by rw [hes, List.append_assoc]; rfl)]
    · simp only [List.set_set]
    · rw [← e2] at h2
      exact h2
    · simp only [e1]
      rw [List.getElem?_set_self hlen]

theorem onRequest_mirrors (senv : Server.Env) {c : Config E Unit} {up : Resolver Unit} {emb : V → Sys E} {n : MR Replay} {n' : MR V}
    (h : MirrorsR c up emb n n') (remote : Server.Addr) (sni : Option Str) (msg : Msg) (s : V) :
    ∃ es, Stepwise c up (emb s) es (emb (Server.onRequest senv (toM n') remote sni msg s).2) ∧
      Server.onRequest senv (toM n) remote sni msg ⟨es, none⟩ = ((Server.onRequest senv (toM n') remote sni msg s).1, ⟨[], none⟩) ∧
      ∀ p e q, es = p ++ e :: q → (Server.onRequest senv (toM n) remote sni msg ⟨p, none⟩).2 = ⟨[], some e.1⟩ := by
  unfold Server.onRequest Server.handleReq Server.resolve
  obtain ⟨es, h1, h2, h3⟩ := (h (Server.newRequestFromDNS remote sni msg)).2 (Server.newRequestFromDNS remote sni msg).req s
  have h2 := h2 []
  rw [List.append_nil] at h2
  cases (Server.newRequestFromDNS remote sni msg).req.question with
  | nil => exact ⟨[], rfl, rfl, fun p e q hp => by cases p <;> simp at hp⟩
  | cons q0 qs0 =>
    refine ⟨es, ?_, ?_, ?_⟩
    · simp only [toM]
      generalize n' _ _ = y at h1 ⊢
      obtain ⟨o, m1, s1⟩ := y
      cases o with
      | err e => simp only; cases senv.asUpstream e <;> exact h1
      | _ => exact h1
    · simp only [toM, h2]
      generalize n' _ _ = y
      obtain ⟨o, m1, s1⟩ := y
      cases o with
      | err e => simp only; cases senv.asUpstream e <;> rfl
      | _ => rfl
    · intro p e q hp
      have h3 := h3 p e q hp
      simp only [toM]
      generalize n _ (_, ⟨p, none⟩) = y at h3 ⊢
      obtain ⟨o, m1, v1⟩ := y
      cases h3
      cases o with
      | err e => simp only; cases senv.asUpstream e <;> rfl
      | _ => rfl

/-- **C121, alone.** A query that has just arrived and whose steps nothing comes between is done after some of them: it is answered with
the messages of the chain of resolvers run in one go on the present caches and query log, it leaves these as that run does, and the other
goroutines are as they were. -/
theorem C121_alone (senv : Server.Env) (c : Config E Unit) (up : Resolver Unit) (hd : (aliases c.customMapping).length < c.customDepth)
    (hn : Detached c) (s : Sys E) (i : Nat) (remote : Server.Addr) (sni : Option Str) (msg : Msg)
    (hi : s.threads[i]? = some { job := .query c remote sni msg }) :
    ∃ k, ((alone senv c up i k s).threads[i]?.bind (Thread.reply senv up)) =
        some (Chain.serve senv c up remote sni msg (s.names, s.queue, s.cache, ())).1 ∧
      ((alone senv c up i k s).names, (alone senv c up i k s).queue, (alone senv c up i k s).cache, ()) =
        (Chain.serve senv c up remote sni msg (s.names, s.queue, s.cache, ())).2 ∧
      ∀ j, j ≠ i → (alone senv c up i k s).threads[j]? = s.threads[j]? := by
  obtain ⟨es, h1, h2, h3⟩ := onRequest_mirrors senv
    (mirrors_whole (up := up) (ts := ([] : List (Thread E))) hd hn (s.names, s.queue, s.cache, ())) remote sni msg (s.names, s.queue, s.cache, ())
  have hlen := (List.getElem?_eq_some_iff.1 hi).1
  have ha := alone_steps senv (i := i) (j := .query c remote sni msg) (c := c) (up := up) rfl (es := es)
    (fun p e q hp => by
      have := h3 p e q hp
      show (Server.onRequest senv (toM (Threads.whole c up)) remote sni msg ⟨p, none⟩).2.wish = _
      rw [this]) es [] s rfl h1 hi
  refine ⟨es.length, ?_, ?_, ?_⟩
  · rw [ha]
    simp only
    rw [List.getElem?_set_self hlen, Option.bind_some]
    have hrun : (({ job := .query c remote sni msg, made := es } : Thread E).run senv up) =
        ((Chain.serve senv c up remote sni msg (s.names, s.queue, s.cache, ())).1, ⟨[], none⟩) := h2
    unfold Thread.reply Thread.next
    rw [hrun]
  · rw [ha]
    rfl
  · intro j hj
    rw [ha]
    exact List.getElem?_set_ne (Ne.symm hj)

/-- A goroutine that asks for an entry of the cache again. -/
theorem refresh_mirrors (ns : St (List Str)) (qu : QueryLog.Queue) (ts : List (Thread E)) {c : Config E Unit} {up : Resolver Unit} (key : Str) :
    Mirrors c up (embCache ns qu ts) (fun w => ((), (w.1, refresh c up key w.2)))
      (fun w => ((), (w.1, ((match (Caching.reload c.cacheEnv c.cache (Chain.cond c up) key ({}, ())).1 with
        | some (some (m, ttl)) => { w.2.1 with main := step w.2.1.main (.put key m ttl) }
        | _ => w.2.1), ())))) := by
  refine mirrors_congr (mirrors_msg (k := fun m0 w => ((), (m0, refresh c up key w.2)))
    (l := fun m0 w => ((), (m0, ((match (Caching.reload c.cacheEnv c.cache (Chain.cond c up) key ({}, ())).1 with
        | some (some (m, ttl)) => { w.2.1 with main := step w.2.1.main (.put key m ttl) }
        | _ => w.2.1), ())))) (fun m0 => ?_)) (fun w => rfl) (fun w => rfl)
  have h1 : Mirrors c up (embCache ns qu ts) (fun w => Caching.reload c.cacheEnv c.cache (Threads.cond c up) key ({}, w.2))
      (fun w => ((Caching.reload c.cacheEnv c.cache (Chain.cond c up) key ({}, w.2.2)).1,
        ((Caching.reload c.cacheEnv c.cache (Chain.cond c up) key ({}, w.2.2)).2.1,
          (w.2.1, (Caching.reload c.cacheEnv c.cache (Chain.cond c up) key ({}, w.2.2)).2.2)))) :=
    mirrors_with (mirrors_lift noCache (fun s => logic_reload (L := mirrorsLogic c up (fun v => embCache ns qu ts (s, v))) _ _ key mirrors_cond))
      (fun _ => {})
  refine mirrors_congr (mirrors_bind h1
    (k := fun x w => match x with
      | some (some (m, ttl)) => ((), (m0, keep key m ttl w.2))
      | _ => ((), (m0, w.2)))
    (l := fun x w => match x with
      | some (some (m, ttl)) => ((), (m0, ({ w.2.1 with main := step w.2.1.main (.put key m ttl) }, ())))
      | _ => ((), (m0, w.2))) (fun x => ?_)) (fun w => ?_) (fun w => ?_)
  · match x with
    | some (some (m, ttl)) =>
      exact mirrors_with (mirrors_op (c := c) (up := up) (emb := embCache ns qu ts) (X := Unit) (.keep key m ttl) (fun _ => .done)
        (F := fun v => ((), keep key m ttl v))
        (G := fun (p : Caching.CState × Unit) => ((), ({ p.1 with main := step p.1.main (.put key m ttl) }, ())))
        (fun x rest => rfl) rfl (fun o => rfl) (fun s => rfl)) (fun _ => m0)
    | some none => exact mirrors_pure (fun _ => ()) (fun _ => m0)
    | none => exact mirrors_pure (fun _ => ()) (fun _ => m0)
  · unfold refresh
    generalize Caching.reload c.cacheEnv c.cache (Threads.cond c up) key ({}, w.2) = y
    obtain ⟨o, m1, v⟩ := y
    match o with
    | some (some (m, ttl)) => rfl
    | some none => rfl
    | none => rfl
  · simp only
    generalize Caching.reload c.cacheEnv c.cache (Chain.cond c up) key ({}, ()) = y
    obtain ⟨o, m1, v⟩ := y
    match o with
    | some (some (m, ttl)) => rfl
    | some none => rfl
    | none => rfl

/-- **C121, refreshing alone.** A goroutine that refreshes an expired entry, whose steps nothing comes between, is done after some of them: it
has stored what `reload` gives under the same key, if it gives something, and changed nothing else. -/
theorem C121_refresh_alone (senv : Server.Env) (c : Config E Unit) (up : Resolver Unit) (s : Sys E) (i : Nat) (key : Str)
    (hi : s.threads[i]? = some { job := .refresh c key }) :
    ∃ k, ((alone senv c up i k s).threads[i]?.bind (Thread.next senv up)) = none ∧
      (alone senv c up i k s).names = s.names ∧ (alone senv c up i k s).queue = s.queue ∧
      (alone senv c up i k s).cache = (match (Caching.reload c.cacheEnv c.cache (Chain.cond c up) key ({}, ())).1 with
        | some (some (m, ttl)) => { s.cache with main := step s.cache.main (.put key m ttl) }
        | _ => s.cache) ∧
      ∀ j, j ≠ i → (alone senv c up i k s).threads[j]? = s.threads[j]? := by
  obtain ⟨es, h1, h2, h3⟩ := (refresh_mirrors (c := c) (up := up) s.names s.queue ([] : List (Thread E)) key).2 {} (s.cache, ())
  have h2 := h2 []
  rw [List.append_nil] at h2
  have hlen := (List.getElem?_eq_some_iff.1 hi).1
  have ha := alone_steps senv (i := i) (j := .refresh c key) (c := c) (up := up) rfl (es := es)
    (fun p e q hp => by
      have := h3 p e q hp
      show (refresh c up key ⟨p, none⟩).wish = _
      exact congrArg Replay.wish this) es [] s rfl h1 hi
  refine ⟨es.length, ?_, ?_, ?_, ?_, ?_⟩
  · rw [ha]
    simp only
    rw [List.getElem?_set_self hlen, Option.bind_some]
    exact congrArg (fun x => x.2.2.wish) h2
  · rw [ha]; rfl
  · rw [ha]; rfl
  · rw [ha]; rfl
  · intro j hj
    rw [ha]
    exact List.getElem?_set_ne (Ne.symm hj)

/-! ### A query alone -/

theorem threadsConfig_detached (maxTime : Int) : Detached (threadsConfig maxTime) := by
  intro l hl ip s
  cases hl
  rfl

/-- A query just arrived, the second of two. -/
def arrived (name : Str) : Sys prefixEngine :=
  execute sampleServer bareUp freshSys (planned freshSys [asks 2#32 (str! "a.org."), asks 1#32 name, .go 0 0])

-- Seven steps: client names (looked up, asked for, stored), the cache, the upstream, the cache again, the query log; then it is done.
example : (List.range 9).map (fun k => ((alone sampleServer (threadsConfig 0) bareUp 1 k (arrived (str! "www.org."))).threads[1]?.bind
    (Thread.reply sampleServer bareUp)).map (fun ms => ms.map (fun m => (m.id, m.rcode, m.answer.length)))) =
    [none, none, none, none, none, none, none, some [(5, 0, 1)], some [(5, 0, 1)]] := by decide +kernel

example : ∃ k, ((alone sampleServer (threadsConfig 0) bareUp 1 k (arrived (str! "www.org."))).threads[1]?.bind (Thread.reply sampleServer bareUp)) =
    some (Chain.serve sampleServer (threadsConfig 0) bareUp (.udp (some (.v4 1#32))) none (query (str! "www.org."))
      ((arrived (str! "www.org.")).names, (arrived (str! "www.org.")).queue, (arrived (str! "www.org.")).cache, ())).1 := by
  obtain ⟨k, h, _⟩ := C121_alone sampleServer (threadsConfig 0) bareUp (by decide) (threadsConfig_detached 0) (arrived (str! "www.org.")) 1 _ _ _ rfl
  exact ⟨k, h⟩

end Verif.Props
