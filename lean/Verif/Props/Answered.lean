/-
C122: every query handled at the same time as others is answered, once, with a reply to it.
-/
import Verif.Props.Alone
import Verif.Props.Chain
import Verif.Lemmas.Steps

namespace Verif.Props
open Verif.Dns Verif.Spec Verif.ExpCache Verif.StringCache Verif.Threads Verif.Chain

variable {E : RegexEngine} {X Y : Type}

/-! ### A query does not go on forever -/

/-- A result of the kind a step has. -/
def ResultOf : Threads.Op → Res → Prop
  | .find _, .found _ => True
  | .keep _ _ _, .done => True
  | .findNames _, .names _ => True
  | .keepNames _ _, .done => True
  | .log _, .done => True
  | .ask _ _, .answer _ => True
  | .askNames _, .records _ => True
  | _, _ => False

theorem resultOf_perform (c : Config E Unit) (s : Sys E) (o : Outcome) (x : Option (List RR)) (op : Threads.Op) :
    ResultOf op (perform c s o x op).1 := by
  cases op <;> trivial

/-- A run that comes to an end, whatever the results of its steps. -/
inductive Runs : (List (Threads.Op × Res) → X × (Msg × Replay)) → Prop where
  | ret (F : List (Threads.Op × Res) → X × (Msg × Replay)) (x : X) (m : Msg) (h : ∀ rest, F rest = (x, (m, ⟨rest, none⟩))) : Runs F
  | step (F : List (Threads.Op × Res) → X × (Msg × Replay)) (op : Threads.Op) (h : (F []).2.2.wish = some op)
      (hk : ∀ res, ResultOf op res → Runs (fun rest => F ((op, res) :: rest))) : Runs F

/-- A step once waited for stays so. -/
def Keeps (f : Msg × Replay → X × (Msg × Replay)) : Prop := ∀ m v, v.wish ≠ none → (f (m, v)).2.2.wish = v.wish

theorem runs_bind {F : List (Threads.Op × Res) → X × (Msg × Replay)} {k : X → Msg × Replay → Y × (Msg × Replay)} (h : Runs F)
    (hk : ∀ x, Keeps (k x)) (hr : ∀ x m, Runs (fun todo => k x (m, ⟨todo, none⟩))) : Runs (fun todo => k (F todo).1 (F todo).2) := by
  induction h with
  | ret F x m h =>
    rw [show (fun todo => k (F todo).1 (F todo).2) = fun todo => k x (m, ⟨todo, none⟩) from funext (fun t => by rw [h t])]
    exact hr x m
  | step F op h _ ih =>
    refine .step _ op ?_ ih
    have := hk (F []).1 (F []).2.1 (F []).2.2 (by rw [h]; exact fun x => nomatch x)
    exact this.trans h

/-- The relation of `Lemmas/Logic`; it is about one run. -/
def runsLogic : Logic Replay Replay where
  rel f _ := Keeps f ∧ ∀ m, Runs (fun todo => f (m, ⟨todo, none⟩))
  pure a φ := ⟨fun _ _ _ => rfl, fun m => .ret _ (a m) (φ m) (fun _ => rfl)⟩
  bind {X Y f g k l} h hk := by
    refine ⟨fun m v hv => ?_, fun m => runs_bind (h.2 m) (fun x => (hk x).1) (fun x => (hk x).2)⟩
    have h1 := h.1 m v hv
    have h2 := (hk (f (m, v)).1).1 (f (m, v)).2.1 (f (m, v)).2.2 (by rw [h1]; exact hv)
    exact h2.trans h1

theorem runs_op (op : Threads.Op) {F : Replay → X × Replay}
    (h1 : ∀ res, ResultOf op res → ∃ x, ∀ rest, F ⟨(op, res) :: rest, none⟩ = (x, ⟨rest, none⟩)) (h2 : (F ⟨[], none⟩).2.wish = some op)
    (h3 : ∀ v, v.wish ≠ none → (F v).2.wish = v.wish) : runsLogic.rel (onRun F) (onRun F) := by
  refine ⟨fun m v hv => h3 v hv, fun m => .step _ op h2 (fun res hres => ?_)⟩
  obtain ⟨x, hx⟩ := h1 res hres
  refine .ret _ x m (fun rest => ?_)
  show ((F ⟨(op, res) :: rest, none⟩).1, (m, (F ⟨(op, res) :: rest, none⟩).2)) = _
  rw [hx]

theorem wait_wish (v : Replay) (op : Threads.Op) (h : v.wish ≠ none) : (v.wait op).wish = v.wish := by
  unfold Replay.wait
  cases hv : v.wish with
  | none => exact absurd hv h
  | some x => rfl

theorem runs_ops : OpsOk runsLogic asking asking where
  find k := runs_op (.find k) (fun res hres => by cases res <;> first | exact ⟨_, fun rest => by simp [find]; rfl⟩ | exact hres.elim) rfl
    (fun v hv => by unfold find; split <;> (try split) <;> first | rfl | exact wait_wish v _ hv)
  keep k m ttl := runs_op (.keep k m ttl) (fun res hres => by cases res <;> first | exact ⟨(), fun rest => rfl⟩ | exact hres.elim) rfl
    (fun v hv => by simp only [keep]; split <;> first | rfl | exact wait_wish v _ hv)
  findNames k := runs_op (.findNames k) (fun res hres => by cases res <;> first | exact ⟨_, fun rest => by simp [findNames]; rfl⟩ | exact hres.elim) rfl
    (fun v hv => by unfold findNames; split <;> (try split) <;> first | rfl | exact wait_wish v _ hv)
  keepNames k l := runs_op (.keepNames k l) (fun res hres => by cases res <;> first | exact ⟨(), fun rest => rfl⟩ | exact hres.elim) rfl
    (fun v hv => by simp only [keepNames]; split <;> first | rfl | exact wait_wish v _ hv)
  log e := runs_op (.log e) (fun res hres => by cases res <;> first | exact ⟨(), fun rest => rfl⟩ | exact hres.elim) rfl
    (fun v hv => by simp only [log]; split <;> first | rfl | exact wait_wish v _ hv)
  askNames l ip := runs_op (.askNames ip) (fun res hres => by cases res <;> first | exact ⟨_, fun rest => by simp [askNames]; rfl⟩ | exact hres.elim) rfl
    (fun v hv => by unfold askNames; split <;> (try split) <;> first | rfl | exact wait_wish v _ hv)
  ask z u r := runs_op (.ask z r) (fun res hres => by cases res <;> first | exact ⟨_, fun rest => by simp [asking, ask]; rfl⟩ | exact hres.elim) rfl
    (fun v hv => by unfold asking ask; split <;> (try split) <;> first | rfl | exact wait_wish v _ hv)

/-- An execution without end. -/
def during (senv : Server.Env) (up : Resolver Unit) (s : Sys E) (f : Nat → Ev E) : Nat → Sys E
  | 0 => s
  | n + 1 => advance senv up (during senv up s f n) (f n)

theorem advance_thread (senv : Server.Env) (up : Resolver Unit) {s : Sys E} {i : Nat} {t : Thread E} (hi : s.threads[i]? = some t) (e : Ev E) :
    ((advance senv up s e).threads[i]? = some t ∧ ((∃ o x, e = .move i o x) → t.next senv up = none)) ∨
    ∃ o x op, e = .move i o x ∧ t.next senv up = some op ∧
      (advance senv up s e).threads[i]? = some { t with made := t.made ++ [(op, (perform t.job.config s o x op).1)] } := by
  have hlen := (List.getElem?_eq_some_iff.1 hi).1
  cases e with
  | query c remote sni msg => exact .inl ⟨by simp only [advance]; rw [List.getElem?_append_left hlen, hi], fun ⟨_, _, h⟩ => nomatch h⟩
  | refresh c key =>
    refine .inl ⟨?_, fun ⟨_, _, h⟩ => nomatch h⟩
    simp only [advance]
    split
    · simp only; rw [List.getElem?_append_left hlen, hi]
    · exact hi
  | move j o x =>
    by_cases hj : j = i
    · subst hj
      simp only [advance, hi]
      cases hn : t.next senv up with
      | none => exact .inl ⟨hi, fun _ => rfl⟩
      | some op =>
        refine .inr ⟨o, x, op, rfl, rfl, ?_⟩
        simp only
        rw [List.getElem?_set_self hlen]
    · refine .inl ⟨?_, fun ⟨_, _, h⟩ => by cases h; exact absurd rfl hj⟩
      simp only [advance]
      cases s.threads[j]? with
      | none => exact hi
      | some t' =>
        simp only
        cases t'.next senv up with
        | none => exact hi
        | some op =>
          simp only
          rw [List.getElem?_set_ne hj]
          exact hi
  | pass d => exact .inl ⟨hi, fun ⟨_, _, h⟩ => nomatch h⟩
  | drop key => exact .inl ⟨hi, fun ⟨_, _, h⟩ => nomatch h⟩
  | dropNames key => exact .inl ⟨hi, fun ⟨_, _, h⟩ => nomatch h⟩
  | flush => exact .inl ⟨hi, fun ⟨_, _, h⟩ => nomatch h⟩
  | take => exact .inl ⟨hi, fun ⟨_, _, h⟩ => nomatch h⟩
  | written => exact .inl ⟨hi, fun ⟨_, _, h⟩ => nomatch h⟩

/-- The run of a goroutine. -/
theorem job_runs (senv : Server.Env) (up : Resolver Unit) (j : Job E) (hd : (aliases j.config.customMapping).length < j.config.customDepth) :
    ∃ F : List (Threads.Op × Res) → Unit × (Msg × Replay), Runs F ∧ ∀ made, ({ job := j, made := made } : Thread E).next senv up = (F made).2.2.wish := by
  have key : ∀ {X : Type} (f : Msg × Replay → X × (Msg × Replay)), runsLogic.rel f f →
      (∀ made, ({ job := j, made := made } : Thread E).next senv up = (f ({}, ⟨made, none⟩)).2.2.wish) →
      ∃ F : List (Threads.Op × Res) → Unit × (Msg × Replay), Runs F ∧ ∀ made, ({ job := j, made := made } : Thread E).next senv up = (F made).2.2.wish := by
    intro X f h1 h2
    exact ⟨_, (logic_map (L := runsLogic) h1 (fun _ => ())).2 {}, h2⟩
  cases j with
  | query c remote sni msg =>
    refine key _ (steps_serve runs_ops senv c up hd remote sni msg) (fun made => ?_)
    have := serve_by asking senv c up remote sni msg ({}, ⟨made, none⟩)
    show (Server.onRequest senv (toM (wholeBy asking c up)) remote sni msg ⟨made, none⟩).2.wish = _
    rw [this]
  | refresh c key' =>
    obtain ⟨f, h1, h2⟩ := steps_refresh runs_ops.toInnerOk c up key'
    refine key f h2 (fun made => ?_)
    rw [h1]
    rfl

/-- **C122, ending.** In any execution without end, with any number of other queries and whatever upstreams answer: a goroutine that
gets to make steps again and again is done at some point. -/
theorem C122_ends (senv : Server.Env) (up : Resolver Unit) (s : Sys E) (f : Nat → Ev E) (i : Nat) (j : Job E)
    (hi : s.threads[i]? = some { job := j }) (hd : (aliases j.config.customMapping).length < j.config.customDepth)
    (hf : ∀ n, ∃ k, n ≤ k ∧ ∃ o x, f k = .move i o x) :
    ∃ k made, (during senv up s f k).threads[i]? = some { job := j, made := made } ∧ ({ job := j, made := made } : Thread E).next senv up = none := by
  obtain ⟨F, hF, hn⟩ := job_runs senv up j hd
  have go : ∀ {G : List (Threads.Op × Res) → Unit × (Msg × Replay)}, Runs G → ∀ made n, (∀ rest, G rest = F (made ++ rest)) →
      (during senv up s f n).threads[i]? = some { job := j, made := made } →
      ∃ k made, (during senv up s f k).threads[i]? = some { job := j, made := made } ∧ ({ job := j, made := made } : Thread E).next senv up = none := by
    intro G hG
    induction hG with
    | ret G x m h =>
      intro made n hg ht
      refine ⟨n, made, ht, ?_⟩
      have := hg []
      rw [List.append_nil] at this
      rw [hn, ← this, h]
    | step G op h _ ih =>
      intro made n hg ht
      have hw : ({ job := j, made := made } : Thread E).next senv up = some op := by
        have := hg []
        rw [List.append_nil] at this
        rw [hn, ← this, h]
      -- nothing happens to it until it makes its next step
      have wait : ∀ d, (∃ k, k < n + d ∧ n ≤ k ∧ ∃ o x, f k = .move i o x) ∨
          (during senv up s f (n + d)).threads[i]? = some { job := j, made := made } := by
        intro d
        induction d with
        | zero => exact .inr ht
        | succ d ihd =>
          rcases ihd with ⟨k, h1, h2, h3⟩ | ihd
          · exact .inl ⟨k, by omega, h2, h3⟩
          · rcases advance_thread senv up ihd (f (n + d)) with ⟨h1, _⟩ | ⟨o, x, _, h1, _⟩
            · exact .inr h1
            · exact .inl ⟨n + d, by omega, by omega, o, x, h1⟩
      -- the first such moment
      have first : ∀ d, (∃ o x, f (n + d) = .move i o x) → ∃ k o x, f k = .move i o x ∧
          (during senv up s f k).threads[i]? = some { job := j, made := made } := by
        intro d
        induction d using Nat.strongRecOn with
        | ind d ihd =>
          intro hm
          rcases wait d with ⟨k, h1, h2, h3⟩ | h1
          · exact ihd (k - n) (by omega) (by rw [show n + (k - n) = k by omega]; exact h3)
          · obtain ⟨o, x, hm⟩ := hm
            exact ⟨n + d, o, x, hm, h1⟩
      obtain ⟨k, hk, hm⟩ := hf n
      obtain ⟨k', o, x, hm', ht'⟩ := first (k - n) (by rw [show n + (k - n) = k by omega]; exact hm)
      rcases advance_thread senv up ht' (f k') with ⟨_, h1⟩ | ⟨o', x', op', _, h2, h3⟩
      · rw [h1 ⟨o, x, hm'⟩] at hw
        cases hw
      · rw [hw] at h2
        cases h2
        refine ih _ (resultOf_perform j.config (during senv up s f k') o' x' op) (made ++ [(op, (perform j.config (during senv up s f k') o' x' op).1)]) (k' + 1) (fun rest => ?_) h3
        rw [List.append_assoc]
        exact hg _
  exact go hF [] 0 (fun rest => rfl) hi

/-- What is done stays as it is. -/
theorem during_done (senv : Server.Env) (up : Resolver Unit) (s : Sys E) (f : Nat → Ev E) {i : Nat} {t : Thread E} {k : Nat}
    (hi : (during senv up s f k).threads[i]? = some t) (hn : t.next senv up = none) :
    ∀ n, k ≤ n → (during senv up s f n).threads[i]? = some t := by
  intro n
  induction n with
  | zero => intro h; rw [show 0 = k by omega]; exact hi
  | succ n ih =>
    intro h
    by_cases hk : k = n + 1
    · rw [← hk]; exact hi
    · have := ih (by omega)
      rcases advance_thread senv up this (f n) with ⟨h1, _⟩ | ⟨_, _, op, _, h1, _⟩
      · exact h1
      · rw [hn] at h1; cases h1

/-! ### What is written -/

/-- What a proper upstream may come up with: an answer with id and question of the request, or an error; if the error carries a
message, that has them, too. -/
def HonestOut (senv : Server.Env) (r : Request) (o : Outcome) : Prop :=
  (∀ q y, r.req.question = [q] → o = .ok y → y.res.id = r.req.id ∧ y.res.response = true ∧ y.res.question = [q]) ∧
  o ≠ .panic ∧ o ≠ .noResponse ∧
  ∀ q e um, r.req.question = [q] → o = .err e → senv.asUpstream e = some um →
    um.id = r.req.id ∧ um.response = true ∧ (um.question = [q] ∨ um.question = [{ q with name := lower q.name }])

/-- Steps made with such answers. -/
def HonestStep (senv : Server.Env) : Threads.Op × Res → Prop
  | (.ask _ r, .answer o) => HonestOut senv r o
  | _ => True

open Classical in
/-- The way of asking that gives only such answers. -/
noncomputable def calm (senv : Server.Env) : Asking := fun z u r v =>
  if HonestOut senv r (ask u z r v).1 then ask u z r v
  else (.ok { res := ({} : Msg).setReply r.req, reason := [], rtype := .resolved }, (ask u z r v).2)

theorem calm_ok (senv : Server.Env) (z : Option Str) (u : Resolver Unit) : UpOk (ErrorReplies senv) (calm senv z u) where
  echo := by
    intro r v q y hq hy
    unfold calm at hy
    split at hy
    · rename_i h
      exact h.1 q y hq hy
    · cases hy
      exact ⟨rfl, rfl, setReply_question hq⟩
  noPanic := by
    intro r v
    unfold calm
    split
    · rename_i h
      exact h.2.1
    · exact fun h => nomatch h
  some := by
    intro r v
    unfold calm
    split
    · rename_i h
      exact h.2.2.1
    · exact fun h => nomatch h
  err := by
    intro r v q e hq he um hum
    unfold calm at he
    split at he
    · rename_i h
      exact h.2.2.2 q e um hq he hum
    · cases he

/-- The relation of `Lemmas/Logic`: with steps made so, both runs are the same, once done. -/
def trustLogic (P : Threads.Op × Res → Prop) : Logic Replay Replay where
  rel f g := Keeps f ∧ ∀ m v, (∀ e ∈ v.todo, P e) → (f (m, v)).2.2.wish = none → f (m, v) = g (m, v) ∧ ∀ e ∈ (f (m, v)).2.2.todo, P e
  pure a φ := ⟨fun _ _ _ => rfl, fun m v hv _ => ⟨rfl, hv⟩⟩
  bind {X Y f g k l} h hk := by
    refine ⟨fun m v hv => ?_, fun m v hv hw => ?_⟩
    · have h1 := h.1 m v hv
      have h2 := (hk (f (m, v)).1).1 (f (m, v)).2.1 (f (m, v)).2.2 (by rw [h1]; exact hv)
      exact h2.trans h1
    · have hf : (f (m, v)).2.2.wish = none := by
        cases hx : (f (m, v)).2.2.wish with
        | none => rfl
        | some op =>
          have h2 := (hk (f (m, v)).1).1 (f (m, v)).2.1 (f (m, v)).2.2 (by rw [hx]; exact fun x => nomatch x)
          rw [hx] at h2
          have hw : (k (f (m, v)).1 ((f (m, v)).2.1, (f (m, v)).2.2)).2.2.wish = none := hw
          rw [hw] at h2
          cases h2
      obtain ⟨h1, h2⟩ := h.2 m v hv hf
      obtain ⟨h3, h4⟩ := (hk (f (m, v)).1).2 (f (m, v)).2.1 (f (m, v)).2.2 h2 hw
      refine ⟨?_, h4⟩
      show k (f (m, v)).1 (f (m, v)).2 = l (g (m, v)).1 (g (m, v)).2
      rw [← h1]
      exact h3

theorem trust_op {P : Threads.Op × Res → Prop} {F : Replay → X × Replay} (h1 : ∀ v, (F v).2.todo = v.todo ∨ ∃ e, v.todo = e :: (F v).2.todo)
    (h3 : ∀ v, v.wish ≠ none → (F v).2.wish = v.wish) : (trustLogic P).rel (onRun F) (onRun F) := by
  refine ⟨fun m v hv => h3 v hv, fun m v hv _ => ⟨rfl, ?_⟩⟩
  intro e he
  rcases h1 v with h1 | ⟨e', h1⟩
  · exact hv e (h1 ▸ he)
  · exact hv e (by rw [h1]; exact List.mem_cons_of_mem _ he)

theorem trust_ops (senv : Server.Env) : OpsOk (trustLogic (HonestStep senv)) asking (calm senv) where
  find k := trust_op (fun v => by unfold find; split <;> (try split) <;> first | exact .inr ⟨_, by assumption⟩ | exact .inl rfl)
    (fun v hv => by unfold find; split <;> (try split) <;> first | rfl | exact wait_wish v _ hv)
  keep k m ttl := trust_op (fun v => by simp only [keep]; split <;> first | exact .inr ⟨_, by assumption⟩ | exact .inl rfl)
    (fun v hv => by simp only [keep]; split <;> first | rfl | exact wait_wish v _ hv)
  findNames k := trust_op (fun v => by unfold findNames; split <;> (try split) <;> first | exact .inr ⟨_, by assumption⟩ | exact .inl rfl)
    (fun v hv => by unfold findNames; split <;> (try split) <;> first | rfl | exact wait_wish v _ hv)
  keepNames k l := trust_op (fun v => by simp only [keepNames]; split <;> first | exact .inr ⟨_, by assumption⟩ | exact .inl rfl)
    (fun v hv => by simp only [keepNames]; split <;> first | rfl | exact wait_wish v _ hv)
  log e := trust_op (fun v => by simp only [log]; split <;> first | exact .inr ⟨_, by assumption⟩ | exact .inl rfl)
    (fun v hv => by simp only [log]; split <;> first | rfl | exact wait_wish v _ hv)
  askNames l ip := trust_op (fun v => by unfold askNames; split <;> (try split) <;> first | exact .inr ⟨_, by assumption⟩ | exact .inl rfl)
    (fun v hv => by unfold askNames; split <;> (try split) <;> first | rfl | exact wait_wish v _ hv)
  ask z u r := by
    have keeps : ∀ v : Replay, v.wish ≠ none → (ask u z r v).2.wish = v.wish := fun v hv => by
      unfold ask; split <;> (try split) <;> first | rfl | exact wait_wish v _ hv
    have waits : ∀ (v : Replay) (op : Threads.Op), (v.wait op).wish ≠ none := by
      intro v op
      unfold Replay.wait
      cases v.wish <;> exact fun h => nomatch h
    refine ⟨fun m v hv => keeps v hv, fun m v hv hw => ?_⟩
    have hw : (ask u z r v).2.wish = none := hw
    have : HonestOut senv r (ask u z r v).1 ∧ ∀ e ∈ (ask u z r v).2.todo, HonestStep senv e := by
      unfold ask at hw ⊢
      split at hw
      · rename_i z' r' o rest hx
        split at hw
        · rename_i hz
          obtain ⟨rfl, rfl⟩ := hz
          simp only [and_self, if_true]
          refine ⟨hv (.ask z' r', .answer o) (by rw [hx]; exact List.mem_cons_self), fun e he => hv e (by rw [hx]; exact List.mem_cons_of_mem _ he)⟩
        · exact absurd hw (waits _ _)
      · exact absurd hw (waits _ _)
    refine ⟨?_, this.2⟩
    show ((ask u z r v).1, (m, (ask u z r v).2)) = ((calm senv z u r v).1, (m, (calm senv z u r v).2))
    unfold calm
    rw [if_pos this.1]

section
variable {Er : Nat → Question → Str → Prop}

theorem good_cachingT (env : Caching.Env) (cfg : Caching.Cfg) {next : MR Replay} (h : Good Er false next) :
    Good Er false (Threads.caching env cfg next) := by
  intro request w q hq hn hw
  unfold Threads.caching
  split
  · exact h request w q hq hn hw
  · rw [hq, cachingLoop_cons]
    simp only
    have hg := h request (w.1, (find (Caching.questionKey q) w.2).2) q hq hn hw
    cases (find (Caching.questionKey q) w.2).1 with
    | some mt =>
      obtain ⟨m, t⟩ := mt
      simp only [afterFind]
      refine GoodOut.reply (w := (w.1, (find (Caching.questionKey q) w.2).2)) hq hw _ rfl rfl ?_
      simp [Caching.hitResponse, Msg.setRcode, setReply_question hq]
    | none =>
      simp only [afterFind]
      generalize next request _ = y at hg ⊢
      obtain ⟨o, m, v⟩ := y
      cases o with
      | ok r =>
        refine ⟨?_, hg.msgId, hg.msgQ, (fun h => nomatch h), (fun _ h => nomatch h), (fun _ h => nomatch h)⟩
        intro y hy
        cases hy
        exact hg.ok r rfl
      | err e => exact ⟨(fun _ h => nomatch h), hg.msgId, hg.msgQ, (fun h => nomatch h), (fun _ h => nomatch h), hg.err⟩
      | noResponse => exact absurd rfl (hg.some rfl)
      | panic => exact absurd rfl hg.noPanic

theorem good_queryLogT (cfg : QueryLog.Cfg) (env : QueryLog.Env) (s d : Int) {next : MR Replay} (h : Good Er false next) :
    Good Er false (ofM (Threads.queryLog cfg env s d (toM next))) := by
  apply good_ofM
  intro request v q hq hn
  unfold Threads.queryLog
  have hg := good_toM h request v q hq hn
  cases hx : toM next request v with
  | mk o mw =>
    obtain ⟨m, w'⟩ := mw
    rw [hx] at hg
    cases o with
    | panic => exact absurd rfl hg.noPanic
    | noResponse => exact absurd rfl (hg.some rfl)
    | err e => exact ⟨(fun _ h => nomatch h), hg.msgId, hg.msgQ, (fun h => nomatch h), (fun _ h => nomatch h), hg.err⟩
    | ok r =>
      simp only
      obtain ⟨q', hq'⟩ := hg.msgQ.exists
      simp only at hq'
      obtain ⟨e, he⟩ := chain_fillFields env request m r d q' hq' cfg.fields (QueryLog.emptyEntry env s)
      have : QueryLog.createLogEntry cfg env request m r s d = some e := he
      rw [this]
      simp only
      split
      · exact ⟨hg.ok, hg.msgId, hg.msgQ, (fun h => nomatch h), (fun _ h => nomatch h), (fun _ h => nomatch h)⟩
      · exact ⟨hg.ok, hg.msgId, hg.msgQ, (fun h => nomatch h), (fun _ h => nomatch h), (fun _ h => nomatch h)⟩

theorem good_clientNamesT (cfg : ClientNames.Cfg) (l : Option (ClientNames.Lookup Replay)) {next : MR Replay}
    (h : Good Er false next) : Good Er false (Threads.clientNames cfg l next) :=
  fun request w q hq hn hw => h { request with clientNames := (getNames cfg l request w.2).1 } (w.1, (getNames cfg l request w.2).2) q hq hn hw

end

theorem good_wholeBy {senv : Server.Env} {c : Config E Unit} {q : Question} (hc : ConfigOk c senv q) {up : Resolver Unit} {a : Asking}
    (ha : ∀ z u, UpOk (ErrorReplies senv) (a z u)) (request : Request) (w : Msg × Replay) (hq : request.req.question = [q]) (hn : WireName q.name)
    (hw : w.1 = request.req) : GoodOut (ErrorReplies senv) false request.req.id q (wholeBy a c up request w) := by
  have he := errorReplies_ok hc.own
  have hall : (∀ e, senv.asUpstream e = none) → ∀ id q e, ErrorReplies senv id q e := by
    intro h id q e um hum
    rw [h e] at hum
    cases hum
  have hcond : ∀ d r, (zonesBy a c.condMapping).get d = some r → UpOk (ErrorReplies senv) r := by
    intro d r h
    rw [zonesBy_get] at h
    cases hx : AMap.get c.condMapping d with
    | none => rw [hx] at h; cases h
    | some u => rw [hx] at h; cases h; exact ha _ _
  have htail : Good (ErrorReplies senv) false (tailBy a c up) := good_sudn _ (good_liftUp (ha _ _))
  have hcnd : Good (ErrorReplies senv) false (condBy a c up) := by
    refine good_ofM (good_newRewriter he _ _ ?_ hc.condRules.rules
      (good_conditional he false _ hcond (good_toM htail)) (.inr (good_conditional he true _ hcond good_noop)) (good_toM htail))
    rcases hc.servfail with h | ⟨_, _, h | h⟩
    · exact .inr (.inr (hall h))
    · exact .inl h
    · exact .inr (.inl h)
  have hblock : Good (ErrorReplies senv) false (blockBy a c up) := good_blocking _ _ (good_cachingT _ _ hcnd)
  have hhosts : Good (ErrorReplies senv) false
      (HostsFile.resolve c.hostsEnabled c.hostsCfg c.hosts c.hostsOrder4 c.hostsOrder6 (blockBy a c up)) := good_hosts _ _ _ _ _ hblock
  have hlocal : Good (ErrorReplies senv) false (localBy a c up) := by
    refine good_ofM (good_newRewriter he _ _ ?_ hc.customRules.rules ?_ ?_ (good_toM hhosts))
    · rcases hc.servfail with h | ⟨_, h | h, _⟩
      · exact .inr (.inr (hall h))
      · exact .inl h
      · exact .inr (.inl h)
    · refine good_toM (good_customDns he false _ _ _ _ hc.depth ?_ (good_ofM (good_toM hhosts)))
      rcases hc.servfail with h | ⟨h, _, _⟩
      · exact .inr ⟨rfl, hc.targets, hall h⟩
      · exact .inl h
    · rcases hc.alias with h | h
      · exact .inr (good_toM (good_customDns he true _ _ _ _ hc.depth (.inl h) (good_ofM good_noop)))
      · exact .inl h
  have hobs : Good (ErrorReplies senv) false (observedBy a c up) := good_ede _ (good_queryLogT _ _ _ _ (good_metrics _ hlocal))
  have hecs : Good (ErrorReplies senv) false (Chain.ecs c.ecs (Threads.clientNames c.names (c.namesLookup.map askNames) (observedBy a c up))) :=
    good_ecs _ hc.mask4 hc.mask6 hc.mask46 (good_clientNamesT _ _ hobs)
  unfold wholeBy Small.filtering
  rw [hq]
  simp only
  split
  · exact GoodOut.reply hq hw _ rfl rfl (by simp [Msg.setRcode, setReply_question hq])
  · exact good_fqdnOnly _ hecs request w q hq hn hw hc.fqdn

theorem serveBy_replies {senv : Server.Env} {len : Msg → Nat} (ht : TruncContract len senv.trunc) {c : Config E Unit} {q : Question}
    (hc : ConfigOk c senv q) {up : Resolver Unit} {a : Asking} (ha : ∀ z u, UpOk (ErrorReplies senv) (a z u)) (remote : Server.Addr) (sni : Option Str)
    {msg : Msg} (hq : msg.question = [q]) (hn : WireName q.name) (w : Msg × Replay) :
    ∃ m, (serveBy a senv c up remote sni msg w).1 = [m] ∧ RepliesFold msg m := by
  have hg := good_wholeBy (up := up) hc ha (Server.newRequestFromDNS remote sni msg) (msg, w.2) hq hn rfl
  unfold serveBy
  rw [hq]
  simp only
  have hrep : ∀ m : Msg, m.id = msg.id → m.response = true → Shown q m.question → RepliesFold msg m := by
    intro m h1 h2 h3
    refine ⟨h1, h2, ?_⟩
    rw [hq]
    exact sameNames_shown h3
  generalize wholeBy a c up _ _ = y at hg ⊢
  obtain ⟨o, m', w'⟩ := y
  cases o with
  | ok r =>
    obtain ⟨h1, h2, h3⟩ := hg.ok r rfl
    obtain ⟨f1, f2, f3, _⟩ := finish_header senv ht m' (Server.newRequestFromDNS remote sni msg).protocol r.res
    exact ⟨_, rfl, hrep _ (f1.trans h1) (f2.trans h2) (by rw [f3]; exact h3)⟩
  | err e =>
    simp only [writes]
    cases hum : senv.asUpstream e with
    | some um =>
      obtain ⟨h1, h2, h3⟩ := hg.err e rfl um hum
      obtain ⟨f1, f2, f3, _⟩ := finish_header senv ht m' (Server.newRequestFromDNS remote sni msg).protocol um
      exact ⟨_, rfl, hrep _ (f1.trans h1) (f2.trans h2) (by rw [f3]; exact h3)⟩
    | none =>
      have hid : m'.id = msg.id := hg.msgId
      obtain ⟨q', hq'⟩ := hg.msgQ.exists
      refine ⟨_, rfl, hrep _ hid rfl ?_⟩
      have : (({} : Msg).setRcode m' rcodeServFail).question = [q'] := setReply_question hq'
      rw [this, ← hq']
      exact hg.msgQ
  | noResponse => exact absurd rfl (hg.some rfl)
  | panic => exact absurd rfl hg.noPanic

/-- The questions that the i-th goroutine asks upstreams are answered properly. -/
def AnsweredProperly (senv : Server.Env) (up : Resolver Unit) (s : Sys E) (f : Nat → Ev E) (i : Nat) : Prop :=
  ∀ n o x z r, f n = .move i o x → ((during senv up s f n).threads[i]?.bind (Thread.next senv up)) = some (.ask z r) → HonestOut senv r o

theorem during_honest {senv : Server.Env} {up : Resolver Unit} {s : Sys E} {f : Nat → Ev E} {i : Nat} {j : Job E}
    (hi : s.threads[i]? = some { job := j }) (hf : AnsweredProperly senv up s f i) (n : Nat) :
    ∃ made, (during senv up s f n).threads[i]? = some { job := j, made := made } ∧ ∀ e ∈ made, HonestStep senv e := by
  induction n with
  | zero => exact ⟨[], hi, fun e he => nomatch he⟩
  | succ n ih =>
    obtain ⟨made, h1, h2⟩ := ih
    rcases advance_thread senv up h1 (f n) with ⟨h3, _⟩ | ⟨o, x, op, h3, h4, h5⟩
    · exact ⟨made, h3, h2⟩
    · refine ⟨_, h5, ?_⟩
      intro e he
      rcases List.mem_append.1 he with he | he
      · exact h2 e he
      · rw [List.mem_singleton] at he
        subst he
        cases op with
        | ask z r => exact hf n o x z r h3 (by rw [h1, Option.bind_some, h4])
        | _ => trivial

/-- **C122, replies.** Any number of queries handled at the same time, any interleaving, any contents of caches - also wrong ones, left by
others -, settings changed in between: whatever a query with one question is answered with is exactly one message, a reply with its id
and its question (names compared without case). Assumed only of the upstreams' answers to this query: they echo id and question. Missing:
the settings excluded by `ConfigOk` (see C60). -/
theorem C122_reply_partial (senv : Server.Env) {len : Msg → Nat} (ht : TruncContract len senv.trunc) (up : Resolver Unit) (s : Sys E)
    (f : Nat → Ev E) (i : Nat) (c : Config E Unit) (remote : Server.Addr) (sni : Option Str) (msg : Msg) (q : Question) (hq : msg.question = [q])
    (hn : WireName q.name) (hc : ConfigOk c senv q) (hi : s.threads[i]? = some { job := .query c remote sni msg })
    (hf : AnsweredProperly senv up s f i) (n : Nat) (ms : List Msg)
    (hms : (during senv up s f n).threads[i]?.bind (Thread.reply senv up) = some ms) : ∃ m, ms = [m] ∧ RepliesFold msg m := by
  obtain ⟨made, h1, h2⟩ := during_honest hi hf n
  rw [h1, Option.bind_some] at hms
  have hby := serve_by asking senv c up remote sni msg ({}, ⟨made, none⟩)
  have hrun : ({ job := .query c remote sni msg, made := made } : Thread E).run senv up =
      Server.onRequest senv (toM (wholeBy asking c up)) remote sni msg ⟨made, none⟩ := rfl
  unfold Thread.reply Thread.next at hms
  rw [hrun, hby] at hms
  simp only at hms
  cases hw : (serveBy asking senv c up remote sni msg ({}, ⟨made, none⟩)).2.2.wish with
  | some op => rw [hw] at hms; cases hms
  | none =>
    rw [hw] at hms
    simp only at hms
    have := ((steps_serve (trust_ops senv) senv c up hc.depth remote sni msg).2 {} ⟨made, none⟩ h2 hw).1
    rw [this] at hms
    obtain ⟨m, h3, h4⟩ := serveBy_replies (up := up) ht hc (calm_ok senv) remote sni hq hn ({}, ⟨made, none⟩)
    rw [h3] at hms
    cases hms
    exact ⟨m, rfl, h4⟩

/-- **C122.** Every query that gets to make steps again and again is answered, and its answer is exactly one reply to it. -/
theorem C122_answered_partial (senv : Server.Env) {len : Msg → Nat} (ht : TruncContract len senv.trunc) (up : Resolver Unit) (s : Sys E)
    (f : Nat → Ev E) (i : Nat) (c : Config E Unit) (remote : Server.Addr) (sni : Option Str) (msg : Msg) (q : Question) (hq : msg.question = [q])
    (hn : WireName q.name) (hc : ConfigOk c senv q) (hi : s.threads[i]? = some { job := .query c remote sni msg })
    (hf : AnsweredProperly senv up s f i) (hm : ∀ n, ∃ k, n ≤ k ∧ ∃ o x, f k = .move i o x) :
    ∃ k m, RepliesFold msg m ∧ ∀ n, k ≤ n → (during senv up s f n).threads[i]?.bind (Thread.reply senv up) = some [m] := by
  obtain ⟨k, made, h1, h2⟩ := C122_ends senv up s f i _ hi hc.depth hm
  obtain ⟨ms, hms⟩ : ∃ ms, (during senv up s f k).threads[i]?.bind (Thread.reply senv up) = some ms := by
    rw [h1, Option.bind_some]
    unfold Thread.reply
    rw [h2]
    exact ⟨_, rfl⟩
  obtain ⟨m, rfl, h3⟩ := C122_reply_partial senv ht up s f i c remote sni msg q hq hn hc hi hf k ms hms
  refine ⟨k, m, h3, fun n hkn => ?_⟩
  rw [during_done senv up s f h1 h2 n hkn, ← h1]
  exact hms

/-! ### Two queries, turn by turn -/

/-- Errors carry no message. -/
def plainServer : Server.Env := ⟨fun _ => none, sampleTrunc⟩

/-- The server of `Props/Threads`. -/
def turnsConfig : Config prefixEngine Unit := { threadsConfig 0 with condOrder := fun _ => [] }

/-- Two queries, by the same client. -/
def twoQueries : Sys prefixEngine :=
  { freshSys with threads :=
      [{ job := .query turnsConfig (.udp (some (.v4 1#32))) none (query (str! "Alias.lan.")) },
       { job := .query turnsConfig (.udp (some (.v4 1#32))) none (query (str! "www.org.")) }] }

/-- The step of the i-th goroutine, the upstream answering. -/
def turnOf (s : Sys prefixEngine) (i : Nat) : Ev prefixEngine :=
  match s.threads[i]?.bind (Thread.next plainServer bareUp) with
  | some (.ask _ r) => .move i (bareUp r ()).1 none
  | _ => .move i .noResponse none

/-- The state after so many turns. -/
def turns : Nat → Sys prefixEngine
  | 0 => twoQueries
  | n + 1 => advance plainServer bareUp (turns n) (turnOf (turns n) (n % 2))

theorem during_turns (n : Nat) : during plainServer bareUp twoQueries (fun n => turnOf (turns n) (n % 2)) n = turns n := by
  induction n with
  | zero => rfl
  | succ n ih => rw [during, ih]; rfl

theorem turnOf_move (s : Sys prefixEngine) (i : Nat) : ∃ o, turnOf s i = .move i o none := by
  unfold turnOf
  split <;> exact ⟨_, rfl⟩

theorem turns_proper : AnsweredProperly plainServer bareUp twoQueries (fun n => turnOf (turns n) (n % 2)) 0 := by
  intro n o x z r h1 h2
  rw [during_turns] at h2
  simp only at h1
  have hn : n % 2 = 0 := by
    obtain ⟨o', h⟩ := turnOf_move (turns n) (n % 2)
    rw [h] at h1
    exact (Ev.move.inj h1).1
  rw [hn] at h1
  unfold turnOf at h1
  rw [h2] at h1
  cases h1
  refine ⟨?_, ?_, ?_, ?_⟩
  · intro q y hq hy
    simp only [bareUp, steadyUp, hq] at hy
    split at hy
    · cases hy
    · cases hy
      exact ⟨rfl, rfl, setReply_question hq⟩
  · unfold bareUp steadyUp
    split
    · exact fun h => nomatch h
    · split <;> exact fun h => nomatch h
  · unfold bareUp steadyUp
    split
    · exact fun h => nomatch h
    · split <;> exact fun h => nomatch h
  · intro q e um _ _ h
    cases h

theorem turnsConfig_ok (q : Question) : ConfigOk turnsConfig plainServer q where
  fqdn := .inl rfl
  mask4 := by decide
  mask6 := by decide
  mask46 := .inr (by decide)
  depth := by decide
  targets := (sampleConfig_ok q).targets
  customRules := (sampleConfig_ok q).customRules
  condRules := ⟨by simp [AMap.Uniq, AMap.keys, turnsConfig, threadsConfig, steadyConfig], ⟨[], .refl _, fun _ => .refl _⟩, (fun _ h => nomatch h)⟩
  alias := .inr rfl
  own := ⟨fun _ => rfl, rfl⟩
  servfail := .inl (fun _ => rfl)

/-- The hypotheses of `C122_answered_partial` are met. -/
example : ∃ k m, RepliesFold (query (str! "Alias.lan.")) m ∧ ∀ n, k ≤ n → (turns n).threads[0]?.bind (Thread.reply plainServer bareUp) = some [m] := by
  have := C122_answered_partial plainServer sample_contract bareUp twoQueries (fun n => turnOf (turns n) (n % 2)) 0 turnsConfig _ none
    (query (str! "Alias.lan.")) ⟨str! "Alias.lan.", typeA, 1⟩ rfl ⟨str! "Alias.lan", rfl, by decide⟩ (turnsConfig_ok _) rfl turns_proper
    (fun n => ⟨2 * n, by omega, by
      obtain ⟨o, h⟩ := turnOf_move (turns (2 * n)) (2 * n % 2)
      rw [show 2 * n % 2 = 0 by omega] at h
      exact ⟨o, none, by rw [show 2 * n % 2 = 0 by omega]; exact h⟩⟩)
  simpa only [during_turns] using this

-- In turns; the alias leads to a failing upstream.
example : [8, 9, 13, 14].map (fun n => (turns n).threads.map (fun t => (t.reply plainServer bareUp).map (fun ms => ms.map (fun m => (m.rcode, m.answer.length))))) =
    [[none, none], [some [(2, 0)], none], [some [(2, 0)], none], [some [(2, 0)], some [(0, 1)]]] := by decide +kernel

end Verif.Props
