/-
C125: the query log when many queries are handled at the same time.
-/
import Verif.Props.Inside
import Verif.Props.QueryLog
import Verif.Props.Amplify
import Verif.Props.Transparent

namespace Verif.Props
open Verif.Dns Verif.ExpCache Verif.StringCache Verif.Threads Verif.Chain

variable {E : RegexEngine}

/-! ### Runs and the steps they use up -/

/-- A run that gets to its end has used up some of the steps made, all of a kind `P`, and what follows them does not matter. -/
def fedLogic (P : Threads.Op → Prop) : Logic Replay Replay where
  rel f _ := Keeps f ∧ ∀ (m : Msg) (todo : List (Threads.Op × Res)), (f (m, ⟨todo, none⟩)).2.2.wish = none →
    ∃ used rest x m', todo = used ++ rest ∧ (∀ e ∈ used, P e.1) ∧ ∀ after, f (m, ⟨used ++ after, none⟩) = (x, (m', ⟨after, none⟩))
  pure a φ := ⟨fun _ _ _ => rfl, fun m todo _ => ⟨[], todo, a m, φ m, rfl, (fun _ h => nomatch h), fun _ => rfl⟩⟩
  bind {X Y f g k l} h hk := by
    refine ⟨fun m v hv => ?_, fun m todo hw => ?_⟩
    · have h1 := h.1 m v hv
      have h2 := (hk (f (m, v)).1).1 (f (m, v)).2.1 (f (m, v)).2.2 (by rw [h1]; exact hv)
      exact h2.trans h1
    · have hf : (f (m, ⟨todo, none⟩)).2.2.wish = none := by
        cases hx : (f (m, ⟨todo, none⟩)).2.2.wish with
        | none => rfl
        | some op =>
          have h2 := (hk (f (m, ⟨todo, none⟩)).1).1 (f (m, ⟨todo, none⟩)).2.1 (f (m, ⟨todo, none⟩)).2.2 (by rw [hx]; exact fun x => nomatch x)
          have h3 := h2.symm.trans hw
          rw [hx] at h3
          cases h3
      obtain ⟨used, rest, x, m', h1, h2, h3⟩ := h.2 m todo hf
      simp only at hw
      rw [h1, h3] at hw
      obtain ⟨used', rest', x', m'', g1, g2, g3⟩ := (hk x).2 m' rest hw
      refine ⟨used ++ used', rest', x', m'', by rw [h1, g1, List.append_assoc], fun e he => ?_, fun after => ?_⟩
      · rcases List.mem_append.1 he with he | he
        · exact h2 e he
        · exact g2 e he
      · simp only
        rw [List.append_assoc, h3, g3]

theorem fed_op {P : Threads.Op → Prop} {X : Type} {F : Replay → X × Replay} (hk : ∀ v, v.wish ≠ none → (F v).2.wish = v.wish)
    (h : ∀ todo, (F ⟨todo, none⟩).2.wish = none → ∃ e rest x, todo = e :: rest ∧ P e.1 ∧ ∀ after, F ⟨e :: after, none⟩ = (x, ⟨after, none⟩)) :
    (fedLogic P).rel (onRun F) (onRun F) := by
  refine ⟨fun m v hv => hk v hv, fun m todo hw => ?_⟩
  obtain ⟨e, rest, x, h1, h2, h3⟩ := h todo hw
  refine ⟨[e], rest, x, m, h1, fun e' he' => by rw [List.mem_singleton.1 he']; exact h2, fun after => ?_⟩
  show ((F ⟨e :: after, none⟩).1, (m, (F ⟨e :: after, none⟩).2)) = _
  rw [h3]

/-- No step of the query log. -/
def NotLog : Threads.Op → Prop
  | .log _ => False
  | _ => True

theorem fed_inner : InnerOk (fedLogic NotLog) asking asking where
  find k := fed_op (runs_ops.find k |>.1 {}) (fun todo hw => by
    unfold find at hw
    split at hw
    · rename_i k' x rest h
      simp only at h
      split at hw
      · rename_i hk
        subst hk
        exact ⟨_, rest, x, h, trivial, fun after => by simp [find]⟩
      · cases hw
    · cases hw)
  keep k m ttl := fed_op (runs_ops.keep k m ttl |>.1 {}) (fun todo hw => by
    simp only [keep] at hw
    split at hw
    · rename_i rest
      exact ⟨_, rest, (), rfl, trivial, fun after => rfl⟩
    · cases hw)
  findNames k := fed_op (runs_ops.findNames k |>.1 {}) (fun todo hw => by
    unfold findNames at hw
    split at hw
    · rename_i k' x rest h
      simp only at h
      split at hw
      · rename_i hk
        subst hk
        exact ⟨_, rest, x, h, trivial, fun after => by simp [findNames]⟩
      · cases hw
    · cases hw)
  keepNames k l := fed_op (runs_ops.keepNames k l |>.1 {}) (fun todo hw => by
    simp only [keepNames] at hw
    split at hw
    · rename_i rest
      exact ⟨_, rest, (), rfl, trivial, fun after => rfl⟩
    · cases hw)
  askNames l ip := fed_op (runs_ops.askNames l ip |>.1 {}) (fun todo hw => by
    unfold askNames at hw
    split at hw
    · rename_i k' x rest h
      simp only at h
      split at hw
      · rename_i hk
        subst hk
        exact ⟨_, rest, x, h, trivial, fun after => by simp [askNames]⟩
      · cases hw
    · cases hw)
  ask z u r := fed_op (runs_ops.ask z u r |>.1 {}) (fun todo hw => by
    unfold asking ask at hw
    split at hw
    · rename_i z' r' o rest h
      simp only at h
      split at hw
      · rename_i hk
        obtain ⟨rfl, rfl⟩ := hk
        exact ⟨_, rest, o, h, trivial, fun after => by simp [asking, ask]⟩
      · cases hw
    · cases hw)

/-! ### The message as the query log gets to see it -/

/-- The message of a request as the resolvers leave it: as it was, or - conditional upstreams write into it - with the name asked for in lower case. -/
def Handed (m0 m : Msg) : Prop :=
  m = m0 ∨ ∃ q qs, m0.question = q :: qs ∧ m = { m0 with question := { q with name := fqdn (extractDomain q.name) } :: qs }

/-- Resolvers that leave messages like this, unless they panic. -/
def Leaves (f : MR Replay) : Prop := ∀ r m v, Handed r.req m → (f r (m, v)).1 ≠ .panic → Handed r.req (f r (m, v)).2.1

/-- Resolvers that leave messages as they are. -/
def LeavesAll (f : MR Replay) : Prop := ∀ r m v, (f r (m, v)).2.1 = m

theorem tail_leaves (a : Asking) (c : Config E Unit) (up : Resolver Unit) : LeavesAll (tailBy a c up) := by
  intro r m v
  unfold tailBy Small.sudn
  split
  · rfl
  · split
    · rfl
    · split <;> rfl

theorem cond_leaves (a : Asking) (c : Config E Unit) (up : Resolver Unit) : Leaves (condBy a c up) := by
  intro r m v _ hp
  have hinner : ∀ (next : Cond.MResolver Replay), (∀ r v, (next r v).2.1 = r.req) → ∀ r v,
      (Cond.conditional (zonesBy a c.condMapping) next r v).1 ≠ .panic → Handed r.req (Cond.conditional (zonesBy a c.condMapping) next r v).2.1 := by
    intro next hn r v hp
    unfold Cond.conditional at hp ⊢
    split
    · split
      · exact .inl rfl
      · rename_i q qs hq
        split
        · refine .inr ⟨q, qs, hq, ?_⟩
          unfold Cond.internalResolve
          rw [hq]
          simp only
          split <;> rfl
        · exact .inl (hn r v)
    · exact .inl (hn r v)
  have htail : ∀ r v, (toM (tailBy a c up) r v).2.1 = r.req := fun r v => tail_leaves a c up r r.req v
  have hz : ∀ r v, (toM (tailBy a c up) r v).2.1 = r.req := htail
  revert hp
  unfold condBy ofM
  simp only
  unfold Cond.newRewriter
  split
  · exact hinner _ htail r v
  · unfold Cond.rewriter
    generalize hx : Cond.rewriteQuestions c.condOrder 0 r.req.question [] = x
    obtain ⟨questions, rewritten, names⟩ := x
    simp only
    have hin := hinner (fun request w => (.noResponse, request.req, w)) (fun _ _ => rfl)
      (if rewritten then { r with req := { r.req with question := questions } } else r) v
    revert hin
    generalize Cond.conditional (zonesBy a c.condMapping) (fun request w => (.noResponse, request.req, w))
      (if rewritten then { r with req := { r.req with question := questions } } else r) v = y
    obtain ⟨o, msg, v'⟩ := y
    intro hin
    have horig : o ≠ .panic → Handed r.req (if rewritten then r.req else msg) := by
      intro ho
      cases rewritten with
      | true => exact .inl rfl
      | false => exact hin ho
    cases o with
    | panic => exact fun h => absurd rfl h
    | err e =>
      simp only
      intro _
      split
      · rw [hz]; exact horig (fun h => nomatch h)
      · exact horig (fun h => nomatch h)
    | noResponse =>
      simp only
      intro _
      rw [hz]; exact horig (fun h => nomatch h)
    | ok y =>
      simp only
      intro _
      split
      · rw [hz]; exact horig (fun h => nomatch h)
      · split
        · exact .inl rfl
        · rename_i h
          have := horig (fun h => nomatch h)
          rw [if_neg h] at this
          exact this

theorem caching_leaves (env : Caching.Env) (c : Caching.Cfg) {n : MR Replay} (h : Leaves n) : Leaves (Threads.caching env c n) := by
  intro r m v hm hp
  have loop : ∀ (qs : List Question) (last : Outcome) (m : Msg) (v : Replay), Handed r.req m →
      (cachingLoop env c n r qs last (m, v)).1 ≠ .panic → Handed r.req (cachingLoop env c n r qs last (m, v)).2.1 := by
    intro qs
    induction qs with
    | nil => intro _ _ _ hm _; exact hm
    | cons q qs ih =>
      intro last m v hm hp
      unfold cachingLoop at hp ⊢
      generalize find (Caching.questionKey q) (m, v).2 = x at hp ⊢
      obtain ⟨_ | ⟨m', ttl⟩, v1⟩ := x
      · simp only at hp ⊢
        have hn := h r m v1 hm
        generalize n r (m, v1) = y at hp hn ⊢
        obtain ⟨o, m1, v2⟩ := y
        cases o with
        | ok y => exact ih _ _ _ (hn (fun h => nomatch h)) hp
        | err e => exact ih _ _ _ (hn (fun h => nomatch h)) hp
        | noResponse => exact absurd rfl hp
        | panic => exact absurd rfl hp
      · exact hm
  unfold Threads.caching at hp ⊢
  split
  · rename_i hc
    rw [if_pos hc] at hp
    exact h r m v hm hp
  · rename_i hc
    rw [if_neg hc] at hp
    exact loop _ _ _ _ hm hp

theorem blocking_leaves (env : Blocking.Env) (b : Blocking.BState E) {n : MR Replay} (h : Leaves n) : Leaves (Blocking.resolve env b n) := by
  intro r m v hm
  have hask : ∀ groups, (Blocking.askNext env b groups n r (m, v)).1 ≠ .panic → Handed r.req (Blocking.askNext env b groups n r (m, v)).2.1 := by
    intro groups
    unfold Blocking.askNext
    have hn := h r m v hm
    generalize n r (m, v) = y at hn ⊢
    obtain ⟨o, m1, v1⟩ := y
    cases o with
    | ok y =>
      have hn := hn (fun h => nomatch h)
      simp only
      intro _
      split
      · split <;> exact hn
      · exact hn
    | err e => exact hn
    | noResponse => exact hn
    | panic => exact hn
  unfold Blocking.resolve
  simp only
  split
  · split
    · exact h r m v hm
    · exact fun _ => hm
    · exact hask _
  · exact hask _

theorem hosts_leaves (c : Config E Unit) {n : MR Replay} (h : Leaves n) :
    Leaves (HostsFile.resolve c.hostsEnabled c.hostsCfg c.hosts c.hostsOrder4 c.hostsOrder6 n) := by
  intro r m v hm
  unfold HostsFile.resolve
  split
  · exact h r m v hm
  · split
    · exact fun _ => hm
    · split
      · exact fun _ => hm
      · split
        · exact fun _ => hm
        · exact h r m v hm

/-- Custom DNS keeps what all resolvers of internal requests keep, until it hands the request on itself. -/
theorem processRequest_until {V : Type} (env : CustomDns.Env) (mapping : CustomDns.Mapping) (I : V → Prop) {n : Resolver V}
    (hn : ∀ r w, r.internal = true → I w → I (n r w).2) (depth : Nat) : ∀ (r : Request) (resolved : List Str) (w : V) (x : Outcome × V), I w →
      CustomDns.processRequest env mapping n depth r resolved w = some x → I x.2 ∨ ∃ w', I w' ∧ x = n r w' := by
  induction depth with
  | zero => intro r resolved w x _ h; cases h
  | succ d ih =>
    intro r resolved w x hw h
    have hent : ∀ q es y, CustomDns.processEntries env (CustomDns.processRequest env mapping n d) r resolved q es [] w = some y → I y.2 := by
      intro q es y hy
      refine (processEntries_cost (μ := fun _ => 0) (k := 0) env I r (fun t ty cs cs' w y hw hy => ?_) resolved q es [] w y hw hy).1
      refine ⟨?_, Nat.le_refl _⟩
      rcases ih _ _ _ _ hw hy with h1 | ⟨w', h1, h2⟩
      · exact h1
      · rw [h2]; exact hn _ _ rfl h1
    unfold CustomDns.processRequest at h
    split at h
    · cases h; exact .inl hw
    · rename_i q qs hq
      split at h
      · cases h; exact .inr ⟨w, hw, rfl⟩
      · have hent := hent q
        split at h
        · cases h
        · rename_i hz; cases h; exact .inl (hent _ _ hz)
        · rename_i hz; cases h; exact .inl (hent _ _ hz)
        · rename_i hz
          have h1 := hent _ _ hz
          split at h
          · cases h; exact .inl h1
          · split at h
            · cases h; exact .inr ⟨_, h1, rfl⟩
            · cases h; exact .inl h1

theorem customDns_until (c : Config E Unit) (n : MR Replay) (r : Request) (m : Msg) (v : Replay) :
    (Chain.customDns c.customEnv c.customMapping c.customReverse c.customDepth n r (m, v)).2.1 = m ∨
    ∃ v', Chain.customDns c.customEnv c.customMapping c.customReverse c.customDepth n r (m, v) = n r (m, v') := by
  have hn : ∀ (r : Request) (w : Msg × Replay), r.internal = true → w.1 = m →
      ((fun r w => if r.internal then ((n r (r.req, w.2)).1, (w.1, (n r (r.req, w.2)).2.2)) else n r w : MR Replay) r w).2.1 = m := by
    intro r w hi hw
    simp only [hi, if_true]
    exact hw
  unfold Chain.customDns CustomDns.resolve
  cases r.req.question with
  | nil => exact .inl rfl
  | cons q qs =>
    simp only
    cases CustomDns.handleReverse c.customEnv c.customReverse r q with
    | some y => exact .inl rfl
    | none =>
      simp only
      have key := processRequest_until c.customEnv c.customMapping (fun w => w.1 = m) hn c.customDepth r [] (m, v)
      generalize CustomDns.processRequest c.customEnv c.customMapping _ c.customDepth r [] (m, v) = z at key
      cases z with
      | none => exact .inl rfl
      | some x =>
        rcases key x rfl rfl with h | ⟨⟨m', v'⟩, h, hx⟩
        · exact .inl h
        · simp only at h
          subst h
          subst hx
          simp only
          split
          · exact .inl rfl
          · exact .inr ⟨v', rfl⟩

theorem rewriter_leaves (fallback : Bool) (order : Nat → List (Str × Str)) {inner next : Cond.MResolver Replay} (hi : ∀ r v, (inner r v).2.1 = r.req)
    (hnext : ∀ r v, (next r v).1 ≠ .panic → Handed r.req (next r v).2.1) (r : Request) (v : Replay) :
    (Cond.rewriter fallback order inner next r v).1 ≠ .panic → Handed r.req (Cond.rewriter fallback order inner next r v).2.1 := by
  unfold Cond.rewriter
  generalize Cond.rewriteQuestions order 0 r.req.question [] = x
  obtain ⟨questions, rewritten, names⟩ := x
  simp only
  have hin := hi (if rewritten then { r with req := { r.req with question := questions } } else r) v
  generalize inner (if rewritten then { r with req := { r.req with question := questions } } else r) v = y at hin ⊢
  obtain ⟨o, msg, v'⟩ := y
  have horig : (if rewritten then r.req else msg) = r.req := by
    cases rewritten with
    | true => rfl
    | false => exact hin
  simp only [horig]
  cases o with
  | panic => exact fun h => absurd rfl h
  | err e =>
    simp only
    split
    · exact hnext r v'
    · exact fun _ => .inl rfl
  | noResponse => exact hnext r v'
  | ok y =>
    simp only
    split
    · exact hnext r v'
    · split <;> exact fun _ => .inl rfl

theorem local_leaves (a : Asking) (c : Config E Unit) (up : Resolver Unit) : Leaves (localBy a c up) := by
  intro r m v _
  have hnext : ∀ r v, (toM (HostsFile.resolve c.hostsEnabled c.hostsCfg c.hosts c.hostsOrder4 c.hostsOrder6 (blockBy a c up)) r v).1 ≠ .panic →
      Handed r.req (toM (HostsFile.resolve c.hostsEnabled c.hostsCfg c.hosts c.hostsOrder4 c.hostsOrder6 (blockBy a c up)) r v).2.1 :=
    fun r v => hosts_leaves c (blocking_leaves _ _ (caching_leaves _ _ (cond_leaves a c up))) r r.req v (.inl rfl)
  unfold localBy
  generalize toM (HostsFile.resolve c.hostsEnabled c.hostsCfg c.hosts c.hostsOrder4 c.hostsOrder6 (blockBy a c up)) = next at hnext ⊢
  unfold Cond.newRewriter
  split
  · show (Chain.customDns c.customEnv c.customMapping c.customReverse c.customDepth (ofM next) r (r.req, v)).1 ≠ .panic →
      Handed r.req (Chain.customDns c.customEnv c.customMapping c.customReverse c.customDepth (ofM next) r (r.req, v)).2.1
    rcases customDns_until c (ofM next) r r.req v with h | ⟨v', h⟩
    · exact fun _ => .inl h
    · rw [h]
      exact hnext r v'
  · exact rewriter_leaves _ _ (customDns_leaves _ _ _ _) hnext r v

theorem metrics_leaves (b : Bool) {n : MR Replay} (h : Leaves n) : Leaves (Chain.metrics b n) := by
  intro r m v hm
  unfold Chain.metrics
  have hn := h r m v hm
  generalize n r (m, v) = y at hn ⊢
  obtain ⟨o, m1, v1⟩ := y
  cases o with
  | panic => exact fun h => absurd rfl h
  | _ =>
    have hn := hn (fun h => nomatch h)
    simp only
    intro _
    split
    · split <;> exact hn
    · exact hn

/-! ### The end of a query -/

/-- A response that is logged. -/
theorem observed_logs {a : Asking} {c : Config E Unit} {up : Resolver Unit} {r : Request} {v v1 : Replay} {y : Response} {m : Msg}
    {e : QueryLogFile.LogEntry} (h : Chain.metrics c.metrics (localBy a c up) r (r.req, v) = (.ok y, (m, v1)))
    (he : QueryLog.createLogEntry c.log c.logEnv r m y c.logStart c.logDuration = some e) (m0 : Msg) :
    ∃ y', observedBy a c up r (m0, v) = (.ok y', (m, if QueryLog.ignore c.log y then v1 else log e v1)) ∧ SameOutsideExtra y'.res y.res := by
  have hl : ofM (Threads.queryLog c.log c.logEnv c.logStart c.logDuration (toM (Chain.metrics c.metrics (localBy a c up)))) r (m0, v) =
      (.ok y, (m, if QueryLog.ignore c.log y then v1 else log e v1)) := by
    unfold Chain.ofM Threads.queryLog Chain.toM
    simp only [h, he]
    split <;> rfl
  unfold observedBy Small.ede
  rw [hl]
  split
  · exact ⟨y, rfl, rfl⟩
  · refine ⟨_, rfl, ?_⟩
    unfold Small.addExtraReasoning
    split
    · rfl
    · exact (C29_only_opt_changes y.res _ 0).1.1

/-- No response. -/
theorem observed_fails (a : Asking) (c : Config E Unit) (up : Resolver Unit) (r : Request) (o : Outcome) (m : Msg) (ho : ∀ y, o ≠ .ok y) (m0 : Msg) :
    ∃ o', (∀ y, o' ≠ .ok y) ∧ ∀ v v1, Chain.metrics c.metrics (localBy a c up) r (r.req, v) = (o, (m, v1)) →
      observedBy a c up r (m0, v) = (o', (m, v1)) := by
  have hl : ∃ o', (∀ y, o' ≠ .ok y) ∧ ∀ v v1, Chain.metrics c.metrics (localBy a c up) r (r.req, v) = (o, (m, v1)) →
      ofM (Threads.queryLog c.log c.logEnv c.logStart c.logDuration (toM (Chain.metrics c.metrics (localBy a c up)))) r (m0, v) =
      (o', (m, v1)) := by
    unfold Chain.ofM Threads.queryLog Chain.toM
    cases o with
    | ok y => exact absurd rfl (ho y)
    | err e => exact ⟨.err e, (fun y h => nomatch h), fun v v1 h => by simp only [h]⟩
    | noResponse => exact ⟨.panic, (fun y h => nomatch h), fun v v1 h => by simp only [h]⟩
    | panic => exact ⟨.panic, (fun y h => nomatch h), fun v v1 h => by simp only [h]⟩
  obtain ⟨o', ho', hl⟩ := hl
  refine ⟨o', ho', fun v v1 h => ?_⟩
  unfold observedBy Small.ede
  rw [hl v v1 h]
  split
  · rfl
  · cases o' with
    | ok y => exact absurd rfl (ho' y)
    | err e => rfl
    | noResponse => rfl
    | panic => rfl

theorem inner_fed (c : Config E Unit) (up : Resolver Unit) (hd : (aliases c.customMapping).length < c.customDepth) :
    (fedLogic NotLog).R (Chain.metrics c.metrics (localBy asking c up)) (Chain.metrics c.metrics (localBy asking c up)) :=
  logic_metrics _ (logic_ofM (logic_newRewriter _ _ (fun hk => logic_toM (logic_customDns _ _ _ _ hd (logic_ofM hk)))
    (logic_toM (logic_hosts _ _ _ _ _ (logic_blocking _ _ (steps_caching fed_inner _ _ (steps_cond fed_inner c up)))))))

/-- What a query that is done leaves in the query log. -/
theorem query_logged (senv : Server.Env) (up : Resolver Unit) (c : Config E Unit) (hd : (aliases c.customMapping).length < c.customDepth)
    (remote : Server.Addr) (sni : Option Str) (msg : Msg) (r1 : Request) (q : Question)
    (hp : PassesFront c (Server.newRequestFromDNS remote sni msg) r1 q) (made : List (Threads.Op × Res))
    (ht : Trail senv up (.query c remote sni msg) made)
    (hn : ({ job := .query c remote sni msg, made := made } : Thread E).next senv up = none) :
    ∃ names m, Named r1 made names ∧
      ((∃ pre e y y', made = pre ++ [(.log e, .done)] ∧ (∀ s ∈ pre, NotLog s.1) ∧ ¬ (c.log.ignoreSUDN = true ∧ y.rtype = .special) ∧
          Handed r1.req m ∧ EntryFor c.log c.logEnv { r1 with clientNames := names } m y c.logStart c.logDuration e ∧ SameOutsideExtra y' y.res ∧
          (({ job := .query c remote sni msg, made := made } : Thread E).run senv up).1 =
            [Server.finish senv m (Server.newRequestFromDNS remote sni msg).protocol y']) ∨
        ((∀ s ∈ made, NotLog s.1) ∧
          ((∃ (y : Response) (y' : Msg), c.log.ignoreSUDN = true ∧ y.rtype = .special ∧ Handed r1.req m ∧ SameOutsideExtra y' y.res ∧
            (({ job := .query c remote sni msg, made := made } : Thread E).run senv up).1 =
              [Server.finish senv m (Server.newRequestFromDNS remote sni msg).protocol y']) ∨
          ∃ o, (∀ y, o ≠ .ok y) ∧ (({ job := .query c remote sni msg, made := made } : Thread E).run senv up).1 =
            writes senv (Server.newRequestFromDNS remote sni msg) o m))) := by
  have hm := (C28_rest_unchanged c.ecs _ r1 hp.subnet).1
  unfold SameOutsideExtra at hm
  have hq1 : r1.req.question = [q] := by
    have e3 := congrArg Msg.question hm
    simp only at e3
    exact e3.trans hp.question
  rcases names_known senv up c hd remote sni msg hp made ht with ⟨op, h1, _⟩ | ⟨h1, hnamed⟩
  · rw [next_early senv up c hd remote sni msg hp made op h1] at hn
    cases hn
  obtain ⟨used1, rest1, N, m1, he1, hp1, hf1⟩ := (steps_getNames fed_inner c.names c.namesLookup r1).2 {} made h1
  have hG : ∀ X, Threads.getNames c.names (c.namesLookup.map askNames) r1 ⟨used1 ++ X, none⟩ = (N, ⟨X, none⟩) := by
    intro X
    have h := hf1 X
    have h2 := congrArg (fun z => (z.1, z.2.2)) h
    exact h2
  rw [he1, hG] at hnamed
  simp only at hnamed
  -- runs from there
  have hrun1 : ∀ X, ({ job := .query c remote sni msg, made := used1 ++ X } : Thread E).run senv up =
      (writes senv (Server.newRequestFromDNS remote sni msg) (observedBy asking c up { r1 with clientNames := N } (r1.req, ⟨X, none⟩)).1
        (observedBy asking c up { r1 with clientNames := N } (r1.req, ⟨X, none⟩)).2.1,
      (observedBy asking c up { r1 with clientNames := N } (r1.req, ⟨X, none⟩)).2.2) := by
    intro X
    rw [query_run senv up c remote sni msg hp, whole_frontT hp, hG]
  have hw1 : (observedBy asking c up { r1 with clientNames := N } (r1.req, ⟨rest1, none⟩)).2.2.wish = none := by
    unfold Thread.next at hn
    rw [he1, hrun1] at hn
    exact hn
  have hinner : (Chain.metrics c.metrics (localBy asking c up) { r1 with clientNames := N } (r1.req, ⟨rest1, none⟩)).2.2.wish = none := by
    revert hw1
    generalize hM : Chain.metrics c.metrics (localBy asking c up) { r1 with clientNames := N } (r1.req, ⟨rest1, none⟩) = M
    obtain ⟨o, m, v1⟩ := M
    intro hw1
    have keep : ∀ e, (log e v1).wish = none → v1.wish = none := by
      intro e h
      cases hv : v1.wish with
      | none => rfl
      | some op => rw [log_keeps e v1 (by rw [hv]; exact fun x => nomatch x), hv] at h; cases h
    cases o with
    | ok y =>
      cases he : QueryLog.createLogEntry c.log c.logEnv { r1 with clientNames := N } m y c.logStart c.logDuration with
      | some e =>
        obtain ⟨y', h2, _⟩ := observed_logs hM he r1.req
        rw [h2] at hw1
        simp only at hw1
        split at hw1
        · exact hw1
        · exact keep e hw1
      | none =>
        revert hw1
        unfold observedBy Small.ede ofM Threads.queryLog toM
        simp only [hM, he]
        split <;> exact fun h => h
    | err e =>
      obtain ⟨o', _, h2⟩ := observed_fails asking c up { r1 with clientNames := N } (.err e) m (fun y h => nomatch h) r1.req
      rw [h2 _ _ hM] at hw1
      exact hw1
    | noResponse =>
      obtain ⟨o', _, h2⟩ := observed_fails asking c up { r1 with clientNames := N } .noResponse m (fun y h => nomatch h) r1.req
      rw [h2 _ _ hM] at hw1
      exact hw1
    | panic =>
      obtain ⟨o', _, h2⟩ := observed_fails asking c up { r1 with clientNames := N } .panic m (fun y h => nomatch h) r1.req
      rw [h2 _ _ hM] at hw1
      exact hw1
  obtain ⟨used2, rest2, o, m, he2, hp2, hf2⟩ := (inner_fed c up hd { r1 with clientNames := N }).2 r1.req rest1 hinner
  have hmade : made = (used1 ++ used2) ++ rest2 := by rw [he1, he2, List.append_assoc]
  have hquiet : ∀ s ∈ used1 ++ used2, NotLog s.1 := by
    intro s hs
    rcases List.mem_append.1 hs with hs | hs
    · exact hp1 s hs
    · exact hp2 s hs
  have hleft : (∀ X, (observedBy asking c up { r1 with clientNames := N } (r1.req, ⟨used2 ++ X, none⟩)).2.2.wish = none) → rest2 = [] := by
    intro h
    cases rest2 with
    | nil => rfl
    | cons s rest =>
      have h1 := ht (used1 ++ used2) s.1 s.2 rest hmade
      unfold Thread.next at h1
      have h2 := hrun1 (used2 ++ [])
      rw [List.append_nil] at h2
      rw [h2] at h1
      have h3 := h []
      rw [List.append_nil] at h3
      exact absurd (h3.symm.trans h1) (fun h => nomatch h)
  have hfail : ∀ o', (∀ y, o' ≠ .ok y) → (∀ X, observedBy asking c up { r1 with clientNames := N } (r1.req, ⟨used2 ++ X, none⟩) = (o', (m, ⟨X, none⟩))) →
      (∀ s ∈ made, NotLog s.1) ∧ (({ job := .query c remote sni msg, made := made } : Thread E).run senv up).1 =
            writes senv (Server.newRequestFromDNS remote sni msg) o' m := by
    intro o' ho hX
    have h0 := hleft (fun X => by rw [hX])
    rw [hmade, h0, List.append_nil]
    refine ⟨hquiet, ?_⟩
    have h2 := hX []
    rw [List.append_nil] at h2
    rw [hrun1, h2]
  cases o with
  | ok y =>
    have hhand : Handed r1.req m := by
      have h := metrics_leaves c.metrics (local_leaves asking c up) { r1 with clientNames := N } r1.req ⟨used2 ++ [], none⟩ (.inl rfl)
      rw [hf2 []] at h
      exact h (fun h => nomatch h)
    have hmq : ∃ q', m.question = [q'] := by
      rcases hhand with h | ⟨q', qs, h2, h3⟩
      · exact ⟨q, by rw [h, hq1]⟩
      · rw [hq1] at h2
        cases h2
        exact ⟨_, by rw [h3]⟩
    obtain ⟨q', hq'⟩ := hmq
    obtain ⟨e, he⟩ := chain_fillFields c.logEnv { r1 with clientNames := N } m y c.logDuration q' hq' c.log.fields
      (QueryLog.emptyEntry c.logEnv c.logStart)
    have hE : QueryLog.createLogEntry c.log c.logEnv { r1 with clientNames := N } m y c.logStart c.logDuration = some e := he
    have hobs := fun X => observed_logs (hf2 X) hE r1.req
    cases hi : QueryLog.ignore c.log y with
    | true =>
      simp only [hi, if_true] at hobs
      have h0 := hleft (fun X => by obtain ⟨y', h, _⟩ := hobs X; rw [h])
      obtain ⟨y', h2, h3⟩ := hobs []
      rw [List.append_nil] at h2
      refine ⟨N, m, by rw [he1]; exact hnamed, .inr ⟨by rw [hmade, h0, List.append_nil]; exact hquiet, .inl ⟨y, y'.res, ?_, ?_, hhand, h3, ?_⟩⟩⟩
      · unfold QueryLog.ignore at hi
        simp only [Bool.and_eq_true] at hi
        exact hi.1
      · unfold QueryLog.ignore at hi
        simp only [Bool.and_eq_true, beq_iff_eq] at hi
        exact hi.2
      · rw [hmade, h0, List.append_nil, hrun1, h2]
        rfl
    | false =>
      simp only [hi, Bool.false_eq_true, if_false] at hobs
      -- the step
      have hstep : ∃ e' rest, rest2 = (.log e', .done) :: rest := by
        rw [he2] at hw1
        obtain ⟨y', h, _⟩ := hobs rest2
        rw [h] at hw1
        unfold log at hw1
        simp only at hw1
        split at hw1
        · exact ⟨_, _, rfl⟩
        · cases hw1
      obtain ⟨e', rest, hr⟩ := hstep
      have hsame : e' = e := by
        have h1 := ht (used1 ++ used2) (.log e') .done rest (by rw [hmade, hr])
        unfold Thread.next at h1
        obtain ⟨y', h, _⟩ := hobs []
        rw [List.append_nil] at h
        rw [hrun1, h] at h1
        cases h1
        rfl
      subst hsame
      have hlast : rest = [] := by
        cases rest with
        | nil => rfl
        | cons s rest =>
          have h1 := ht ((used1 ++ used2) ++ [(.log e', .done)]) s.1 s.2 rest (by rw [hmade, hr]; simp)
          unfold Thread.next at h1
          obtain ⟨y', h, _⟩ := hobs [(.log e', .done)]
          rw [List.append_assoc, hrun1, h] at h1
          cases h1
      subst hlast
      obtain ⟨y', h2, h3⟩ := hobs [(.log e', .done)]
      refine ⟨N, m, by rw [he1]; exact hnamed, .inl ⟨used1 ++ used2, e', y, y'.res, by rw [hmade, hr], hquiet, ?_, hhand,
        C36_fields _ _ _ _ _ _ _ _ hE, h3, ?_⟩⟩
      · rintro ⟨hs, hs2⟩
        unfold QueryLog.ignore at hi
        rw [hs, hs2] at hi
        cases hi
      · rw [hmade, hr, List.append_assoc, hrun1, h2]
        rfl
  | err x =>
    obtain ⟨o', ho', hobs⟩ := observed_fails asking c up { r1 with clientNames := N } (.err x) m (fun y h => nomatch h) r1.req
    obtain ⟨h1, h2⟩ := hfail o' ho' (fun X => hobs _ _ (hf2 X))
    exact ⟨N, m, by rw [he1]; exact hnamed, .inr ⟨h1, .inr ⟨o', ho', h2⟩⟩⟩
  | noResponse =>
    obtain ⟨o', ho', hobs⟩ := observed_fails asking c up { r1 with clientNames := N } .noResponse m (fun y h => nomatch h) r1.req
    obtain ⟨h1, h2⟩ := hfail o' ho' (fun X => hobs _ _ (hf2 X))
    exact ⟨N, m, by rw [he1]; exact hnamed, .inr ⟨h1, .inr ⟨o', ho', h2⟩⟩⟩
  | panic =>
    obtain ⟨o', ho', hobs⟩ := observed_fails asking c up { r1 with clientNames := N } .panic m (fun y h => nomatch h) r1.req
    obtain ⟨h1, h2⟩ := hfail o' ho' (fun X => hobs _ _ (hf2 X))
    exact ⟨N, m, by rw [he1]; exact hnamed, .inr ⟨h1, .inr ⟨o', ho', h2⟩⟩⟩

/-- **C125.** Any number of queries handled at the same time, in any interleaving, with any contents of the caches: a query that is done and has
got a response has made exactly one entry for the query log, as its last step. The entry is the one of this query - its client with the names
it has come to have for this query, its question (maybe in lower case), and the answer and code of the very reply it gets. Without entry are only
queries whose response is one for special use domains while these are to be ignored, and queries that have failed. (For queries with one
question that get as far as the query log.) -/
theorem C125_logged (senv : Server.Env) (up : Resolver Unit) (s : Sys E) (hs : s.threads = []) (es : List (Ev E)) (t : Thread E)
    (ht : t ∈ (execute senv up s es).threads) (c : Config E Unit) (remote : Server.Addr) (sni : Option Str) (msg : Msg)
    (hj : t.job = .query c remote sni msg) (hd : (aliases c.customMapping).length < c.customDepth) (r1 : Request) (q : Question)
    (hp : PassesFront c (Server.newRequestFromDNS remote sni msg) r1 q) (ms : List Msg) (hr : t.reply senv up = some ms) :
    ∃ names m, Named r1 t.made names ∧
      ((∃ pre e y y', t.made = pre ++ [(.log e, .done)] ∧ (∀ s ∈ pre, NotLog s.1) ∧ ¬ (c.log.ignoreSUDN = true ∧ y.rtype = .special) ∧
          Handed r1.req m ∧ EntryFor c.log c.logEnv { r1 with clientNames := names } m y c.logStart c.logDuration e ∧ SameOutsideExtra y' y.res ∧
          ms = [Server.finish senv m (Server.newRequestFromDNS remote sni msg).protocol y']) ∨
        ((∀ s ∈ t.made, NotLog s.1) ∧
          ((∃ (y : Response) (y' : Msg), c.log.ignoreSUDN = true ∧ y.rtype = .special ∧ Handed r1.req m ∧ SameOutsideExtra y' y.res ∧
            ms = [Server.finish senv m (Server.newRequestFromDNS remote sni msg).protocol y']) ∨
          ∃ o, (∀ y, o ≠ .ok y) ∧ ms = writes senv (Server.newRequestFromDNS remote sni msg) o m))) := by
  have h := execute_trail senv up s hs es t ht
  obtain ⟨job, made⟩ := t
  simp only at hj h
  subst hj
  have hn : ({ job := .query c remote sni msg, made := made } : Thread E).next senv up = none := by
    unfold Thread.reply at hr
    cases hx : ({ job := .query c remote sni msg, made := made } : Thread E).next senv up with
    | none => rfl
    | some op => rw [hx] at hr; cases hr
  have hms : (({ job := .query c remote sni msg, made := made } : Thread E).run senv up).1 = ms := by
    unfold Thread.reply at hr
    rw [hn] at hr
    exact Option.some.inj hr
  have := query_logged senv up c hd remote sni msg r1 q hp made h hn
  rw [hms] at this
  exact this

/-! ### The queue -/

/-- The entry of a step. -/
def entryOf : Threads.Op → Option QueryLogFile.LogEntry
  | .log e => some e
  | _ => none

/-- The entries a goroutine has made for the query log. -/
def entriesOf (t : Thread E) : List QueryLogFile.LogEntry := t.made.filterMap (fun s => entryOf s.1)

/-- Those of all. -/
def offered (s : Sys E) : List QueryLogFile.LogEntry := s.threads.flatMap entriesOf

/-- What the writer has written, is writing, or will get. -/
def inLog (q : QueryLog.Queue) : List QueryLogFile.LogEntry := q.written ++ (q.writing.toList ++ q.waiting)

theorem perm_flatMap_set {A B : Type} (f : A → List B) (x : List B) (t t' : A) (h : f t' = f t ++ x) : ∀ (l : List A) (i : Nat), l[i]? = some t →
    ((l.set i t').flatMap f).Perm (l.flatMap f ++ x) := by
  intro l
  induction l with
  | nil => intro i hi; cases hi
  | cons a l ih =>
    intro i hi
    cases i with
    | zero =>
      cases hi
      simp only [List.set_cons_zero, List.flatMap_cons, h, List.append_assoc]
      exact List.Perm.append_left _ List.perm_append_comm
    | succ i =>
      simp only [List.set_cons_succ, List.flatMap_cons, List.append_assoc]
      exact List.Perm.append_left _ (ih i hi)

theorem inLog_take (q : QueryLog.Queue) : inLog (QueryLog.take q) = inLog q := by
  obtain ⟨waiting, writing, written⟩ := q
  cases writing <;> cases waiting <;> rfl

theorem inLog_finish (q : QueryLog.Queue) : inLog (QueryLog.finish q) = inLog q := by
  obtain ⟨waiting, writing, written⟩ := q
  cases writing <;> simp [inLog, QueryLog.finish]

theorem inLog_offer (q : QueryLog.Queue) (e : QueryLogFile.LogEntry) :
    (q.waiting.length < QueryLog.logChanCap ∧ inLog (QueryLog.offer q e) = inLog q ++ [e]) ∨
    (¬ q.waiting.length < QueryLog.logChanCap ∧ inLog (QueryLog.offer q e) = inLog q) := by
  by_cases h : q.waiting.length < QueryLog.logChanCap
  · exact .inl ⟨h, by simp [inLog, QueryLog.offer, h]⟩
  · exact .inr ⟨h, by simp [QueryLog.offer, h]⟩

/-- One event: entries come in, or - with a full queue - are lost. -/
theorem advance_log (senv : Server.Env) (up : Resolver Unit) (s : Sys E) (ev : Ev E) :
    ∃ more lost, (offered (advance senv up s ev)).Perm (offered s ++ (more ++ lost)) ∧ inLog (advance senv up s ev).queue = inLog s.queue ++ more ∧
      (s.queue.waiting.length < QueryLog.logChanCap → lost = []) := by
  have same : ∀ s' : Sys E, offered s' = offered s → inLog s'.queue = inLog s.queue → ∃ more lost, (offered s').Perm (offered s ++ (more ++ lost)) ∧
      inLog s'.queue = inLog s.queue ++ more ∧ (s.queue.waiting.length < QueryLog.logChanCap → lost = []) :=
    fun s' h1 h2 => ⟨[], [], by rw [h1]; simp, by rw [h2]; simp, fun _ => rfl⟩
  cases ev with
  | query c remote sni msg => exact same _ (by simp [advance, offered, entriesOf]) rfl
  | refresh c key =>
    refine same _ ?_ ?_
    · simp only [advance]
      split
      · simp [offered, entriesOf]
      · rfl
    · simp only [advance]
      split <;> rfl
  | pass d => exact same _ rfl rfl
  | drop key => exact same _ rfl rfl
  | dropNames key => exact same _ rfl rfl
  | flush => exact same _ rfl rfl
  | take => exact same _ rfl (inLog_take _)
  | written => exact same _ rfl (inLog_finish _)
  | move i o x =>
    simp only [advance]
    cases ht : s.threads[i]? with
    | none => exact same _ rfl rfl
    | some t =>
      simp only
      cases hn : t.next senv up with
      | none => exact same _ rfl rfl
      | some op =>
        simp only
        have hset : ∀ (res : Res) (x : List QueryLogFile.LogEntry), (entryOf op).toList = x →
            ((s.threads.set i { t with made := t.made ++ [(op, res)] }).flatMap entriesOf).Perm (offered s ++ x) := by
          intro res x hx
          refine perm_flatMap_set entriesOf x t _ ?_ s.threads i ht
          simp only [entriesOf, List.filterMap_append, List.filterMap_cons, List.filterMap_nil]
          rw [← hx]
          cases op <;> rfl
        have hquiet : ∀ (res : Res) (s' : Sys E), (entryOf op).toList = [] →
            s'.queue = s.queue → ∃ more lost,
            (offered { s' with threads := s.threads.set i { t with made := t.made ++ [(op, res)] } }).Perm (offered s ++ (more ++ lost)) ∧
            inLog s'.queue = inLog s.queue ++ more ∧ (s.queue.waiting.length < QueryLog.logChanCap → lost = []) := by
          intro res s' h1 h2
          exact ⟨[], [], by simpa [offered] using hset res [] h1, by rw [h2]; simp, fun _ => rfl⟩
        cases op with
        | log e =>
          simp only [perform]
          have h := hset .done [e] rfl
          rcases inLog_offer s.queue e with ⟨_, h1⟩ | ⟨h0, h1⟩
          · exact ⟨[e], [], by simpa [offered] using h, h1, fun _ => rfl⟩
          · exact ⟨[], [e], by simpa [offered] using h, by rw [h1]; simp, fun hl => absurd hl h0⟩
        | find key => exact hquiet _ _ rfl rfl
        | keep key m ttl => exact hquiet _ _ rfl rfl
        | findNames key => exact hquiet _ _ rfl rfl
        | keepNames key names => exact hquiet _ _ rfl rfl
        | ask z r => exact hquiet _ _ rfl rfl
        | askNames ip => exact hquiet _ _ rfl rfl

/-- **C125, the queue.** In any execution the entries written, being written or waiting are entries the goroutines have made, each as often as
it has been made at most; and while there are always fewer than 1000 entries waiting none gets lost. -/
theorem C125_queue (senv : Server.Env) (up : Resolver Unit) (s : Sys E) (hs : s.threads = []) (hq : inLog s.queue = []) (es : List (Ev E)) :
    ∃ lost, (inLog (execute senv up s es).queue ++ lost).Perm (offered (execute senv up s es)) ∧
      ((∀ es1 es2, es = es1 ++ es2 → (execute senv up s es1).queue.waiting.length < QueryLog.logChanCap) → lost = []) := by
  have key : ∀ (es : List (Ev E)) (s : Sys E) (lost : List QueryLogFile.LogEntry), (inLog s.queue ++ lost).Perm (offered s) →
      ∃ more, (inLog (execute senv up s es).queue ++ (lost ++ more)).Perm (offered (execute senv up s es)) ∧
      ((∀ es1 es2, es = es1 ++ es2 → (execute senv up s es1).queue.waiting.length < QueryLog.logChanCap) → more = []) := by
    intro es
    induction es with
    | nil => intro s lost h; exact ⟨[], by rw [List.append_nil]; exact h, fun _ => rfl⟩
    | cons ev es ih =>
      intro s lost h
      obtain ⟨kept, gone, h1, h2, h3⟩ := advance_log senv up s ev
      obtain ⟨more, h4, h5⟩ := ih (advance senv up s ev) (lost ++ gone) (by
        rw [h2]
        refine List.Perm.trans ?_ h1.symm
        have h6 : (inLog s.queue ++ kept ++ (lost ++ gone)).Perm (inLog s.queue ++ lost ++ (kept ++ gone)) := by
          simp only [List.append_assoc]
          refine List.Perm.append_left _ ?_
          rw [← List.append_assoc, ← List.append_assoc]
          exact List.Perm.append_right _ List.perm_append_comm
        exact h6.trans (List.Perm.append_right _ h))
      refine ⟨gone ++ more, by rw [List.append_assoc] at h4; exact h4, fun hall => ?_⟩
      rw [h3 (hall [] (ev :: es) rfl), h5 (fun es1 es2 he => hall (ev :: es1) es2 (by rw [he]; rfl))]
      rfl
  obtain ⟨more, h1, h2⟩ := key es s [] (by rw [hq]; simp [offered, hs])
  exact ⟨more, by simpa using h1, h2⟩

/-- Runs that do not come to steps of the query log. -/
def unloggedLogic : Logic Replay Replay where
  rel f _ := ∀ (m : Msg) (v : Replay), (∀ op, v.wish = some op → NotLog op) → ∀ op, (f (m, v)).2.2.wish = some op → NotLog op
  pure _ _ := fun _ _ h => h
  bind h hk := fun m v hv => hk _ _ _ (h m v hv)

theorem unlogged_wait (v : Replay) (op : Threads.Op) (hop : NotLog op) (h : ∀ op, v.wish = some op → NotLog op) :
    ∀ op', (v.wait op).wish = some op' → NotLog op' := by
  unfold Replay.wait
  cases hv : v.wish with
  | none => intro op' e; cases e; exact hop
  | some x => intro op' e; exact h op' (by rw [hv]; exact e)

theorem unlogged_inner : InnerOk unloggedLogic asking asking where
  find k := fun m v h => by
    simp only [find]; split <;> (try split) <;> first | exact h | exact unlogged_wait v _ trivial h
  keep k m ttl := fun _ v h => by
    simp only [keep]; split <;> first | exact h | exact unlogged_wait v _ trivial h
  findNames k := fun m v h => by
    simp only [findNames]; split <;> (try split) <;> first | exact h | exact unlogged_wait v _ trivial h
  keepNames k l := fun _ v h => by
    simp only [keepNames]; split <;> first | exact h | exact unlogged_wait v _ trivial h
  askNames l ip := fun m v h => by
    simp only [askNames]; split <;> (try split) <;> first | exact h | exact unlogged_wait v _ trivial h
  ask z u r := fun m v h => by
    simp only [asking, ask]; split <;> (try split) <;> first | exact h | exact unlogged_wait v _ trivial h

/-- **C125, nothing else.** Whatever is written to the query log is the entry of some query of the execution; entries asked for again by the cache
are not logged. -/
theorem C125_written (senv : Server.Env) (up : Resolver Unit) (s : Sys E) (hs : s.threads = []) (hq : inLog s.queue = []) (es : List (Ev E))
    (e : QueryLogFile.LogEntry) (he : e ∈ (execute senv up s es).queue.written) :
    ∃ t ∈ (execute senv up s es).threads, (∃ c remote sni msg, t.job = .query c remote sni msg) ∧ ∃ res, (.log e, res) ∈ t.made := by
  obtain ⟨lost, h, _⟩ := C125_queue senv up s hs hq es
  have h1 : e ∈ offered (execute senv up s es) := h.subset (List.mem_append_left _ (List.mem_append_left _ he))
  obtain ⟨t, ht, h2⟩ := List.mem_flatMap.1 h1
  obtain ⟨⟨op, res⟩, h3, h4⟩ := List.mem_filterMap.1 h2
  have h5 : (.log e, res) ∈ t.made := by
    cases op with
    | log e' => cases h4; exact h3
    | _ => cases h4
  refine ⟨t, ht, ?_, res, h5⟩
  obtain ⟨job, made⟩ := t
  cases job with
  | query c remote sni msg => exact ⟨c, remote, sni, msg, rfl⟩
  | refresh c key =>
    exfalso
    obtain ⟨pre, post, hsplit⟩ := List.append_of_mem h5
    have hn := execute_trail senv up s hs es _ ht pre (.log e) res post hsplit
    obtain ⟨f, hf1, hf2⟩ := steps_refresh unlogged_inner c up key
    have h6 := hf2 {} ⟨pre, none⟩ (fun _ h => nomatch h) (.log e)
    rw [hf1] at h6
    exact h6 hn

/-! ### Examples -/

-- Four queries and a refresh overlap: the queries are logged, each once; one entry has been written, the others wait.
example : (offered (execute sampleServer bareUp freshSys (planned freshSys overlapping))).map (·.questionName) =
      [str! "www.org.", str! "WWW.Org.", str! "ads.org.", str! "www.ORG."] ∧
    (execute sampleServer bareUp freshSys (planned freshSys overlapping)).queue.written.map (·.questionName) = [str! "WWW.Org."] ∧
    (execute sampleServer bareUp freshSys (planned freshSys overlapping)).queue.waiting.map (·.questionName) =
      [str! "www.org.", str! "ads.org.", str! "www.ORG."] := by
  decide +kernel

set_option maxRecDepth 100000 in
/-- The hypotheses of `C125_logged` are met by the query for a blocked name, which is logged with the name it asks for. -/
example : ∃ t ∈ (execute sampleServer bareUp freshSys (planned freshSys overlapping)).threads, ∃ pre e,
    t.made = pre ++ [(.log e, .done)] ∧ (∀ s ∈ pre, NotLog s.1) ∧ e.questionName = str! "ads.org." := by
  have h : ((execute sampleServer bareUp freshSys (planned freshSys overlapping)).threads[2]?).map
      (fun t => (t.reply sampleServer bareUp).isSome && (entriesOf t).map (·.questionName) == [str! "ads.org."]) = some true := by decide +kernel
  obtain ⟨t, h1, h2⟩ := Option.map_eq_some_iff.1 h
  have hj : ((execute sampleServer bareUp freshSys (planned freshSys overlapping)).threads[2]?).map Thread.job =
      some (.query (threadsConfig 0) (.udp (some (.v4 1#32))) none (query (str! "ads.org."))) := rfl
  rw [h1] at hj
  have hj := Option.some.inj hj
  simp only [Bool.and_eq_true, beq_iff_eq] at h2
  obtain ⟨ms, hms⟩ := Option.isSome_iff_exists.1 h2.1
  refine ⟨t, List.mem_of_getElem? h1, ?_⟩
  obtain ⟨names, m, _, h3⟩ := C125_logged sampleServer bareUp freshSys rfl _ t (List.mem_of_getElem? h1) _ _ _ _ hj (by decide)
    (Server.newRequestFromDNS (.udp (some (.v4 1#32))) none (query (str! "ads.org."))) ⟨str! "ads.org.", typeA, 1⟩
    ⟨rfl, by decide, .inl rfl, rfl⟩ ms hms
  have hentries := h2.2
  unfold entriesOf at hentries
  rcases h3 with ⟨pre, e, y, y', h4, h5, _⟩ | ⟨h4, _⟩
  · refine ⟨pre, e, h4, h5, ?_⟩
    have h6 : pre.filterMap (fun s => entryOf s.1) = [] := by
      rw [List.filterMap_eq_nil_iff]
      intro s hs
      have := h5 s hs
      obtain ⟨op, res⟩ := s
      cases op <;> first | rfl | exact this.elim
    rw [h4, List.filterMap_append, h6] at hentries
    simpa [entryOf] using hentries
  · exfalso
    have h6 : t.made.filterMap (fun s => entryOf s.1) = [] := by
      rw [List.filterMap_eq_nil_iff]
      intro s hs
      have := h4 s hs
      obtain ⟨op, res⟩ := s
      cases op <;> first | rfl | exact this.elim
    rw [h6] at hentries
    cases hentries

end Verif.Props
