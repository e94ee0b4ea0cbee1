/-
C124: names answered by the server itself - filtered, configured, blocked - stay inside when many queries are handled at the same time.
-/
import Verif.Props.Outside

namespace Verif.Props
open Verif.Dns Verif.ExpCache Verif.StringCache Verif.Threads Verif.Chain Verif.Spec

variable {E : RegexEngine}

/-! ### The steps of a goroutine, one after the other -/

/-- Every step made was the one to be made then. -/
def Trail (senv : Server.Env) (up : Resolver Unit) (j : Job E) (made : List (Threads.Op × Res)) : Prop :=
  ∀ pre op res post, made = pre ++ (op, res) :: post → ({ job := j, made := pre } : Thread E).next senv up = some op

theorem trail_add {senv : Server.Env} {up : Resolver Unit} {j : Job E} {made : List (Threads.Op × Res)} (h : Trail senv up j made)
    {op : Threads.Op} (hn : ({ job := j, made := made } : Thread E).next senv up = some op) (res : Res) : Trail senv up j (made ++ [(op, res)]) := by
  intro pre op' res' post he
  rcases List.eq_nil_or_concat post with rfl | ⟨post', e, rfl⟩
  · have := List.append_inj' he rfl
    rw [← this.1]
    have h2 := this.2
    cases h2
    exact hn
  · have he' : made ++ [(op, res)] = (pre ++ (op', res') :: post') ++ [e] := by simpa using he
    have := List.append_inj' he' rfl
    exact h pre op' res' post' this.1

theorem trail_made (senv : Server.Env) (up : Resolver Unit) (es : List (Ev E)) : ∀ s : Sys E,
    (∀ t ∈ s.threads, Trail senv up t.job t.made) → ∀ t ∈ (execute senv up s es).threads, Trail senv up t.job t.made := by
  have fresh : ∀ j : Job E, Trail senv up j [] := fun j pre op res post h => by cases pre <;> cases h
  induction es with
  | nil => exact fun s hs => hs
  | cons ev es ih =>
    intro s hs
    refine ih (advance senv up s ev) (fun t ht => ?_)
    have old : t ∈ s.threads → Trail senv up t.job t.made := hs t
    cases ev with
    | query c remote sni msg =>
      rcases List.mem_append.1 ht with ht | ht
      · exact old ht
      · cases List.mem_singleton.1 ht
        exact fresh _
    | refresh c key =>
      simp only [advance] at ht
      split at ht
      · rcases List.mem_append.1 ht with ht | ht
        · exact old ht
        · cases List.mem_singleton.1 ht
          exact fresh _
      · exact old ht
    | move i o x =>
      simp only [advance] at ht
      cases hi : s.threads[i]? with
      | none => rw [hi] at ht; exact old ht
      | some t' =>
        rw [hi] at ht
        simp only at ht
        cases hn : t'.next senv up with
        | none => rw [hn] at ht; exact old ht
        | some op =>
          rw [hn] at ht
          simp only at ht
          rcases List.mem_or_eq_of_mem_set ht with ht | rfl
          · exact old ht
          · exact trail_add (hs t' (List.mem_of_getElem? hi)) hn _
    | pass d => exact old ht
    | drop key => exact old ht
    | dropNames key => exact old ht
    | flush => exact old ht
    | take => exact old ht
    | written => exact old ht

/-! ### The names of the client -/

/-- The names of the client for a query that has made these steps: the id it sent, or the names found in the cache of names, or the ones
stored there. -/
def Named (r : Request) (made : List (Threads.Op × Res)) (names : List Str) : Prop :=
  (r.requestClientID ≠ [] ∧ names = [r.requestClientID]) ∨
  (r.requestClientID = [] ∧ r.clientIP = none ∧ names = []) ∨
  (r.requestClientID = [] ∧ r.clientIP ≠ none ∧
    ((∃ k, (.findNames k, .names (some names)) ∈ made) ∨ ∃ k res, (.keepNames k names, res) ∈ made))

theorem Named.later {r : Request} {pre made : List (Threads.Op × Res)} {names : List Str} (h : Named r pre names) (hp : ∀ e ∈ pre, e ∈ made) :
    Named r made names := by
  rcases h with h | h | ⟨h1, h2, ⟨k, h⟩ | ⟨k, res, h⟩⟩
  · exact .inl h
  · exact .inr (.inl h)
  · exact .inr (.inr ⟨h1, h2, .inl ⟨k, hp _ h⟩⟩)
  · exact .inr (.inr ⟨h1, h2, .inr ⟨k, res, hp _ h⟩⟩)

/-- A step to find out names. -/
def NamesStep : Threads.Op → Prop
  | .findNames _ => True
  | .keepNames _ _ => True
  | .askNames _ => True
  | _ => False

/-- Where a run waits. -/
theorem wait_none (todo : List (Threads.Op × Res)) (op : Threads.Op) : (Replay.wait ⟨todo, none⟩ op).wish = some op := rfl

theorem keepNames_waits (v : Replay) (op : Threads.Op) (h : v.wish = some op) (k : Str) (l : List Str) : (keepNames k l v).wish = some op := by
  have := (runs_ops.keepNames k l).1 {} v (by rw [h]; exact fun x => nomatch x)
  exact (this : (keepNames k l v).wish = v.wish).trans h

theorem keepNames_wish (todo : List (Threads.Op × Res)) (k : Str) (l : List Str) :
    (keepNames k l ⟨todo, none⟩).wish = some (.keepNames k l) ∨ (∃ k' l' rest, todo = (.keepNames k' l', .done) :: rest ∧
      keepNames k l ⟨todo, none⟩ = ⟨rest, none⟩) := by
  unfold keepNames
  split
  · rename_i k' l' rest h
    exact .inr ⟨k', l', rest, h, rfl⟩
  · exact .inl rfl

theorem resolveNames_run (cfg : ClientNames.Cfg) (l : Option (ClientNames.Lookup (Caching.CState × Unit))) (ip : IP) (todo : List (Threads.Op × Res)) :
    (∃ N, ∀ todo, ClientNames.resolveClientNames cfg (l.map askNames) ip ⟨todo, none⟩ = (N, ⟨todo, none⟩)) ∨
    (∃ x rest N, todo = (.askNames ip, .records x) :: rest ∧
      ∀ rest, ClientNames.resolveClientNames cfg (l.map askNames) ip ⟨(.askNames ip, .records x) :: rest, none⟩ = (N, ⟨rest, none⟩)) ∨
    (ClientNames.resolveClientNames cfg (l.map askNames) ip ⟨todo, none⟩).2.wish = some (.askNames ip) := by
  by_cases hm : (ClientNames.fromMapping cfg ip).length > 0
  · exact .inl ⟨ClientNames.fromMapping cfg ip, fun todo => by unfold ClientNames.resolveClientNames; rw [if_pos hm]⟩
  · cases l with
    | none => exact .inl ⟨[cfg.ipString ip], fun todo => by unfold ClientNames.resolveClientNames; rw [if_neg hm]; rfl⟩
    | some l =>
      refine .inr ?_
      have e1 : ∀ v, ClientNames.resolveClientNames cfg ((some l).map askNames) ip v = (namesOf cfg ip (askNames l ip v).1, (askNames l ip v).2) := by
        intro v
        unfold ClientNames.resolveClientNames
        rw [if_neg hm]
        simp only [Option.map_some]
        generalize askNames l ip v = y
        obtain ⟨o, v'⟩ := y
        cases o with
        | none => rfl
        | some a => simp only [namesOf]; split <;> rfl
      by_cases hh : ∃ x rest, todo = (.askNames ip, .records x) :: rest
      · obtain ⟨x, rest, rfl⟩ := hh
        refine .inl ⟨x, rest, namesOf cfg ip x, rfl, fun rest => ?_⟩
        rw [e1]
        simp [askNames]
      · refine .inr ?_
        rw [e1]
        unfold askNames
        split
        · rename_i ip' x rest h
          simp only at h
          rw [if_neg (fun hip => hh ⟨x, rest, by rw [h, hip]⟩)]
          rfl
        · rfl

/-- The names are not known yet, and the step to be made is one to find them out; or they are known. -/
theorem getNames_run (cfg : ClientNames.Cfg) (l : Option (ClientNames.Lookup (Caching.CState × Unit))) (r : Request) (made : List (Threads.Op × Res)) :
    (∃ op, (Threads.getNames cfg (l.map askNames) r ⟨made, none⟩).2.wish = some op ∧ NamesStep op) ∨
    ((Threads.getNames cfg (l.map askNames) r ⟨made, none⟩).2.wish = none ∧
      (Named r made (Threads.getNames cfg (l.map askNames) r ⟨made, none⟩).1 ∨
       (r.requestClientID = [] ∧ r.clientIP ≠ none ∧ ∃ pre k' n' rest k, made = pre ++ (.keepNames k' n', .done) :: rest ∧
        (Threads.getNames cfg (l.map askNames) r ⟨pre, none⟩).2.wish = some (.keepNames k (Threads.getNames cfg (l.map askNames) r ⟨made, none⟩).1)))) := by
  by_cases hid : r.requestClientID = []
  · cases hip : r.clientIP with
    | none =>
      have e : ∀ v, Threads.getNames cfg (l.map askNames) r v = ([], v) := fun v => by
        unfold Threads.getNames
        simp only [hid, ne_eq, not_true_eq_false, if_false, hip]
      rw [e]
      exact .inr ⟨rfl, .inl (.inr (.inl ⟨hid, hip, rfl⟩))⟩
    | some ip =>
      have e : ∀ v, Threads.getNames cfg (l.map askNames) r v =
          match findNames (cfg.ipString ip) v with
          | (some names, v) => (names, v)
          | (none, v) => ((ClientNames.resolveClientNames cfg (l.map askNames) ip v).1,
              keepNames (cfg.ipString ip) (ClientNames.resolveClientNames cfg (l.map askNames) ip v).1
                (ClientNames.resolveClientNames cfg (l.map askNames) ip v).2) := fun v => by
        unfold Threads.getNames
        simp only [hid, ne_eq, not_true_eq_false, if_false, hip]
        generalize findNames (cfg.ipString ip) v = y
        obtain ⟨o, v'⟩ := y
        cases o <;> rfl
      by_cases hh : ∃ x rest, made = (.findNames (cfg.ipString ip), .names x) :: rest
      · obtain ⟨x, rest, rfl⟩ := hh
        have e' : ∀ rest, findNames (cfg.ipString ip) ⟨(.findNames (cfg.ipString ip), .names x) :: rest, none⟩ = (x, ⟨rest, none⟩) := fun rest => by
          simp [findNames]
        cases x with
        | some names =>
          rw [e, e']
          exact .inr ⟨rfl, .inl (.inr (.inr ⟨hid, by rw [hip]; exact fun h => (nomatch h), .inl ⟨_, List.mem_cons_self⟩⟩))⟩
        | none =>
          simp only [e]
          rw [e']
          simp only
          have hne : some ip ≠ none := fun h => nomatch h
          rcases resolveNames_run cfg l ip rest with ⟨N, hN⟩ | ⟨x, rest', N, rfl, hN⟩ | hw
          · rw [hN]
            rcases keepNames_wish rest (cfg.ipString ip) N with h | ⟨k', l', rest', rfl, h⟩
            · exact .inl ⟨_, h, trivial⟩
            · rw [h]
              refine .inr ⟨rfl, .inr ⟨hid, hne, [(.findNames (cfg.ipString ip), .names none)], k', l', rest', cfg.ipString ip, rfl, ?_⟩⟩
              rw [e']
              simp only
              rw [hN]
              rfl
          · rw [hN]
            rcases keepNames_wish rest' (cfg.ipString ip) N with h | ⟨k', l', rest', rfl, h⟩
            · exact .inl ⟨_, h, trivial⟩
            · rw [h]
              refine .inr ⟨rfl, .inr ⟨hid, hne, [(.findNames (cfg.ipString ip), .names none), (.askNames ip, .records x)], k', l', rest',
                cfg.ipString ip, rfl, ?_⟩⟩
              rw [e']
              simp only
              rw [hN]
              rfl
          · refine .inl ⟨.askNames ip, ?_, trivial⟩
            exact keepNames_waits _ _ hw _ _
      · refine .inl ⟨.findNames (cfg.ipString ip), ?_, trivial⟩
        have e' : findNames (cfg.ipString ip) ⟨made, none⟩ = (none, Replay.wait ⟨made, none⟩ (.findNames (cfg.ipString ip))) := by
          unfold findNames
          split
          · rename_i k x rest h
            simp only at h
            rw [if_neg (fun hk => hh ⟨x, rest, by rw [h, hk]⟩)]
          · rfl
        rw [e, e']
        simp only
        refine keepNames_waits _ _ ?_ _ _
        have h2 := (steps_resolveNames runs_ops.toInnerOk cfg l ip).1 {} (Replay.wait ⟨made, none⟩ (.findNames (cfg.ipString ip))) (fun x => nomatch x)
        exact h2
  · have e : ∀ v, Threads.getNames cfg (l.map askNames) r v = ([r.requestClientID], v) := fun v => by
      unfold Threads.getNames
      rw [if_pos hid]
    rw [e]
    exact .inr ⟨rfl, .inl (.inl ⟨hid, rfl⟩)⟩

/-! ### The resolvers up to the lists -/

/-- The query gets past the filters in front. -/
structure PassesFront (c : Config E Unit) (request r1 : Request) (q : Question) : Prop where
  question : request.req.question = [q]
  type : q.qtype ∉ c.filterTypes
  fqdn : c.fqdnOnly = false ∨ '.' ∈ extractDomain q.name
  subnet : Ecs.transform c.ecs request = some r1

theorem whole_frontT {a : Asking} {c : Config E Unit} {up : Resolver Unit} {request r1 : Request} {q : Question} (h : PassesFront c request r1 q) (m : Msg) (v : Replay) :
    wholeBy a c up request (m, v) =
      observedBy a c up { r1 with clientNames := (Threads.getNames c.names (c.namesLookup.map askNames) r1 v).1 }
        (r1.req, (Threads.getNames c.names (c.namesLookup.map askNames) r1 v).2) := by
  unfold wholeBy Small.filtering
  rw [h.question]
  have hf' : c.filterTypes.contains q.qtype = false := by simpa using h.type
  simp only [hf', Bool.false_eq_true, if_false]
  have hfo : ∀ (next : MR Replay), Small.fqdnOnly c.fqdnOnly next request (m, v) = next request (m, v) := by
    intro next
    unfold Small.fqdnOnly
    rcases h.fqdn with h' | h'
    · rw [h']; rfl
    · rw [h.question]
      have : (extractDomain q.name).contains '.' = true := by simpa using h'
      simp only [this]
      simp
  rw [hfo]
  unfold Chain.ecs
  rw [h.subnet]
  rfl

theorem observed_okT {a : Asking} {c : Config E Unit} {up : Resolver Unit} {r : Request} {q : Question} (hq : r.req.question = [q])
    (v : Replay) (y : Response) (h : localBy a c up r (r.req, v) = (.ok y, (r.req, v))) :
    ∃ y' v', observedBy a c up r (r.req, v) = (.ok y', (r.req, v')) ∧ (v' = v ∨ ∃ e, v' = log e v) ∧
      y'.rtype = y.rtype ∧ y'.reason = y.reason ∧ SameOutsideExtra y'.res y.res := by
  have hm : Chain.metrics c.metrics (localBy a c up) r (r.req, v) = (.ok y, (r.req, v)) := by
    unfold Chain.metrics
    rw [h]
    simp only [hq, ite_self]
  have hlog : ∃ v', ofM (Threads.queryLog c.log c.logEnv c.logStart c.logDuration (toM (Chain.metrics c.metrics (localBy a c up)))) r
      (r.req, v) = (.ok y, (r.req, v')) ∧ (v' = v ∨ ∃ e, v' = log e v) := by
    unfold Chain.ofM Threads.queryLog Chain.toM
    simp only [hm]
    obtain ⟨e, he⟩ := chain_fillFields c.logEnv r r.req y c.logDuration q hq c.log.fields (QueryLog.emptyEntry c.logEnv c.logStart)
    have : QueryLog.createLogEntry c.log c.logEnv r r.req y c.logStart c.logDuration = some e := he
    simp only [this]
    split
    · exact ⟨_, rfl, .inl rfl⟩
    · exact ⟨_, rfl, .inr ⟨e, rfl⟩⟩
  obtain ⟨v', hl, hv'⟩ := hlog
  unfold observedBy Small.ede
  rw [hl]
  split
  · exact ⟨y, v', rfl, hv', rfl, rfl, rfl⟩
  · refine ⟨_, v', rfl, hv', ?_⟩
    unfold Small.addExtraReasoning
    split
    · exact ⟨rfl, rfl, rfl⟩
    · exact ⟨rfl, rfl, (C29_only_opt_changes y.res _ 0).1.1⟩

/-- The part of the chain behind custom DNS. -/
def behindCustomT (a : Asking) (c : Config E Unit) (up : Resolver Unit) : MR Replay :=
  HostsFile.resolve c.hostsEnabled c.hostsCfg c.hosts c.hostsOrder4 c.hostsOrder6 (blockBy a c up)

theorem local_passesT {a : Asking} (c : Config E Unit) (hd : 0 < c.customDepth) (up : Resolver Unit)
    (r : Request) (hint : r.internal = false) (q : Question) (hq : r.req.question = [q]) (hn : NotLocal c r q) (v : Replay) :
    localBy a c up r (r.req, v) = blockBy a c up r (r.req, v) := by
  have := custom_passes c hd (behindCustomT a c up) r hint q hq hn.custom hn.reverse v
  have he : localBy a c up r (r.req, v) = behindCustomT a c up r (r.req, v) := this
  rw [he]
  unfold behindCustomT HostsFile.resolve
  rw [hq]
  simp only
  rcases hn.hosts with h | ⟨h1, h2⟩
  · rw [h]; rfl
  · rw [h1, h2]
    simp

/-! ### Queries answered inside -/

/-- A step of a query answered inside: finding out names, giving an entry to the query log. -/
def InsideStep : Threads.Op → Prop
  | .log _ => True
  | op => NamesStep op

theorem log_wish (e : QueryLogFile.LogEntry) (todo : List (Threads.Op × Res)) :
    (log e ⟨todo, none⟩).wish = some (.log e) ∨ (log e ⟨todo, none⟩).wish = none := by
  unfold log
  split
  · exact .inr rfl
  · exact .inl rfl

theorem log_keeps (e : QueryLogFile.LogEntry) (v : Replay) (h : v.wish ≠ none) : (log e v).wish = v.wish := (runs_ops.log e).1 {} v h

theorem observed_keeps (c : Config E Unit) (up : Resolver Unit) (hd : (aliases c.customMapping).length < c.customDepth) (r : Request) (m : Msg) (v : Replay)
    (hv : v.wish ≠ none) : (observedBy asking c up r (m, v)).2.2.wish = v.wish := by
  have h : runsLogic.R (observedBy asking c up) (observedBy asking c up) := logic_ede _ (steps_queryLog runs_ops _ _ _ _ (logic_metrics _
    (logic_ofM (logic_newRewriter _ _ (fun hk => logic_toM (logic_customDns _ _ _ _ hd (logic_ofM hk)))
      (logic_toM (logic_hosts _ _ _ _ _ (logic_blocking _ _ (steps_caching runs_ops.toInnerOk _ _ (steps_cond runs_ops.toInnerOk c up)))))))))
  exact (h r).1 m v hv

/-- A query's run. -/
theorem query_run (senv : Server.Env) (up : Resolver Unit) (c : Config E Unit) (remote : Server.Addr) (sni : Option Str) (msg : Msg) {q : Question} {r1 : Request}
    (hp : PassesFront c (Server.newRequestFromDNS remote sni msg) r1 q) (made : List (Threads.Op × Res)) :
    ({ job := .query c remote sni msg, made := made } : Thread E).run senv up =
      (writes senv (Server.newRequestFromDNS remote sni msg) (wholeBy asking c up (Server.newRequestFromDNS remote sni msg) (msg, ⟨made, none⟩)).1
        (wholeBy asking c up (Server.newRequestFromDNS remote sni msg) (msg, ⟨made, none⟩)).2.1,
      (wholeBy asking c up (Server.newRequestFromDNS remote sni msg) (msg, ⟨made, none⟩)).2.2) := by
  have hq : msg.question = [q] := hp.question
  refine (serve_by asking senv c up remote sni msg ({}, ⟨made, none⟩)).trans ?_
  unfold serveBy
  rw [hq]

/-- While the names of the client are not known, the next step is one to find them out. -/
theorem next_early (senv : Server.Env) (up : Resolver Unit) (c : Config E Unit) (hd : (aliases c.customMapping).length < c.customDepth)
    (remote : Server.Addr) (sni : Option Str) (msg : Msg) {q : Question} {r1 : Request}
    (hp : PassesFront c (Server.newRequestFromDNS remote sni msg) r1 q) (made : List (Threads.Op × Res)) (op : Threads.Op)
    (h : (Threads.getNames c.names (c.namesLookup.map askNames) r1 ⟨made, none⟩).2.wish = some op) :
    ({ job := .query c remote sni msg, made := made } : Thread E).next senv up = some op := by
  show (Thread.run senv up _).2.wish = _
  rw [query_run senv up c remote sni msg hp, whole_frontT hp]
  simp only
  rw [observed_keeps c up hd _ _ _ (by rw [h]; exact fun x => nomatch x), h]

/-- Once they are known, they are those of the steps made. -/
theorem names_known (senv : Server.Env) (up : Resolver Unit) (c : Config E Unit) (hd : (aliases c.customMapping).length < c.customDepth)
    (remote : Server.Addr) (sni : Option Str) (msg : Msg) {q : Question} {r1 : Request}
    (hp : PassesFront c (Server.newRequestFromDNS remote sni msg) r1 q) (pre : List (Threads.Op × Res))
    (htp : Trail senv up (.query c remote sni msg) pre) :
    (∃ op, (Threads.getNames c.names (c.namesLookup.map askNames) r1 ⟨pre, none⟩).2.wish = some op ∧ NamesStep op) ∨
    ((Threads.getNames c.names (c.namesLookup.map askNames) r1 ⟨pre, none⟩).2.wish = none ∧
      Named r1 pre (Threads.getNames c.names (c.namesLookup.map askNames) r1 ⟨pre, none⟩).1) := by
  rcases getNames_run c.names c.namesLookup r1 pre with h | ⟨h1, h | ⟨h2, h3, pre', k', n', rest, k, h4, h5⟩⟩
  · exact .inl h
  · exact .inr ⟨h1, h⟩
  · refine .inr ⟨h1, .inr (.inr ⟨h2, h3, .inr ⟨k, .done, ?_⟩⟩)⟩
    have e1 := htp pre' _ _ rest h4
    rw [next_early senv up c hd remote sni msg hp pre' _ h5] at e1
    have e2 := Option.some.inj e1
    rw [e2, h4]
    exact List.mem_append_right _ List.mem_cons_self

/-- What a query comes to that the resolvers in front answer by themselves, given the names found out. -/
theorem inside (senv : Server.Env) (up : Resolver Unit) (c : Config E Unit) (hd : (aliases c.customMapping).length < c.customDepth)
    (remote : Server.Addr) (sni : Option Str) (msg : Msg) (r1 : Request) (q : Question)
    (hp : PassesFront c (Server.newRequestFromDNS remote sni msg) r1 q) (made : List (Threads.Op × Res))
    (ht : Trail senv up (.query c remote sni msg) made) (P : Response → Prop)
    (hl : ∀ names, Named r1 made names → ∀ v, ∃ y, P y ∧ localBy asking c up { r1 with clientNames := names } (r1.req, v) = (.ok y, (r1.req, v))) :
    (∀ op res, (op, res) ∈ made → InsideStep op) ∧
    (∀ op, ({ job := .query c remote sni msg, made := made } : Thread E).next senv up = some op → InsideStep op) ∧
    ∀ ms, ({ job := .query c remote sni msg, made := made } : Thread E).reply senv up = some ms → ∃ y y', P y ∧ SameOutsideExtra y' y.res ∧
      ms = [Server.finish senv r1.req (Server.newRequestFromDNS remote sni msg).protocol y'] := by
  have hm := (C28_rest_unchanged c.ecs _ r1 hp.subnet).1
  unfold SameOutsideExtra at hm
  have hq1 : r1.req.question = [q] := by
    have e3 := congrArg Msg.question hm
    simp only at e3
    exact e3.trans hp.question
  -- the next step of any prefix
  have step : ∀ pre, Trail senv up (.query c remote sni msg) pre → (∀ e ∈ pre, e ∈ made) →
      (∃ op, ({ job := .query c remote sni msg, made := pre } : Thread E).next senv up = some op ∧ InsideStep op) ∨
      (({ job := .query c remote sni msg, made := pre } : Thread E).next senv up = none ∧ ∃ y y', P y ∧ SameOutsideExtra y' y.res ∧
        (({ job := .query c remote sni msg, made := pre } : Thread E).run senv up).1 =
          [Server.finish senv r1.req (Server.newRequestFromDNS remote sni msg).protocol y']) := by
    intro pre htp hpre
    rcases names_known senv up c hd remote sni msg hp pre htp with ⟨op, h1, h2⟩ | ⟨h1, h2⟩
    · exact .inl ⟨op, next_early senv up c hd remote sni msg hp pre op h1, by cases op <;> first | exact h2 | exact trivial⟩
    · obtain ⟨y, hy, hloc⟩ := hl _ (h2.later hpre) (Threads.getNames c.names (c.namesLookup.map askNames) r1 ⟨pre, none⟩).2
      obtain ⟨y', v', h3, h4, _, _, h5⟩ := observed_okT (a := asking) (c := c) (up := up)
        (r := { r1 with clientNames := (Threads.getNames c.names (c.namesLookup.map askNames) r1 ⟨pre, none⟩).1 }) hq1
        (Threads.getNames c.names (c.namesLookup.map askNames) r1 ⟨pre, none⟩).2 y hloc
      have h6 : ({ job := .query c remote sni msg, made := pre } : Thread E).run senv up =
          ([Server.finish senv r1.req (Server.newRequestFromDNS remote sni msg).protocol y'.res], v') := by
        rw [query_run senv up c remote sni msg hp, whole_frontT hp, h3]
        rfl
      have h7 : ({ job := .query c remote sni msg, made := pre } : Thread E).next senv up = v'.wish := by
        unfold Thread.next
        rw [h6]
      have done : v'.wish = none → ({ job := .query c remote sni msg, made := pre } : Thread E).next senv up = none ∧ ∃ y y', P y ∧
          SameOutsideExtra y' y.res ∧ (({ job := .query c remote sni msg, made := pre } : Thread E).run senv up).1 =
            [Server.finish senv r1.req (Server.newRequestFromDNS remote sni msg).protocol y'] :=
        fun h => ⟨h7.trans h, y, y'.res, hy, h5, by rw [h6]⟩
      rcases h4 with rfl | ⟨e, rfl⟩
      · exact .inr (done h1)
      · revert h1 done h7
        generalize (Threads.getNames c.names (c.namesLookup.map askNames) r1 ⟨pre, none⟩).2 = v
        obtain ⟨todo, wish⟩ := v
        intro h1 h7 done
        simp only at h1
        subst h1
        rcases log_wish e todo with h | h
        · exact .inl ⟨_, h7.trans h, trivial⟩
        · exact .inr (done h)
  refine ⟨fun op res h => ?_, fun op h => ?_, fun ms h => ?_⟩
  · obtain ⟨pre, post, he⟩ := List.append_of_mem h
    have htp : Trail senv up (.query c remote sni msg) pre := by
      intro p o x q hpq
      exact ht p o x (q ++ (op, res) :: post) (by rw [he, hpq]; simp)
    have hn := ht pre op res post he
    rcases step pre htp (fun e h => by rw [he]; exact List.mem_append_left _ h) with ⟨op', h1, h2⟩ | ⟨h1, _⟩
    · rw [h1] at hn
      cases hn
      exact h2
    · rw [h1] at hn
      cases hn
  · rcases step made ht (fun e h => h) with ⟨op', h1, h2⟩ | ⟨h1, _⟩
    · rw [h1] at h
      cases h
      exact h2
    · rw [h1] at h
      cases h
  · rcases step made ht (fun e h => h) with ⟨op', h1, h2⟩ | ⟨h1, y, y', h2, h3, h4⟩
    · unfold Thread.reply at h
      rw [h1] at h
      cases h
    · unfold Thread.reply at h
      rw [h1] at h
      cases h
      exact ⟨y, y', h2, h3, h4⟩

theorem handed_same {c : Config E Unit} {request r1 : Request} {q : Question} (hp : PassesFront c request r1 q) :
    ({} : Msg).setReply r1.req = ({} : Msg).setReply request.req ∧ r1.req.id = request.req.id ∧ r1.req.question = [q] ∧ r1.internal = request.internal := by
  have hm := (C28_rest_unchanged c.ecs _ r1 hp.subnet).1
  unfold SameOutsideExtra at hm
  have e1 := congrArg Msg.id hm
  have e2 := congrArg Msg.opcode hm
  have e3 := congrArg Msg.question hm
  have e4 := congrArg Msg.recursionDesired hm
  have e5 := congrArg Msg.checkingDisabled hm
  simp only at e1 e2 e3 e4 e5
  refine ⟨by simp only [Msg.setReply, e1, e2, e3, e4, e5], e1, e3.trans hp.question, ?_⟩
  have h1 := hp.subnet
  unfold Ecs.transform at h1
  split at h1
  · simp only at h1
    split at h1
    · split at h1
      · cases h1
      · cases h1; rfl
      · cases h1; rfl
    · split at h1
      · cases h1; rfl
      · cases h1; rfl
  · cases h1; rfl

theorem execute_trail (senv : Server.Env) (up : Resolver Unit) (s : Sys E) (hs : s.threads = []) (es : List (Ev E)) (t : Thread E)
    (ht : t ∈ (execute senv up s es).threads) : Trail senv up t.job t.made :=
  trail_made senv up es s (by rw [hs]; exact fun t ht => nomatch ht) t ht

/-- **C124, blocked names.** Any number of queries handled at the same time, in any interleaving, with any contents of caches: a query whose
name the lists block for its client - for any names the client has come to have for this query - never asks an upstream, nor is the answer
cache looked at or changed for it. Once it is done, the reply is the block answer. (As in C61, the name is not configured
locally.) -/
theorem C124_blocked (senv : Server.Env) (up : Resolver Unit) (s : Sys E) (hs : s.threads = []) (es : List (Ev E)) (t : Thread E)
    (ht : t ∈ (execute senv up s es).threads) (c : Config E Unit) (remote : Server.Addr) (sni : Option Str) (msg : Msg)
    (hj : t.job = .query c remote sni msg) (l : Setup E) (henv : c.blockEnv = l.env) (hstate : c.blockState = l.state)
    (hd : (aliases c.customMapping).length < c.customDepth) (r1 : Request) (q : Question)
    (hp : PassesFront c (Server.newRequestFromDNS remote sni msg) r1 q)
    (hb : ∀ names, Named r1 t.made names → NotLocal c { r1 with clientNames := names } q ∧
      ¬ l.Allowed { r1 with clientNames := names } (extractDomain q.name) ∧
      (l.OnlyAllowed { r1 with clientNames := names } ∨ l.Denied { r1 with clientNames := names } (extractDomain q.name))) :
    (∀ op res, (op, res) ∈ t.made → InsideStep op) ∧
    ∀ ms, t.reply senv up = some ms → ∃ y, SameOutsideExtra y (l.handler.handleBlock q (({} : Msg).setReply msg)) ∧
      ms = [Server.finish senv r1.req (Server.newRequestFromDNS remote sni msg).protocol y] := by
  have htr := execute_trail senv up s hs es t ht
  obtain ⟨job, made⟩ := t
  simp only at hj htr hb ⊢
  subst hj
  obtain ⟨g1, _, g3, g4⟩ := handed_same hp
  have := inside senv up c hd remote sni msg r1 q hp made htr (fun y => y.res = l.handler.handleBlock q (({} : Msg).setReply msg)) (fun names hn v => by
    obtain ⟨b1, b2, b3⟩ := hb names hn
    have hbl : l.NameBlocked { r1 with clientNames := names } q := ⟨[], [], by rw [show _ = _ from g3]; rfl, by simp, b2, b3⟩
    obtain ⟨o, ho, reason, rfl⟩ := C15_blocked_by_name l (Threads.caching c.cacheEnv c.cache (condBy asking c up)) { r1 with clientNames := names }
      (r1.req, v) q hbl
    refine ⟨{ res := l.handler.handleBlock q (({} : Msg).setReply r1.req), rtype := .blocked, reason := reason }, ?_, (local_passesT c (by omega) up { r1 with clientNames := names } (g4.trans rfl) q g3 b1 v).trans ?_⟩
    rotate_left
    · unfold blockBy
      rw [henv, hstate]
      exact ho
    · show l.handler.handleBlock q (({} : Msg).setReply r1.req) = _
      rw [g1]
      rfl)
  refine ⟨this.1, fun ms hms => ?_⟩
  obtain ⟨y, y', h1, h2, h3⟩ := this.2.2 ms hms
  exact ⟨y', h1 ▸ h2, h3⟩

/-- **C124, configured names.** Likewise, a query for a name with records in the custom DNS (no aliases; the name as
the rewriting rules make it) is answered from these: no upstream is
asked, nor is the answer cache looked at or changed, whatever the lists say. -/
theorem C124_custom (senv : Server.Env) (up : Resolver Unit) (s : Sys E) (hs : s.threads = []) (es : List (Ev E)) (t : Thread E)
    (ht : t ∈ (execute senv up s es).threads) (c : Config E Unit) (remote : Server.Addr) (sni : Option Str) (msg : Msg)
    (hj : t.job = .query c remote sni msg) (hd : (aliases c.customMapping).length < c.customDepth)
    (r1 : Request) (q : Question) (hp : PassesFront c (Server.newRequestFromDNS remote sni msg) r1 q)
    (hrev : q.qtype = 12 → AMap.get c.customReverse (customName c q.name) = none)
    (z : Str) (rs : List RR)
    (hz : Longest (fun z => z ≠ [] ∧ (AMap.get c.customMapping z).isSome) (extractDomain (customName c q.name)) z)
    (hrs : AMap.get c.customMapping z = some rs) (hord : ∀ e ∈ rs, Ordinary e)
    (hans : configuredAnswers q rs ≠ [] ∨ KeepsEmpty c) :
    (∀ op res, (op, res) ∈ t.made → InsideStep op) ∧
    ∀ ms, t.reply senv up = some ms → ∃ y, y.answer = configuredAnswers q rs ∧ y.rcode = 0 ∧ y.question = [q] ∧ y.id = msg.id ∧
      ms = [Server.finish senv r1.req (Server.newRequestFromDNS remote sni msg).protocol y] := by
  have htr := execute_trail senv up s hs es t ht
  obtain ⟨job, made⟩ := t
  simp only at hj htr ⊢
  subst hj
  obtain ⟨_, g2, g3, _⟩ := handed_same hp
  have := inside senv up c hd remote sni msg r1 q hp made htr
    (fun y => y.res.answer = configuredAnswers q rs ∧ y.res.rcode = 0 ∧ y.res.question = [q] ∧ y.res.id = msg.id) (fun names _ v => by
      obtain ⟨y, hy, _, f2, f3, f4, f5⟩ := custom_found c (by omega) (behindCustomT asking c up) { r1 with clientNames := names } q g3 hrev z rs hz hrs
        hord hans v
      exact ⟨y, ⟨f2, f3, f4, f5.trans g2⟩, hy⟩)
  refine ⟨this.1, fun ms hms => ?_⟩
  obtain ⟨y, y', ⟨h1, h2, h3, h4⟩, h5, h6⟩ := this.2.2 ms hms
  unfold SameOutsideExtra at h5
  have k1 := congrArg Msg.answer h5
  have k2 := congrArg Msg.rcode h5
  have k3 := congrArg Msg.question h5
  have k4 := congrArg Msg.id h5
  simp only at k1 k2 k3 k4
  exact ⟨y', k1.trans h1, k2.trans h2, k3.trans h3, k4.trans h4, h6⟩

/-- **C124, filtered types.** Likewise, a query of a filtered type makes no step at all; it is answered at once with an empty success. -/
theorem C124_filtered (senv : Server.Env) (up : Resolver Unit) (s : Sys E) (hs : s.threads = []) (es : List (Ev E)) (t : Thread E)
    (ht : t ∈ (execute senv up s es).threads) (c : Config E Unit) (remote : Server.Addr) (sni : Option Str) (msg : Msg)
    (hj : t.job = .query c remote sni msg) (q : Question) (qs : List Question) (hq : msg.question = q :: qs) (hf : q.qtype ∈ c.filterTypes) :
    t.made = [] ∧ ∃ y, EmptySuccess msg y ∧
      t.reply senv up = some [Server.finish senv msg (Server.newRequestFromDNS remote sni msg).protocol y] := by
  have htr := execute_trail senv up s hs es t ht
  obtain ⟨job, made⟩ := t
  simp only at hj htr ⊢
  subst hj
  obtain ⟨y, _, hy, hall⟩ := (C43_filtered (W := Msg × Replay) c.filterTypes (Server.newRequestFromDNS remote sni msg) q qs hq).1 hf
  have hrun : ∀ made, ({ job := .query c remote sni msg, made := made } : Thread E).run senv up =
      ([Server.finish senv msg (Server.newRequestFromDNS remote sni msg).protocol y.res], ⟨made, none⟩) := by
    intro made
    have := serve_by asking senv c up remote sni msg ({}, ⟨made, none⟩)
    refine this.trans ?_
    unfold serveBy
    rw [hq]
    simp only
    unfold wholeBy
    rw [hall]
    rfl
  have hn : ∀ made, ({ job := .query c remote sni msg, made := made } : Thread E).next senv up = none := fun made => by
    unfold Thread.next
    rw [hrun]
  refine ⟨?_, y.res, hy, ?_⟩
  · cases made with
    | nil => rfl
    | cons e rest =>
      have := htr [] e.1 e.2 rest rfl
      rw [hn] at this
      cases this
  · unfold Thread.reply
    rw [hn, hrun]

/-- The names a goroutine found or stored. -/
def namesMet (t : Thread E) : List (List Str) :=
  t.made.filterMap (fun e => match e with | (.findNames _, .names x) => x | (.keepNames _ n, _) => some n | _ => none)

theorem named_met {r : Request} {t : Thread E} {names : List Str} (h : Named r t.made names) (hid : r.requestClientID = []) (hip : r.clientIP ≠ none) :
    names ∈ namesMet t := by
  unfold namesMet
  rw [List.mem_filterMap]
  rcases h with h | h | ⟨_, _, ⟨k, h⟩ | ⟨k, res, h⟩⟩
  · exact absurd hid h.1
  · exact absurd h.2.1 hip
  · exact ⟨_, h, rfl⟩
  · exact ⟨_, h, rfl⟩

set_option maxRecDepth 100000 in
/-- A client called `laptop` asks for a blocked name in the course of `overlapping`. -/
theorem laptop_blocked : ∃ t ∈ (execute sampleServer bareUp freshSys (planned freshSys overlapping)).threads,
    t.job = .query (threadsConfig 0) (.udp (some (.v4 1#32))) none (query (str! "ads.org.")) ∧ namesMet t = [[str! "laptop"]] := by
  have h : ((execute sampleServer bareUp freshSys (planned freshSys overlapping)).threads[2]?).map namesMet = some [[str! "laptop"]] := by decide +kernel
  obtain ⟨t, h1, h2⟩ := Option.map_eq_some_iff.1 h
  refine ⟨t, List.mem_of_getElem? h1, ?_, h2⟩
  have h3 : ((execute sampleServer bareUp freshSys (planned freshSys overlapping)).threads[2]?).map Thread.job = some _ := rfl
  rw [h1] at h3
  exact Option.some.inj h3

/-- The hypotheses of `C124_blocked` are met by this query. -/
example : ∃ t ∈ (execute sampleServer bareUp freshSys (planned freshSys overlapping)).threads, t.made ≠ [] ∧
    ∀ op res, (op, res) ∈ t.made → InsideStep op := by
  obtain ⟨t, ht, hj, hm⟩ := laptop_blocked
  refine ⟨t, ht, fun h => by simp [namesMet, h] at hm, ?_⟩
  refine (C124_blocked sampleServer bareUp freshSys rfl _ t ht _ _ _ _ hj demoSetup rfl rfl (by decide)
    (Server.newRequestFromDNS (.udp (some (.v4 1#32))) none (query (str! "ads.org."))) ⟨str! "ads.org.", typeA, 1⟩
    ⟨rfl, by decide, .inl rfl, rfl⟩ (fun names hn => ?_)).1
  have := named_met hn rfl (fun h => nomatch h)
  rw [hm, List.mem_singleton] at this
  subst this
  refine ⟨⟨?_, ?_, ?_⟩, ?_, .inr ?_⟩
  · exact (walk_eq_none _ 8 _ (by decide)).1 (by decide)
  · intro h; cases h
  · exact .inr ⟨rfl, rfl⟩
  · rw [← demoSetup.allow_iff]
    decide +kernel
  · rw [← demoSetup.deny_iff]
    decide +kernel

end Verif.Props
