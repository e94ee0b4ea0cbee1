/-
The invariant behind C60: every resolver of the chain replies to the question it was given.
-/
import Verif.Model.Chain
import Verif.Props.Conditional
import Verif.Props.CustomDns
import Verif.Props.Ecs
import Verif.Props.Server
import Verif.Props.CacheKey

namespace Verif.Props
open Dns Spec ExpCache StringCache

variable {W : Type}

/-- A name as it comes off the wire: one final dot. (Escaped dots are not treated.) -/
def WireName (n : Str) : Prop := ∃ m, n = m ++ ['.'] ∧ m.getLast? ≠ some '.'

theorem getLast_lower_ne {m : Str} (hm : m.getLast? ≠ some '.') : (lower m).getLast? ≠ some '.' := by
  unfold lower
  rw [List.getLast?_map]
  cases hx : m.getLast? with
  | none => simp
  | some c =>
    simp only [Option.map_some, ne_eq, Option.some.injEq]
    rw [lowerChar_dot_iff]
    rintro rfl
    exact hm hx

theorem fqdn_extractDomain {n : Str} (h : WireName n) : fqdn (extractDomain n) = lower n := by
  obtain ⟨m, rfl, hm⟩ := h
  rw [extractDomain_fqdn]
  unfold fqdn
  rw [if_neg (getLast_lower_ne hm), lower_append]
  rfl

theorem WireName.lower {n : Str} (h : WireName n) : WireName (lower n) := by
  obtain ⟨m, rfl, hm⟩ := h
  exact ⟨Verif.lower m, by rw [lower_append]; rfl, getLast_lower_ne hm⟩

theorem wireName_fqdn {m : Str} (h : m.getLast? ≠ some '.') : WireName (fqdn m) :=
  ⟨m, by unfold fqdn; rw [if_neg h], h⟩

/-- The same question, perhaps with the name in lower case. -/
def Shown (q : Question) (qs : List Question) : Prop := qs = [q] ∨ qs = [{ q with name := lower q.name }]

theorem Shown.trans {q q' : Question} {qs : List Question} (h : Shown q [q']) (h' : Shown q' qs) : Shown q qs := by
  rcases h with h | h
  · cases h; exact h'
  · cases h
    rcases h' with h' | h'
    · exact Or.inr h'
    · right; rw [h']; simp [lower_idem]

theorem Shown.exists {q : Question} {qs : List Question} (h : Shown q qs) : ∃ q', qs = [q'] := by
  rcases h with h | h
  · exact ⟨_, h⟩
  · exact ⟨_, h⟩

theorem Shown.wire {q q' : Question} (h : Shown q [q']) (hw : WireName q.name) : WireName q'.name := by
  rcases h with h | h
  · cases h; exact hw
  · cases h; exact hw.lower

/-- The outcome of a call replies to the question `q` with the id, the message of the request still has
both; there is no panic, and an outcome unless `b`; errors are related to the question by `Er`. -/
structure GoodOut (Er : Nat → Question → Str → Prop) (b : Bool) (id : Nat) (q : Question) (x : Outcome × Msg × W) : Prop where
  ok : ∀ y, x.1 = .ok y → y.res.id = id ∧ y.res.response = true ∧ Shown q y.res.question
  msgId : x.2.1.id = id
  msgQ : Shown q x.2.1.question
  noPanic : x.1 ≠ .panic
  some : b = false → x.1 ≠ .noResponse
  err : ∀ e, x.1 = .err e → Er id q e

/-- What the relation of errors to questions has to satisfy. -/
structure ErOk (Er : Nat → Question → Str → Prop) : Prop where
  shown : ∀ id q q' e, Shown q [q'] → Er id q' e → Er id q e
  loop : ∀ id q names, Er id q (CustomDns.loopError names)
  unsupported : ∀ id q, Er id q (str! "unsupported customDNS RR type")

variable {Er : Nat → Question → Str → Prop}

/-- A resolver all of whose outcomes for one question are such. -/
def Good (Er : Nat → Question → Str → Prop) (b : Bool) (r : Chain.MR W) : Prop :=
  ∀ request w q, request.req.question = [q] → WireName q.name → w.1 = request.req → GoodOut Er b request.req.id q (r request w)

/-- The same for resolvers that return the message. -/
def GoodM (Er : Nat → Question → Str → Prop) (b : Bool) (r : Cond.MResolver W) : Prop :=
  ∀ request w q, request.req.question = [q] → WireName q.name → GoodOut Er b request.req.id q (r request w)

theorem GoodOut.mono {b : Bool} {id : Nat} {q : Question} {x : Outcome × Msg × W} (h : GoodOut Er false id q x) :
    GoodOut Er b id q x where
  ok := h.ok
  msgId := h.msgId
  msgQ := h.msgQ
  noPanic := h.noPanic
  some := fun _ => h.some rfl
  err := h.err

theorem GoodOut.shown (he : ErOk Er) {b : Bool} {id : Nat} {q q' : Question} {x : Outcome × Msg × W} (hs : Shown q [q'])
    (h : GoodOut Er b id q' x) : GoodOut Er b id q x where
  ok := fun y hy => ⟨(h.ok y hy).1, (h.ok y hy).2.1, hs.trans (h.ok y hy).2.2⟩
  msgId := h.msgId
  msgQ := hs.trans h.msgQ
  noPanic := h.noPanic
  some := h.some
  err := fun e hx => he.shown id q q' e hs (h.err e hx)

theorem GoodOut.reply {b : Bool} {request : Request} {w : Msg × W} {q : Question} (hq : request.req.question = [q])
    (hw : w.1 = request.req) (y : Response) (h1 : y.res.id = request.req.id) (h2 : y.res.response = true)
    (h3 : y.res.question = [q]) : GoodOut Er b request.req.id q ((.ok y : Outcome), w) where
  ok := fun y' hy => by cases hy; exact ⟨h1, h2, Or.inl h3⟩
  msgId := by rw [hw]
  msgQ := Or.inl (by rw [hw, hq])
  noPanic := fun h => nomatch h
  some := fun _ h => nomatch h
  err := fun _ h => nomatch h

theorem setReply_question {m req : Msg} {q : Question} (h : req.question = [q]) : (m.setReply req).question = [q] := by
  unfold Msg.setReply
  simp only [h]

theorem good_toM {b : Bool} {r : Chain.MR W} (h : Good Er b r) : GoodM Er b (Chain.toM r) :=
  fun request w q hq hn => h request (request.req, w) q hq hn rfl

theorem good_ofM {b : Bool} {r : Cond.MResolver W} (h : GoodM Er b r) : Good Er b (Chain.ofM r) :=
  fun request w q hq hn _ => h request w.2 q hq hn

/-- What is assumed of upstreams: they answer or fail; answers echo id and question, errors are related to
them. -/
structure UpOk (Er : Nat → Question → Str → Prop) (up : Resolver W) : Prop where
  echo : ∀ request w q y, request.req.question = [q] → (up request w).1 = .ok y →
    y.res.id = request.req.id ∧ y.res.response = true ∧ y.res.question = [q]
  noPanic : ∀ request w, (up request w).1 ≠ .panic
  some : ∀ request w, (up request w).1 ≠ .noResponse
  err : ∀ request w q e, request.req.question = [q] → (up request w).1 = .err e → Er request.req.id q e

theorem good_liftUp {up : Resolver W} (h : UpOk Er up) : Good Er false (Chain.liftUp up) := by
  intro request w q hq _ hw
  refine ⟨?_, by simp [Chain.liftUp, hw], Or.inl (by simp [Chain.liftUp, hw, hq]), h.noPanic request w.2,
    fun _ => h.some request w.2, fun e he => h.err request w.2 q e hq he⟩
  intro y hy
  obtain ⟨h1, h2, h3⟩ := h.echo request w.2 q y hq hy
  exact ⟨h1, h2, Or.inl h3⟩

theorem good_filtering (types : List Nat) {next : Chain.MR W} (h : Good Er false next) :
    Good Er false (Small.filtering types next) := by
  intro request w q hq hn hw
  unfold Small.filtering
  rw [hq]
  simp only
  split
  · exact GoodOut.reply hq hw _ rfl rfl (by simp [Msg.setRcode, setReply_question hq])
  · exact h request w q hq hn hw

theorem good_sudn (cfg : Small.SudnCfg) {next : Chain.MR W} (h : Good Er false next) : Good Er false (Small.sudn cfg next) := by
  intro request w q hq hn hw
  unfold Small.sudn
  split
  · exact h request w q hq hn hw
  · rw [hq]
    simp only
    have hr : ∀ rc, (Small.newSudnResponse request rc).res.id = request.req.id ∧
        (Small.newSudnResponse request rc).res.response = true ∧ (Small.newSudnResponse request rc).res.question = [q] := by
      intro rc
      refine ⟨rfl, rfl, ?_⟩
      simp [Small.newSudnResponse, newResponse, setReply_question hq]
    have hl : (Small.sudnLocalhost request q).res.id = request.req.id ∧
        (Small.sudnLocalhost request q).res.response = true ∧ (Small.sudnLocalhost request q).res.question = [q] := by
      unfold Small.sudnLocalhost
      split
      · exact hr rcodeSuccess
      · split
        · exact hr rcodeSuccess
        · exact hr _
    cases hx : (Small.sudnHandler q.name).bind (Small.callSudn cfg request q) with
    | none => exact h request w q hq hn hw
    | some y =>
      simp only
      have hy : y.res.id = request.req.id ∧ y.res.response = true ∧ y.res.question = [q] := by
        rw [Option.bind_eq_some_iff] at hx
        obtain ⟨hd, _, hx⟩ := hx
        cases hd with
        | nxdomain => cases hx; exact hr _
        | localhost => cases hx; exact hl
        | pass => cases hx
        | appendixG =>
          simp only [Small.callSudn] at hx
          split at hx
          · cases hx
          · cases hx; exact hr _
        | homeArpa =>
          simp only [Small.callSudn] at hx
          split at hx
          · cases hx
          · cases hx; exact hr _
      exact GoodOut.reply hq hw y hy.1 hy.2.1 hy.2.2

theorem good_ede (b : Bool) {next : Chain.MR W} (h : Good Er false next) : Good Er false (Small.ede b next) := by
  intro request w q hq hn hw
  unfold Small.ede
  split
  · exact h request w q hq hn hw
  · have hg := h request w q hq hn hw
    cases hx : next request w with
    | mk o w' =>
      rw [hx] at hg
      cases o with
      | ok r =>
        simp only
        refine ⟨?_, hg.msgId, hg.msgQ, (fun h => nomatch h), (fun _ h => nomatch h), (fun _ h => nomatch h)⟩
        intro y hy
        cases hy
        obtain ⟨h1, h2, h3⟩ := hg.ok r rfl
        have hm := (C29_only_opt_changes r.res (.ede (Small.toExtendedErrorCode r.rtype) r.reason) 0).1.1
        unfold Small.addExtraReasoning
        split
        · exact ⟨h1, h2, h3⟩
        · simp only
          unfold SameOutsideExtra at hm
          have e1 := congrArg Msg.id hm
          have e2 := congrArg Msg.response hm
          have e3 := congrArg Msg.question hm
          simp only at e1 e2 e3
          rw [e1, e2, e3]
          exact ⟨h1, h2, h3⟩
      | noResponse => exact hg
      | err e => exact hg
      | panic => exact hg

theorem good_metrics (b : Bool) {next : Chain.MR W} (h : Good Er false next) : Good Er false (Chain.metrics b next) := by
  intro request w q hq hn hw
  unfold Chain.metrics
  have hg := h request w q hq hn hw
  cases hx : next request w with
  | mk o w' =>
    rw [hx] at hg
    cases o with
    | panic => exact hg
    | noResponse => exact absurd rfl (hg.some rfl)
    | ok r =>
      simp only
      split
      · obtain ⟨q', hq'⟩ := hg.msgQ.exists
        simp only at hq'
        rw [hq']
        exact hg
      · exact hg
    | err e =>
      simp only
      split
      · obtain ⟨q', hq'⟩ := hg.msgQ.exists
        simp only at hq'
        rw [hq']
        exact hg
      · exact hg

theorem chain_fillFields (env : QueryLog.Env) (request : Request) (req : Msg) (response : Response) (d : Int) (q : Question)
    (hq : req.question = [q]) (fs : List QueryLog.Field) (entry : QueryLogFile.LogEntry) :
    ∃ e, QueryLog.fillFields env request req response d fs entry = some e := by
  induction fs generalizing entry with
  | nil => exact ⟨entry, rfl⟩
  | cons f fs ih =>
    unfold QueryLog.fillFields
    have : ∃ e, QueryLog.fillField env request req response d entry f = some e := by
      unfold QueryLog.fillField
      cases f <;> simp [hq]
    obtain ⟨e, he⟩ := this
    rw [he]
    exact ih e

theorem good_queryLog (cfg : QueryLog.Cfg) (env : QueryLog.Env) (s d : Int) {next : Chain.MR W} (h : Good Er false next) :
    Good Er false (Chain.queryLog cfg env s d next) := by
  apply good_ofM
  intro request w q hq hn
  unfold QueryLog.resolve
  have hg := good_toM h request w.2 q hq hn
  cases hx : Chain.toM next request w.2 with
  | mk o mw =>
    obtain ⟨m, w'⟩ := mw
    rw [hx] at hg
    cases o with
    | panic => exact absurd rfl hg.noPanic
    | noResponse => exact absurd rfl (hg.some rfl)
    | err e => exact ⟨(fun _ h => nomatch h), hg.msgId, hg.msgQ, (fun h => nomatch h), (fun _ h => nomatch h), hg.err⟩
    | ok r =>
      simp only
      obtain ⟨q', hq'⟩ := hg.msgQ.exists
      simp only at hq'
      obtain ⟨e, he⟩ := chain_fillFields env request m r d q' hq' cfg.fields (QueryLog.emptyEntry env s)
      have : QueryLog.createLogEntry cfg env request m r s d = some e := he
      rw [this]
      simp only
      split
      · exact ⟨hg.ok, hg.msgId, hg.msgQ, (fun h => nomatch h), (fun _ h => nomatch h), (fun _ h => nomatch h)⟩
      · exact ⟨hg.ok, hg.msgId, hg.msgQ, (fun h => nomatch h), (fun _ h => nomatch h), (fun _ h => nomatch h)⟩

theorem good_clientNames (cfg : ClientNames.Cfg) (l : Option (ClientNames.Lookup W)) {next : Chain.MR W}
    (h : Good Er false next) : Good Er false (Chain.clientNames cfg l next) := by
  intro request w q hq hn hw
  unfold Chain.clientNames ClientNames.withNames
  cases hx : ClientNames.getClientNames cfg l request w.2.1 w.2.2 with
  | mk names cw =>
    obtain ⟨c, w'⟩ := cw
    simp only
    have hg := h { request with clientNames := names } (w.1, w') q hq hn hw
    cases hy : next { request with clientNames := names } (w.1, w') with
    | mk o mw =>
      obtain ⟨m, w''⟩ := mw
      rw [hy] at hg
      exact ⟨hg.ok, hg.msgId, hg.msgQ, hg.noPanic, hg.some, hg.err⟩

theorem ecs_some (cfg : Ecs.Cfg) (h4 : cfg.ipv4Mask ≤ 32) (h6 : cfg.ipv6Mask ≤ 128)
    (h : 0 < cfg.ipv4Mask ∨ cfg.ipv6Mask ≤ 32) (request : Request) : ∃ r, Ecs.transform cfg request = some r := by
  have hn : ∀ ip, ∃ o, Ecs.newOption cfg ip = some o := by
    intro ip
    cases ip with
    | none => exact ⟨_, rfl⟩
    | some ip =>
      cases ip with
      | v4 a =>
        unfold Ecs.newOption
        by_cases h1 : cfg.ipv4Mask > 0
        · simp [h1, Ecs.maskIP, Ecs.networkOf, h4]
        · have : cfg.ipv6Mask ≤ 32 := by omega
          by_cases h2 : cfg.ipv6Mask > 0
          · simp [h1, h2, Ecs.maskIP, Ecs.networkOf, this]
          · simp [h1, h2]
      | v6 a =>
        unfold Ecs.newOption
        by_cases h2 : cfg.ipv6Mask > 0
        · simp [h2, Ecs.maskIP, Ecs.networkOf, h6]
        · simp [h2]
  unfold Ecs.transform
  split
  · simp only
    split
    · split
      · rename_i hx
        obtain ⟨o, ho⟩ := hn (Ecs.subnetSource cfg (Ecs.optionAddress (getEdns0Option request.req 8))
          (Ecs.effectiveClient cfg (getEdns0Option request.req 8) request.clientIP))
        rw [hx] at ho
        cases ho
      · exact ⟨_, rfl⟩
      · exact ⟨_, rfl⟩
    · split
      · exact ⟨_, rfl⟩
      · exact ⟨_, rfl⟩
  · exact ⟨_, rfl⟩

theorem good_ecs (cfg : Ecs.Cfg) (h4 : cfg.ipv4Mask ≤ 32) (h6 : cfg.ipv6Mask ≤ 128)
    (h46 : 0 < cfg.ipv4Mask ∨ cfg.ipv6Mask ≤ 32) {next : Chain.MR W} (h : Good Er false next) :
    Good Er false (Chain.ecs cfg next) := by
  intro request w q hq hn hw
  unfold Chain.ecs
  obtain ⟨r, hr⟩ := ecs_some cfg h4 h6 h46 request
  rw [hr]
  simp only
  have hm := (C28_rest_unchanged cfg request r hr).1
  unfold SameOutsideExtra at hm
  have e1 := congrArg Msg.id hm
  have e3 := congrArg Msg.question hm
  simp only at e1 e3
  have := h r (r.req, w.2) q (e3.trans hq) hn rfl
  rw [e1] at this
  exact this

theorem good_fqdnOnly (b : Bool) {next : Chain.MR W} (h : Good Er false next) (request : Request) (w : Msg × W) (q : Question)
    (hq : request.req.question = [q]) (hn : WireName q.name) (hw : w.1 = request.req)
    (hb : b = false ∨ '.' ∈ extractDomain q.name) :
    GoodOut Er false request.req.id q (Small.fqdnOnly b next request w) := by
  unfold Small.fqdnOnly
  split
  · rename_i hb'
    rcases hb with hb | hb
    · rw [hb] at hb'; cases hb'
    · rw [hq]
      simp only
      have : (extractDomain q.name).contains '.' = true := by simpa using hb
      rw [this]
      exact h request w q hq hn hw
  · exact h request w q hq hn hw

theorem good_hosts (en : Bool) (cfg : HostsFile.Cfg) (hs : HostsFile.Hosts) (o4 o6 : List (Str × (IP × List Str)))
    {next : Chain.MR W} (h : Good Er false next) : Good Er false (HostsFile.resolve en cfg hs o4 o6 next) := by
  intro request w q hq hn hw
  unfold HostsFile.resolve
  split
  · exact h request w q hq hn hw
  · rw [hq]
    simp only
    cases hx : HostsFile.handleReverse cfg o4 o6 request q with
    | some y =>
      simp only
      have hy : y.res.id = request.req.id ∧ y.res.response = true ∧ y.res.question = [q] := by
        unfold HostsFile.handleReverse at hx
        split at hx
        · cases hx
        · split at hx
          · cases hx
          · split at hx
            · cases hx
            · split at hx
              · cases hx
              · cases hx
                exact ⟨rfl, rfl, setReply_question hq⟩
      exact GoodOut.reply hq hw y hy.1 hy.2.1 hy.2.2
    | none =>
      simp only
      cases hs.getIP q.qtype (extractDomain q.name) with
      | some ip => exact GoodOut.reply hq hw _ rfl rfl (setReply_question hq)
      | none => exact h request w q hq hn hw

theorem good_caching (env : Caching.Env) (cfg : Caching.Cfg) {next : Chain.MR W} (h : Good Er false next) :
    Good Er false (Chain.caching env cfg next) := by
  intro request w q hq hn hw
  have hg := h request (w.1, w.2.2) q hq hn hw
  unfold Chain.caching Caching.resolve
  by_cases hc : (!cfg.enabled || !Caching.isRequestCacheable request.req) = true
  · rw [if_pos hc]
    cases hx : next request (w.1, w.2.2) with
    | mk o mw =>
      obtain ⟨m, w'⟩ := mw
      rw [hx] at hg
      exact ⟨hg.ok, hg.msgId, hg.msgQ, hg.noPanic, hg.some, hg.err⟩
  · rw [if_neg hc, hq]
    simp only [Caching.resolveLoop]
    cases hc : Caching.cacheGet cfg w.2.1 (Caching.questionKey q) with
    | mk r s1 =>
      cases r with
      | some mt =>
        obtain ⟨m, t⟩ := mt
        simp only
        refine GoodOut.reply (w := (w.1, (s1, w.2.2))) hq hw _ rfl rfl ?_
        simp [Caching.hitResponse, Msg.setRcode, setReply_question hq]
      | none =>
        simp only
        cases hx : next request (w.1, w.2.2) with
        | mk o mw =>
          obtain ⟨m, w'⟩ := mw
          rw [hx] at hg
          cases o with
          | ok r =>
            refine ⟨?_, hg.msgId, hg.msgQ, (fun h => nomatch h), (fun _ h => nomatch h), (fun _ h => nomatch h)⟩
            intro y hy
            cases hy
            exact hg.ok r rfl
          | err e => exact ⟨(fun _ h => nomatch h), hg.msgId, hg.msgQ, (fun h => nomatch h), (fun _ h => nomatch h), hg.err⟩
          | noResponse => exact absurd rfl (hg.some rfl)
          | panic => exact absurd rfl hg.noPanic

theorem handleBlock_header (h : Blocking.Handler) (q : Question) (m : Msg) :
    (h.handleBlock q m).id = m.id ∧ (h.handleBlock q m).response = m.response ∧ (h.handleBlock q m).question = m.question := by
  have hz : ∀ (ttl : UInt32) (m : Msg), (Blocking.handleZeroIP ttl q m).id = m.id ∧
      (Blocking.handleZeroIP ttl q m).response = m.response ∧ (Blocking.handleZeroIP ttl q m).question = m.question := by
    intro ttl m
    unfold Blocking.handleZeroIP
    split
    · exact ⟨rfl, rfl, rfl⟩
    · split
      · exact ⟨rfl, rfl, rfl⟩
      · exact ⟨rfl, rfl, rfl⟩
  cases h with
  | zeroIP ttl => exact hz ttl m
  | nxDomain => exact ⟨rfl, rfl, rfl⟩
  | ips dest ttl =>
    simp only [Blocking.Handler.handleBlock]
    split
    · exact hz ttl _
    · exact ⟨rfl, rfl, rfl⟩

theorem handleDenylist_blocked {E : RegexEngine} (bs : Blocking.BState E) (groups : List Str) (request : Request)
    (qs : List Question) (o : Outcome) (h : Blocking.handleDenylist bs groups request qs = .blocked o) :
    ∃ q reason, o = Blocking.handleBlocked bs.handler request q reason := by
  induction qs with
  | nil => cases h
  | cons q qs ih =>
    unfold Blocking.handleDenylist at h
    split at h
    · cases h
    · split at h
      · cases h; exact ⟨_, _, rfl⟩
      · split at h
        · cases h; exact ⟨_, _, rfl⟩
        · exact ih h

theorem checkAnswer_blocked {E : RegexEngine} (env : Blocking.Env) (bs : Blocking.BState E) (groups : List Str)
    (request : Request) (q : Question) (hq : request.req.question = [q]) (rrs : List RR) (o : Outcome)
    (h : Blocking.checkAnswer env bs groups request rrs = some o) :
    ∃ q reason, o = Blocking.handleBlocked bs.handler request q reason := by
  induction rrs with
  | nil => cases h
  | cons rr rrs ih =>
    simp only [Blocking.checkAnswer, hq] at h
    split at h
    · split at h
      · exact ih h
      · split at h
        · cases h; exact ⟨_, _, rfl⟩
        · exact ih h
    · exact ih h

theorem good_blocked (hd : Blocking.Handler) (request : Request) (q q' : Question) (reason : Str)
    (hq : request.req.question = [q]) (m : Msg) (w : W) (h1 : m.id = request.req.id) (h2 : Shown q m.question) :
    GoodOut Er false request.req.id q (Blocking.handleBlocked hd request q' reason, (m, w)) where
  ok := by
    intro y hy
    have hh := handleBlock_header hd q' (({} : Msg).setReply request.req)
    unfold Blocking.handleBlocked at hy
    cases hy
    exact ⟨hh.1, hh.2.1, Or.inl (hh.2.2.trans (setReply_question hq))⟩
  msgId := h1
  msgQ := h2
  noPanic := fun h => nomatch h
  some := fun _ h => nomatch h
  err := fun _ h => nomatch h

theorem good_blocking {E : RegexEngine} (env : Blocking.Env) (bs : Blocking.BState E) {next : Chain.MR W}
    (h : Good Er false next) : Good Er false (Blocking.resolve env bs next) := by
  intro request w q hq hn hw
  have hg := h request w q hq hn hw
  have hask : ∀ groups, GoodOut Er false request.req.id q (Blocking.askNext env bs groups next request w) := by
    intro groups
    unfold Blocking.askNext
    cases hx : next request w with
    | mk o w' =>
      rw [hx] at hg
      cases o with
      | ok r =>
        simp only
        split
        · cases hc : Blocking.checkAnswer env bs groups request r.res.answer with
          | none => exact hg
          | some o =>
            obtain ⟨q', reason, rfl⟩ := checkAnswer_blocked env bs groups request q hq _ o hc
            exact good_blocked bs.handler request q q' reason hq w'.1 w'.2 hg.msgId hg.msgQ
        · exact hg
      | noResponse => exact hg
      | err e => exact hg
      | panic => exact hg
  unfold Blocking.resolve
  simp only
  split
  · cases hd : Blocking.handleDenylist bs (Blocking.groupsToCheck env bs.cgb bs.fqdnIPs bs.status request) request
      request.req.question with
    | allowed => exact hg
    | blocked o =>
      obtain ⟨q', reason, rfl⟩ := handleDenylist_blocked bs _ request _ o hd
      exact good_blocked bs.handler request q q' reason hq w.1 w.2 (by rw [hw]) (Or.inl (by rw [hw, hq]))
    | no => exact hask _
  · exact hask _

theorem good_conditional (he : ErOk Er) (b : Bool) (mapping : AMap Str (Resolver W)) (hup : ∀ d r, mapping.get d = some r → UpOk Er r)
    {next : Cond.MResolver W} (h : GoodM Er b next) : GoodM Er b (Cond.conditional mapping next) := by
  intro request w q hq hn
  unfold Cond.conditional
  split
  · rw [hq]
    simp only
    cases hl : Cond.lookup mapping (extractDomain q.name) with
    | none => exact h request w q hq hn
    | some reso =>
      have hr : UpOk Er reso := by
        unfold Cond.lookup at hl
        split at hl
        · rw [Option.map_eq_some_iff] at hl
          obtain ⟨⟨d, r⟩, h1, h2⟩ := hl
          cases h2
          exact hup d r ((walk_some h1).2.2.1)
        · exact hup _ _ hl
      simp only
      unfold Cond.internalResolve
      simp only [hq, Cond.setName, fqdn_extractDomain hn]
      have e := hr.echo { request with req := { request.req with question := [{ q with name := lower q.name }] } } w
        { q with name := lower q.name }
      have e1 := hr.noPanic { request with req := { request.req with question := [{ q with name := lower q.name }] } } w
      have e2 := hr.some { request with req := { request.req with question := [{ q with name := lower q.name }] } } w
      have e3 := hr.err { request with req := { request.req with question := [{ q with name := lower q.name }] } } w
        { q with name := lower q.name }
      cases hx : reso { request with req := { request.req with question := [{ q with name := lower q.name }] } } w with
      | mk o w' =>
        rw [hx] at e e1 e2 e3
        cases o with
        | ok r =>
          obtain ⟨f1, f2, f3⟩ := e r rfl rfl
          refine ⟨?_, rfl, Or.inr rfl, (fun h => nomatch h), (fun _ h => nomatch h), (fun _ h => nomatch h)⟩
          intro y hy
          cases hy
          refine ⟨f1, f2, Or.inr ?_⟩
          simp only [f3]
        | noResponse => exact absurd rfl e2
        | panic => exact absurd rfl e1
        | err x =>
          refine ⟨(fun _ h => nomatch h), rfl, Or.inr rfl, (fun h => nomatch h), (fun _ h => nomatch h), ?_⟩
          intro y hy
          cases hy
          exact he.shown _ _ _ _ (Or.inr rfl) (e3 x rfl rfl)
  · exact h request w q hq hn

/-- Conditions on rewrite rules: the values of those with lower-case keys are lower-case names without final
dot. -/
def RulesOk (order : Nat → List (Str × Str)) : Prop :=
  ∀ i k v, (k, v) ∈ order i → lower k = k → lower v = v ∧ v ≠ [] ∧ v.getLast? ≠ some '.'

theorem lower_eq_of_append {a b : Str} (h : lower (a ++ b) = a ++ b) : lower a = a ∧ lower b = b := by
  rw [lower_append] at h
  exact List.append_inj h (by simp)

theorem rewritten_name {order : Nat → List (Str × Str)} (hr : RulesOk order) {n : Str} (hn : WireName n)
    (h : Cond.rewriteDomain (order 0) (extractDomain n) ≠ extractDomain n) :
    WireName (fqdn (Cond.rewriteDomain (order 0) (extractDomain n))) ∧
    lower (fqdn (Cond.rewriteDomain (order 0) (extractDomain n))) = fqdn (Cond.rewriteDomain (order 0) (extractDomain n)) := by
  rcases rewriteDomain_cases (order 0) (extractDomain n) with ⟨p, k, v, hm, hd, hx⟩ | ⟨_, hx⟩
  · have hl : lower (extractDomain n) = extractDomain n := by
      obtain ⟨m, rfl, _⟩ := hn
      rw [extractDomain_fqdn, lower_idem]
    rw [hd] at hl
    obtain ⟨hp, hk⟩ := lower_eq_of_append hl
    have hk' : lower k = k := by
      have : lower ('.' :: k) = '.' :: lower k := rfl
      rw [this] at hk
      exact (List.cons.inj hk).2
    obtain ⟨v1, v2, v3⟩ := hr 0 k v hm hk'
    have hlast : (p ++ '.' :: v).getLast? ≠ some '.' := by
      cases v with
      | nil => exact absurd rfl v2
      | cons c cs =>
        rw [List.getLast?_append]
        simp only [List.getLast?_cons_cons]
        cases hc : (c :: cs).getLast? with
        | none => simp at hc
        | some d =>
          rw [hc] at v3
          simpa using v3
    rw [hx]
    refine ⟨wireName_fqdn hlast, ?_⟩
    unfold fqdn
    rw [if_neg hlast, lower_append, lower_append, hp]
    have : lower ('.' :: v) = '.' :: lower v := rfl
    rw [this, v1]
    rfl
  · exact absurd hx h

theorem good_rewriter (he : ErOk Er) (fb : Bool) (hfb : fb = true ∨ ∀ id q e, Er id q e) (order : Nat → List (Str × Str))
    (hr : RulesOk order) {inner next : Cond.MResolver W} (hi : GoodM Er true inner) (hn : GoodM Er false next) :
    GoodM Er false (Cond.rewriter fb order inner next) := by
  intro request w q hq hwire
  unfold Cond.rewriter
  rw [hq]
  by_cases hrw : Cond.rewriteDomain (order 0) (extractDomain q.name) ≠ extractDomain q.name
  · obtain ⟨hw', hl'⟩ := rewritten_name hr hwire hrw
    have hrq : Cond.rewriteQuestions order 0 [q] [] =
        ([{ q with name := fqdn (Cond.rewriteDomain (order 0) (extractDomain q.name)) }], true,
          AMap.put [] (fqdn (Cond.rewriteDomain (order 0) (extractDomain q.name))) q.name) := by
      simp [Cond.rewriteQuestions, hrw]
    rw [hrq]
    simp only [if_true]
    generalize fqdn (Cond.rewriteDomain (order 0) (extractDomain q.name)) = nn at *
    have hg := hi { request with req := { request.req with question := [{ q with name := nn }] } } w { q with name := nn } rfl hw'
    cases hx : inner { request with req := { request.req with question := [{ q with name := nn }] } } w with
    | mk o mw =>
      obtain ⟨m, w'⟩ := mw
      rw [hx] at hg
      have hnext := hn request w' q hq hwire
      cases o with
      | panic => exact absurd rfl hg.noPanic
      | noResponse => exact hnext
      | err e =>
        simp only
        split
        · exact hnext
        · rename_i hf
          rcases hfb with hfb | hfb
          · exact absurd hfb hf
          · exact ⟨(fun _ h => nomatch h), rfl, Or.inl hq, (fun h => nomatch h), (fun _ h => nomatch h), fun e _ => hfb _ _ e⟩
      | ok r =>
        simp only
        split
        · exact hnext
        · refine ⟨?_, rfl, Or.inl hq, (fun h => nomatch h), (fun _ h => nomatch h), (fun _ h => nomatch h)⟩
          intro y hy
          cases hy
          obtain ⟨h1, h2, h3⟩ := hg.ok r rfl
          refine ⟨h1, h2, Or.inl ?_⟩
          have h3' : r.res.question = [{ q with name := nn }] := by
            rcases h3 with h3 | h3
            · exact h3
            · rw [h3]; simp only [hl']
          simp only [Cond.revert, h3', List.map_cons, List.map_nil, Cond.revertName, AMap.get_put_self]
  · have hrq : Cond.rewriteQuestions order 0 [q] [] = ([q], false, []) := by
      simp [Cond.rewriteQuestions, hrw]
    rw [hrq]
    simp only [Bool.false_eq_true, if_false]
    have hg := hi request w q hq hwire
    cases hx : inner request w with
    | mk o mw =>
      obtain ⟨m, w'⟩ := mw
      rw [hx] at hg
      obtain ⟨q', hq'⟩ := hg.msgQ.exists
      have hs : Shown q [q'] := by rw [← hq']; exact hg.msgQ
      have hnext : GoodOut Er false request.req.id q (next { request with req := m } w') := by
        have := hn { request with req := m } w' q' hq' (hs.wire hwire)
        have hid : m.id = request.req.id := hg.msgId
        rw [← hid]
        exact this.shown he hs
      cases o with
      | panic => exact absurd rfl hg.noPanic
      | noResponse => exact hnext
      | err e =>
        simp only
        split
        · exact hnext
        · exact ⟨(fun _ h => nomatch h), hg.msgId, hg.msgQ, (fun h => nomatch h), (fun _ h => nomatch h), hg.err⟩
      | ok r =>
        simp only
        split
        · exact hnext
        · exact ⟨hg.ok, hg.msgId, hg.msgQ, (fun h => nomatch h), (fun _ h => nomatch h), (fun _ h => nomatch h)⟩

theorem good_noop : GoodM Er true (fun request (w : W) => (.noResponse, request.req, w)) :=
  fun _ _ _ hq _ => ⟨(fun _ h => nomatch h), rfl, Or.inl hq, (fun h => nomatch h), (fun h => nomatch h), (fun _ h => nomatch h)⟩

theorem good_newRewriter (he : ErOk Er) (cfg : Cond.RewriteCfg) (order : Nat → List (Str × Str))
    (hfb : cfg.rewrite = [] ∨ cfg.fallbackUpstream = true ∨ ∀ id q e, Er id q e)
    (hr : RulesOk order) {inner : Cond.MResolver W → Cond.MResolver W} {next : Cond.MResolver W}
    (hi : GoodM Er false (inner next)) (hi' : cfg.rewrite = [] ∨ GoodM Er true (inner (fun request w => (.noResponse, request.req, w))))
    (hn : GoodM Er false next) : GoodM Er false (Cond.newRewriter cfg order inner next) := by
  unfold Cond.newRewriter
  split
  · exact hi
  · rename_i hlen
    have hne : cfg.rewrite ≠ [] := fun h => hlen (by rw [h]; rfl)
    rcases hi' with h | hi'
    · exact absurd h hne
    · rcases hfb with h | hfb
      · exact absurd h hne
      · exact good_rewriter he _ hfb order hr hi' hn

/-- No name of the mapping is an alias. -/
def NoAlias (mapping : CustomDns.Mapping) : Prop :=
  ∀ d entries, mapping.get d = some entries → ∀ e ∈ entries, ∀ t, e.data ≠ .cname t

/-- The targets of aliases do not end in two dots. -/
def TargetsOk (mapping : CustomDns.Mapping) : Prop :=
  ∀ d entries, mapping.get d = some entries → ∀ e ∈ entries, ∀ t, e.data = .cname t →
    (trimSuffixDot t).getLast? ≠ some '.'

/-- What the processing of entries needs of the recursion: answer or error, and the client's message is not
touched. -/
def RecOk (Er : Nat → Question → Str → Prop) (id : Nat) (q : Question) (m : Msg) (x : Outcome × Msg × W) : Prop :=
  x.1 ≠ .panic ∧ x.1 ≠ .noResponse ∧ x.2.1 = m ∧ ∀ e, x.1 = .err e → Er id q e

theorem entries_good (he : ErOk Er) (env : CustomDns.Env)
    (recur : Request → List Str → Msg × W → Option (Outcome × Msg × W)) (request : Request) (resolved : List Str) (q : Question)
    (id : Nat) (q0 : Question)
    (entries : List RR) (hrec : ∀ e ∈ entries, ∀ t, e.data = .cname t → ∀ res w x,
      recur (CustomDns.targetRequest env request (trimSuffixDot t) q.qtype res) res w = some x → RecOk Er id q0 w.1 x)
    (acc : List RR) (w : Msg × W) (x : CustomDns.Entry × Msg × W)
    (h : CustomDns.processEntries env recur request resolved q entries acc w = some x) :
    x.1 ≠ .panic ∧ x.2.1 = w.1 ∧ ∀ e, x.1 = .err e → Er id q0 e := by
  induction entries generalizing acc w with
  | nil =>
    cases h
    exact ⟨(fun h => nomatch h), rfl, (fun _ h => nomatch h)⟩
  | cons e es ih =>
    have hes := fun e' (he' : e' ∈ es) => hrec e' (List.mem_cons_of_mem _ he')
    have hone : ∀ y, CustomDns.processEntry env recur request resolved q e w = some y →
        y.1 ≠ .panic ∧ y.2.1 = w.1 ∧ ∀ e, y.1 = .err e → Er id q0 e := by
      intro y hy
      have hc := hrec e List.mem_cons_self
      unfold CustomDns.processEntry at hy
      split at hy
      · cases hy
        exact ⟨(fun h => nomatch h), rfl, (fun _ h => nomatch h)⟩
      · cases hy
        exact ⟨(fun h => nomatch h), rfl, (fun _ h => nomatch h)⟩
      · rename_i t ht
        unfold CustomDns.processCNAME at hy
        simp only at hy
        split at hy
        · cases hy
          exact ⟨(fun h => nomatch h), rfl, (fun _ h => nomatch h)⟩
        · split at hy
          · cases hy
            refine ⟨(fun h => nomatch h), rfl, ?_⟩
            intro e he'
            cases he'
            exact he.loop id q0 _
          · have hr := hc t ht (resolved ++ [trimSuffixDot t]) w
            split at hy
            · cases hy
            · rename_i hx
              cases hy
              obtain ⟨_, _, h3, h4⟩ := hr _ hx
              refine ⟨(fun h => nomatch h), h3, ?_⟩
              intro e' he'
              cases he'
              exact h4 _ rfl
            · rename_i hx
              exact absurd rfl (hr _ hx).1
            · rename_i hx
              exact absurd rfl (hr _ hx).2.1
            · rename_i hx
              cases hy
              exact ⟨(fun h => nomatch h), (hr _ hx).2.2.1, (fun _ h => nomatch h)⟩
      · split at hy
        · cases hy
          exact ⟨(fun h => nomatch h), rfl, (fun _ h => nomatch h)⟩
        · cases hy
          refine ⟨(fun h => nomatch h), rfl, ?_⟩
          intro e he'
          cases he'
          exact he.unsupported id q0
    unfold CustomDns.processEntries at h
    split at h
    · cases h
    · rename_i rrs w' hx
      obtain ⟨_, h2, _⟩ := hone _ hx
      have := ih hes _ _ h
      simp only at h2
      rw [h2] at this
      exact this
    · rename_i hx
      cases h
      exact hone _ hx

/-- The next resolver of the custom DNS resolver, as in `Chain.customDns`. -/
def innerNext (next : Chain.MR W) : Chain.MR W := fun r w =>
  if r.internal then ((next r (r.req, w.2)).1, (w.1, (next r (r.req, w.2)).2.2)) else next r w

theorem internal_good (he : ErOk Er) (env : CustomDns.Env) (mapping : CustomDns.Mapping) (ht : TargetsOk mapping)
    (hall : ∀ id q e, Er id q e) {next : Chain.MR W} (h : Good Er false next) (depth : Nat) :
    ∀ (request : Request) (resolved : List Str) (w : Msg × W) (q : Question) (x : Outcome × Msg × W) (id : Nat) (q0 : Question),
      request.internal = true → request.req.question = [q] → WireName q.name →
      CustomDns.processRequest env mapping (innerNext next) depth request resolved w = some x → RecOk Er id q0 w.1 x := by
  induction depth with
  | zero =>
    intro request resolved w q x id q0 _ _ _ hx
    cases hx
  | succ n ih =>
    intro request resolved w q x id q0 hint hq hn hx
    have hnext : RecOk Er id q0 w.1 (innerNext next request w) := by
      have hg := h request (request.req, w.2) q hq hn rfl
      unfold innerNext
      rw [if_pos hint]
      exact ⟨hg.noPanic, hg.some rfl, rfl, fun e _ => hall id q0 e⟩
    unfold CustomDns.processRequest at hx
    rw [hq] at hx
    simp only at hx
    split at hx
    · cases hx; exact hnext
    · rename_i z entries hw
      have hget := (walk_some hw).2.2.1
      have hent := entries_good he env (CustomDns.processRequest env mapping (innerNext next) n) request resolved q id q0 entries
        (by
          intro e hem t hd res w x hx
          exact ih (CustomDns.targetRequest env request (trimSuffixDot t) q.qtype res) res w
            { name := fqdn (trimSuffixDot t), qtype := q.qtype } x id q0 rfl rfl (wireName_fqdn (ht _ _ hget e hem t hd)) hx) [] w
      split at hx
      · cases hx
      · rename_i hy
        cases hx
        obtain ⟨_, h2, h3⟩ := hent _ hy
        exact ⟨(fun h => nomatch h), (fun h => nomatch h), h2, fun e _ => hall id q0 e⟩
      · rename_i hy
        exact absurd rfl (hent _ hy).1
      · rename_i rrs w' hy
        obtain ⟨_, h2, _⟩ := hent _ hy
        simp only at h2
        split at hx
        · cases hx
          exact ⟨(fun h => nomatch h), (fun h => nomatch h), h2, (fun _ h => nomatch h)⟩
        · split at hx
          · cases hx
            have hg := h request (request.req, w'.2) q hq hn rfl
            unfold innerNext
            rw [if_pos hint]
            exact ⟨hg.noPanic, hg.some rfl, h2, fun e _ => hall id q0 e⟩
          · cases hx
            exact ⟨(fun h => nomatch h), (fun h => nomatch h), h2, (fun _ h => nomatch h)⟩

theorem good_customDns (he : ErOk Er) (b : Bool) (env : CustomDns.Env) (mapping : CustomDns.Mapping)
    (reverse : AMap Str (List Str)) (depth : Nat) (hdepth : (aliases mapping).length < depth)
    (hal : NoAlias mapping ∨ (b = false ∧ TargetsOk mapping ∧ ∀ id q e, Er id q e))
    {next : Chain.MR W} (h : Good Er b next) : Good Er b (Chain.customDns env mapping reverse depth next) := by
  intro request w q hq hn hw
  have hnx : Good Er b (innerNext next) := by
    intro request w q hq hn hw
    unfold innerNext
    split
    · have hg := h request (request.req, w.2) q hq hn rfl
      exact ⟨hg.ok, by simp [hw], Or.inl (by simp [hw, hq]), hg.noPanic, hg.some, hg.err⟩
    · exact h request w q hq hn hw
  unfold Chain.customDns
  change GoodOut Er b request.req.id q (match CustomDns.resolve env mapping reverse (innerNext next) depth request w with
    | some x => x
    | none => (.panic, w))
  obtain ⟨x, hx⟩ := C31_terminates env mapping reverse (innerNext next) request w
  have hx := hx depth hdepth
  rw [hx]
  simp only
  unfold CustomDns.resolve at hx
  rw [hq] at hx
  simp only at hx
  have hresp : ∀ rrs, (CustomDns.respond request rrs).res.id = request.req.id ∧
      (CustomDns.respond request rrs).res.response = true ∧ (CustomDns.respond request rrs).res.question = [q] :=
    fun rrs => ⟨rfl, rfl, setReply_question hq⟩
  cases hr : CustomDns.handleReverse env reverse request q with
  | some y =>
    rw [hr] at hx
    cases hx
    have hy : ∃ rrs, y = CustomDns.respond request rrs := by
      unfold CustomDns.handleReverse at hr
      split at hr
      · split at hr
        · cases hr; exact ⟨_, rfl⟩
        · cases hr
      · cases hr
    obtain ⟨rrs, rfl⟩ := hy
    exact GoodOut.reply hq hw _ (hresp _).1 (hresp _).2.1 (hresp _).2.2
  | none =>
    rw [hr] at hx
    simp only at hx
    cases depth with
    | zero => cases hx
    | succ n =>
      unfold CustomDns.processRequest at hx
      rw [hq] at hx
      simp only at hx
      split at hx
      · cases hx; exact hnx request w q hq hn hw
      · rename_i z entries hwk
        have hget := (walk_some hwk).2.2.1
        have hent := entries_good he env (CustomDns.processRequest env mapping (innerNext next) n) request [] q request.req.id q entries
          (by
            intro e hem t hd res w x hx
            rcases hal with hal | ⟨hb, ht, hall⟩
            · exact absurd hd (hal _ _ hget e hem t)
            · subst hb
              exact internal_good he env mapping ht hall h n (CustomDns.targetRequest env request (trimSuffixDot t) q.qtype res) res w
                { name := fqdn (trimSuffixDot t), qtype := q.qtype } x _ _ rfl rfl (wireName_fqdn (ht _ _ hget e hem t hd)) hx) [] w
        split at hx
        · cases hx
        · rename_i hy
          cases hx
          obtain ⟨_, h2, h3⟩ := hent _ hy
          simp only at h2
          refine ⟨(fun _ h => nomatch h), by simp [h2, hw], Or.inl (by simp [h2, hw, hq]), (fun h => nomatch h), (fun _ h => nomatch h), ?_⟩
          intro e he'
          cases he'
          exact h3 _ rfl
        · rename_i hy
          exact absurd rfl (hent _ hy).1
        · rename_i rrs w' hy
          obtain ⟨_, h2, _⟩ := hent _ hy
          simp only at h2
          have hw' : w'.1 = request.req := h2.trans hw
          split at hx
          · cases hx
            exact GoodOut.reply hq hw' _ (hresp _).1 (hresp _).2.1 (hresp _).2.2
          · split at hx
            · cases hx
              exact hnx request w' q hq hn hw'
            · cases hx
              exact GoodOut.reply hq hw' _ (hresp _).1 (hresp _).2.1 (hresp _).2.2

end Verif.Props
