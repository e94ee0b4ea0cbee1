/-
C60-C62: the chain as a whole.
-/
import Verif.Lemmas.Chain
import Verif.Props.Blocking

namespace Verif.Props
open Dns Spec ExpCache StringCache

variable {W : Type} {E : RegexEngine}

theorem lowerRules_get (l : List (Str × Str)) (m : AMap Str Str) (k v : Str)
    (h : AMap.get (Cond.lowerRules l m) k = some v) :
    (∃ e ∈ l, lower e.1 = k ∧ v = lower e.2) ∨ (AMap.get m k = some v ∧ ∀ e ∈ l, lower e.1 ≠ k) := by
  induction l generalizing m with
  | nil => exact .inr ⟨h, by simp⟩
  | cons e l ih =>
    obtain ⟨a, b⟩ := e
    rcases ih _ h with ⟨e, he, h1, h2⟩ | ⟨h1, h2⟩
    · exact .inl ⟨e, List.mem_cons_of_mem _ he, h1, h2⟩
    · rw [AMap.get_put] at h1
      split at h1
      · rename_i hk
        cases h1
        exact .inl ⟨(a, b), List.mem_cons_self, hk, rfl⟩
      · rename_i hk
        refine .inr ⟨h1, ?_⟩
        intro e he
        rcases List.mem_cons.1 he with rfl | he
        · exact hk
        · exact h2 e he

theorem lowerRules_uniq (l : List (Str × Str)) (m : AMap Str Str) (h : AMap.Uniq m) : AMap.Uniq (Cond.lowerRules l m) := by
  induction l generalizing m with
  | nil => exact h
  | cons e l ih => exact ih _ (h.put _ _)

/-- The rules of a rewriter are iterated in some order, and no rule rewrites to the empty name or to a name
with final dot. -/
structure RewriteOk (cfg : Cond.RewriteCfg) (order : Nat → List (Str × Str)) : Prop where
  uniq : AMap.Uniq cfg.rewrite
  order : ∃ visited : List (Str × Str), visited.Perm cfg.rewrite ∧ ∀ i, (order i).Perm (Cond.lowerRules visited cfg.rewrite)
  values : ∀ e ∈ cfg.rewrite, e.2 ≠ [] ∧ e.2.getLast? ≠ some '.'

theorem RewriteOk.rules {cfg : Cond.RewriteCfg} {order : Nat → List (Str × Str)} (h : RewriteOk cfg order) : RulesOk order := by
  obtain ⟨visited, hv, ho⟩ := h.order
  intro i k v hm hk
  have hmem := (ho i).mem_iff.1 hm
  have hget := (lowerRules_uniq visited cfg.rewrite h.uniq).get_of_mem hmem
  rcases lowerRules_get visited cfg.rewrite k v hget with ⟨e, he, _, rfl⟩ | ⟨h1, h2⟩
  · obtain ⟨g1, g2⟩ := h.values e (hv.mem_iff.1 he)
    refine ⟨lower_idem _, ?_, getLast_lower_ne g2⟩
    intro hx
    apply g1
    have := lower_length e.2
    rw [hx] at this
    exact List.length_eq_zero_iff.1 this.symm
  · have := AMap.get_eq_some_mem h1
    exact absurd hk (h2 (k, v) (hv.mem_iff.2 this))

/-- The errors of the chain that carry a message carry one for the question. -/
def ErrorReplies (senv : Server.Env) (id : Nat) (q : Question) (e : Str) : Prop :=
  ∀ um, senv.asUpstream e = some um → um.id = id ∧ um.response = true ∧ Shown q um.question

/-- What C60 requires of the configuration. -/
structure ConfigOk (c : Chain.Config E W) (senv : Server.Env) (q : Question) : Prop where
  /-- the name is acceptable to the resolver for fully qualified names -/
  fqdn : c.fqdnOnly = false ∨ '.' ∈ extractDomain q.name
  /-- subnet prefix lengths, not only one for IPv6 -/
  mask4 : c.ecs.ipv4Mask ≤ 32
  mask6 : c.ecs.ipv6Mask ≤ 128
  mask46 : 0 < c.ecs.ipv4Mask ∨ c.ecs.ipv6Mask ≤ 32
  depth : (aliases c.customMapping).length < c.customDepth
  targets : TargetsOk c.customMapping
  customRules : RewriteOk c.customRewrite c.customOrder
  condRules : RewriteOk c.condRewrite c.condOrder
  /-- no aliases together with rewriting -/
  alias : NoAlias c.customMapping ∨ c.customRewrite.rewrite = []
  /-- the two errors of custom DNS are not those of upstreams -/
  own : (∀ names, senv.asUpstream (CustomDns.loopError names) = none) ∧
    senv.asUpstream (str! "unsupported customDNS RR type") = none
  /-- an upstream's error response is not for an alias target or a rewritten name -/
  servfail : (∀ e, senv.asUpstream e = none) ∨ (NoAlias c.customMapping ∧
    (c.customRewrite.rewrite = [] ∨ c.customRewrite.fallbackUpstream = true) ∧
    (c.condRewrite.rewrite = [] ∨ c.condRewrite.fallbackUpstream = true))

theorem errorReplies_ok {senv : Server.Env} (h : (∀ names, senv.asUpstream (CustomDns.loopError names) = none) ∧
    senv.asUpstream (str! "unsupported customDNS RR type") = none) : ErOk (ErrorReplies senv) where
  shown := fun id q q' e hs hx um hum => ⟨(hx um hum).1, (hx um hum).2.1, hs.trans (hx um hum).2.2⟩
  loop := fun id q names um hum => by rw [h.1 names] at hum; cases hum
  unsupported := fun id q um hum => by rw [h.2] at hum; cases hum

theorem good_whole {senv : Server.Env} {c : Chain.Config E W} {q : Question} (hc : ConfigOk c senv q) {up : Resolver W}
    (hup : UpOk (ErrorReplies senv) up) (hcond : ∀ d r, c.condMapping.get d = some r → UpOk (ErrorReplies senv) r)
    (request : Request) (w : Msg × Chain.World W) (hq : request.req.question = [q]) (hn : WireName q.name) (hw : w.1 = request.req) :
    GoodOut (ErrorReplies senv) false request.req.id q (Chain.whole c up request w) := by
  have he := errorReplies_ok hc.own
  have hall : (∀ e, senv.asUpstream e = none) → ∀ id q e, ErrorReplies senv id q e := by
    intro h id q e um hum
    rw [h e] at hum
    cases hum
  have htail : Good (ErrorReplies senv) false (Chain.tail c up) := good_sudn _ (good_liftUp hup)
  have hcnd : Good (ErrorReplies senv) false (Chain.cond c up) := by
    refine good_ofM (good_newRewriter he _ _ ?_ hc.condRules.rules
      (good_conditional he false _ hcond (good_toM htail)) (.inr (good_conditional he true _ hcond good_noop)) (good_toM htail))
    rcases hc.servfail with h | ⟨_, _, h | h⟩
    · exact .inr (.inr (hall h))
    · exact .inl h
    · exact .inr (.inl h)
  have hblock : Good (ErrorReplies senv) false (Chain.block c up) := good_blocking _ _ (good_caching _ _ hcnd)
  have hhosts : Good (ErrorReplies senv) false
      (HostsFile.resolve c.hostsEnabled c.hostsCfg c.hosts c.hostsOrder4 c.hostsOrder6 (Chain.block c up)) := good_hosts _ _ _ _ _ hblock
  have hlocal : Good (ErrorReplies senv) false (Chain.local c up) := by
    refine good_ofM (good_newRewriter he _ _ ?_ hc.customRules.rules ?_ ?_ (good_toM hhosts))
    · rcases hc.servfail with h | ⟨_, h | h, _⟩
      · exact .inr (.inr (hall h))
      · exact .inl h
      · exact .inr (.inl h)
    · refine good_toM (good_customDns he false _ _ _ _ hc.depth ?_ (good_ofM (good_toM hhosts)))
      rcases hc.servfail with h | ⟨h, _, _⟩
      · exact .inr ⟨rfl, hc.targets, hall h⟩
      · exact .inl h
    · rcases hc.alias with h | h
      · exact .inr (good_toM (good_customDns he true _ _ _ _ hc.depth (.inl h) (good_ofM good_noop)))
      · exact .inl h
  have hobs : Good (ErrorReplies senv) false (Chain.observed c up) := good_ede _ (good_queryLog _ _ _ _ (good_metrics _ hlocal))
  have hecs : Good (ErrorReplies senv) false
      (Chain.ecs c.ecs (Chain.clientNames c.names (c.namesLookup.map Chain.liftLookup) (Chain.observed c up))) :=
    good_ecs _ hc.mask4 hc.mask6 hc.mask46 (good_clientNames _ _ hobs)
  unfold Chain.whole Small.filtering
  rw [hq]
  simp only
  split
  · exact GoodOut.reply hq hw _ rfl rfl (by simp [Msg.setRcode, setReply_question hq])
  · exact good_fqdnOnly _ hecs request w q hq hn hw hc.fqdn

theorem sameNames_shown {q : Question} {qs : List Question} (h : Shown q qs) : SameNames qs [q] := by
  rcases h with h | h
  · rw [h]; rfl
  · rw [h]
    simp [SameNames, lower_idem]

/-- **C60.** The whole server, with every resolver configured arbitrarily and arbitrary contents of caches,
lists and logs: a query with one question is answered by exactly one message, a reply with its id and its
question (names compared without case). Assumed of the upstreams: their answers and error responses echo
id and question. Missing: the cases excluded by `ConfigOk`, where it fails - see `C60_alias_servfail_false`,
`C60_rewritten_servfail_false`, `C39_fqdn_only_false`, `C39_rewrite_panic_false`, `C28_ipv6_only_panics`. -/
theorem C60_reply_partial (senv : Server.Env) {len : Msg → Nat} (ht : TruncContract len senv.trunc) (c : Chain.Config E W)
    (up : Resolver W) (msg : Msg) (q : Question) (hq : msg.question = [q]) (hn : WireName q.name) (hc : ConfigOk c senv q)
    (hup : UpOk (ErrorReplies senv) up) (hcond : ∀ d r, c.condMapping.get d = some r → UpOk (ErrorReplies senv) r)
    (remote : Server.Addr) (sni : Option Str) (w : Chain.World W) :
    ∃ m w', Chain.serve senv c up remote sni msg w = ([m], w') ∧ RepliesFold msg m := by
  have hg := good_whole hc hup hcond (Server.newRequestFromDNS remote sni msg) (msg, w) hq hn rfl
  unfold Chain.serve Server.onRequest Server.handleReq Server.resolve
  have hreq : (Server.newRequestFromDNS remote sni msg).req = msg := rfl
  rw [hreq, hq]
  rw [hreq] at hg
  simp only
  have hto : Chain.toM (Chain.whole c up) (Server.newRequestFromDNS remote sni msg) w =
      ((Chain.whole c up (Server.newRequestFromDNS remote sni msg) (msg, w)).1,
       (Chain.whole c up (Server.newRequestFromDNS remote sni msg) (msg, w)).2.1,
       (Chain.whole c up (Server.newRequestFromDNS remote sni msg) (msg, w)).2.2) := rfl
  rw [hto]
  have hrep : ∀ m : Msg, m.id = msg.id → m.response = true → Shown q m.question → RepliesFold msg m := by
    intro m h1 h2 h3
    refine ⟨h1, h2, ?_⟩
    rw [hq]
    exact sameNames_shown h3
  cases hx : Chain.whole c up (Server.newRequestFromDNS remote sni msg) (msg, w) with
  | mk o mw =>
    obtain ⟨m', w'⟩ := mw
    rw [hx] at hg
    cases o with
    | ok r =>
      obtain ⟨h1, h2, h3⟩ := hg.ok r rfl
      obtain ⟨f1, f2, f3, _⟩ := finish_header senv ht m' (Server.newRequestFromDNS remote sni msg).protocol r.res
      exact ⟨_, _, rfl, hrep _ (f1.trans h1) (f2.trans h2) (by rw [f3]; exact h3)⟩
    | err e =>
      simp only
      cases hum : senv.asUpstream e with
      | some um =>
        obtain ⟨h1, h2, h3⟩ := hg.err e rfl um hum
        obtain ⟨f1, f2, f3, _⟩ := finish_header senv ht m' (Server.newRequestFromDNS remote sni msg).protocol um
        exact ⟨_, _, rfl, hrep _ (f1.trans h1) (f2.trans h2) (by rw [f3]; exact h3)⟩
      | none =>
        have hid : m'.id = msg.id := hg.msgId
        obtain ⟨q', hq'⟩ := hg.msgQ.exists
        refine ⟨_, _, rfl, hrep _ hid rfl ?_⟩
        have : (({} : Msg).setRcode m' rcodeServFail).question = [q'] := setReply_question hq'
        rw [this, ← hq']
        exact hg.msgQ
    | noResponse => exact absurd rfl (hg.some rfl)
    | panic => exact absurd rfl hg.noPanic

/-! ### A concrete server -/

/-- An upstream that counts the queries and answers with an address; names below "broken." make it fail with
SERVFAIL, carried by the error. -/
def countingUp : Resolver Nat := fun request n =>
  match request.req.question with
  | [] => (.err (str! "no question"), n + 1)
  | q :: _ =>
    if (str! "broken.").isSuffixOf q.name then (.err (str! "servfail"), n + 1)
    else (.ok { res := { ({} : Msg).setReply request.req with
        answer := [{ name := q.name, rtype := typeA, ttl := 60, data := .a (.v4 0x01020304#32) }] } }, n + 1)

/-- The server's view of errors: "servfail" is an upstream's response to the query with id 77 for
"host.broken.". -/
def sampleServer : Server.Env :=
  ⟨fun e => if e = str! "servfail" then
      some { id := 77, response := true, rcode := rcodeServFail, question := [⟨str! "host.broken.", typeA, 1⟩] }
    else none, sampleTrunc⟩

/-- A server: blocking with the lists of `demoSetup`, caching, the hosts file and logging switched on; custom
DNS records for "nas.lan", an alias "alias.lan" to "host.broken"; "lan" is also a conditional zone. -/
def sampleConfig : Chain.Config prefixEngine Nat where
  filterTypes := [28]
  fqdnOnly := false
  ecs := { ipv4Mask := 24 }
  names := ⟨[], [], fun _ => []⟩
  namesLookup := none
  ede := true
  log := ⟨[.question, .responseAnswer], false⟩
  logEnv := ⟨[], false, fun _ => [], fun _ => [], fun _ => [], fun _ => [], fun _ => []⟩
  logStart := 0
  logDuration := 1
  metrics := true
  customRewrite := ⟨[], false⟩
  customOrder := fun _ => []
  customEnv := { filterUnmappedTypes := true, customTTL := 60, reverseAddr := fun _ => [], newId := fun _ => 77 }
  customMapping := [(str! "nas.lan", [{ name := [], rtype := typeA, ttl := 60, data := .a (.v4 0x0a000001#32) }]),
    (str! "ads.lan", [{ name := [], rtype := typeA, ttl := 60, data := .a (.v4 0x0a000002#32) }]),
    (str! "alias.lan", [{ name := [], rtype := typeCNAME, ttl := 60, data := .cname (str! "host.broken.") }])]
  customReverse := []
  customDepth := 5
  hostsEnabled := true
  hostsCfg := ⟨60, true⟩
  hosts := {}
  hostsOrder4 := []
  hostsOrder6 := []
  blockEnv := plainEnv
  blockState := demoSetup.state
  cacheEnv := ⟨fun _ => true, 0⟩
  cache := {}
  condRewrite := ⟨[(str! "old", str! "broken")], false⟩
  condOrder := fun _ => [(str! "old", str! "broken")]
  condMapping := [(str! "broken", countingUp)]
  sudn := ⟨true, true⟩

/-- Everything empty. -/
def sampleWorld : Chain.World Nat := (⟨⟨10, []⟩, 0⟩, {}, ⟨⟨⟨10, []⟩, 0⟩, ⟨10, []⟩⟩, 0)

/-- A query. -/
def query (name : Str) (qtype : Nat := typeA) : Msg := { id := 5, recursionDesired := true, question := [⟨name, qtype, 1⟩] }

/-- What the client sees: id, question and code of every message, and the number of upstream queries. -/
def view (x : List Msg × Chain.World Nat) : List (Nat × Str × Nat × Nat) × Nat :=
  (x.1.map (fun m => (m.id, (m.question.map Question.name).flatten, m.rcode, m.answer.length)), x.2.2.2.2)

def sampleServe (name : Str) (qtype : Nat := typeA) : List (Nat × Str × Nat × Nat) × Nat :=
  view (Chain.serve sampleServer sampleConfig countingUp (.udp (some (.v4 1#32))) none (query name qtype) sampleWorld)

-- resolved by the upstream; custom DNS; blocked; custom DNS although blocked; filtered; special use
example : sampleServe (str! "www.org.") = ([(5, str! "www.org.", 0, 1)], 1) := by decide +kernel
example : sampleServe (str! "NAS.lan.") = ([(5, str! "NAS.lan.", 0, 1)], 0) := by decide +kernel
example : sampleServe (str! "ads.org.") = ([(5, str! "ads.org.", 0, 1)], 0) := by decide +kernel
example : sampleServe (str! "ads.lan.") = ([(5, str! "ads.lan.", 0, 1)], 0) := by decide +kernel
example : sampleServe (str! "www.org.") 28 = ([(5, str! "www.org.", 0, 0)], 0) := by decide +kernel
example : sampleServe (str! "printer.local.") = ([(5, str! "printer.local.", 3, 0)], 0) := by decide +kernel

/-- **C60 is false for aliases.** The upstream answers SERVFAIL to the query for the target of an alias; this
message is sent to the client as it is - with the id of the internal query and the target as question. -/
theorem C60_alias_servfail_false :
    sampleServe (str! "alias.lan.") = ([(77, str! "host.broken.", rcodeServFail, 0)], 1) := by decide +kernel

/-- **C60 is false for rewritten names.** Likewise, with the rewritten question, for a name a rewrite rule of the
conditional upstreams applies to. (The id is the client's in the code; the sample error has a fixed one.) -/
theorem C60_rewritten_servfail_false :
    sampleServe (str! "host.old.") = ([(77, str! "host.broken.", rcodeServFail, 0)], 1) := by decide +kernel

theorem countingUp_ok : UpOk (ErrorReplies ⟨fun _ => none, sampleTrunc⟩) countingUp where
  echo := by
    intro request w q y hq h
    unfold countingUp at h
    rw [hq] at h
    simp only at h
    split at h
    · cases h
    · cases h
      exact ⟨rfl, rfl, setReply_question hq⟩
  noPanic := by
    intro request w h
    unfold countingUp at h
    split at h
    · cases h
    · split at h <;> cases h
  some := by
    intro request w h
    unfold countingUp at h
    split at h
    · cases h
    · split at h <;> cases h
  err := fun _ _ _ _ _ _ um hum => by cases hum

/-- The hypotheses of `C60_reply_partial` are met: with errors that carry no message, by the sample server,
aliases and rewriting included; with the errors of `sampleServer`, without these. -/
theorem sampleConfig_ok (q : Question) : ConfigOk sampleConfig ⟨fun _ => none, sampleTrunc⟩ q where
  fqdn := .inl rfl
  mask4 := by decide
  mask6 := by decide
  mask46 := .inl (by decide)
  depth := by decide
  targets := by
    intro d entries h e he t ht
    have hm := AMap.get_eq_some_mem h
    simp only [sampleConfig, List.mem_cons, Prod.mk.injEq, List.not_mem_nil, or_false] at hm
    rcases hm with ⟨_, rfl⟩ | ⟨_, rfl⟩ | ⟨_, rfl⟩
    · rw [List.mem_singleton.1 he] at ht; cases ht
    · rw [List.mem_singleton.1 he] at ht; cases ht
    · rw [List.mem_singleton.1 he] at ht
      cases ht
      decide
  customRules := ⟨by simp [AMap.Uniq, AMap.keys, sampleConfig], ⟨[], .refl _, fun _ => .refl _⟩, (fun _ h => nomatch h)⟩
  condRules := by
    refine ⟨by simp [AMap.Uniq, AMap.keys, sampleConfig], ⟨[(str! "old", str! "broken")], .refl _, fun _ => .refl _⟩, ?_⟩
    intro e he
    rw [List.mem_singleton.1 he]
    decide
  alias := .inr rfl
  own := ⟨fun _ => rfl, rfl⟩
  servfail := .inl (fun _ => rfl)

example : ∃ m w', Chain.serve ⟨fun _ => none, sampleTrunc⟩ sampleConfig countingUp (.udp none) none
    (query (str! "Alias.lan.")) sampleWorld = ([m], w') ∧ RepliesFold (query (str! "Alias.lan.")) m := by
  refine C60_reply_partial _ sample_contract sampleConfig countingUp _ ⟨str! "Alias.lan.", typeA, 1⟩ rfl
    ⟨str! "Alias.lan", rfl, by decide⟩ (sampleConfig_ok _) countingUp_ok ?_ _ _ _
  intro d r h
  have hm := AMap.get_eq_some_mem h
  simp only [sampleConfig, List.mem_cons, Prod.mk.injEq, List.not_mem_nil, or_false] at hm
  rw [hm.2]
  exact countingUp_ok

/-! ### C61, C62 -/

theorem getClientNames_none {W : Type} (cfg : ClientNames.Cfg) (request : Request) (cn : St (List Str)) (w : W) :
    ClientNames.getClientNames cfg none request cn w =
      ((ClientNames.getClientNames cfg none request cn ()).1, (ClientNames.getClientNames cfg none request cn ()).2.1, w) := by
  unfold ClientNames.getClientNames
  split
  · rfl
  · split
    · rfl
    · split
      · rfl
      · simp only [ClientNames.resolveClientNames]
        split <;> rfl

/-- The request as the inner resolvers see it: after the client-subnet resolver and with the client's names (no
lookup of names configured). -/
def seen (c : Chain.Config E W) (r : Request) (cn : St (List Str)) : Request :=
  { r with clientNames := (ClientNames.getClientNames c.names none r cn ()).1 }

theorem withNames_none (c : Chain.Config E W) (hl : c.namesLookup = none) (r : Request) (cn : St (List Str)) (v : Caching.CState × W) :
    ClientNames.withNames c.names c.namesLookup r cn v = (seen c r cn, (ClientNames.getClientNames c.names none r cn ()).2.1, v) := by
  unfold ClientNames.withNames
  rw [hl, getClientNames_none]
  rfl

theorem withNames_lift {V : Type} (cfg : ClientNames.Cfg) (l : Option (ClientNames.Lookup V)) (r : Request) (cn : St (List Str))
    (q : QueryLog.Queue) (w : V) :
    ClientNames.withNames cfg (l.map Chain.liftLookup) r cn (q, w) =
      ((ClientNames.withNames cfg l r cn w).1, (ClientNames.withNames cfg l r cn w).2.1, (q, (ClientNames.withNames cfg l r cn w).2.2)) := by
  have hr : ∀ ip, ClientNames.resolveClientNames cfg (l.map Chain.liftLookup) ip (q, w) =
      ((ClientNames.resolveClientNames cfg l ip w).1, (q, (ClientNames.resolveClientNames cfg l ip w).2)) := by
    intro ip
    unfold ClientNames.resolveClientNames
    split
    · rfl
    · cases l with
      | none => rfl
      | some ask =>
        simp only [Option.map_some, Chain.liftLookup]
        cases ask ip w with
        | mk a w' =>
          cases a with
          | none => rfl
          | some a => simp only; split <;> rfl
  have hg : ClientNames.getClientNames cfg (l.map Chain.liftLookup) r cn (q, w) =
      ((ClientNames.getClientNames cfg l r cn w).1, (ClientNames.getClientNames cfg l r cn w).2.1,
        (q, (ClientNames.getClientNames cfg l r cn w).2.2)) := by
    unfold ClientNames.getClientNames
    split
    · rfl
    · cases r.clientIP with
      | none => rfl
      | some ip =>
        simp only
        cases cn.cache.get cn.now (cfg.ipString ip) with
        | mk a c =>
          cases a with
          | some a => rfl
          | none => simp only [hr]
  unfold ClientNames.withNames
  rw [hg]

theorem withNames_req {V : Type} (cfg : ClientNames.Cfg) (lookup : Option (ClientNames.Lookup V)) (r : Request) (cn : St (List Str)) (w : V) :
    (ClientNames.withNames cfg lookup r cn w).1.req = r.req := by
  unfold ClientNames.withNames
  rfl

/-- Queries that are not filtered and are fully qualified reach the inner resolvers, with the client's names. -/
theorem whole_front_names (c : Chain.Config E W) (up : Resolver W) (request r1 r2 : Request) (q : Question)
    (hq : request.req.question = [q]) (hf : q.qtype ∉ c.filterTypes) (hfq : c.fqdnOnly = false ∨ '.' ∈ extractDomain q.name)
    (h1 : Ecs.transform c.ecs request = some r1) (m : Msg) (cn cn' : St (List Str)) (queue : QueryLog.Queue) (v v' : Caching.CState × W)
    (h2 : ClientNames.withNames c.names c.namesLookup r1 cn v = (r2, cn', v')) :
    Chain.whole c up request (m, (cn, queue, v)) =
      ((Chain.observed c up r2 (r1.req, (queue, v'))).1,
       ((Chain.observed c up r2 (r1.req, (queue, v'))).2.1, (cn', (Chain.observed c up r2 (r1.req, (queue, v'))).2.2))) := by
  unfold Chain.whole Small.filtering
  rw [hq]
  have hf' : c.filterTypes.contains q.qtype = false := by simpa using hf
  simp only [hf', Bool.false_eq_true, if_false]
  have hfo : ∀ (next : Chain.MR (Chain.World W)), Small.fqdnOnly c.fqdnOnly next request (m, (cn, queue, v)) =
      next request (m, (cn, queue, v)) := by
    intro next
    unfold Small.fqdnOnly
    rcases hfq with h | h
    · rw [h]; rfl
    · rw [hq]
      have : (extractDomain q.name).contains '.' = true := by simpa using h
      simp only [this]
      simp
  rw [hfo]
  unfold Chain.ecs
  rw [h1]
  simp only [Chain.clientNames, withNames_lift, h2]

/-- What a local answer looks like from outside: extended errors are added, an entry may be queued. -/
theorem observed_ok (c : Chain.Config E W) (up : Resolver W) (r : Request) (q : Question) (hq : r.req.question = [q])
    (queue : QueryLog.Queue) (s s' : Caching.CState × W) (y : Response)
    (h : Chain.local c up r (r.req, s) = (.ok y, (r.req, s'))) :
    ∃ y' queue', Chain.observed c up r (r.req, (queue, s)) = (.ok y', (r.req, (queue', s'))) ∧
      y'.rtype = y.rtype ∧ y'.reason = y.reason ∧ SameOutsideExtra y'.res y.res := by
  have hm : Chain.metrics c.metrics (Chain.local c up) r (r.req, s) = (.ok y, (r.req, s')) := by
    unfold Chain.metrics
    rw [h]
    simp only [hq, ite_self]
  have hlog : ∃ queue', Chain.queryLog c.log c.logEnv c.logStart c.logDuration (Chain.metrics c.metrics (Chain.local c up)) r
      (r.req, (queue, s)) = (.ok y, (r.req, (queue', s'))) := by
    unfold Chain.queryLog Chain.ofM QueryLog.resolve Chain.toM
    simp only [hm]
    obtain ⟨e, he⟩ := chain_fillFields c.logEnv r r.req y c.logDuration q hq c.log.fields (QueryLog.emptyEntry c.logEnv c.logStart)
    have : QueryLog.createLogEntry c.log c.logEnv r r.req y c.logStart c.logDuration = some e := he
    simp only [this]
    split
    · exact ⟨_, rfl⟩
    · exact ⟨_, rfl⟩
  obtain ⟨queue', hl⟩ := hlog
  unfold Chain.observed Small.ede
  rw [hl]
  split
  · exact ⟨y, queue', rfl, rfl, rfl, rfl⟩
  · refine ⟨_, queue', rfl, ?_⟩
    unfold Small.addExtraReasoning
    split
    · exact ⟨rfl, rfl, rfl⟩
    · exact ⟨rfl, rfl, (C29_only_opt_changes y.res _ 0).1.1⟩

/-- The part of the chain behind custom DNS. -/
def behindCustom (c : Chain.Config E W) (up : Resolver W) : Chain.MR (Caching.CState × W) :=
  HostsFile.resolve c.hostsEnabled c.hostsCfg c.hosts c.hostsOrder4 c.hostsOrder6 (Chain.block c up)

/-- The name a resolver behind rewriting rules is asked for (rewriter_resolver.go 123-152); `order` is the order in which Go
iterates the rules. -/
def ruledName (cfg : Cond.RewriteCfg) (order : Nat → List (Str × Str)) (name : Str) : Str :=
  if cfg.rewrite = [] then name
  else if Cond.rewriteDomain (order 0) (extractDomain name) = extractDomain name then name
  else fqdn (Cond.rewriteDomain (order 0) (extractDomain name))

/-- The name custom DNS is asked for. -/
def customName (c : Chain.Config E W) (name : Str) : Str := ruledName c.customRewrite c.customOrder name

/-- Custom DNS, with rewriting or not, leaves names about which it has nothing to the next resolver. -/
theorem custom_passes {V : Type} (c : Chain.Config E W) (hd : 0 < c.customDepth) (next : Chain.MR V) (r : Request)
    (hint : r.internal = false) (q : Question) (hq : r.req.question = [q])
    (hc : ∀ z, InZone (extractDomain (customName c q.name)) z → z ≠ [] → AMap.get c.customMapping z = none)
    (hrev : q.qtype = typePTR → AMap.get c.customReverse (customName c q.name) = none) (v : V) :
    Chain.ofM (Cond.newRewriter c.customRewrite c.customOrder
      (fun next => Chain.toM (Chain.customDns c.customEnv c.customMapping c.customReverse c.customDepth (Chain.ofM next)))
      (Chain.toM next)) r (r.req, v) = next r (r.req, v) := by
  have key : ∀ (nx : Chain.MR V) (r : Request) (q : Question), r.req.question = [q] → r.internal = false →
      (∀ z, InZone (extractDomain q.name) z → z ≠ [] → AMap.get c.customMapping z = none) →
      (q.qtype = typePTR → AMap.get c.customReverse q.name = none) →
      Chain.customDns c.customEnv c.customMapping c.customReverse c.customDepth nx r (r.req, v) = nx r (r.req, v) := by
    intro nx r q hq hint h1 h2
    unfold Chain.customDns
    have := (C32_exact_partial c.customEnv c.customMapping c.customReverse
      (fun r w => if r.internal then ((nx r (r.req, w.2)).1, (w.1, (nx r (r.req, w.2)).2.2)) else nx r w)
      c.customDepth hd r q [] hq h2 (r.req, v)).2 h1
    rw [this]
    simp only [hint, Bool.false_eq_true, if_false]
  unfold Cond.newRewriter
  by_cases hrw : c.customRewrite.rewrite = []
  · have hn : customName c q.name = q.name := by unfold customName ruledName; rw [if_pos hrw]
    rw [hn] at hc hrev
    simp only [hrw, List.length_nil, if_true]
    unfold Chain.ofM Chain.toM
    simp only
    have := key (Chain.ofM (Chain.toM next)) r q hq hint hc hrev
    unfold Chain.ofM Chain.toM at this
    rw [this]
  · have hlen : ¬ c.customRewrite.rewrite.length = 0 := fun h => hrw (List.length_eq_zero_iff.1 h)
    rw [if_neg hlen]
    by_cases hsame : Cond.rewriteDomain (c.customOrder 0) (extractDomain q.name) = extractDomain q.name
    · have hn : customName c q.name = q.name := by unfold customName ruledName; rw [if_neg hrw, if_pos hsame]
      rw [hn] at hc hrev
      have hk := key (Chain.ofM (fun request w => (.noResponse, request.req, w))) r q hq hint hc hrev
      have hr : Cond.rewriteQuestions c.customOrder 0 r.req.question [] = ([q], false, []) := by
        rw [hq]
        simp [Cond.rewriteQuestions, hsame]
      unfold Chain.ofM at hk
      unfold Chain.ofM Cond.rewriter
      simp only [hr, Bool.false_eq_true, if_false]
      unfold Chain.toM
      simp only [hk]
    · have hn : customName c q.name = fqdn (Cond.rewriteDomain (c.customOrder 0) (extractDomain q.name)) := by
        unfold customName ruledName; rw [if_neg hrw, if_neg hsame]
      rw [hn] at hc hrev
      have hk := key (Chain.ofM (fun request w => (.noResponse, request.req, w)))
        { r with req := { r.req with question := [{ q with name := fqdn (Cond.rewriteDomain (c.customOrder 0) (extractDomain q.name)) }] } }
        { q with name := fqdn (Cond.rewriteDomain (c.customOrder 0) (extractDomain q.name)) } rfl hint hc hrev
      have hr : Cond.rewriteQuestions c.customOrder 0 r.req.question [] =
          ([{ q with name := fqdn (Cond.rewriteDomain (c.customOrder 0) (extractDomain q.name)) }], true,
            AMap.put [] (fqdn (Cond.rewriteDomain (c.customOrder 0) (extractDomain q.name))) q.name) := by
        rw [hq]
        simp [Cond.rewriteQuestions, hsame]
      unfold Chain.ofM at hk
      unfold Chain.ofM Cond.rewriter
      simp only [hr, if_true]
      unfold Chain.toM
      simp only [hk]

/-- The name is not configured locally: not in the custom DNS, nor (for addresses) in a hosts file. -/
structure NotLocal (c : Chain.Config E W) (r : Request) (q : Question) : Prop where
  custom : ∀ z, InZone (extractDomain (customName c q.name)) z → z ≠ [] → AMap.get c.customMapping z = none
  reverse : q.qtype = typePTR → AMap.get c.customReverse (customName c q.name) = none
  hosts : c.hostsEnabled = false ∨ (HostsFile.handleReverse c.hostsCfg c.hostsOrder4 c.hostsOrder6 r q = none ∧
    c.hosts.getIP q.qtype (extractDomain q.name) = none)

theorem local_behind (c : Chain.Config E W) (hd : 0 < c.customDepth) (up : Resolver W) (r : Request) (hint : r.internal = false)
    (q : Question) (hq : r.req.question = [q])
    (hc : ∀ z, InZone (extractDomain (customName c q.name)) z → z ≠ [] → AMap.get c.customMapping z = none)
    (hrev : q.qtype = typePTR → AMap.get c.customReverse (customName c q.name) = none) (s : Caching.CState × W) :
    Chain.local c up r (r.req, s) = behindCustom c up r (r.req, s) :=
  custom_passes c hd (behindCustom c up) r hint q hq hc hrev s

theorem local_passes (c : Chain.Config E W) (hd : 0 < c.customDepth) (up : Resolver W)
    (r : Request) (hint : r.internal = false) (q : Question) (hq : r.req.question = [q]) (hn : NotLocal c r q) (s : Caching.CState × W) :
    Chain.local c up r (r.req, s) = Chain.block c up r (r.req, s) := by
  rw [local_behind c hd up r hint q hq hn.custom hn.reverse]
  unfold behindCustom HostsFile.resolve
  rw [hq]
  simp only
  rcases hn.hosts with h | ⟨h1, h2⟩
  · rw [h]; rfl
  · rw [h1, h2]
    simp

/-- What the inner resolvers see of a request: the message behind the client-subnet resolver. -/
theorem behind_front (c : Chain.Config E W) (request r1 r2 : Request) (q : Question) (hq : request.req.question = [q])
    (h1 : Ecs.transform c.ecs request = some r1) (cn cn' : St (List Str)) (v v' : Caching.CState × W)
    (h2 : ClientNames.withNames c.names c.namesLookup r1 cn v = (r2, cn', v')) :
    r2.req = r1.req ∧ r2.req.question = [q] ∧ r2.internal = request.internal := by
  have hr2 : r2.req = r1.req := by
    have := withNames_req c.names c.namesLookup r1 cn v
    rw [h2] at this
    exact this
  have hi2 : r2.internal = r1.internal := by
    have : (ClientNames.withNames c.names c.namesLookup r1 cn v).1.internal = r1.internal := rfl
    rw [h2] at this
    exact this
  have hi1 : r1.internal = request.internal := by
    unfold Ecs.transform at h1
    split at h1
    · simp only at h1
      split at h1
      · split at h1
        · cases h1
        · cases h1; rfl
        · cases h1; rfl
      · split at h1
        · cases h1; rfl
        · cases h1; rfl
    · cases h1; rfl
  have hm := (C28_rest_unchanged c.ecs request r1 h1).1
  unfold SameOutsideExtra at hm
  have e3 := congrArg Msg.question hm
  simp only at e3
  exact ⟨hr2, by rw [hr2]; exact e3.trans hq, hi2.trans hi1⟩

/-- **C61.** Through the whole chain: a query for a name that the client's lists block is answered with the block
answer whatever is in the cache and whatever the upstreams do; neither is touched (`v` is the state before, `(cache, w)` the
state after the client's names have been found out, which may need a lookup; `r2` is the request with these names). (The name is
not configured locally and passes the filter of query types.) -/
theorem C61_blocked_everywhere (s : Setup E) (c : Chain.Config E W) (henv : c.blockEnv = s.env) (hstate : c.blockState = s.state)
    (hd : 0 < c.customDepth) (request r1 r2 : Request) (hint : request.internal = false) (q : Question)
    (hq : request.req.question = [q]) (hf : q.qtype ∉ c.filterTypes) (hfq : c.fqdnOnly = false ∨ '.' ∈ extractDomain q.name)
    (h1 : Ecs.transform c.ecs request = some r1) (cn cn' : St (List Str)) (v : Caching.CState × W) (cache : Caching.CState) (w : W)
    (h2 : ClientNames.withNames c.names c.namesLookup r1 cn v = (r2, cn', (cache, w))) (hn : NotLocal c r2 q)
    (hallow : ¬ s.Allowed r2 (extractDomain q.name))
    (hdeny : s.OnlyAllowed r2 ∨ s.Denied r2 (extractDomain q.name))
    (up : Resolver W) (m : Msg) (queue : QueryLog.Queue) :
    ∃ y m' queue', Chain.whole c up request (m, (cn, queue, v)) = (.ok y, (m', (cn', queue', cache, w))) ∧
      y.rtype = .blocked ∧ SameOutsideExtra y.res (s.handler.handleBlock q (({} : Msg).setReply r1.req)) := by
  have hw := whole_front_names c up request r1 r2 q hq hf hfq h1 m cn cn' queue v (cache, w) h2
  obtain ⟨hr2, hq1, hi1⟩ := behind_front c request r1 r2 q hq h1 cn cn' v (cache, w) h2
  have hb : s.NameBlocked r2 q := ⟨[], [], by rw [hq1]; rfl, by simp, hallow, hdeny⟩
  obtain ⟨o, ho, reason, rfl⟩ := C15_blocked_by_name s (Chain.caching c.cacheEnv c.cache (Chain.cond c up)) r2
    (r2.req, (cache, w)) q hb
  have hloc : Chain.local c up r2 (r2.req, (cache, w)) =
      (.ok { res := s.handler.handleBlock q (({} : Msg).setReply r2.req), reason := reason, rtype := .blocked },
        (r2.req, (cache, w))) := by
    rw [local_passes c hd up r2 (hi1.trans hint) q hq1 hn (cache, w)]
    unfold Chain.block
    rw [henv, hstate]
    exact ho
  obtain ⟨y', queue', hobs, g1, g2, g3⟩ := observed_ok c up r2 q hq1 queue (cache, w) (cache, w) _ hloc
  rw [hr2] at hobs g3
  rw [hw, hobs]
  exact ⟨y', _, queue', rfl, g1, g3⟩

/-- Custom DNS answers an empty answer itself: it is told to, and no rewriting with a fallback hands it on. -/
def KeepsEmpty (c : Chain.Config E W) : Prop :=
  c.customEnv.filterUnmappedTypes = true ∧ (c.customRewrite.rewrite = [] ∨ c.customRewrite.fallbackUpstream = false)

theorem configuredAnswers_name (q : Question) (name : Str) (es : List RR) :
    configuredAnswers { q with name := name } es = (configuredAnswers q es).map (fun a => { a with name := name }) := by
  simp [configuredAnswers]

/-- Custom DNS, with rewriting or not, answers names it has records for; the names in the answer are those of the query. -/
theorem custom_found {V : Type} (c : Chain.Config E W) (hd : 0 < c.customDepth) (next : Chain.MR V) (r : Request)
    (q : Question) (hq : r.req.question = [q]) (hrev : q.qtype = 12 → AMap.get c.customReverse (customName c q.name) = none)
    (z : Str) (es : List RR)
    (hz : Longest (fun z => z ≠ [] ∧ (AMap.get c.customMapping z).isSome) (extractDomain (customName c q.name)) z)
    (hes : AMap.get c.customMapping z = some es) (hord : ∀ e ∈ es, Ordinary e)
    (hans : configuredAnswers q es ≠ [] ∨ KeepsEmpty c) (v : V) :
    ∃ y, Chain.ofM (Cond.newRewriter c.customRewrite c.customOrder
      (fun next => Chain.toM (Chain.customDns c.customEnv c.customMapping c.customReverse c.customDepth (Chain.ofM next)))
      (Chain.toM next)) r (r.req, v) = (.ok y, (r.req, v)) ∧ y.rtype = .customdns ∧ y.res.answer = configuredAnswers q es ∧
      y.res.rcode = 0 ∧ y.res.question = [q] ∧ y.res.id = r.req.id := by
  have key : ∀ (nx : Chain.MR V) (r : Request) (q : Question), r.req.question = [q] →
      (q.qtype = 12 → AMap.get c.customReverse q.name = none) →
      Longest (fun z => z ≠ [] ∧ (AMap.get c.customMapping z).isSome) (extractDomain q.name) z →
      (configuredAnswers q es ≠ [] ∨ c.customEnv.filterUnmappedTypes = true) →
      ∃ y, Chain.customDns c.customEnv c.customMapping c.customReverse c.customDepth nx r (r.req, v) = (.ok y, (r.req, v)) ∧
        y.rtype = .customdns ∧ y.res.answer = configuredAnswers q es ∧ y.res.rcode = 0 ∧ y.res.question = [q] ∧ y.res.id = r.req.id := by
    intro nx r q hq h2 h3 h4
    obtain ⟨y, hy, g⟩ := ((C32_exact_partial c.customEnv c.customMapping c.customReverse
      (fun r w => if r.internal then ((nx r (r.req, w.2)).1, (w.1, (nx r (r.req, w.2)).2.2)) else nx r w)
      c.customDepth hd r q [] hq h2 (r.req, v)).1 z es h3 hes hord).1 h4
    refine ⟨y, ?_, g⟩
    unfold Chain.customDns
    rw [hy]
  have hans' : configuredAnswers q es ≠ [] ∨ c.customEnv.filterUnmappedTypes = true := hans.imp_right (·.1)
  unfold Cond.newRewriter
  by_cases hrw : c.customRewrite.rewrite = []
  · have hn : customName c q.name = q.name := by unfold customName ruledName; rw [if_pos hrw]
    rw [hn] at hz hrev
    simp only [hrw, List.length_nil, if_true]
    obtain ⟨y, hy, g⟩ := key (Chain.ofM (Chain.toM next)) r q hq hrev hz hans'
    refine ⟨y, ?_, g⟩
    unfold Chain.ofM Chain.toM at hy ⊢
    simp only
    rw [hy]
  · have hlen : ¬ c.customRewrite.rewrite.length = 0 := fun h => hrw (List.length_eq_zero_iff.1 h)
    have hkeep : (c.customRewrite.fallbackUpstream && (configuredAnswers q es).isEmpty) = false := by
      rcases hans with h | ⟨_, h | h⟩
      · cases hc : configuredAnswers q es with
        | nil => exact absurd hc h
        | cons => simp
      · exact absurd h hrw
      · rw [h]; rfl
    rw [if_neg hlen]
    by_cases hsame : Cond.rewriteDomain (c.customOrder 0) (extractDomain q.name) = extractDomain q.name
    · have hn : customName c q.name = q.name := by unfold customName ruledName; rw [if_neg hrw, if_pos hsame]
      rw [hn] at hz hrev
      obtain ⟨y, hy, g1, g2, g⟩ := key (Chain.ofM (fun request w => (.noResponse, request.req, w))) r q hq hrev hz hans'
      refine ⟨y, ?_, g1, g2, g⟩
      have hr : Cond.rewriteQuestions c.customOrder 0 r.req.question [] = ([q], false, []) := by
        rw [hq]
        simp [Cond.rewriteQuestions, hsame]
      unfold Chain.ofM at hy
      unfold Chain.ofM Cond.rewriter
      simp only [hr, Bool.false_eq_true, if_false]
      unfold Chain.toM
      simp only [hy, g2, hkeep, Bool.false_eq_true, if_false]
    · have hn : customName c q.name = fqdn (Cond.rewriteDomain (c.customOrder 0) (extractDomain q.name)) := by
        unfold customName ruledName; rw [if_neg hrw, if_neg hsame]
      have hca := configuredAnswers_name q (customName c q.name) es
      obtain ⟨y, hy, g1, g2, g3, g4, g5⟩ := key (Chain.ofM (fun request w => (.noResponse, request.req, w)))
        { r with req := { r.req with question := [{ q with name := customName c q.name }] } }
        { q with name := customName c q.name } rfl hrev hz (hans'.imp_left (fun h h' => h (by rw [hca] at h'; simpa using h')))
      have hr : Cond.rewriteQuestions c.customOrder 0 r.req.question [] =
          ([{ q with name := customName c q.name }], true, AMap.put [] (customName c q.name) q.name) := by
        rw [hq, hn]
        simp [Cond.rewriteQuestions, hsame]
      have hrev' : Cond.revertName (AMap.put [] (customName c q.name) q.name) (customName c q.name) = q.name := by
        simp [Cond.revertName, AMap.get_put]
      have hempty : y.res.answer.isEmpty = (configuredAnswers q es).isEmpty := by
        rw [g2, hca]
        cases configuredAnswers q es <;> rfl
      refine ⟨Cond.revert (AMap.put [] (customName c q.name) q.name) y, ?_, g1, ?_, g3, ?_, g5⟩
      · unfold Chain.ofM at hy
        unfold Chain.ofM Cond.rewriter
        simp only [hr, if_true]
        unfold Chain.toM
        simp only [hy, hempty, hkeep, Bool.false_eq_true, if_false]
      · show y.res.answer.map _ = _
        rw [g2]
        simp only [configuredAnswers, List.map_map]
        apply List.map_congr_left
        intro e _
        simp only [Function.comp_apply, hrev']
      · show y.res.question.map _ = _
        rw [g4]
        simp only [List.map_cons, List.map_nil, hrev']

/-- **C62.** Through the whole chain: a name with records in the custom DNS (no aliases; the name as the
rewriting rules make it) is answered from these, with the name of the query, whatever the lists, the cache and the upstreams say; nothing of these is touched (except that the client's names may be
looked up, as in C61). -/
theorem C62_custom_first (c : Chain.Config E W) (hd : 0 < c.customDepth)
    (request r1 r2 : Request) (q : Question) (hq : request.req.question = [q])
    (hf : q.qtype ∉ c.filterTypes) (hfq : c.fqdnOnly = false ∨ '.' ∈ extractDomain q.name)
    (h1 : Ecs.transform c.ecs request = some r1) (hrev : q.qtype = 12 → AMap.get c.customReverse (customName c q.name) = none)
    (z : Str) (es : List RR)
    (hz : Longest (fun z => z ≠ [] ∧ (AMap.get c.customMapping z).isSome) (extractDomain (customName c q.name)) z)
    (hes : AMap.get c.customMapping z = some es) (hord : ∀ e ∈ es, Ordinary e)
    (hans : configuredAnswers q es ≠ [] ∨ KeepsEmpty c)
    (up : Resolver W) (m : Msg) (cn cn' : St (List Str)) (queue : QueryLog.Queue) (v : Caching.CState × W)
    (cache : Caching.CState) (w : W) (h2 : ClientNames.withNames c.names c.namesLookup r1 cn v = (r2, cn', (cache, w))) :
    ∃ y m' queue', Chain.whole c up request (m, (cn, queue, v)) = (.ok y, (m', (cn', queue', cache, w))) ∧
      y.rtype = .customdns ∧ y.res.answer = configuredAnswers q es ∧ y.res.rcode = 0 ∧ y.res.question = [q] ∧
      y.res.id = request.req.id := by
  have hw := whole_front_names c up request r1 r2 q hq hf hfq h1 m cn cn' queue v (cache, w) h2
  obtain ⟨hr2, hq1, hi1⟩ := behind_front c request r1 r2 q hq h1 cn cn' v (cache, w) h2
  have hm := (C28_rest_unchanged c.ecs request r1 h1).1
  unfold SameOutsideExtra at hm
  have e1 := congrArg Msg.id hm
  simp only at e1
  obtain ⟨y, hloc, g1, g2, g3, g4, g5⟩ := custom_found c hd (behindCustom c up) r2 q hq1 hrev z es hz hes hord hans (cache, w)
  obtain ⟨y', queue', hobs, f1, f2, f3⟩ := observed_ok c up r2 q hq1 queue (cache, w) (cache, w) _ hloc
  rw [hr2] at hobs g5
  rw [hw, hobs]
  unfold SameOutsideExtra at f3
  have k1 := congrArg Msg.answer f3
  have k2 := congrArg Msg.rcode f3
  have k3 := congrArg Msg.question f3
  have k4 := congrArg Msg.id f3
  simp only at k1 k2 k3 k4
  exact ⟨y', _, queue', rfl, f1.trans g1, k1.trans g2, k2.trans g3, k3.trans g4, k4.trans (g5.trans e1)⟩

/-- A client's request. -/
def sampleRequest (name : Str) : Request := { clientIP := some (.v4 0x0a0b0c0d#32), req := query name }

-- the hypotheses of C61: a denied name
example : ∃ r1, Ecs.transform sampleConfig.ecs (sampleRequest (str! "ads.org.")) = some r1 ∧
    NotLocal sampleConfig (seen sampleConfig r1 sampleWorld.1) ⟨str! "ads.org.", typeA, 1⟩ ∧
    ¬ demoSetup.Allowed (seen sampleConfig r1 sampleWorld.1) (extractDomain (str! "ads.org.")) ∧
    demoSetup.Denied (seen sampleConfig r1 sampleWorld.1) (extractDomain (str! "ads.org.")) := by
  refine ⟨_, rfl, ⟨?_, ?_, ?_⟩, ?_, ?_⟩
  · exact (walk_eq_none _ 8 _ (by decide)).1 (by decide)
  · intro h; cases h
  · exact .inr ⟨rfl, rfl⟩
  · rw [← demoSetup.allow_iff]
    decide +kernel
  · rw [← demoSetup.deny_iff]
    decide +kernel

/-- The sample configuration, with a rewriting rule for custom DNS. -/
def rewritingConfig : Chain.Config prefixEngine Nat :=
  { sampleConfig with customRewrite := ⟨[(str! "corp", str! "lan")], true⟩, customOrder := fun _ => [(str! "corp", str! "lan")] }

-- with rewriting rules: `nas.corp` is answered from the records of `nas.lan`, with the name the client asked for
example : customName rewritingConfig (str! "NAS.corp.") = str! "nas.lan." ∧
    Longest (fun z => z ≠ [] ∧ (AMap.get rewritingConfig.customMapping z).isSome)
      (extractDomain (customName rewritingConfig (str! "NAS.corp."))) (str! "nas.lan") ∧
    (∃ es, AMap.get rewritingConfig.customMapping (str! "nas.lan") = some es ∧
      (configuredAnswers ⟨str! "NAS.corp.", typeA, 1⟩ es).map (·.name) = [str! "NAS.corp."]) := by
  refine ⟨by decide, ((walk_spec (AMap.get rewritingConfig.customMapping) 10 _ (by decide) _ _).1 rfl).1, _, rfl, by decide⟩

-- the hypotheses of C62: a name below a configured one
example : Longest (fun z => z ≠ [] ∧ (AMap.get sampleConfig.customMapping z).isSome) (extractDomain (str! "x.NAS.lan.")) (str! "nas.lan") ∧
    (∃ es, AMap.get sampleConfig.customMapping (str! "nas.lan") = some es ∧ (∀ e ∈ es, Ordinary e) ∧
      configuredAnswers ⟨str! "x.NAS.lan.", typeA, 1⟩ es ≠ []) := by
  refine ⟨((walk_spec (AMap.get sampleConfig.customMapping) 10 _ (by decide) _ _).1 rfl).1, _, rfl, ?_, by decide⟩
  intro e he
  rw [List.mem_singleton.1 he]
  exact .inl ⟨_, rfl⟩

/-- **C62, order of the chain.** A query refused because of its type touches nothing: it is neither logged nor
counted nor looked up, and no client name is looked up for it. -/
theorem C62_filtered_first (c : Chain.Config E W) (up : Resolver W) (request : Request) (q : Question) (qs : List Question)
    (hq : request.req.question = q :: qs) (hf : q.qtype ∈ c.filterTypes) (w : Msg × Chain.World W) :
    ∃ y, Chain.whole c up request w = (.ok y, w) ∧ y.rtype = .filtered ∧ y.res.answer = [] ∧ y.res.rcode = 0 := by
  unfold Chain.whole Small.filtering
  rw [hq]
  have hf' : c.filterTypes.contains q.qtype = true := by simpa using hf
  simp only [hf', if_true]
  exact ⟨_, rfl, rfl, rfl, rfl⟩

end Verif.Props
