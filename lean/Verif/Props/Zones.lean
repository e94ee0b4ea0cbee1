/-
C83: names of conditional zones and special-use names are never sent to the default upstreams. Whole server.
-/
import Verif.Props.Observers
import Verif.Props.Small

namespace Verif.Props
open Dns ExpCache StringCache
open Spec (InZone SpecialUse)

variable {E : RegexEngine} {W V : Type} {D : List Question → Prop}

/-- Two resolvers do the same for all requests whose questions satisfy `D`. -/
def AgreeQ (D : List Question → Prop) (n1 n2 : Request → W → V) : Prop := ∀ r w, D r.req.question → n1 r w = n2 r w

theorem agreeQ_toM {n1 n2 : Chain.MR W} (h : AgreeQ D n1 n2) : AgreeQ D (Chain.toM n1) (Chain.toM n2) := by
  intro r w hx
  simp [Chain.toM, h r (r.req, w) hx]

theorem agreeQ_ofM {n1 n2 : Cond.MResolver W} (h : AgreeQ D n1 n2) : AgreeQ D (Chain.ofM n1) (Chain.ofM n2) := by
  intro r w hx
  simp [Chain.ofM, h r w.2 hx]

theorem agreeQ_caching (env : Caching.Env) (cfg : Caching.Cfg) {n1 n2 : Chain.MR W} (h : AgreeQ D n1 n2) :
    AgreeQ D (Chain.caching env cfg n1) (Chain.caching env cfg n2) := by
  intro r w hx
  have hloop : ∀ qs last s (w : Msg × W), Caching.resolveLoop env cfg n1 r qs last s w = Caching.resolveLoop env cfg n2 r qs last s w := by
    intro qs
    induction qs with
    | nil => intros; rfl
    | cons q qs ih =>
      intro last s w
      unfold Caching.resolveLoop
      simp only [h r w hx, ih]
  unfold Chain.caching Caching.resolve
  simp only [h r _ hx, hloop]

theorem agreeQ_blocking (env : Blocking.Env) (b : Blocking.BState E) {n1 n2 : Resolver W} (h : AgreeQ D n1 n2) :
    AgreeQ D (Blocking.resolve env b n1) (Blocking.resolve env b n2) := by
  intro r w hx
  unfold Blocking.resolve Blocking.askNext
  simp only [h r w hx]

theorem agreeQ_hosts (enabled : Bool) (cfg : HostsFile.Cfg) (hs : HostsFile.Hosts) (o4 o6 : List (Str × (IP × List Str)))
    {n1 n2 : Resolver W} (h : AgreeQ D n1 n2) :
    AgreeQ D (HostsFile.resolve enabled cfg hs o4 o6 n1) (HostsFile.resolve enabled cfg hs o4 o6 n2) := by
  intro r w hx
  unfold HostsFile.resolve
  simp only [h r w hx]

/-- Targets of the aliases of the custom DNS. -/
def AliasTarget (mapping : CustomDns.Mapping) (t : Str) : Prop :=
  ∃ z es e, AMap.get mapping z = some es ∧ e ∈ es ∧ e.data = .cname t

theorem agreeQ_processRequest (env : CustomDns.Env) (mapping : CustomDns.Mapping)
    (hA : ∀ t qt, AliasTarget mapping t → D [⟨fqdn (trimSuffixDot t), qt, 1⟩]) {n1 n2 : Resolver W}
    (h : AgreeQ D n1 n2) (depth : Nat) (r : Request) (resolved : List Str) (w : W) (hx : D r.req.question) :
    CustomDns.processRequest env mapping n1 depth r resolved w = CustomDns.processRequest env mapping n2 depth r resolved w := by
  induction depth generalizing r resolved w with
  | zero => rfl
  | succ depth ih =>
    have hent : ∀ q es, (∀ e ∈ es, ∀ t, e.data = .cname t → AliasTarget mapping t) → ∀ acc w,
        CustomDns.processEntries env (CustomDns.processRequest env mapping n1 depth) r resolved q es acc w =
        CustomDns.processEntries env (CustomDns.processRequest env mapping n2 depth) r resolved q es acc w := by
      intro q es
      induction es with
      | nil => intros; rfl
      | cons e es ihe =>
        intro hes acc w
        have he : CustomDns.processEntry env (CustomDns.processRequest env mapping n1 depth) r resolved q e w =
            CustomDns.processEntry env (CustomDns.processRequest env mapping n2 depth) r resolved q e w := by
          unfold CustomDns.processEntry CustomDns.processCNAME
          cases hd : e.data <;> try rfl
          rename_i t
          simp only
          rw [ih (CustomDns.targetRequest env r (trimSuffixDot t) q.qtype (resolved ++ [trimSuffixDot t])) _ w
            (hA t q.qtype (hes e (by simp) t hd))]
        unfold CustomDns.processEntries
        rw [he]
        simp only [ihe (fun e' h' => hes e' (by simp [h']))]
    unfold CustomDns.processRequest
    cases r.req.question with
    | nil => rfl
    | cons q qs =>
      simp only
      cases hw : walk (AMap.get mapping) ((extractDomain q.name).length + 1) (extractDomain q.name) with
      | none => simp only [h r _ hx]
      | some x =>
        obtain ⟨z, es⟩ := x
        have hz := (walk_some hw).2.2.1
        simp only [hent q es (fun e he t ht => ⟨z, es, e, hz, he, ht⟩), h r _ hx]

theorem agreeQ_customDns (env : CustomDns.Env) (mapping : CustomDns.Mapping)
    (hA : ∀ t qt, AliasTarget mapping t → D [⟨fqdn (trimSuffixDot t), qt, 1⟩]) (reverse : AMap Str (List Str))
    (depth : Nat) {n1 n2 : Chain.MR W} (h : AgreeQ D n1 n2) :
    AgreeQ D (Chain.customDns env mapping reverse depth n1) (Chain.customDns env mapping reverse depth n2) := by
  intro r w hx
  unfold Chain.customDns CustomDns.resolve
  have ha : AgreeQ D
      (fun (r : Request) (w : Msg × W) => if r.internal then ((n1 r (r.req, w.2)).1, (w.1, (n1 r (r.req, w.2)).2.2)) else n1 r w)
      (fun (r : Request) (w : Msg × W) => if r.internal then ((n2 r (r.req, w.2)).1, (w.1, (n2 r (r.req, w.2)).2.2)) else n2 r w) := by
    intro r w hx
    simp only [h r _ hx]
  simp only [agreeQ_processRequest env mapping hA ha depth r [] w hx]

/-- Custom DNS with nothing behind it leaves the question of the message as it is. -/
theorem customDns_noop_question (env : CustomDns.Env) (mapping : CustomDns.Mapping) (reverse : AMap Str (List Str))
    (depth : Nat) (r : Request) (hi : D r.req.question) (w : W) :
    D (Chain.toM (Chain.customDns env mapping reverse depth (Chain.ofM (fun request w => (.noResponse, request.req, w)))) r w).2.1.question := by
  unfold Chain.toM Chain.customDns CustomDns.resolve
  simp only
  have key : ∀ x, CustomDns.processRequest env mapping
      (fun (r : Request) (w : Msg × W) => if r.internal then ((Chain.ofM (fun request w => (.noResponse, request.req, w)) r (r.req, w.2)).1,
        (w.1, (Chain.ofM (fun request w => (.noResponse, request.req, w)) r (r.req, w.2)).2.2))
        else Chain.ofM (fun request w => (.noResponse, request.req, w)) r w)
      depth r [] (r.req, w) = some x → D x.2.1.question := by
    intro x hx'
    refine processRequest_keeps (fun r => r.internal = true ∨ D r.req.question) (fun w => D w.1.question) env mapping
      (fun _ _ _ _ => .inl rfl) ?_ depth r [] (r.req, w) (.inr hi) hi x hx'
    intro r w hx hw
    split
    · exact hw
    · rcases hx with h | h
      · rename_i hn; exact absurd h hn
      · exact h
  cases r.req.question with
  | nil => exact hi
  | cons q qs =>
    simp only
    cases CustomDns.handleReverse env reverse r q with
    | some y => exact hi
    | none =>
      simp only
      revert key
      generalize CustomDns.processRequest env mapping _ depth r [] (r.req, w) = z
      intro key
      cases z with
      | none => exact hi
      | some x => exact key x rfl

/-- Rewriting in front of an inner resolver without successor. -/
theorem agreeQ_rewriter (fallback : Bool) (order : Nat → List (Str × Str)) {i n1 n2 : Cond.MResolver W}
    (hk : ∀ r w, D r.req.question → D (i r w).2.1.question) (hn : AgreeQ D n1 n2) :
    AgreeQ D (Cond.rewriter fallback order i n1) (Cond.rewriter fallback order i n2) := by
  intro r w hx
  unfold Cond.rewriter
  simp only
  generalize Cond.rewriteQuestions order 0 r.req.question [] = y
  obtain ⟨questions, rewritten, names⟩ := y
  simp only
  have hm : rewritten = false → D (i r w).2.1.question := fun _ => hk r w hx
  have ho : ∀ w', n1 { r with req := if rewritten then r.req else (i r w).2.1 } w' =
      n2 { r with req := if rewritten then r.req else (i r w).2.1 } w' := by
    intro w'
    refine hn _ w' ?_
    cases rewritten with
    | true => exact hx
    | false => exact hm rfl
  cases rewritten with
  | true =>
    simp only [if_true] at ho ⊢
    generalize i { r with req := { r.req with question := questions } } w = z
    obtain ⟨o, msg, w'⟩ := z
    cases o <;> simp only [ho]
  | false =>
    simp only [Bool.false_eq_true, if_false] at ho ⊢
    revert ho
    generalize i r w = z
    obtain ⟨o, msg, w'⟩ := z
    intro ho
    simp only at ho ⊢
    cases o <;> simp only [ho]

theorem agreeQ_queryLog (cfg : QueryLog.Cfg) (env : QueryLog.Env) (start d : Int) {n1 n2 : Chain.MR W} (h : AgreeQ D n1 n2) :
    AgreeQ D (Chain.queryLog cfg env start d n1) (Chain.queryLog cfg env start d n2) := by
  refine agreeQ_ofM ?_
  intro r w hx
  unfold QueryLog.resolve
  rw [agreeQ_toM h r w.2 hx]

/-- From the part behind the cache to the whole server: if two upstreams make no difference there for questions
satisfying `D` - and the targets of aliases do - they make no difference at all. -/
theorem serve_agreeQ (senv : Server.Env) (c : Chain.Config E W)
    (hA : ∀ t qt, AliasTarget c.customMapping t → D [⟨fqdn (trimSuffixDot t), qt, 1⟩]) {u1 u2 : Resolver W}
    (hc : AgreeQ D (Chain.cond c u1) (Chain.cond c u2)) (remote : Server.Addr) (sni : Option Str) (msg : Msg)
    (hD : D msg.question) (w : Chain.World W) : Chain.serve senv c u1 remote sni msg w = Chain.serve senv c u2 remote sni msg w := by
  have hb : AgreeQ D (Chain.block c u1) (Chain.block c u2) := agreeQ_blocking _ _ (agreeQ_caching _ _ hc)
  have hh := agreeQ_toM (agreeQ_hosts c.hostsEnabled c.hostsCfg c.hosts c.hostsOrder4 c.hostsOrder6 hb)
  have hl : AgreeQ D (Chain.local c u1) (Chain.local c u2) := by
    refine agreeQ_ofM ?_
    unfold Cond.newRewriter
    split
    · exact agreeQ_toM (agreeQ_customDns _ _ hA _ _ (agreeQ_ofM hh))
    · exact agreeQ_rewriter _ _ (fun r w h => customDns_noop_question _ _ _ _ r h w) hh
  have ho : AgreeQ D (Chain.observed c u1) (Chain.observed c u2) := by
    have hm : AgreeQ D (Chain.metrics c.metrics (Chain.local c u1)) (Chain.metrics c.metrics (Chain.local c u2)) := by
      intro r w hx
      unfold Chain.metrics
      rw [hl r w hx]
    have hq := agreeQ_queryLog c.log c.logEnv c.logStart c.logDuration hm
    intro r w hx
    unfold Chain.observed Small.ede
    rw [hq r w hx]
  refine serve_agree senv remote sni msg ?_ w
  intro w
  have hecs : ∀ w, Chain.ecs c.ecs (Chain.clientNames c.names (c.namesLookup.map Chain.liftLookup) (Chain.observed c u1))
        (Server.newRequestFromDNS remote sni msg) w =
      Chain.ecs c.ecs (Chain.clientNames c.names (c.namesLookup.map Chain.liftLookup) (Chain.observed c u2))
        (Server.newRequestFromDNS remote sni msg) w := by
    intro w
    unfold Chain.ecs
    cases h : Ecs.transform c.ecs (Server.newRequestFromDNS remote sni msg) with
    | none => rfl
    | some r =>
      simp only
      unfold Chain.clientNames
      have hr := withNames_req c.names (c.namesLookup.map Chain.liftLookup) r w.2.1 w.2.2
      revert hr
      generalize ClientNames.withNames c.names (c.namesLookup.map Chain.liftLookup) r w.2.1 w.2.2 = y
      obtain ⟨r', cn', w'⟩ := y
      intro hr
      simp only at hr ⊢
      rw [ho r' _ (by rw [hr, ecs_question h]; exact hD)]
  exact filtering_congr _ (fqdnOnly_congr _ (hecs w))

/-! ### C83 -/

/-- The name lies in a zone with conditional upstreams: a name of several labels in a configured zone, or a single
label if the zone "." is configured. -/
def Zoned (mapping : AMap Str (Resolver W)) (name : Str) : Prop :=
  ('.' ∈ name ∧ ∃ z, z ≠ [] ∧ InZone name z ∧ (AMap.get mapping z).isSome = true) ∨
  ('.' ∉ name ∧ (AMap.get mapping (str! ".")).isSome = true)

theorem lookup_zoned {mapping : AMap Str (Resolver W)} {d : Str} (h : Zoned mapping d) : ∃ r, Cond.lookup mapping d = some r := by
  unfold Cond.lookup
  rcases h with ⟨hd, z, hz, hi, hs⟩ | ⟨hd, hs⟩
  · have : d.contains '.' = true := by simpa using hd
    rw [if_pos this]
    cases hw : walk (AMap.get mapping) (d.length + 1) d with
    | some x => exact ⟨x.2, rfl⟩
    | none =>
      rw [(walk_eq_none _ _ _ (Nat.lt_succ_self _)).1 hw z hi hz] at hs
      cases hs
  · have : ¬ d.contains '.' = true := by simpa using hd
    rw [if_neg this]
    exact Option.isSome_iff_exists.1 hs

theorem conditional_zoned {mapping : AMap Str (Resolver W)} {r : Request} {q : Question} {qs : List Question}
    (hq : r.req.question = q :: qs) (h : Zoned mapping (extractDomain q.name)) (n1 n2 : Cond.MResolver W) (w : W) :
    Cond.conditional mapping n1 r w = Cond.conditional mapping n2 r w ∧ (Cond.conditional mapping n1 r w).1 ≠ .noResponse := by
  obtain ⟨x, hx⟩ := lookup_zoned h
  have hl : mapping.length > 0 := by
    cases hm : mapping with
    | nil =>
      subst hm
      rcases h with ⟨_, z, _, _, hs⟩ | ⟨_, hs⟩ <;> cases hs
    | cons a as => simp
  unfold Cond.conditional
  rw [if_pos hl, if_pos hl, hq]
  simp only [hx, true_and]
  unfold Cond.internalResolve
  simp only
  cases hz : x { r with req := { r.req with question := Cond.setName (fqdn (extractDomain q.name)) r.req.question } } w with
  | mk o w' => cases o <;> simp

/-- The name in the form in which the conditional resolver sees a rewritten name. -/
def rewrittenName (c : Chain.Config E W) (i : Nat) (name : Str) : Str :=
  extractDomain (fqdn (Cond.rewriteDomain (c.condOrder i) (extractDomain name)))

/-- The names that stay with the conditional upstreams: they lie in a zone, and if names are rewritten for the
conditional upstreams, then so does whatever the name may be rewritten to. -/
def StaysZoned (c : Chain.Config E W) (name : Str) : Prop :=
  Zoned c.condMapping (extractDomain name) ∧ ∀ i, Zoned c.condMapping (rewrittenName c i name)

theorem cond_zoned (c : Chain.Config E W) (hfb : c.condRewrite.rewrite = [] ∨ c.condRewrite.fallbackUpstream = false) (u1 u2 : Resolver W) :
    AgreeQ (fun qs => ∃ q rest, qs = q :: rest ∧ StaysZoned c q.name) (Chain.cond c u1) (Chain.cond c u2) := by
  refine agreeQ_ofM ?_
  rintro r w ⟨q, rest, hq, hz, hrw⟩
  unfold Cond.newRewriter
  split
  · exact (conditional_zoned hq hz _ _ w).1
  · rename_i hlen
    rcases hfb with h | h
    · rw [h] at hlen; exact absurd rfl hlen
    · unfold Cond.rewriter
      rw [h]
      simp only [Bool.false_and, Bool.false_eq_true, if_false]
      have key : ∀ r', (∃ q rest, r'.req.question = q :: rest ∧ Zoned c.condMapping (extractDomain q.name)) →
          (Cond.conditional c.condMapping (fun request w => (.noResponse, request.req, w)) r' w).1 ≠ .noResponse := by
        rintro r' ⟨q', rest', hq', hz'⟩
        exact (conditional_zoned hq' hz' _ (fun request w => (.noResponse, request.req, w)) w).2
      have hr' : ∃ q' rest', (if (Cond.rewriteQuestions c.condOrder 0 r.req.question []).2.1 = true then
          { r with req := { r.req with question := (Cond.rewriteQuestions c.condOrder 0 r.req.question []).1 } } else r).req.question = q' :: rest' ∧
          Zoned c.condMapping (extractDomain q'.name) := by
        split
        · rw [hq]
          unfold Cond.rewriteQuestions
          simp only
          split
          · exact ⟨_, _, rfl, hrw 0⟩
          · exact ⟨_, _, rfl, hz⟩
        · exact ⟨q, rest, hq, hz⟩
      have := key _ hr'
      revert this
      generalize Cond.conditional c.condMapping (fun request w => (.noResponse, request.req, w)) _ w = z
      obtain ⟨o, msg, w'⟩ := z
      intro hno
      cases o with
      | noResponse => exact absurd rfl hno
      | _ => rfl

/-- **C83, conditional zones.** A query for a name in a zone with conditional upstreams is never sent to the
default upstreams: what the server does - replies, caches, log - is the same whatever the default upstreams
would answer. (With rewriting for conditional upstreams: the rewritten name is in a zone too and
`fallbackUpstream` is off; aliases of the custom DNS, if any, lead to such names.) -/
theorem C83_zones_partial (senv : Server.Env) (c : Chain.Config E W)
    (hfb : c.condRewrite.rewrite = [] ∨ c.condRewrite.fallbackUpstream = false)
    (hA : ∀ t, AliasTarget c.customMapping t → StaysZoned c (fqdn (trimSuffixDot t))) (u1 u2 : Resolver W)
    (remote : Server.Addr) (sni : Option Str) (msg : Msg) (q : Question) (qs : List Question) (hq : msg.question = q :: qs)
    (hz : StaysZoned c q.name) (w : Chain.World W) :
    Chain.serve senv c u1 remote sni msg w = Chain.serve senv c u2 remote sni msg w :=
  serve_agreeQ senv c (fun t _ h => ⟨_, _, rfl, hA t h⟩) (cond_zoned c hfb u1 u2) remote sni msg ⟨q, qs, hq, hz⟩ w

/-! ### Special-use names -/

/-- Special-use names as clients usually write them: lower case, with the final dot. -/
def PlainSpecial (appendixG : Bool) (qs : List Question) : Prop :=
  ∃ q rest, qs = q :: rest ∧ lower q.name = q.name ∧ (∃ p, q.name = p ++ ['.'] ∧ p.getLast? ≠ some '.') ∧ SpecialUse appendixG q.name (q.qtype == 43)

theorem plain_fqdn {n p : Str} (hl : lower n = n) (hp : n = p ++ ['.']) (hd : p.getLast? ≠ some '.') : fqdn (extractDomain n) = n := by
  have ht : trimSuffixDot n = p := by
    subst hp
    simp [trimSuffixDot]
  unfold extractDomain fqdn
  rw [hl, ht, if_neg hd, hp]

theorem setName_plain {g : Bool} {qs : List Question} (h : PlainSpecial g qs) :
    ∀ q rest, qs = q :: rest → Cond.setName (fqdn (extractDomain q.name)) qs = qs := by
  obtain ⟨q, rest, rfl, hl, ⟨p, hp, hd⟩, _⟩ := h
  intro q' rest' he
  cases he
  simp only [Cond.setName, plain_fqdn hl hp hd]

theorem cond_special (c : Chain.Config E W) (he : c.sudn.enable = true) (u1 u2 : Resolver W) :
    AgreeQ (PlainSpecial c.sudn.appendixG) (Chain.cond c u1) (Chain.cond c u2) := by
  have ht : AgreeQ (PlainSpecial c.sudn.appendixG) (Chain.tail c u1) (Chain.tail c u2) := by
    rintro r w ⟨q, rest, hq, hl, _, hs⟩
    obtain ⟨y, _, _, _, _, hy⟩ := (C30_special_use_partial (W := Msg × W) c.sudn he r q rest hq hl).1 hs
    exact (hy _ w).trans (hy _ w).symm
  refine agreeQ_ofM ?_
  unfold Cond.newRewriter
  split
  · intro r w hx
    have := agreeQ_toM ht r w hx
    unfold Cond.conditional
    split
    · split
      · rfl
      · split
        · rfl
        · exact this
    · exact this
  · refine agreeQ_rewriter _ _ ?_ (agreeQ_toM ht)
    intro r w hx
    unfold Cond.conditional
    split
    · split
      · exact hx
      · rename_i q rest hq
        split
        · unfold Cond.internalResolve
          simp only
          have : PlainSpecial c.sudn.appendixG (Cond.setName (fqdn (extractDomain q.name)) r.req.question) := by
            rw [setName_plain hx q rest hq]; exact hx
          split <;> exact this
        · exact hx
    · exact hx

/-- **C83, special-use names.** With special-use handling on, a query for a special-use name (written in lower
case) is never sent to the default upstreams, whatever else is configured: zones, rewriting with or without
fallback, lists, caches. (Aliases of the custom DNS, if any, lead to such names.) -/
theorem C83_special_partial (senv : Server.Env) (c : Chain.Config E W) (he : c.sudn.enable = true)
    (hA : ∀ t qt, AliasTarget c.customMapping t → PlainSpecial c.sudn.appendixG [⟨fqdn (trimSuffixDot t), qt, 1⟩]) (u1 u2 : Resolver W)
    (remote : Server.Addr) (sni : Option Str) (msg : Msg) (hs : PlainSpecial c.sudn.appendixG msg.question) (w : Chain.World W) :
    Chain.serve senv c u1 remote sni msg w = Chain.serve senv c u2 remote sni msg w :=
  serve_agreeQ senv c hA (cond_special c he u1 u2) remote sni msg hs w

/-- **C83, refresh of the cache.** The reloading of expired entries for names in zones does not ask the default
upstreams either. -/
theorem C83_reload_partial (env : Caching.Env) (cfg : Caching.Cfg) (c : Chain.Config E W)
    (hfb : c.condRewrite.rewrite = [] ∨ c.condRewrite.fallbackUpstream = false) (u1 u2 : Resolver W) (s : Caching.CState)
    (hz : ∀ k ∈ s.main.cache.expiredKeys s.main.now, ∀ t name, Caching.extractKey k = some (t, name) → StaysZoned c (fqdn name)) (w : Msg × W) :
    Caching.cleanUpCache env cfg (Chain.cond c u1) s w = Caching.cleanUpCache env cfg (Chain.cond c u2) s w := by
  have hloop : ∀ ks, (∀ k ∈ ks, ∀ t name, Caching.extractKey k = some (t, name) → StaysZoned c (fqdn name)) → ∀ del s w,
      Caching.reloadLoop env cfg (Chain.cond c u1) ks del s w = Caching.reloadLoop env cfg (Chain.cond c u2) ks del s w := by
    intro ks
    induction ks with
    | nil => intros; rfl
    | cons k ks ih =>
      intro hk del s w
      have h1 : Caching.reload env cfg (Chain.cond c u1) k w = Caching.reload env cfg (Chain.cond c u2) k w := by
        unfold Caching.reload
        cases he : Caching.extractKey k with
        | none => rfl
        | some x =>
          obtain ⟨t, name⟩ := x
          simp only
          rw [cond_zoned c hfb u1 u2 (Caching.reloadRequest env t name) w ⟨_, _, rfl, ?_⟩]
          show StaysZoned c (fqdn (fqdn name))
          have hid : fqdn (fqdn name) = fqdn name := by
            have : (fqdn name).getLast? = some '.' := by
              unfold fqdn
              split
              · assumption
              · simp
            rw [show fqdn (fqdn name) = if (fqdn name).getLast? = some '.' then fqdn name else fqdn name ++ ['.'] from rfl, if_pos this]
          rw [hid]
          exact hk k (by simp) t name he
      have h2 : Caching.onExpired env cfg (Chain.cond c u1) s w k = Caching.onExpired env cfg (Chain.cond c u2) s w k := by
        unfold Caching.onExpired
        rw [h1]
      unfold Caching.reloadLoop
      rw [h2]
      simp only [ih (fun k' h' => hk k' (by simp [h']))]
  unfold Caching.cleanUpCache
  rw [hloop _ hz]

/-- A server with a zone, without aliases. -/
def zonedConfig (fallback : Bool) : Chain.Config prefixEngine Nat :=
  { sampleConfig with condMapping := [(str! "corp.lan", countingUp), (str! "broken", countingUp)]
                      condRewrite := ⟨[(str! "old", str! "broken")], fallback⟩
                      customMapping := [] }

/-- An upstream that must not be asked. -/
def forbidden : Resolver Nat := fun _ _ => (.panic, 1000)

theorem noAliases {t : Str} (h : AliasTarget [] t) : False := by
  obtain ⟨z, es, e, h, _⟩ := h
  cases h

-- Concrete: a name in the zone, and one that is rewritten into a zone but lies in none itself (it gets there
-- because the rewritten name is found; nothing is claimed about it when it is not).
example : Chain.serve sampleServer (zonedConfig false) countingUp (.udp none) none (query (str! "Git.corp.lan.")) sampleWorld =
    Chain.serve sampleServer (zonedConfig false) forbidden (.udp none) none (query (str! "Git.corp.lan.")) sampleWorld := by
  refine C83_zones_partial sampleServer (zonedConfig false) (.inr rfl) (fun t h => (noAliases h).elim) _ _ _ _ _ _ [] rfl ⟨?_, ?_⟩ _
  · exact .inl ⟨by decide, str! "corp.lan", by decide, .inr ⟨str! "git", by decide⟩, rfl⟩
  · intro i
    show Zoned _ (rewrittenName (zonedConfig false) 0 _)
    exact .inl ⟨by decide, str! "corp.lan", by decide, .inr ⟨str! "git", by decide⟩, rfl⟩

example : view (Chain.serve sampleServer (zonedConfig false) forbidden (.udp none) none (query (str! "Git.corp.lan.")) sampleWorld) =
    ([(5, str! "git.corp.lan.", 0, 1)], 1) := by decide +kernel

example : Chain.serve sampleServer (zonedConfig true) countingUp (.udp none) none (query (str! "printer.local.")) sampleWorld =
    Chain.serve sampleServer (zonedConfig true) forbidden (.udp none) none (query (str! "printer.local.")) sampleWorld :=
  C83_special_partial sampleServer (zonedConfig true) rfl (fun t _ h => (noAliases h).elim) _ _ _ _ _
    ⟨_, _, rfl, by decide, ⟨str! "printer.local", by decide, by decide⟩, ⟨str! "local.", .inr ⟨str! "printer", by decide⟩, .inl (by decide)⟩⟩ _

/-- **C83 is false with `fallbackUpstream`.** A name of a zone whose upstreams fail is sent to the default
upstreams if the rewriting for conditional upstreams has `fallbackUpstream` on - although this very name is not
rewritten. -/
theorem C83_fallback_false :
    (∃ z, z ≠ [] ∧ InZone (extractDomain (str! "secret.broken.")) z ∧ (AMap.get (zonedConfig true).condMapping z).isSome = true) ∧
    Chain.serve sampleServer (zonedConfig true) countingUp (.udp none) none (query (str! "secret.broken.")) sampleWorld ≠
    Chain.serve sampleServer (zonedConfig true) (fun _ n => (.ok { res := {} }, n)) (.udp none) none (query (str! "secret.broken.")) sampleWorld := by
  refine ⟨⟨str! "broken", by decide, .inr ⟨str! "secret", by decide⟩, rfl⟩, ?_⟩
  intro h
  have := congrArg view h
  revert this
  decide +kernel

/-- **C83 is false for a zone's own name of one label**: with the zone "lan" the query "lan." goes to the default
upstreams. -/
theorem C83_single_label_false : ∃ c : Chain.Config prefixEngine Nat, (AMap.get c.condMapping (str! "lan")).isSome = true ∧
    (Chain.serve sampleServer c countingUp (.udp none) none (query (str! "lan.")) sampleWorld).1.map Msg.rcode ≠
    (Chain.serve sampleServer c forbidden (.udp none) none (query (str! "lan.")) sampleWorld).1.map Msg.rcode := by
  refine ⟨{ zonedConfig false with condMapping := [(str! "lan", countingUp)], condRewrite := ⟨[], false⟩, sudn := ⟨false, true⟩ }, rfl, ?_⟩
  decide +kernel

end Verif.Props
