/-
C118: what is configured for some names does not change anything for other names.
-/
import Verif.Props.Privacy
import Verif.Props.Survival

namespace Verif.Props
open Verif.Dns Verif.ExpCache Verif.StringCache Verif.Spec

variable {E : RegexEngine} {W : Type} {V : Type}

/-- The name is not one of the zones and in none of them; and has a dot if "." - the entry of conditional forwarding for names
without dot - is one of them. -/
def Outside (zones : List Str) (name : Str) : Prop :=
  (∀ z ∈ zones, ¬ InZone (extractDomain name) z) ∧ (str! "." ∈ zones → '.' ∈ extractDomain name)

/-- Rules for rewriting that lead no name from outside into the zones. -/
def LeadOutside (zones : List Str) (order : Nat → List (Str × Str)) : Prop :=
  ∀ i n, Outside zones n → Cond.rewriteDomain (order i) (extractDomain n) ≠ extractDomain n →
    Outside zones (fqdn (Cond.rewriteDomain (order i) (extractDomain n)))

/-- The two configurations have different custom DNS entries, hosts and conditional upstreams for the given zones only. Rewriting
and aliases that are the same in both do not lead into these zones. (`customDepth` is the bound on the recursion of
`C31_terminates`, large enough for both.) -/
structure OnlyFor (zones : List Str) (c c' : Chain.Config E W) : Prop where
  rest : c' = { c with customMapping := c'.customMapping, customReverse := c'.customReverse, hosts := c'.hosts,
                       hostsOrder4 := c'.hostsOrder4, hostsOrder6 := c'.hostsOrder6, condMapping := c'.condMapping }
  custom : ∀ z, z ∉ zones → AMap.get c.customMapping z = AMap.get c'.customMapping z
  hosts : ∀ z, z ∉ zones → ∀ t, c.hosts.getIP t z = c'.hosts.getIP t z
  cond : ∀ z, z ∉ zones → AMap.get c.condMapping z = AMap.get c'.condMapping z
  aliases : ∀ z es, z ∉ zones → AMap.get c.customMapping z = some es → ∀ e ∈ es, ∀ t, e.data = .cname t →
    Outside zones (fqdn (trimSuffixDot t))
  customRules : c.customRewrite.rewrite.length ≠ 0 → LeadOutside zones c.customOrder
  condRules : c.condRewrite.rewrite.length ≠ 0 → LeadOutside zones c.condOrder

/-- A message that asks for a name outside, and not for a name of an address. -/
def AsksOutside (zones : List Str) (m : Msg) : Prop :=
  ∃ q qs, m.question = q :: qs ∧ q.qtype ≠ 12 ∧ Outside zones q.name

theorem walk_outside {A : Type} {f f' : Str → Option A} (n : Nat) : ∀ d : Str, (∀ z, InZone d z → f z = f' z) → walk f n d = walk f' n d := by
  induction n with
  | zero => intro d _; rfl
  | succ n ih =>
    intro d h
    unfold walk
    split
    · rfl
    · rw [h d (.inl rfl)]
      split
      · rfl
      · cases ha : afterDot d with
        | none => rfl
        | some d' => exact ih d' (fun z hz => h z ((inZone_iff d z).2 (.inr ⟨d', ha, hz⟩)))

/-- The same results for all requests about names outside. -/
def SameOn (zones : List Str) (n n' : Dns.Resolver V) : Prop := ∀ r v, AsksOutside zones r.req → n r v = n' r v

/-- The same for resolvers that give the message back. -/
def SameOnM (zones : List Str) (n n' : Cond.MResolver W) : Prop := ∀ r w, AsksOutside zones r.req → n r w = n' r w

variable {zones : List Str}

theorem sameOn_toM {n n' : Chain.MR W} (h : SameOn zones n n') : SameOnM zones (Chain.toM n) (Chain.toM n') := by
  intro r w hr
  unfold Chain.toM
  rw [h r _ hr]

theorem sameOn_ofM {n n' : Cond.MResolver W} (h : SameOnM zones n n') : SameOn zones (Chain.ofM n) (Chain.ofM n') := by
  intro r w hr
  unfold Chain.ofM
  rw [h r _ hr]

theorem sameOn_hosts (b : Bool) (cfg : HostsFile.Cfg) {h h' : HostsFile.Hosts} (o4 o6 o4' o6' : List (Str × (IP × List Str)))
    (hh : ∀ z, z ∉ zones → ∀ t, h.getIP t z = h'.getIP t z) {n n' : Dns.Resolver V} (hn : SameOn zones n n') :
    SameOn zones (HostsFile.resolve b cfg h o4 o6 n) (HostsFile.resolve b cfg h' o4' o6' n') := by
  intro r v hr
  unfold HostsFile.resolve
  split
  · exact hn r v hr
  · obtain ⟨q, qs, hq, ht, ho, _⟩ := hr
    rw [hq]
    simp only
    have hrev : ∀ a b, HostsFile.handleReverse cfg a b r q = none := by
      intro a b
      unfold HostsFile.handleReverse
      rw [if_pos (by simpa [typePTR] using ht)]
    rw [hrev, hrev]
    simp only
    rw [hh (extractDomain q.name) (fun hz => ho _ hz (.inl rfl))]
    split
    · rfl
    · exact hn r v ⟨q, qs, hq, ht, ho, by assumption⟩

theorem sameOn_blocking (env : Blocking.Env) (b : Blocking.BState E) {n n' : Dns.Resolver V} (h : SameOn zones n n') :
    SameOn zones (Blocking.resolve env b n) (Blocking.resolve env b n') := by
  intro r v hr
  have ha : ∀ g, Blocking.askNext env b g n r v = Blocking.askNext env b g n' r v := by
    intro g
    unfold Blocking.askNext
    rw [h r v hr]
  unfold Blocking.resolve
  simp only [ha, h r v hr]

theorem sameOn_caching (env : Caching.Env) (cfg : Caching.Cfg) {n n' : Chain.MR W} (h : SameOn zones n n') :
    SameOn zones (Chain.caching env cfg n) (Chain.caching env cfg n') := by
  intro r v hr
  have hl : ∀ qs o s w, Caching.resolveLoop env cfg n r qs o s w = Caching.resolveLoop env cfg n' r qs o s w := by
    intro qs
    induction qs with
    | nil => intro o s w; rfl
    | cons q qs ih =>
      intro o s w
      unfold Caching.resolveLoop
      rw [h r w hr]
      simp only [ih]
  unfold Chain.caching Caching.resolve
  rw [h r _ hr]
  simp only [hl]

theorem sameOn_conditional {m m' : AMap Str (Dns.Resolver W)} (hm : ∀ z, z ∉ zones → AMap.get m z = AMap.get m' z)
    {n n' : Cond.MResolver W} (hn : SameOnM zones n n') : SameOnM zones (Cond.conditional m n) (Cond.conditional m' n') := by
  intro r w hr
  have hr' := hr
  obtain ⟨q, qs, hq, ht, ho, hdot⟩ := hr'
  have hl : Cond.lookup m (extractDomain q.name) = Cond.lookup m' (extractDomain q.name) := by
    unfold Cond.lookup
    split
    · rw [walk_outside _ _ (fun z hz => hm z (fun h => ho z h hz))]
    · rename_i hd
      refine hm _ (fun h => ?_)
      have := hdot h
      rw [List.contains_iff_mem] at hd
      exact hd this
  have hempty : ∀ (m : AMap Str (Dns.Resolver W)) d, ¬ m.length > 0 → Cond.lookup m d = none := by
    intro m d h
    have : m = [] := List.length_eq_zero_iff.1 (by omega)
    subst this
    unfold Cond.lookup
    have hw : ∀ n d, walk (AMap.get ([] : AMap Str (Dns.Resolver W))) n d = none := by
      intro n
      induction n with
      | zero => intro d; rfl
      | succ n ih =>
        intro d
        unfold walk
        split
        · rfl
        · show (match afterDot d with | some d => walk _ n d | none => none) = none
          cases afterDot d with
          | none => rfl
          | some d' => exact ih d'
    rw [hw]
    split <;> rfl
  have key : ∀ (m : AMap Str (Dns.Resolver W)) (n : Cond.MResolver W), Cond.conditional m n r w =
      match Cond.lookup m (extractDomain q.name) with
      | some reso => Cond.internalResolve reso (extractDomain q.name) r w
      | none => n r w := by
    intro m n
    unfold Cond.conditional
    split
    · rw [hq]
      rfl
    · rename_i h
      rw [hempty m _ h]
  rw [key, key, hl, hn r w hr]

theorem rewriteQuestions_first (order : Nat → List (Str × Str)) (i : Nat) (q : Question) (qs : List Question) (names : AMap Str Str) :
    ∃ q' qs', (Cond.rewriteQuestions order i (q :: qs) names).1 = q' :: qs' ∧ q'.qtype = q.qtype ∧
      (q'.name = q.name ∨ Cond.rewriteDomain (order i) (extractDomain q.name) ≠ extractDomain q.name ∧
        q'.name = fqdn (Cond.rewriteDomain (order i) (extractDomain q.name))) := by
  unfold Cond.rewriteQuestions
  simp only
  split
  · rename_i h
    exact ⟨_, _, rfl, rfl, .inr ⟨h, rfl⟩⟩
  · exact ⟨_, _, rfl, rfl, .inl rfl⟩

theorem sameOn_rewriter (fallback : Bool) (order : Nat → List (Str × Str))
    (ho : LeadOutside zones order)
    {i i' n n' : Cond.MResolver W} (hi : SameOnM zones i i')
    (hn : n = n' ∨ (SameOnM zones n n' ∧ ∀ r w, AsksOutside zones r.req → AsksOutside zones (i r w).2.1)) :
    SameOnM zones (Cond.rewriter fallback order i n) (Cond.rewriter fallback order i' n') := by
  intro r w hr
  unfold Cond.rewriter
  have hq : AsksOutside zones { r.req with question := (Cond.rewriteQuestions order 0 r.req.question []).1 } := by
    obtain ⟨q, qs, hq, ht, hout⟩ := hr
    obtain ⟨q', qs', h1, h2, h3⟩ := rewriteQuestions_first order 0 q qs []
    rw [hq]
    refine ⟨q', qs', h1, by rw [h2]; exact ht, ?_⟩
    rcases h3 with h3 | h3
    · rw [h3]; exact hout
    · rw [h3.2]; exact ho 0 q.name hout h3.1
  revert hq
  generalize Cond.rewriteQuestions order 0 r.req.question [] = y
  obtain ⟨questions, rewritten, names⟩ := y
  intro hq
  simp only
  have hreq : AsksOutside zones (if rewritten then { r with req := { r.req with question := questions } } else r).req := by
    cases rewritten
    · exact hr
    · exact hq
  have h1 := hi _ w hreq
  rw [← h1]
  have hkeep : n = n' ∨ (SameOnM zones n n' ∧
      AsksOutside zones (i (if rewritten then { r with req := { r.req with question := questions } } else r) w).2.1) := by
    rcases hn with h | ⟨h2, h3⟩
    · exact .inl h
    · exact .inr ⟨h2, h3 _ w hreq⟩
  revert hkeep
  generalize i (if rewritten then { r with req := { r.req with question := questions } } else r) w = z
  obtain ⟨o, msg, w'⟩ := z
  intro hkeep
  simp only at hkeep ⊢
  have hnext : n { r with req := if rewritten then r.req else msg } w' = n' { r with req := if rewritten then r.req else msg } w' := by
    rcases hkeep with h | ⟨h2, h3⟩
    · rw [h]
    · refine h2 _ _ ?_
      cases rewritten
      · exact h3
      · exact hr
  cases o <;> simp only [hnext]

theorem sameOn_entries (env : CustomDns.Env) {recur recur' : Request → List Str → V → Option (Outcome × V)} (r : Request) (l : List Str)
    (q : Question) (hq : q.qtype ≠ 12)
    (hr : ∀ r l v, AsksOutside zones r.req → recur r l v = recur' r l v) (es : List RR)
    (he : ∀ e ∈ es, ∀ t, e.data = .cname t → Outside zones (fqdn (trimSuffixDot t))) :
    ∀ acc v, CustomDns.processEntries env recur r l q es acc v = CustomDns.processEntries env recur' r l q es acc v := by
  induction es with
  | nil => intro acc v; rfl
  | cons e es ih =>
    intro acc v
    have ih := ih (fun x hx => he x (List.mem_cons_of_mem _ hx))
    have h1 : CustomDns.processEntry env recur r l q e v = CustomDns.processEntry env recur' r l q e v := by
      unfold CustomDns.processEntry
      cases hd : e.data with
      | cname target =>
        simp only
        unfold CustomDns.processCNAME
        rw [hr (CustomDns.targetRequest env r (trimSuffixDot target) q.qtype (l ++ [trimSuffixDot target])) _ _
          ⟨_, [], rfl, hq, he e (List.mem_cons_self ..) target hd⟩]
      | _ => rfl
    rw [CustomDns.processEntries, CustomDns.processEntries, h1]
    simp only [ih]

theorem sameOn_processRequest (env : CustomDns.Env) {m m' : CustomDns.Mapping} (hm : ∀ z, z ∉ zones → AMap.get m z = AMap.get m' z)
    (ha : ∀ z es, z ∉ zones → AMap.get m z = some es → ∀ e ∈ es, ∀ t, e.data = .cname t → Outside zones (fqdn (trimSuffixDot t)))
    {n n' : Dns.Resolver V} (hn : SameOn zones n n') (depth : Nat) : ∀ r l v, AsksOutside zones r.req →
      CustomDns.processRequest env m n depth r l v = CustomDns.processRequest env m' n' depth r l v := by
  induction depth with
  | zero => intro r l v _; rfl
  | succ depth ih =>
    intro r l v hr
    have hr' := hr
    obtain ⟨q, qs, hq, ht, ho, _⟩ := hr'
    rw [CustomDns.processRequest, CustomDns.processRequest, hq]
    simp only
    rw [← walk_outside (f := AMap.get m) (f' := AMap.get m') _ (extractDomain q.name) (fun z hz => hm z (fun h => ho z h hz))]
    cases hw : walk (AMap.get m) ((extractDomain q.name).length + 1) (extractDomain q.name) with
    | none => simp only [hn r v hr]
    | some x =>
      obtain ⟨z, es⟩ := x
      obtain ⟨h1, _, h3, _⟩ := walk_some hw
      simp only
      rw [sameOn_entries env r l q ht ih es (ha z es (fun h => ho z h h1) h3)]
      generalize CustomDns.processEntries env (CustomDns.processRequest env m' n' depth) r l q es [] v = y
      cases y with
      | none => rfl
      | some x =>
        obtain ⟨o, v'⟩ := x
        cases o <;> simp only [hn r v' hr]

theorem sameOn_customDns (env : CustomDns.Env) {m m' : CustomDns.Mapping} (rev rev' : AMap Str (List Str)) (depth : Nat)
    (hm : ∀ z, z ∉ zones → AMap.get m z = AMap.get m' z)
    (ha : ∀ z es, z ∉ zones → AMap.get m z = some es → ∀ e ∈ es, ∀ t, e.data = .cname t → Outside zones (fqdn (trimSuffixDot t)))
    {n n' : Chain.MR V} (hn : SameOn zones n n') :
    SameOn zones (Chain.customDns env m rev depth n) (Chain.customDns env m' rev' depth n') := by
  intro r v hr
  unfold Chain.customDns CustomDns.resolve
  have hr' := hr
  obtain ⟨q, qs, hq, ht, _⟩ := hr'
  rw [hq]
  simp only
  have hrev : ∀ rev, CustomDns.handleReverse env rev r q = none := by
    intro rev
    unfold CustomDns.handleReverse
    rw [if_neg (by simpa [typePTR] using ht)]
  rw [hrev, hrev]
  simp only
  rw [sameOn_processRequest env hm ha (n' := (fun (r : Request) (w : Msg × V) =>
    if r.internal then ((n' r (r.req, w.2)).1, (w.1, (n' r (r.req, w.2)).2.2)) else n' r w)) ?_ depth r [] v hr]
  intro r v hr
  simp only [hn r _ hr]

/-- Custom DNS with nothing behind it leaves the message as it is, or as an alias's. -/
theorem customDns_message (env : CustomDns.Env) (m : CustomDns.Mapping) (rev : AMap Str (List Str)) (depth : Nat) (r : Request) (w : W)
    (hr : AsksOutside zones r.req) :
    AsksOutside zones (Chain.toM (Chain.customDns env m rev depth (Chain.ofM (fun request w => (.noResponse, request.req, w)))) r w).2.1 := by
  unfold Chain.toM Chain.customDns CustomDns.resolve
  simp only
  have key : ∀ x, CustomDns.processRequest env m
      (fun (r : Request) (w : Msg × W) => if r.internal then
        ((Chain.ofM (fun request w => (Outcome.noResponse, request.req, w)) r (r.req, w.2)).1,
          (w.1, (Chain.ofM (fun request w => (Outcome.noResponse, request.req, w)) r (r.req, w.2)).2.2))
        else Chain.ofM (fun request w => (.noResponse, request.req, w)) r w)
      depth r [] (r.req, w) = some x → AsksOutside zones x.2.1 := by
    intro x hx'
    refine processRequest_keeps (fun r => r.internal = true ∨ AsksOutside zones r.req) (fun w => AsksOutside zones w.1) env m
      (fun _ _ _ _ => .inl rfl) ?_ depth r [] (r.req, w) (.inr hr) hr x hx'
    intro r w hx hw
    split
    · exact hw
    · rename_i hi
      rcases hx with hx | hx
      · exact absurd hx hi
      · exact hx
  have hr' := hr
  obtain ⟨q, qs, hq, _⟩ := hr'
  rw [hq]
  simp only
  cases CustomDns.handleReverse env rev r q with
  | some y => exact hr
  | none =>
    simp only
    revert key
    generalize CustomDns.processRequest env m _ depth r [] (r.req, w) = z
    intro key
    cases z with
    | none => exact hr
    | some x => exact key x rfl

theorem sameOn_newRewriter (cfg : Cond.RewriteCfg) (order : Nat → List (Str × Str))
    (ho : cfg.rewrite.length ≠ 0 → LeadOutside zones order)
    {inner inner' : Cond.MResolver W → Cond.MResolver W} (hi : ∀ n n', SameOnM zones n n' → SameOnM zones (inner n) (inner' n'))
    {n n' : Cond.MResolver W} (hn : n = n' ∨ (SameOnM zones n n' ∧ ∀ r w, AsksOutside zones r.req →
      AsksOutside zones (inner (fun request w => (.noResponse, request.req, w)) r w).2.1)) :
    SameOnM zones (Cond.newRewriter cfg order inner n) (Cond.newRewriter cfg order inner' n') := by
  unfold Cond.newRewriter
  split
  · refine hi _ _ ?_
    rcases hn with h | ⟨h, _⟩
    · subst h; exact fun _ _ _ => rfl
    · exact h
  · rename_i h
    exact sameOn_rewriter _ _ (ho h) (hi _ _ (fun _ _ _ => rfl)) hn

theorem OnlyFor.cond_same {c c' : Chain.Config E W} (h : OnlyFor zones c c') (up : Dns.Resolver W) :
    SameOn zones (Chain.cond c up) (Chain.cond c' up) := by
  have hr := h.rest
  have e1 : c'.condRewrite = c.condRewrite := by rw [hr]
  have e2 : c'.condOrder = c.condOrder := by rw [hr]
  have e3 : Chain.tail c' up = Chain.tail c up := by unfold Chain.tail; rw [hr]
  unfold Chain.cond
  rw [e1, e2, e3]
  exact sameOn_ofM (sameOn_newRewriter _ _ h.condRules (fun _ _ hn => sameOn_conditional h.cond hn) (.inl rfl))

theorem OnlyFor.local_same {c c' : Chain.Config E W} (h : OnlyFor zones c c') (up : Dns.Resolver W) :
    SameOn zones (Chain.local c up) (Chain.local c' up) := by
  have hr := h.rest
  have hb : SameOn zones (Chain.block c up) (Chain.block c' up) := by
    have e1 : c'.blockEnv = c.blockEnv := by rw [hr]
    have e2 : c'.blockState = c.blockState := by rw [hr]
    have e3 : c'.cacheEnv = c.cacheEnv := by rw [hr]
    have e4 : c'.cache = c.cache := by rw [hr]
    unfold Chain.block
    rw [e1, e2, e3, e4]
    exact sameOn_blocking _ _ (sameOn_caching _ _ (h.cond_same up))
  have e1 : c'.customRewrite = c.customRewrite := by rw [hr]
  have e2 : c'.customOrder = c.customOrder := by rw [hr]
  have e3 : c'.customEnv = c.customEnv := by rw [hr]
  have e4 : c'.customDepth = c.customDepth := by rw [hr]
  have e5 : c'.hostsEnabled = c.hostsEnabled := by rw [hr]
  have e6 : c'.hostsCfg = c.hostsCfg := by rw [hr]
  unfold Chain.local
  rw [e1, e2, e3, e4, e5, e6]
  refine sameOn_ofM (sameOn_newRewriter _ _ h.customRules (fun n n' hn => ?_) (.inr ⟨?_, ?_⟩))
  · exact sameOn_toM (sameOn_customDns _ _ _ _ h.custom h.aliases (sameOn_ofM hn))
  · exact sameOn_toM (sameOn_hosts _ _ _ _ _ _ h.hosts hb)
  · exact fun r w hx => customDns_message _ _ _ _ r w hx

theorem OnlyFor.whole_same {c c' : Chain.Config E W} (h : OnlyFor zones c c') (up : Dns.Resolver W) :
    SameOn zones (Chain.whole c up) (Chain.whole c' up) := by
  have hr := h.rest
  have ho : SameOn zones (Chain.observed c up) (Chain.observed c' up) := by
    have e1 : c'.ede = c.ede := by rw [hr]
    have e2 : c'.log = c.log := by rw [hr]
    have e3 : c'.logEnv = c.logEnv := by rw [hr]
    have e4 : c'.logStart = c.logStart := by rw [hr]
    have e5 : c'.logDuration = c.logDuration := by rw [hr]
    have e6 : c'.metrics = c.metrics := by rw [hr]
    unfold Chain.observed
    rw [e1, e2, e3, e4, e5, e6]
    have h1 : SameOn zones (Chain.metrics c.metrics (Chain.local c up)) (Chain.metrics c.metrics (Chain.local c' up)) := by
      intro r v hx
      unfold Chain.metrics
      rw [h.local_same up r v hx]
    have h2 : SameOn zones (Chain.queryLog c.log c.logEnv c.logStart c.logDuration (Chain.metrics c.metrics (Chain.local c up)))
        (Chain.queryLog c.log c.logEnv c.logStart c.logDuration (Chain.metrics c.metrics (Chain.local c' up))) := by
      unfold Chain.queryLog
      refine sameOn_ofM ?_
      intro r v hx
      unfold QueryLog.resolve
      rw [sameOn_toM h1 r _ hx]
    intro r v hx
    unfold Small.ede
    rw [h2 r v hx]
  have e1 : c'.filterTypes = c.filterTypes := by rw [hr]
  have e2 : c'.fqdnOnly = c.fqdnOnly := by rw [hr]
  have e3 : c'.ecs = c.ecs := by rw [hr]
  have e4 : c'.names = c.names := by rw [hr]
  have e5 : c'.namesLookup = c.namesLookup := by rw [hr]
  unfold Chain.whole
  rw [e1, e2, e3, e4, e5]
  have h1 : SameOn zones (Chain.clientNames c.names (c.namesLookup.map Chain.liftLookup) (Chain.observed c up))
      (Chain.clientNames c.names (c.namesLookup.map Chain.liftLookup) (Chain.observed c' up)) := by
    intro r v hx
    unfold Chain.clientNames
    have hw : (ClientNames.withNames c.names (c.namesLookup.map Chain.liftLookup) r v.2.1 v.2.2).1.req = r.req := rfl
    revert hw
    generalize ClientNames.withNames c.names (c.namesLookup.map Chain.liftLookup) r v.2.1 v.2.2 = y
    obtain ⟨r', s, w'⟩ := y
    intro hw
    simp only at hw ⊢
    rw [ho r' _ (by rw [hw]; exact hx)]
  have h2 : SameOn zones (Chain.ecs c.ecs (Chain.clientNames c.names (c.namesLookup.map Chain.liftLookup) (Chain.observed c up)))
      (Chain.ecs c.ecs (Chain.clientNames c.names (c.namesLookup.map Chain.liftLookup) (Chain.observed c' up))) := by
    intro r v hx
    unfold Chain.ecs
    cases ht : Ecs.transform c.ecs r with
    | none => rfl
    | some r' =>
      have := (C28_rest_unchanged c.ecs r r' ht).1
      refine h1 r' _ ?_
      obtain ⟨q, qs, hq, hx⟩ := hx
      exact ⟨q, qs, (congrArg Msg.question this).trans hq, hx⟩
  have h3 : ∀ b, SameOn zones (Small.fqdnOnly b (Chain.ecs c.ecs (Chain.clientNames c.names (c.namesLookup.map Chain.liftLookup) (Chain.observed c up))))
      (Small.fqdnOnly b (Chain.ecs c.ecs (Chain.clientNames c.names (c.namesLookup.map Chain.liftLookup) (Chain.observed c' up)))) := by
    intro b r v hx
    unfold Small.fqdnOnly
    rw [h2 r v hx]
  intro r v hx
  unfold Small.filtering
  rw [h3 _ r v hx]

/-- **C118 (configuration, a query).** Custom DNS entries, hosts and conditional upstreams for some zones - added, changed or removed -
change nothing for queries for names outside of these zones (other than reverse lookups): the same answer, the same questions to
upstreams in the same order, the same entry in the query log, the same in the cache. -/
theorem C118_query (senv : Server.Env) {c c' : Chain.Config E W} (h : OnlyFor zones c c') (up : Dns.Resolver W) (remote : Server.Addr)
    (sni : Option Str) (msg : Msg) (hm : AsksOutside zones msg) (w : Chain.World W) :
    Chain.serve senv c up remote sni msg w = Chain.serve senv c' up remote sni msg w := by
  unfold Chain.serve Server.onRequest Server.handleReq Server.resolve
  rw [sameOn_toM (h.whole_same up) (Server.newRequestFromDNS remote sni msg) w hm]

/-- Rules whose targets have nothing to do with the zones lead no name into them. -/
theorem leadOutside_of_targets (order : Nat → List (Str × Str))
    (h : ∀ i, ∀ kv ∈ order i, kv.2 ≠ [] ∧ kv.2.getLast? ≠ some '.' ∧ ∀ z ∈ zones, ¬ InZone (lower kv.2) z ∧ ¬ InZone z (lower kv.2)) :
    LeadOutside zones order := by
  intro i n hn hne
  have hr : ∀ rules : List (Str × Str), ∀ d, Cond.rewriteDomain rules d ≠ d → ∃ kv ∈ rules, ∃ p, Cond.rewriteDomain rules d = p ++ '.' :: kv.2 := by
    intro rules d
    induction rules with
    | nil => intro h; exact absurd rfl h
    | cons kv rules ih =>
      obtain ⟨k, v⟩ := kv
      unfold Cond.rewriteDomain
      cases Cond.cutSuffix d ('.' :: k) with
      | some p => exact fun _ => ⟨(k, v), List.mem_cons_self .., p, rfl⟩
      | none =>
        intro h
        obtain ⟨kv, h1, h2⟩ := ih h
        exact ⟨kv, List.mem_cons_of_mem _ h1, h2⟩
  obtain ⟨kv, hkv, p, hp⟩ := hr _ _ hne
  obtain ⟨h1, h2, h3⟩ := h i kv hkv
  rw [hp]
  have hf : fqdn (p ++ '.' :: kv.2) = (p ++ '.' :: kv.2) ++ ['.'] := by
    unfold fqdn
    rw [if_neg]
    rw [List.getLast?_append, List.getLast?_cons]
    cases hv : kv.2.getLast? with
    | none => exact absurd (List.getLast?_eq_none_iff.1 hv) h1
    | some x =>
      rw [hv] at h2
      simpa using h2
  rw [hf]
  unfold Outside
  rw [extractDomain_fqdn]
  have hl : lower (p ++ '.' :: kv.2) = lower p ++ '.' :: lower kv.2 := by simp [lower, List.map_append]; decide
  rw [hl]
  refine ⟨?_, fun _ => by simp⟩
  intro z hz hin
  obtain ⟨h4, h5⟩ := h3 z hz
  rcases hin with hin | ⟨p2, hin⟩
  · exact h5 (.inr ⟨_, hin.symm⟩)
  · rcases List.append_eq_append_iff.1 hin with ⟨a, ha, hb⟩ | ⟨a, ha, hb⟩
    · cases a with
      | nil => exact h4 (.inl (by simpa using hb))
      | cons x a =>
        simp only [List.cons_append, List.cons.injEq] at hb
        exact h4 (.inr ⟨a, hb.2⟩)
    · cases a with
      | nil => exact h4 (.inl (by simpa using hb.symm))
      | cons x a =>
        simp only [List.cons_append, List.cons.injEq] at hb
        exact h5 (.inr ⟨a, hb.2⟩)

/-- Incidents that concern names outside only. -/
def Elsewhere (zones : List Str) (cache : Caching.Cfg) : Incident → Prop
  | .event (.query _ _ msg) => AsksOutside zones msg
  | .event .cleanUp => cache.prefetching = false
  | _ => True

/-- The messages sent in a history, incident by incident; `none`: the process has ended. -/
def tells (senv : Server.Env) (c : Chain.Config E W) (up : Dns.Resolver W) : List Incident → Chain.World W → List (List Msg) × Option (Chain.World W)
  | [], w => ([], some w)
  | i :: is, w =>
    match befall senv c up w i with
    | (ms, some w') => (ms :: (tells senv c up is w').1, (tells senv c up is w').2)
    | (ms, none) => ([ms], none)

theorem cleanUp_noPrefetch {W : Type} (env : Caching.Env) {cfg : Caching.Cfg} (hp : cfg.prefetching = false) (n n' : Dns.Resolver W)
    (s : Caching.CState) (w : W) : Caching.cleanUpCache env cfg n s w = Caching.cleanUpCache env cfg n' s w := by
  have h : ∀ ks del s w, Caching.reloadLoop env cfg n ks del s w = Caching.reloadLoop env cfg n' ks del s w := by
    intro ks
    induction ks with
    | nil => intro del s w; rfl
    | cons k ks ih =>
      intro del s w
      rw [Caching.reloadLoop, Caching.reloadLoop]
      simp only [Caching.onExpired, hp, Bool.false_eq_true, if_false, ih]
  unfold Caching.cleanUpCache
  rw [h]

/-- **C118 (configuration, histories).** The same for whole histories: whatever happens - queries for names outside, passing time, clean-ups,
messages and entries from redis, flushes -, the two servers send the same messages and stay in the same state. -/
theorem C118_history (senv : Server.Env) {c c' : Chain.Config E W} (h : OnlyFor zones c c') (up : Dns.Resolver W)
    (is : List Incident) (hi : ∀ i ∈ is, Elsewhere zones c.cache i) :
    ∀ w, tells senv c up is w = tells senv c' up is w := by
  induction is with
  | nil => intro w; rfl
  | cons i is ih =>
    intro w
    have ih := ih (fun x hx => hi x (List.mem_cons_of_mem _ hx))
    have hi := hi i (List.mem_cons_self ..)
    have e3 : c'.cacheEnv = c.cacheEnv := by rw [h.rest]
    have e4 : c'.cache = c.cache := by rw [h.rest]
    have hb : befall senv c up w i = befall senv c' up w i := by
      cases i with
      | event e =>
        cases e with
        | query remote sni msg => simp only [befall, happen, C118_query senv h up remote sni msg hi w]
        | pass ms => rfl
        | cleanUp =>
          simp only [befall, happen, e3, e4]
          rw [cleanUp_noPrefetch c.cacheEnv hi (Chain.cond c up) (Chain.cond c' up)]
      | message id m => simp only [befall, e3, e4]
      | load store now later k => simp only [befall, e3, e4]
      | flush => rfl
    rw [tells, tells, hb]
    simp only [ih]

/-! ### Examples -/

theorem inZone_iff_suffix (n z : Str) : InZone n z ↔ n = z ∨ ('.' :: z).isSuffixOf n = true := by
  unfold InZone
  rw [List.isSuffixOf_iff_suffix]
  constructor
  · rintro (h | ⟨p, rfl⟩)
    · exact .inl h
    · exact .inr ⟨p, rfl⟩
  · rintro (h | ⟨p, rfl⟩)
    · exact .inl h
    · exact .inr ⟨p, rfl⟩

instance (n z : Str) : Decidable (InZone n z) := decidable_of_iff _ (inZone_iff_suffix n z).symm

instance (zones : List Str) (name : Str) : Decidable (Outside zones name) := by unfold Outside; exact inferInstance

/-- A server with entries for "home": a custom DNS entry with address 10.0.0.1, an upstream for the zone, a rule for rewriting. -/
def homeConfig : Chain.Config prefixEngine Nat :=
  { sampleConfig with
    ecs := {}
    customMapping := (str! "nas.home", [{ name := [], rtype := typeA, ttl := 60, data := .a (.v4 0x0a000001#32) }]) :: sampleConfig.customMapping
    customReverse := [(str! "1.0.0.10.in-addr.arpa.", [str! "nas.home"])]
    condMapping := (str! "home", countingUp) :: sampleConfig.condMapping }

/-- The same server without entries for "home". -/
def noHomeConfig : Chain.Config prefixEngine Nat := { sampleConfig with ecs := {} }

theorem home_onlyFor : OnlyFor [str! "home", str! "nas.home"] homeConfig noHomeConfig where
  rest := rfl
  custom := by
    intro z hz
    simp only [List.mem_cons, not_or] at hz
    simp only [homeConfig, noHomeConfig]
    rw [AMap.get, if_neg (Ne.symm hz.2.1)]
  hosts := fun _ _ _ => rfl
  cond := by
    intro z hz
    simp only [List.mem_cons, not_or] at hz
    simp only [homeConfig, noHomeConfig]
    rw [AMap.get, if_neg (Ne.symm hz.1)]
  aliases := by
    intro z es hz he e hes t ht
    have : t = str! "host.broken." := by
      simp only [List.mem_cons, not_or] at hz
      simp only [homeConfig] at he
      rw [AMap.get, if_neg (Ne.symm hz.2.1)] at he
      simp only [sampleConfig, AMap.get] at he
      split at he
      · cases he; simp only [List.mem_cons, List.not_mem_nil, or_false] at hes; subst hes; cases ht
      · split at he
        · cases he; simp only [List.mem_cons, List.not_mem_nil, or_false] at hes; subst hes; cases ht
        · split at he
          · cases he; simp only [List.mem_cons, List.not_mem_nil, or_false] at hes; subst hes; cases ht; rfl
          · cases he
    subst this
    decide
  customRules := fun h => absurd rfl h
  condRules := fun _ => leadOutside_of_targets _ (by
    intro i kv hkv
    have : kv = (str! "old", str! "broken") := by simpa [homeConfig, sampleConfig] using hkv
    subst this
    decide)

-- a history with queries for names outside - an alias, a rewritten name, a name resolved and then answered from the cache, one
-- that only looks like the zone
example : ∀ i ∈ [Incident.event (.query (.udp none) none (query (str! "alias.lan."))), .event (.query (.udp none) none (query (str! "host.old."))),
    .event (.query (.udp none) none (query (str! "www.org."))), .event (.pass 1000), .event (.query (.udp none) none (query (str! "www.org."))),
    .event .cleanUp, .event (.query (.udp none) none (query (str! "welcomehome."))), .flush],
    Elsewhere [str! "home", str! "nas.home"] homeConfig.cache i := by
  intro i hi
  simp only [List.mem_cons, List.not_mem_nil, or_false] at hi
  rcases hi with rfl | rfl | rfl | rfl | rfl | rfl | rfl | rfl
  all_goals first | trivial | rfl | exact ⟨_, _, rfl, by decide, by decide⟩

/-- What a server answers, and the number of questions to upstreams. -/
def homeServe (c : Chain.Config prefixEngine Nat) (name : Str) (qtype : Nat := typeA) : List (Nat × Str × Nat × Nat) × Nat :=
  view (Chain.serve sampleServer c countingUp (.udp (some (.v4 1#32))) none (query name qtype) sampleWorld)

-- names inside
example : homeServe homeConfig (str! "nas.home.") = ([(5, str! "nas.home.", 0, 1)], 0) ∧
    homeServe noHomeConfig (str! "nas.home.") = ([(5, str! "nas.home.", 3, 0)], 0) := by decide +kernel

/-- **Reverse lookups are the exception.** The name of the address 10.0.0.1 is outside of "home" but is answered with a name of "home". -/
theorem C118_reverse_differs : Outside [str! "home", str! "nas.home"] (str! "1.0.0.10.in-addr.arpa.") ∧
    homeServe homeConfig (str! "1.0.0.10.in-addr.arpa.") 12 ≠ homeServe noHomeConfig (str! "1.0.0.10.in-addr.arpa.") 12 := by
  decide +kernel

end Verif.Props
