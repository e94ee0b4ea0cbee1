/-
C63: what upstreams can learn of the client's subnet, over the whole chain.
-/
import Verif.Props.Chain

namespace Verif.Props
open Dns ExpCache StringCache

variable {W V : Type} {E : RegexEngine}

/-- Two resolvers do the same for all requests whose additional section satisfies `X`. -/
def Agree (X : List RR → Prop) (n1 n2 : Request → W → V) : Prop := ∀ r w, X r.req.extra → n1 r w = n2 r w

variable {X : List RR → Prop}

theorem agree_liftUp {u1 u2 : Resolver W} (h : Agree X u1 u2) : Agree X (Chain.liftUp u1) (Chain.liftUp u2) := by
  intro r w hx
  simp [Chain.liftUp, h r w.2 hx]

theorem agree_toM {n1 n2 : Chain.MR W} (h : Agree X n1 n2) : Agree X (Chain.toM n1) (Chain.toM n2) := by
  intro r w hx
  simp [Chain.toM, h r (r.req, w) hx]

theorem agree_ofM {n1 n2 : Cond.MResolver W} (h : Agree X n1 n2) : Agree X (Chain.ofM n1) (Chain.ofM n2) := by
  intro r w hx
  simp [Chain.ofM, h r w.2 hx]

theorem agree_sudn (cfg : Small.SudnCfg) {n1 n2 : Resolver W} (h : Agree X n1 n2) :
    Agree X (Small.sudn cfg n1) (Small.sudn cfg n2) := by
  intro r w hx
  simp [Small.sudn, h r w hx]

theorem get_mapped (zones : List Str) (f : Str → Resolver W) (k : Str) :
    AMap.get (zones.map (fun z => (z, f z))) k = (if k ∈ zones then some k else none).map f := by
  induction zones with
  | nil => rfl
  | cons z zones ih =>
    simp only [List.map_cons, AMap.get, List.mem_cons]
    by_cases hz : z = k
    · subst hz; simp
    · rw [if_neg hz, ih]
      simp [Ne.symm hz]

theorem walk_mapped {α β : Type} (g : Str → Option α) (f : α → β) (n : Nat) (d : Str) :
    walk (fun k => (g k).map f) n d = (walk g n d).map (fun e => (e.1, f e.2)) := by
  induction n generalizing d with
  | zero => rfl
  | succ n ih =>
    unfold walk
    by_cases hd : d.isEmpty
    · simp [hd]
    · simp only [hd, Bool.false_eq_true, if_false]
      cases g d with
      | some v => rfl
      | none =>
        simp only [Option.map_none]
        cases afterDot d with
        | none => rfl
        | some d' => exact ih d'

theorem lookup_mapped (zones : List Str) (f1 f2 : Str → Resolver W) (d : Str) :
    (∃ z, Cond.lookup (zones.map (fun z => (z, f1 z))) d = some (f1 z) ∧ Cond.lookup (zones.map (fun z => (z, f2 z))) d = some (f2 z)) ∨
    (Cond.lookup (zones.map (fun z => (z, f1 z))) d = none ∧ Cond.lookup (zones.map (fun z => (z, f2 z))) d = none) := by
  have hg : ∀ f : Str → Resolver W, AMap.get (zones.map (fun z => (z, f z))) = fun k => (if k ∈ zones then some k else none).map f :=
    fun f => funext (get_mapped zones f)
  unfold Cond.lookup
  split
  · rw [hg, hg, walk_mapped, walk_mapped]
    cases walk (fun k => if k ∈ zones then some k else none) (d.length + 1) d with
    | none => exact .inr ⟨rfl, rfl⟩
    | some e => exact .inl ⟨e.2, rfl, rfl⟩
  · rw [hg, hg]
    simp only
    split
    · exact .inl ⟨_, rfl, rfl⟩
    · exact .inr ⟨rfl, rfl⟩

theorem agree_conditional (zones : List Str) {f1 f2 : Str → Resolver W} (hf : ∀ z, Agree X (f1 z) (f2 z))
    {n1 n2 : Cond.MResolver W} (h : Agree X n1 n2) :
    Agree X (Cond.conditional (zones.map (fun z => (z, f1 z))) n1) (Cond.conditional (zones.map (fun z => (z, f2 z))) n2) := by
  intro r w hx
  unfold Cond.conditional
  simp only [List.length_map]
  split
  · split
    · rfl
    · rename_i q _ _
      rcases lookup_mapped zones f1 f2 (extractDomain q.name) with ⟨z, h1, h2⟩ | ⟨h1, h2⟩
      · rw [h1, h2]
        simp only [Cond.internalResolve]
        rw [hf z { r with req := { r.req with question := Cond.setName (fqdn (extractDomain q.name)) r.req.question } } w hx]
      · rw [h1, h2]
        exact h r w hx
  · exact h r w hx

/-- The message afterwards still satisfies `X`. -/
def KeepsX (X : List RR → Prop) (n : Cond.MResolver W) : Prop := ∀ r w, X r.req.extra → X (n r w).2.1.extra

theorem agree_rewriter (fallback : Bool) (order : Nat → List (Str × Str)) {i1 i2 n1 n2 : Cond.MResolver W}
    (hi : Agree X i1 i2) (hk : KeepsX X i1) (hn : Agree X n1 n2) :
    Agree X (Cond.rewriter fallback order i1 n1) (Cond.rewriter fallback order i2 n2) := by
  intro r w hx
  unfold Cond.rewriter
  simp only
  generalize Cond.rewriteQuestions order 0 r.req.question [] = y
  obtain ⟨questions, rewritten, names⟩ := y
  simp only
  have hr : X (if rewritten then { r with req := { r.req with question := questions } } else r).req.extra := by
    split <;> exact hx
  generalize (if rewritten then { r with req := { r.req with question := questions } } else r) = r' at hr
  rw [← hi r' w hr]
  have hm := hk r' w hr
  revert hm
  generalize i1 r' w = z
  obtain ⟨o, msg, w'⟩ := z
  intro hm
  have ho : X (if rewritten then r.req else msg).extra := by
    split
    · exact hx
    · exact hm
  have hnx := hn { r with req := if rewritten then r.req else msg } w' ho
  cases o with
  | panic => rfl
  | err e => simp only [hnx]
  | noResponse => exact hnx
  | ok y => simp only [hnx]

theorem agree_newRewriter (cfg : Cond.RewriteCfg) (order : Nat → List (Str × Str)) {i1 i2 : Cond.MResolver W → Cond.MResolver W}
    {n1 n2 : Cond.MResolver W} (hi : ∀ m1 m2, Agree X m1 m2 → Agree X (i1 m1) (i2 m2))
    (hk : KeepsX X (i1 (fun request w => (.noResponse, request.req, w)))) (hn : Agree X n1 n2) :
    Agree X (Cond.newRewriter cfg order i1 n1) (Cond.newRewriter cfg order i2 n2) := by
  unfold Cond.newRewriter
  split
  · exact hi _ _ hn
  · exact agree_rewriter _ _ (hi _ _ (fun _ _ _ => rfl)) hk hn

theorem keeps_conditional (mapping : AMap Str (Resolver W)) {n : Cond.MResolver W} (h : KeepsX X n) :
    KeepsX X (Cond.conditional mapping n) := by
  intro r w hx
  unfold Cond.conditional
  split
  · split
    · exact hx
    · split
      · unfold Cond.internalResolve
        simp only
        split <;> exact hx
      · exact h r w hx
  · exact h r w hx

theorem agree_caching (env : Caching.Env) (cfg : Caching.Cfg) {n1 n2 : Chain.MR W} (h : Agree X n1 n2) :
    Agree X (Chain.caching env cfg n1) (Chain.caching env cfg n2) := by
  intro r w hx
  have hloop : ∀ qs last s (w : Msg × W), Caching.resolveLoop env cfg n1 r qs last s w = Caching.resolveLoop env cfg n2 r qs last s w := by
    intro qs
    induction qs with
    | nil => intros; rfl
    | cons q qs ih =>
      intro last s w
      unfold Caching.resolveLoop
      simp only [h r w hx, ih]
  unfold Chain.caching Caching.resolve
  simp only [h r _ hx, hloop]

theorem agree_blocking (env : Blocking.Env) (b : Blocking.BState E) {n1 n2 : Resolver W} (h : Agree X n1 n2) :
    Agree X (Blocking.resolve env b n1) (Blocking.resolve env b n2) := by
  intro r w hx
  unfold Blocking.resolve Blocking.askNext
  simp only [h r w hx]

theorem agree_hosts (enabled : Bool) (cfg : HostsFile.Cfg) (hs : HostsFile.Hosts) (o4 o6 : List (Str × (IP × List Str)))
    {n1 n2 : Resolver W} (h : Agree X n1 n2) :
    Agree X (HostsFile.resolve enabled cfg hs o4 o6 n1) (HostsFile.resolve enabled cfg hs o4 o6 n2) := by
  intro r w hx
  unfold HostsFile.resolve
  simp only [h r w hx]

theorem agree_processRequest (hX : X []) (env : CustomDns.Env) (mapping : CustomDns.Mapping) {n1 n2 : Resolver W}
    (h : Agree X n1 n2) (depth : Nat) (r : Request) (resolved : List Str) (w : W) (hx : X r.req.extra) :
    CustomDns.processRequest env mapping n1 depth r resolved w = CustomDns.processRequest env mapping n2 depth r resolved w := by
  induction depth generalizing r resolved w with
  | zero => rfl
  | succ depth ih =>
    have hent : ∀ q es acc w, CustomDns.processEntries env (CustomDns.processRequest env mapping n1 depth) r resolved q es acc w =
        CustomDns.processEntries env (CustomDns.processRequest env mapping n2 depth) r resolved q es acc w := by
      intro q es
      induction es with
      | nil => intros; rfl
      | cons e es ihe =>
        intro acc w
        have he : CustomDns.processEntry env (CustomDns.processRequest env mapping n1 depth) r resolved q e w =
            CustomDns.processEntry env (CustomDns.processRequest env mapping n2 depth) r resolved q e w := by
          unfold CustomDns.processEntry CustomDns.processCNAME
          cases e.data <;> try rfl
          rename_i t
          simp only
          rw [ih (CustomDns.targetRequest env r (trimSuffixDot t) q.qtype (resolved ++ [trimSuffixDot t])) _ w hX]
        unfold CustomDns.processEntries
        rw [he]
        simp only [ihe]
    unfold CustomDns.processRequest
    simp only [hent, h r _ hx]

theorem agree_customDns (hX : X []) (env : CustomDns.Env) (mapping : CustomDns.Mapping) (reverse : AMap Str (List Str))
    (depth : Nat) {n1 n2 : Chain.MR W} (h : Agree X n1 n2) :
    Agree X (Chain.customDns env mapping reverse depth n1) (Chain.customDns env mapping reverse depth n2) := by
  intro r w hx
  unfold Chain.customDns CustomDns.resolve
  have ha : Agree X
      (fun (r : Request) (w : Msg × W) => if r.internal then ((n1 r (r.req, w.2)).1, (w.1, (n1 r (r.req, w.2)).2.2)) else n1 r w)
      (fun (r : Request) (w : Msg × W) => if r.internal then ((n2 r (r.req, w.2)).1, (w.1, (n2 r (r.req, w.2)).2.2)) else n2 r w) := by
    intro r w hx
    simp only [h r _ hx]
  simp only [agree_processRequest hX env mapping ha depth r [] w hx]

/-- A property of the world that no call breaks. -/
theorem processRequest_keeps (Y : Request → Prop) (I : W → Prop) (env : CustomDns.Env) (mapping : CustomDns.Mapping) {n : Resolver W}
    (hY : ∀ r t qt cs, Y (CustomDns.targetRequest env r t qt cs)) (hn : ∀ r w, Y r → I w → I (n r w).2) (depth : Nat)
    (r : Request) (resolved : List Str) (w : W) (hx : Y r) (hw : I w) (x : Outcome × W) (h : CustomDns.processRequest env mapping n depth r resolved w = some x) : I x.2 := by
  induction depth generalizing r resolved w x with
  | zero => cases h
  | succ depth ih =>
    have hent : ∀ q es acc w y, I w → CustomDns.processEntries env (CustomDns.processRequest env mapping n depth) r resolved q es acc w = some y → I y.2 := by
      intro q es
      induction es with
      | nil => intro acc w y hw h; cases h; exact hw
      | cons e es ihe =>
        intro acc w y hw h
        have he : ∀ z, CustomDns.processEntry env (CustomDns.processRequest env mapping n depth) r resolved q e w = some z → I z.2 := by
          intro z hz
          unfold CustomDns.processEntry at hz
          split at hz
          · cases hz; exact hw
          · cases hz; exact hw
          · unfold CustomDns.processCNAME at hz
            simp only at hz
            split at hz
            · cases hz; exact hw
            · split at hz
              · cases hz; exact hw
              · split at hz
                · cases hz
                all_goals
                  rename_i hp
                  cases hz
                  exact ih _ _ _ (hY _ _ _ _) hw _ hp
          · split at hz
            · cases hz; exact hw
            · cases hz; exact hw
        unfold CustomDns.processEntries at h
        split at h
        · cases h
        · rename_i rrs w' hz
          exact ihe _ _ _ (he _ hz) h
        · rename_i x' w' _ hz
          cases h
          exact he _ hz
    unfold CustomDns.processRequest at h
    split at h
    · cases h; exact hw
    · split at h
      · cases h; exact hn r w hx hw
      · split at h
        · cases h
        · rename_i hz; cases h; exact hent _ _ _ _ _ hw hz
        · rename_i hz; cases h; exact hent _ _ _ _ _ hw hz
        · rename_i hz
          have := hent _ _ _ _ _ hw hz
          split at h
          · cases h; exact this
          · split at h
            · cases h; exact hn r _ hx this
            · cases h; exact this

theorem keeps_customDns (hX : X []) (env : CustomDns.Env) (mapping : CustomDns.Mapping) (reverse : AMap Str (List Str))
    (depth : Nat) {n : Cond.MResolver W} (h : KeepsX X n) :
    KeepsX X (Chain.toM (Chain.customDns env mapping reverse depth (Chain.ofM n))) := by
  intro r w hx
  unfold Chain.toM Chain.customDns CustomDns.resolve
  simp only
  have key : ∀ x, CustomDns.processRequest env mapping
      (fun (r : Request) (w : Msg × W) => if r.internal then ((Chain.ofM n r (r.req, w.2)).1, (w.1, (Chain.ofM n r (r.req, w.2)).2.2)) else Chain.ofM n r w)
      depth r [] (r.req, w) = some x → X x.2.1.extra := by
    intro x hx'
    refine processRequest_keeps (fun r => X r.req.extra) (fun w => X w.1.extra) env mapping (fun _ _ _ _ => hX) ?_ depth r [] (r.req, w) hx hx x hx'
    intro r w hx hw
    split
    · exact hw
    · exact h r w.2 hx
  cases r.req.question with
  | nil => exact hx
  | cons q qs =>
    simp only
    cases CustomDns.handleReverse env reverse r q with
    | some y => exact hx
    | none =>
      simp only
      revert key
      generalize CustomDns.processRequest env mapping _ depth r [] (r.req, w) = z
      intro key
      cases z with
      | none => exact hx
      | some x => exact key x rfl

theorem agree_queryLog (cfg : QueryLog.Cfg) (env : QueryLog.Env) (start d : Int) {n1 n2 : Chain.MR W} (h : Agree X n1 n2) :
    Agree X (Chain.queryLog cfg env start d n1) (Chain.queryLog cfg env start d n2) := by
  refine agree_ofM ?_
  intro r w hx
  unfold QueryLog.resolve
  rw [agree_toM h r w.2 hx]

theorem agree_metrics (b : Bool) {n1 n2 : Chain.MR W} (h : Agree X n1 n2) : Agree X (Chain.metrics b n1) (Chain.metrics b n2) := by
  intro r w hx
  unfold Chain.metrics
  rw [h r w hx]

theorem agree_ede (b : Bool) {n1 n2 : Resolver W} (h : Agree X n1 n2) : Agree X (Small.ede b n1) (Small.ede b n2) := by
  intro r w hx
  unfold Small.ede
  rw [h r w hx]

/-- The configuration with other conditional upstreams. -/
def withZones (c : Chain.Config E W) (zones : List Str) (f : Str → Resolver W) : Chain.Config E W :=
  { c with condMapping := zones.map (fun z => (z, f z)) }

theorem agree_observed (hX : X []) (c : Chain.Config E W) (zones : List Str) {f1 f2 : Str → Resolver W}
    (hf : ∀ z, Agree X (f1 z) (f2 z)) {u1 u2 : Resolver W} (hu : Agree X u1 u2) :
    Agree X (Chain.observed (withZones c zones f1) u1) (Chain.observed (withZones c zones f2) u2) := by
  have ht : Agree X (Chain.tail (withZones c zones f1) u1) (Chain.tail (withZones c zones f2) u2) := agree_sudn _ (agree_liftUp hu)
  have hc : Agree X (Chain.cond (withZones c zones f1) u1) (Chain.cond (withZones c zones f2) u2) :=
    agree_ofM (agree_newRewriter _ _ (fun _ _ h => agree_conditional zones hf h)
      (keeps_conditional _ (fun _ _ h => h)) (agree_toM ht))
  have hb : Agree X (Chain.block (withZones c zones f1) u1) (Chain.block (withZones c zones f2) u2) :=
    agree_blocking _ _ (agree_caching _ _ hc)
  have hl : Agree X (Chain.local (withZones c zones f1) u1) (Chain.local (withZones c zones f2) u2) :=
    agree_ofM (agree_newRewriter _ _ (fun _ _ h => agree_toM (agree_customDns hX _ _ _ _ (agree_ofM h)))
      (keeps_customDns hX _ _ _ _ (fun _ _ h => h)) (agree_toM (agree_hosts _ _ _ _ _ hb)))
  exact agree_ede _ (agree_queryLog _ _ _ _ (agree_metrics _ hl))

theorem filtering_congr (types : List Nat) {n1 n2 : Resolver W} {r : Request} {w : W} (h : n1 r w = n2 r w) :
    Small.filtering types n1 r w = Small.filtering types n2 r w := by
  simp only [Small.filtering, h]

theorem fqdnOnly_congr (b : Bool) {n1 n2 : Resolver W} {r : Request} {w : W} (h : n1 r w = n2 r w) :
    Small.fqdnOnly b n1 r w = Small.fqdnOnly b n2 r w := by
  simp only [Small.fqdnOnly, h]

/-- If the request behind the client-subnet resolver has property `X`, then upstreams and conditional upstreams
are only ever asked with messages of property `X`: replacing them by others that differ on other messages
changes nothing. -/
theorem whole_agree (hX : X []) (c : Chain.Config E W) (zones : List Str) {f1 f2 : Str → Resolver W}
    (hf : ∀ z, Agree X (f1 z) (f2 z)) {u1 u2 : Resolver W} (hu : Agree X u1 u2) (request : Request)
    (ht : ∀ r, Ecs.transform c.ecs request = some r → X r.req.extra) (w : Msg × Chain.World W) :
    Chain.whole (withZones c zones f1) u1 request w = Chain.whole (withZones c zones f2) u2 request w := by
  have hecs : ∀ w, Chain.ecs c.ecs (Chain.clientNames c.names (c.namesLookup.map Chain.liftLookup) (Chain.observed (withZones c zones f1) u1)) request w =
      Chain.ecs c.ecs (Chain.clientNames c.names (c.namesLookup.map Chain.liftLookup) (Chain.observed (withZones c zones f2) u2)) request w := by
    intro w
    unfold Chain.ecs
    cases h : Ecs.transform c.ecs request with
    | none => rfl
    | some r =>
      simp only
      unfold Chain.clientNames
      have hr := withNames_req c.names (c.namesLookup.map Chain.liftLookup) r w.2.1 w.2.2
      revert hr
      generalize ClientNames.withNames c.names (c.namesLookup.map Chain.liftLookup) r w.2.1 w.2.2 = y
      obtain ⟨r', cn', w'⟩ := y
      intro hr
      simp only at hr ⊢
      rw [agree_observed hX c zones hf hu r' _ (by rw [hr]; exact ht r h)]
  exact filtering_congr _ (fqdnOnly_congr _ (hecs w))

/-- The client's subnet option of a message, if any, is `o`. -/
def OnlySubnet (o : Option EOption) (extra : List RR) : Prop :=
  ∀ r ∈ extra, ∀ os, r.data = .opt os → ∀ x ∈ os, x.code = 8 → some x = o

theorem serve_agree (senv : Server.Env) {c1 c2 : Chain.Config E W} {u1 u2 : Resolver W} (remote : Server.Addr) (sni : Option Str)
    (msg : Msg) (h : ∀ w, Chain.whole c1 u1 (Server.newRequestFromDNS remote sni msg) w = Chain.whole c2 u2 (Server.newRequestFromDNS remote sni msg) w)
    (w : Chain.World W) : Chain.serve senv c1 u1 remote sni msg w = Chain.serve senv c2 u2 remote sni msg w := by
  unfold Chain.serve Server.onRequest Server.handleReq Server.resolve
  have ht : Chain.toM (Chain.whole c1 u1) (Server.newRequestFromDNS remote sni msg) w =
      Chain.toM (Chain.whole c2 u2) (Server.newRequestFromDNS remote sni msg) w := by
    unfold Chain.toM
    rw [h]
  rw [ht]

/-- **C63, subnets removed.** The client-subnet resolver is on, does not forward and has no prefix lengths: for an
ordinary message nothing depends on what upstreams or conditional upstreams would do for messages with a subnet
option, so they are never asked with one. (`u1`, `u2` and `f1`, `f2` are arbitrary upstreams that agree on messages
without subnet option; everything the server does is the same with both.) -/
theorem C63_subnet_removed (senv : Server.Env) (c : Chain.Config E W) (he : c.ecs.isEnabled = true) (hf : c.ecs.forward = false)
    (h4 : c.ecs.ipv4Mask = 0) (h6 : c.ecs.ipv6Mask = 0) (zones : List Str) (f1 f2 : Str → Resolver W) (u1 u2 : Resolver W)
    (hz : ∀ z r w, OnlySubnet none r.req.extra → f1 z r w = f2 z r w) (hu : ∀ r w, OnlySubnet none r.req.extra → u1 r w = u2 r w)
    (remote : Server.Addr) (sni : Option Str) (msg : Msg) (hone : OneSubnet msg) (w : Chain.World W) :
    Chain.serve senv (withZones c zones f1) u1 remote sni msg w = Chain.serve senv (withZones c zones f2) u2 remote sni msg w := by
  refine serve_agree senv remote sni msg (fun w => whole_agree (X := OnlySubnet none) (by intro r hr; cases hr) c zones
    (fun z => hz z) hu _ ?_ w) w
  intro r hr
  obtain ⟨r', hr', hc⟩ := C28_no_masks_partial c.ecs he hf h4 h6 (Server.newRequestFromDNS remote sni msg) hone
  rw [hr'] at hr
  cases hr
  intro rr hrr os hos x hx h8
  exact absurd h8 (hc x ⟨rr, hrr, os, hos, hx⟩)

theorem prefix_unique {n : Nat} {p p' a : IP} (h : IsPrefixOf n p a) (h' : IsPrefixOf n p' a) : p = p' := by
  cases a with
  | v4 a =>
    cases p with
    | v6 _ => exact absurd h (by simp [IsPrefixOf])
    | v4 p =>
      cases p' with
      | v6 _ => exact absurd h' (by simp [IsPrefixOf])
      | v4 p' =>
        refine congrArg IP.v4 (BitVec.eq_of_getMsbD_eq ?_)
        intro i hi
        rw [h.2 i hi, h'.2 i hi]
  | v6 a =>
    cases p with
    | v4 _ => exact absurd h (by simp [IsPrefixOf])
    | v6 p =>
      cases p' with
      | v4 _ => exact absurd h' (by simp [IsPrefixOf])
      | v6 p' =>
        refine congrArg IP.v6 (BitVec.eq_of_getMsbD_eq ?_)
        intro i hi
        rw [h.2 i hi, h'.2 i hi]

/-- **C63, subnets cut.** Not forwarding, and a prefix length is configured for the family of the client's address:
upstreams are only ever asked with that prefix of the address, whatever the client sent. -/
theorem C63_subnet_cut (senv : Server.Env) (c : Chain.Config E W) (hf : c.ecs.forward = false) (hu : c.ecs.useAsClient = false)
    (h4 : c.ecs.ipv4Mask ≤ 32) (h6 : c.ecs.ipv6Mask ≤ 128) (zones : List Str) (f1 f2 : Str → Resolver W) (u1 u2 : Resolver W)
    (remote : Server.Addr) (ip p : IP) (hip : (Server.resolveClientIPAndProtocol remote).1 = some ip) (hmask : 0 < maskFor c.ecs ip)
    (hp : IsPrefixOf (maskFor c.ecs ip) p ip)
    (hfz : ∀ z r w, OnlySubnet (some (.subnet (familyOf ip) (maskFor c.ecs ip) 0 (some p))) r.req.extra → f1 z r w = f2 z r w)
    (hup : ∀ r w, OnlySubnet (some (.subnet (familyOf ip) (maskFor c.ecs ip) 0 (some p))) r.req.extra → u1 r w = u2 r w)
    (sni : Option Str) (msg : Msg) (hone : optCount msg.extra ≤ 1) (w : Chain.World W) :
    Chain.serve senv (withZones c zones f1) u1 remote sni msg w = Chain.serve senv (withZones c zones f2) u2 remote sni msg w := by
  refine serve_agree senv remote sni msg (fun w => whole_agree (X := OnlySubnet (some (.subnet (familyOf ip) (maskFor c.ecs ip) 0 (some p))))
    (by intro r hr; cases hr) c zones (fun z => hfz z) hup _ ?_ w) w
  intro r hr
  have hcl : Ecs.effectiveClient c.ecs (getEdns0Option (Server.newRequestFromDNS remote sni msg).req 8)
      (Server.newRequestFromDNS remote sni msg).clientIP = some ip := by
    unfold Ecs.effectiveClient
    split <;> simp [hu, Server.newRequestFromDNS, hip]
  obtain ⟨r', hr', _, p', hp', hc⟩ := C28_masked_partial c.ecs hf h4 h6 (Server.newRequestFromDNS remote sni msg) hone ip hcl hmask
  rw [hr'] at hr
  cases hr
  have hpp : p' = p := prefix_unique hp' hp
  subst hpp
  intro rr hrr os hos x hx h8
  exact congrArg some (hc.2 x ⟨rr, hrr, os, hos, hx⟩ h8)

/-- An upstream that would crash if it were asked with another subnet option than the given one. -/
def suspicious (o : Option EOption) : Resolver Nat := fun request n =>
  if request.req.extra.any (fun r => match r.data with
      | .opt os => os.any (fun x => x.code == 8 && some x != o)
      | _ => false) then (.panic, n) else countingUp request n

theorem suspicious_agrees (o : Option EOption) (r : Request) (w : Nat) (h : OnlySubnet o r.req.extra) :
    countingUp r w = suspicious o r w := by
  unfold suspicious
  rw [if_neg]
  simp only [Bool.not_eq_true, List.any_eq_false]
  intro rr hrr
  cases hd : rr.data with
  | opt os =>
    simp only [List.any_eq_false, Bool.and_eq_true, beq_iff_eq, bne_iff_ne]
    rintro x hx ⟨h8, hne⟩
    exact hne (h rr hrr os hd x hx h8)
  | _ => simp

/-- The sample server is asked by 10.1.2.3 with a made-up subnet: the upstream only sees 10.1.2.0/24. -/
example (w : Chain.World Nat) :
    Chain.serve sampleServer (withZones sampleConfig [str! "lan"] (fun _ => countingUp)) countingUp
      (.udp (some (.v4 0x0a010203#32))) none { query (str! "www.org.") with extra := [freshOpt [sampleSubnet 0x01020304#32]] } w =
    Chain.serve sampleServer (withZones sampleConfig [str! "lan"] (fun _ => suspicious (some (.subnet 1 24 0 (some (.v4 0x0a010200#32))))))
      (suspicious (some (.subnet 1 24 0 (some (.v4 0x0a010200#32)))))
      (.udp (some (.v4 0x0a010203#32))) none { query (str! "www.org.") with extra := [freshOpt [sampleSubnet 0x01020304#32]] } w :=
  C63_subnet_cut sampleServer sampleConfig rfl rfl (by decide) (by decide) _ _ _ _ _ _ (.v4 0x0a010203#32) (.v4 0x0a010200#32) rfl
    (by decide) ⟨by decide, by decide⟩ (fun _ => suspicious_agrees _) (suspicious_agrees _) none _ (by decide) w

-- not vacuous: without the client-subnet resolver the suspicious upstream does crash
example : (Chain.serve sampleServer { sampleConfig with ecs := {} } (suspicious none) (.udp (some (.v4 0x0a010203#32))) none
      { query (str! "www.org.") with extra := [freshOpt [sampleSubnet 0x01020304#32]] } sampleWorld).1.map Msg.rcode = [rcodeServFail] := by
  decide +kernel

end Verif.Props
