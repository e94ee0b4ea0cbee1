/-
C123: what upstreams learn of the clients' subnets when many queries are handled at the same time.
-/
import Verif.Props.Privacy
import Verif.Props.Answered

namespace Verif.Props
open Verif.Dns Verif.ExpCache Verif.StringCache Verif.Threads Verif.Chain

variable {E : RegexEngine} {X : List RR → Prop}

/-! ### Asking upstreams only with messages of a kind -/

open Classical in
/-- Questions to upstreams, but only with messages whose additional section satisfies `X`. -/
noncomputable def decent (X : List RR → Prop) : Asking := fun z u r v => if X r.req.extra then ask u z r v else (.panic, v)

theorem agree_decent (z : Option Str) (u : Resolver Unit) : Agree X (asking z u) (decent X z u) := by
  intro r v hx
  unfold decent
  rw [if_pos hx]
  rfl

theorem agree_zones {a a' : Asking} (ha : ∀ z u, Agree X (a z u) (a' z u)) (m : AMap Str (Resolver Unit)) {n1 n2 : Cond.MResolver Replay}
    (h : Agree X n1 n2) : Agree X (Cond.conditional (zonesBy a m) n1) (Cond.conditional (zonesBy a' m) n2) := by
  intro r w hx
  unfold Cond.conditional
  have hlen : ∀ a : Asking, (zonesBy a m).length = m.length := fun a => by simp [zonesBy]
  rw [hlen a, hlen a']
  split
  · split
    · rfl
    · rename_i q _ _
      rcases zonesBy_lookup m (extractDomain q.name) with ⟨z, u, h1⟩ | h1
      · rw [h1 a, h1 a']
        simp only [Cond.internalResolve]
        rw [ha (some z) u { r with req := { r.req with question := Cond.setName (fqdn (extractDomain q.name)) r.req.question } } w hx]
      · rw [h1 a, h1 a']
        exact h r w hx
  · exact h r w hx

theorem agree_cachingT (env : Caching.Env) (cfg : Caching.Cfg) {n1 n2 : MR Replay} (h : Agree X n1 n2) :
    Agree X (Threads.caching env cfg n1) (Threads.caching env cfg n2) := by
  intro r w hx
  have hloop : ∀ qs last (w : Msg × Replay), cachingLoop env cfg n1 r qs last w = cachingLoop env cfg n2 r qs last w := by
    intro qs
    induction qs with
    | nil => intros; rfl
    | cons q qs ih =>
      intro last w
      unfold cachingLoop
      simp only [h r _ hx, ih]
  unfold Threads.caching
  simp only [h r _ hx, hloop]

theorem agree_queryLogT (cfg : QueryLog.Cfg) (env : QueryLog.Env) (start d : Int) {n1 n2 : Cond.MResolver Replay} (h : Agree X n1 n2) :
    Agree X (Threads.queryLog cfg env start d n1) (Threads.queryLog cfg env start d n2) := by
  intro r w hx
  unfold Threads.queryLog
  rw [h r w hx]

theorem agree_condBy {a a' : Asking} (ha : ∀ z u, Agree X (a z u) (a' z u)) (c : Config E Unit) (up : Resolver Unit) :
    Agree X (condBy a c up) (condBy a' c up) :=
  agree_ofM (agree_newRewriter _ _ (fun _ _ h => agree_zones ha _ h) (keeps_conditional _ (fun _ _ h => h))
    (agree_toM (agree_sudn _ (agree_liftUp (ha none up)))))

theorem agree_observedBy (hX : X []) {a a' : Asking} (ha : ∀ z u, Agree X (a z u) (a' z u)) (c : Config E Unit) (up : Resolver Unit) :
    Agree X (observedBy a c up) (observedBy a' c up) :=
  agree_ede _ (agree_ofM (agree_queryLogT _ _ _ _ (agree_toM (agree_metrics _
    (agree_ofM (agree_newRewriter _ _ (fun _ _ h => agree_toM (agree_customDns hX _ _ _ _ (agree_ofM h)))
      (keeps_customDns hX _ _ _ _ (fun _ _ h => h))
      (agree_toM (agree_hosts _ _ _ _ _ (agree_blocking _ _ (agree_cachingT _ _ (agree_condBy ha c up)))))))))))

theorem wholeBy_agree (hX : X []) {a a' : Asking} (ha : ∀ z u, Agree X (a z u) (a' z u)) (c : Config E Unit) (up : Resolver Unit)
    (request : Request) (ht : ∀ r, Ecs.transform c.ecs request = some r → X r.req.extra) (w : Msg × Replay) :
    wholeBy a c up request w = wholeBy a' c up request w := by
  refine filtering_congr _ (fqdnOnly_congr _ ?_)
  unfold Chain.ecs
  cases h : Ecs.transform c.ecs request with
  | none => rfl
  | some r =>
    simp only
    unfold Threads.clientNames
    exact agree_observedBy hX ha c up _ _ (ht r h)

/-! ### The step that comes next -/

/-- The step is no question to upstreams but with messages of that kind. -/
def DecentStep (X : List RR → Prop) (op : Option Threads.Op) : Prop := ∀ z r, op = some (.ask z r) → X r.req.extra

/-- Runs that come to such steps only. -/
def decentLogic (X : List RR → Prop) : Logic Replay Replay where
  rel f _ := ∀ (m : Msg) (v : Replay), DecentStep X v.wish → DecentStep X (f (m, v)).2.2.wish
  pure _ _ := fun _ _ h => h
  bind h hk := fun m v hv => hk _ _ _ (h m v hv)

theorem decent_wait (v : Replay) (op : Threads.Op) (hop : DecentStep X (some op)) (h : DecentStep X v.wish) : DecentStep X (v.wait op).wish := by
  unfold Replay.wait
  cases hv : v.wish with
  | none => exact hop
  | some x => rw [hv] at h; exact h

theorem decent_ops : OpsOk (decentLogic X) (decent X) (decent X) where
  find k := fun m v h => by
    simp only [find]; split <;> (try split) <;> first | exact h | exact decent_wait v _ (fun _ _ e => nomatch e) h
  keep k m ttl := fun _ v h => by
    simp only [keep]; split <;> first | exact h | exact decent_wait v _ (fun _ _ e => nomatch e) h
  findNames k := fun m v h => by
    simp only [findNames]; split <;> (try split) <;> first | exact h | exact decent_wait v _ (fun _ _ e => nomatch e) h
  keepNames k l := fun _ v h => by
    simp only [keepNames]; split <;> first | exact h | exact decent_wait v _ (fun _ _ e => nomatch e) h
  log e := fun _ v h => by
    simp only [log]; split <;> first | exact h | exact decent_wait v _ (fun _ _ e => nomatch e) h
  askNames l ip := fun m v h => by
    simp only [askNames]; split <;> (try split) <;> first | exact h | exact decent_wait v _ (fun _ _ e => nomatch e) h
  ask z u r := fun m v h => by
    simp only [decent]
    split
    · rename_i hx
      have hop : DecentStep X (some (.ask z r)) := fun z' r' e => by cases e; exact hx
      simp only [ask]
      split <;> (try split) <;> first | exact h | exact decent_wait v _ hop h
    · exact h

theorem query_decent (hX : X []) (senv : Server.Env) (up : Resolver Unit) (c : Config E Unit) (hd : (aliases c.customMapping).length < c.customDepth)
    (remote : Server.Addr) (sni : Option Str) (msg : Msg)
    (ht : ∀ r, Ecs.transform c.ecs (Server.newRequestFromDNS remote sni msg) = some r → X r.req.extra) (made : List (Threads.Op × Res)) :
    DecentStep X (({ job := .query c remote sni msg, made := made } : Thread E).next senv up) := by
  have h1 : ({ job := .query c remote sni msg, made := made } : Thread E).next senv up =
      (serveBy asking senv c up remote sni msg ({}, ⟨made, none⟩)).2.2.wish := by
    have := serve_by asking senv c up remote sni msg ({}, ⟨made, none⟩)
    show (Server.onRequest senv (toM (wholeBy asking c up)) remote sni msg ⟨made, none⟩).2.wish = _
    rw [this]
  have h2 : serveBy asking senv c up remote sni msg ({}, ⟨made, none⟩) = serveBy (decent X) senv c up remote sni msg ({}, ⟨made, none⟩) := by
    unfold serveBy
    rw [wholeBy_agree hX (a := asking) (a' := decent X) agree_decent c up _ ht]
  rw [h1, h2]
  exact steps_serve (L := decentLogic X) decent_ops senv c up hd remote sni msg {} ⟨made, none⟩ (fun _ _ e => nomatch e)

theorem refresh_decent (hX : X []) (senv : Server.Env) (up : Resolver Unit) (c : Config E Unit) (key : Str) (made : List (Threads.Op × Res)) :
    DecentStep X (({ job := .refresh c key, made := made } : Thread E).next senv up) := by
  show DecentStep X (refresh c up key ⟨made, none⟩).wish
  have h1 : Caching.reload c.cacheEnv c.cache (Threads.cond c up) key ({}, ⟨made, none⟩) =
      Caching.reload c.cacheEnv c.cache (condBy (decent X) c up) key ({}, ⟨made, none⟩) := by
    unfold Caching.reload
    split
    · rfl
    · rw [cond_by, agree_condBy (a := asking) (a' := decent X) agree_decent c up (Caching.reloadRequest _ _ _) _ hX]
  have h2 := logic_reload (L := decentLogic X) c.cacheEnv c.cache key (steps_cond decent_ops.toInnerOk c up) {} ⟨made, none⟩ (fun _ _ e => nomatch e)
  unfold refresh
  rw [h1]
  generalize Caching.reload c.cacheEnv c.cache (condBy (decent X) c up) key ({}, ⟨made, none⟩) = y at h2
  obtain ⟨o, m1, v⟩ := y
  simp only at h2
  match o with
  | some (some (m, ttl)) => exact (decent_ops (X := X)).keep key m ttl {} v h2
  | some none => exact h2
  | none => exact h2

/-! ### All executions -/

/-- What holds of every step that a goroutine could make holds of all steps made. -/
theorem steps_made (senv : Server.Env) (up : Resolver Unit) (Q : Job E → Threads.Op → Prop)
    (h : ∀ (t : Thread E) op, t.next senv up = some op → Q t.job op) (es : List (Ev E)) : ∀ s : Sys E,
    (∀ t ∈ s.threads, ∀ e ∈ t.made, Q t.job e.1) → ∀ t ∈ (execute senv up s es).threads, ∀ e ∈ t.made, Q t.job e.1 := by
  induction es with
  | nil => exact fun s hs => hs
  | cons ev es ih =>
    intro s hs
    refine ih (advance senv up s ev) (fun t ht => ?_)
    have old : t ∈ s.threads → ∀ e ∈ t.made, Q t.job e.1 := hs t
    cases ev with
    | query c remote sni msg =>
      rcases List.mem_append.1 ht with ht | ht
      · exact old ht
      · cases List.mem_singleton.1 ht
        exact fun e he => nomatch he
    | refresh c key =>
      simp only [advance] at ht
      split at ht
      · rcases List.mem_append.1 ht with ht | ht
        · exact old ht
        · cases List.mem_singleton.1 ht
          exact fun e he => nomatch he
      · exact old ht
    | move i o x =>
      simp only [advance] at ht
      cases hi : s.threads[i]? with
      | none => rw [hi] at ht; exact old ht
      | some t' =>
        rw [hi] at ht
        simp only at ht
        cases hn : t'.next senv up with
        | none => rw [hn] at ht; exact old ht
        | some op =>
          rw [hn] at ht
          simp only at ht
          rcases List.mem_or_eq_of_mem_set ht with ht | rfl
          · exact old ht
          · intro e he
            rcases List.mem_append.1 he with he | he
            · exact hs t' (List.mem_of_getElem? hi) e he
            · cases List.mem_singleton.1 he
              exact h t' op hn
    | pass d => exact old ht
    | drop key => exact old ht
    | dropNames key => exact old ht
    | flush => exact old ht
    | take => exact old ht
    | written => exact old ht

/-- A goroutine asks upstreams - those of a conditional zone or the usual ones - with this request in the course of the execution. -/
def AskedWith (senv : Server.Env) (up : Resolver Unit) (s : Sys E) (es : List (Ev E)) (j : Job E) (r : Request) : Prop :=
  ∃ t ∈ (execute senv up s es).threads, t.job = j ∧ ∃ z res, (Threads.Op.ask z r, res) ∈ t.made

theorem asked_decent (senv : Server.Env) (up : Resolver Unit) (s : Sys E) (hs : s.threads = []) (es : List (Ev E)) (j : Job E)
    (h : ∀ made, DecentStep X (({ job := j, made := made } : Thread E).next senv up)) (r : Request) (hr : AskedWith senv up s es j r) : X r.req.extra := by
  obtain ⟨t, ht, rfl, z, res, hm⟩ := hr
  have := steps_made senv up (fun j' op => j' = t.job → ∀ z r, op = .ask z r → X r.req.extra) (fun t' op hop hj z r e => by
    subst e
    obtain ⟨job, made⟩ := t'
    simp only at hj
    subst hj
    exact h made z r hop) es s (by rw [hs]; exact fun t ht => nomatch ht) t ht _ hm rfl z r rfl
  exact this

/-- **C123, subnets removed.** Any number of queries handled at the same time, in any interleaving, with any contents of caches, settings
changed in between: a query handled with the client-subnet resolver on, not forwarding and without prefix lengths never asks upstreams with a
subnet option. -/
theorem C123_removed (senv : Server.Env) (up : Resolver Unit) (s : Sys E) (hs : s.threads = []) (es : List (Ev E)) (c : Config E Unit)
    (hd : (aliases c.customMapping).length < c.customDepth) (he : c.ecs.isEnabled = true) (hf : c.ecs.forward = false)
    (h4 : c.ecs.ipv4Mask = 0) (h6 : c.ecs.ipv6Mask = 0) (remote : Server.Addr) (sni : Option Str) (msg : Msg) (hone : OneSubnet msg) (r : Request)
    (hr : AskedWith senv up s es (.query c remote sni msg) r) : OnlySubnet none r.req.extra := by
  refine asked_decent (X := OnlySubnet none) senv up s hs es _ (fun made => query_decent (fun r hr => nomatch hr) senv up c hd remote sni msg ?_ made) r hr
  intro r hr
  obtain ⟨r', hr', hc⟩ := C28_no_masks_partial c.ecs he hf h4 h6 (Server.newRequestFromDNS remote sni msg) hone
  rw [hr'] at hr
  cases hr
  intro rr hrr os hos x hx h8
  exact absurd h8 (hc x ⟨rr, hrr, os, hos, hx⟩)

/-- **C123, subnets cut.** Likewise, with a prefix length configured for the family of the client's address: the query asks upstreams with that
prefix of this client's address, if any - never with that of another client whose query is handled at the same time. -/
theorem C123_cut (senv : Server.Env) (up : Resolver Unit) (s : Sys E) (hs : s.threads = []) (es : List (Ev E)) (c : Config E Unit)
    (hd : (aliases c.customMapping).length < c.customDepth) (hf : c.ecs.forward = false) (hu : c.ecs.useAsClient = false)
    (h4 : c.ecs.ipv4Mask ≤ 32) (h6 : c.ecs.ipv6Mask ≤ 128) (remote : Server.Addr) (ip p : IP)
    (hip : (Server.resolveClientIPAndProtocol remote).1 = some ip) (hmask : 0 < maskFor c.ecs ip) (hp : IsPrefixOf (maskFor c.ecs ip) p ip)
    (sni : Option Str) (msg : Msg) (hone : optCount msg.extra ≤ 1) (r : Request) (hr : AskedWith senv up s es (.query c remote sni msg) r) :
    OnlySubnet (some (.subnet (familyOf ip) (maskFor c.ecs ip) 0 (some p))) r.req.extra := by
  refine asked_decent (X := OnlySubnet (some (.subnet (familyOf ip) (maskFor c.ecs ip) 0 (some p)))) senv up s hs es _
    (fun made => query_decent (fun r hr => nomatch hr) senv up c hd remote sni msg ?_ made) r hr
  intro r hr
  have hcl : Ecs.effectiveClient c.ecs (getEdns0Option (Server.newRequestFromDNS remote sni msg).req 8)
      (Server.newRequestFromDNS remote sni msg).clientIP = some ip := by
    unfold Ecs.effectiveClient
    split <;> simp [hu, Server.newRequestFromDNS, hip]
  obtain ⟨r', hr', _, p', hp', hc⟩ := C28_masked_partial c.ecs hf h4 h6 (Server.newRequestFromDNS remote sni msg) hone ip hcl hmask
  rw [hr'] at hr
  cases hr
  have hpp : p' = p := prefix_unique hp' hp
  subst hpp
  intro rr hrr os hos x hx h8
  exact congrArg some (hc.2 x ⟨rr, hrr, os, hos, hx⟩ h8)

/-- **C123, refreshing.** Entries of the answer cache are refreshed without any options: nothing of the client who first asked is passed on. -/
theorem C123_refresh (senv : Server.Env) (up : Resolver Unit) (s : Sys E) (hs : s.threads = []) (es : List (Ev E)) (c : Config E Unit) (key : Str)
    (r : Request) (hr : AskedWith senv up s es (.refresh c key) r) : r.req.extra = [] :=
  asked_decent (X := (· = [])) senv up s hs es _ (fun made => refresh_decent (X := (· = [])) rfl senv up c key made) r hr

/-- The sample server, cutting subnets. -/
def cuttingConfig : Config prefixEngine Unit := { threadsConfig 0 with ecs := { ipv4Mask := 24 } }

/-- Two clients ask for different names at the same time, both with a subnet that is not theirs. -/
def nosy : List Plan :=
  [.event (.query cuttingConfig (.udp (some (.v4 0x00000103#32))) none { query (str! "www.org.") with extra := [freshOpt [sampleSubnet 0x01020304#32]] }),
   .event (.query cuttingConfig (.udp (some (.v4 0x00000209#32))) none { query (str! "pc.office.") with extra := [freshOpt [sampleSubnet 0x01020304#32]] })] ++
  [.go 0 0, .go 1 0, .go 0 0, .go 1 0, .go 1 0, .go 0 0, .go 0 0, .go 1 0, .go 1 0, .go 0 60, .go 0 0, .go 1 0]

/-- The zones asked by goroutines, and the options sent. -/
def sent (s : Sys prefixEngine) : List (List (Option Str × List RData)) :=
  s.threads.map (fun t => t.made.filterMap (fun e => match e.1 with | .ask z r => some (z, r.req.extra.map RR.data) | _ => none))

instance : DecidableEq (List (List (Option Str × List RData))) := inferInstance

example : sent (execute sampleServer bareUp freshSys (planned freshSys nosy)) =
    [[(none, [.opt [.subnet 1 24 0 (some (.v4 0x00000100#32))]])], [(some (str! "office"), [.opt [.subnet 1 24 0 (some (.v4 0x00000200#32))]])]] := by decide +kernel

-- refreshing an entry
example : (sent (execute sampleServer bareUp freshSys (planned freshSys overlapping)))[3]? = some [(none, [])] := by decide +kernel

/-- The hypotheses of `C123_cut` are met by the first client. -/
example (es : List (Ev prefixEngine)) (r : Request) (hr : AskedWith sampleServer bareUp freshSys es (.query cuttingConfig
      (.udp (some (.v4 0x00000103#32))) none { query (str! "www.org.") with extra := [freshOpt [sampleSubnet 0x01020304#32]] }) r) :
    OnlySubnet (some (.subnet 1 24 0 (some (.v4 0x00000100#32)))) r.req.extra :=
  C123_cut sampleServer bareUp freshSys rfl es cuttingConfig (by decide) rfl rfl (by decide) (by decide) _ (.v4 0x00000103#32) (.v4 0x00000100#32) rfl
    (by decide) ⟨by decide, by decide⟩ none _ (by decide) r hr

end Verif.Props
