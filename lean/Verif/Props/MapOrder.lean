/-
C99: answers do not depend on the order in which Go happens to iterate over the maps of the configuration, so
servers with the same configuration give the same answers, before and after a restart.
-/
import Verif.Lemmas.MapOrder
import Verif.Props.Case

namespace Verif.Props
open Dns Spec ExpCache StringCache

variable {W : Type} {E : RegexEngine}

/-- The maps of a configuration, each as a list of its entries, and everything else the server is configured
with. (The rules of the two rewriters and the host names are in `base`.) -/
structure Settings (E : RegexEngine) (W : Type) where
  base : Chain.Config E W
  /-- clientLookup.clients -/
  clients : List (Str × List IP)
  /-- customDNS.mapping, customDNS.zone -/
  mapping : List (Str × List RR)
  zone : List (Str × List RR)
  /-- blocking.clientGroupsBlock -/
  groups : List (Str × List Str)
  /-- conditional.mapping -/
  conditional : List (Str × Resolver W)

/-- The orders in which the maps are iterated over, at the start and during a query. -/
structure Orders (W : Type) where
  clients : List (Str × List IP)
  customVisited : List (Str × Str)
  customRules : Nat → List (Str × Str)
  mapping : List (Str × List RR)
  zone : List (Str × List RR)
  reverse : List (Str × List RR)
  hosts4 : List (Str × (IP × List Str))
  hosts6 : List (Str × (IP × List Str))
  groupsVisited : List (Str × List Str)
  groups : AMap Str (List Str)
  conditional : List (Str × Resolver W)
  condVisited : List (Str × Str)
  condRules : Nat → List (Str × Str)

/-- The resolvers made of the settings, in these orders. -/
def Settings.start (s : Settings E W) (o : Orders W) : Chain.Config E W :=
  { s.base with
    names := { s.base.names with mapping := o.clients }
    customOrder := o.customRules
    customMapping := CustomDns.dnsRecords s.base.customEnv.customTTL o.mapping o.zone
    customReverse := CustomDns.reverseAddresses s.base.customEnv o.reverse []
    hostsOrder4 := o.hosts4
    hostsOrder6 := o.hosts6
    blockState := { s.base.blockState with cgb := o.groups }
    condOrder := o.condRules
    condMapping := Cond.buildMapping o.conditional [] }

/-- The orders are orders of the maps of these settings. -/
structure Orders.Of (o : Orders W) (s : Settings E W) : Prop where
  clients : o.clients.Perm s.clients
  customVisited : o.customVisited.Perm s.base.customRewrite.rewrite
  customRules : ∀ i, (o.customRules i).Perm (Cond.lowerRules o.customVisited s.base.customRewrite.rewrite)
  mapping : o.mapping.Perm s.mapping
  zone : o.zone.Perm s.zone
  reverse : o.reverse.Perm (CustomDns.dnsRecords s.base.customEnv.customTTL o.mapping o.zone)
  hosts4 : o.hosts4.Perm s.base.hosts.v4.hosts
  hosts6 : o.hosts6.Perm s.base.hosts.v6.hosts
  groupsVisited : o.groupsVisited.Perm s.groups
  groups : o.groups.Perm (Blocking.clientGroupsBlock { clientGroupsBlock := o.groupsVisited })
  conditional : o.conditional.Perm s.conditional
  condVisited : o.condVisited.Perm s.base.condRewrite.rewrite
  condRules : ∀ i, (o.condRules i).Perm (Cond.lowerRules o.condVisited s.base.condRewrite.rewrite)

/-- No two rules of a rewriter apply to the same name. -/
def RulesApart (rules : List (Str × Str)) : Prop :=
  (rules.map Prod.fst).Nodup ∧ ∀ e ∈ rules, ∀ e' ∈ rules, InZone (lower e'.1) (lower e.1) → e = e'

/-- The settings say one thing only about every name and address. -/
structure Unambiguous (s : Settings E W) : Prop where
  /-- no address belongs to two clients -/
  clients : ∀ e ∈ s.clients, ∀ e' ∈ s.clients, ∀ i ∈ e.2, ∀ i' ∈ e'.2,
    s.base.names.ipString i = s.base.names.ipString i' → e = e'
  customRules : RulesApart s.base.customRewrite.rewrite
  /-- no name is configured twice, in different letter case or with and without final dot -/
  mapping : (s.mapping.map (fun e => extractDomain e.1)).Nodup
  zone : (s.zone.map (fun e => extractDomain e.1)).Nodup
  /-- no address belongs to two custom names -/
  reverse : ∀ e ∈ s.mapping ++ s.zone, ∀ e' ∈ s.mapping ++ s.zone, ∀ r ∈ e.2, ∀ r' ∈ e'.2, ∀ ip ip',
    CustomDns.addressOf r = some ip → CustomDns.addressOf r' = some ip' →
    s.base.customEnv.reverseAddr ip = s.base.customEnv.reverseAddr ip' → extractDomain e.1 = extractDomain e'.1
  /-- no address belongs to two hosts of the hosts files -/
  hosts4 : ∀ e ∈ s.base.hosts.v4.hosts, ∀ e' ∈ s.base.hosts.v4.hosts, e.2.1 = e'.2.1 → e = e'
  hosts6 : ∀ e ∈ s.base.hosts.v6.hosts, ∀ e' ∈ s.base.hosts.v6.hosts, e.2.1 = e'.2.1 → e = e'
  /-- no conditional zone is configured twice, in different letter case -/
  conditional : (s.conditional.map (fun e => lower e.1)).Nodup
  condRules : RulesApart s.base.condRewrite.rewrite

/-! ### The single resolvers -/

theorem fromMapping_any_order {cfg : ClientNames.Cfg} {l l' : List (Str × List IP)} (h : l.Perm l')
    (hs : ∀ e ∈ l, ∀ e' ∈ l, ∀ i ∈ e.2, ∀ i' ∈ e'.2, cfg.ipString i = cfg.ipString i' → e = e') (ip : IP) :
    ClientNames.fromMapping { cfg with mapping := l } ip = ClientNames.fromMapping { cfg with mapping := l' } ip := by
  unfold ClientNames.fromMapping
  refine flatMap_of_single h ?_
  intro x hx y hy h1 h2
  have some_mem : ∀ e : Str × List IP, (e.2.filter (fun i => cfg.ipString ip == cfg.ipString i)).map (fun _ => e.1) ≠ [] →
      ∃ i ∈ e.2, cfg.ipString ip = cfg.ipString i := by
    intro e he
    rw [Ne, List.map_eq_nil_iff] at he
    obtain ⟨i, hi⟩ := List.exists_mem_of_ne_nil _ he
    rw [List.mem_filter] at hi
    exact ⟨i, hi.1, by simpa using hi.2⟩
  obtain ⟨i, hi, e1⟩ := some_mem x h1
  obtain ⟨i', hi', e2⟩ := some_mem y h2
  rw [hs x hx y hy i hi i' hi' (e1.symm.trans e2)]

theorem clientNames_any_order {V : Type} {cfg : ClientNames.Cfg} {l l' : List (Str × List IP)} (h : l.Perm l')
    (hs : ∀ e ∈ l, ∀ e' ∈ l, ∀ i ∈ e.2, ∀ i' ∈ e'.2, cfg.ipString i = cfg.ipString i' → e = e')
    (lookup : Option (ClientNames.Lookup V)) (next : Chain.MR V) :
    Chain.clientNames { cfg with mapping := l } lookup next = Chain.clientNames { cfg with mapping := l' } lookup next := by
  have hm := fromMapping_any_order h hs
  have hr : ∀ ip w, ClientNames.resolveClientNames { cfg with mapping := l } lookup ip w =
      ClientNames.resolveClientNames { cfg with mapping := l' } lookup ip w := by
    intro ip w
    unfold ClientNames.resolveClientNames
    rw [hm]
    rfl
  have hw : ∀ request c w, ClientNames.withNames { cfg with mapping := l } lookup request c w =
      ClientNames.withNames { cfg with mapping := l' } lookup request c w := by
    intro request c w
    unfold ClientNames.withNames ClientNames.getClientNames
    simp only [hr]
  unfold Chain.clientNames
  simp only [hw]

theorem walk_congr {α : Type} {f g : Str → Option α} (h : ∀ k, f k = g k) : walk f = walk g := by
  rw [show f = g from funext h]

theorem processRequest_congr {V : Type} (env : CustomDns.Env) {m m' : CustomDns.Mapping} (h : ∀ k, AMap.get m k = AMap.get m' k)
    (next : Resolver V) : CustomDns.processRequest env m next = CustomDns.processRequest env m' next := by
  funext depth
  induction depth with
  | zero => rfl
  | succ depth ih =>
    funext request resolved w
    unfold CustomDns.processRequest
    rw [walk_congr h, ih]

theorem customDns_congr {V : Type} (env : CustomDns.Env) {m m' : CustomDns.Mapping} (h : ∀ k, AMap.get m k = AMap.get m' k)
    {rev rev' : AMap Str (List Str)} (hr : ∀ k, AMap.get rev k = AMap.get rev' k) (depth : Nat) (next : Chain.MR V) :
    Chain.customDns env m rev depth next = Chain.customDns env m' rev' depth next := by
  unfold Chain.customDns CustomDns.resolve CustomDns.handleReverse
  simp only [processRequest_congr env h, hr]

theorem hostsFile_congr {V : Type} (enabled : Bool) (cfg : HostsFile.Cfg) (h : HostsFile.Hosts)
    {o4 o4' o6 o6' : List (Str × (IP × List Str))} (h4 : ∀ ip, HostsFile.findHost ip o4 = HostsFile.findHost ip o4')
    (h6 : ∀ ip, HostsFile.findHost ip o6 = HostsFile.findHost ip o6') (next : Resolver V) :
    HostsFile.resolve enabled cfg h o4 o6 next = HostsFile.resolve enabled cfg h o4' o6' next := by
  have hr : ∀ request q, HostsFile.handleReverse cfg o4 o6 request q = HostsFile.handleReverse cfg o4' o6' request q := by
    intro request q
    unfold HostsFile.handleReverse
    split
    · rfl
    · cases Arpa.parse q.name with
      | none => rfl
      | some ip =>
        cases ip with
        | v4 a => simp only [h4]
        | v6 a => simp only [h6]
  unfold HostsFile.resolve
  simp only [hr]

theorem blocking_congr {V : Type} (env : Blocking.Env) (b : Blocking.BState E) {m m' : AMap Str (List Str)} (h : SamePairs m m')
    (next : Resolver V) : Blocking.resolve env { b with cgb := m } next = Blocking.resolve env { b with cgb := m' } next := by
  have hd : ∀ groups request qs, Blocking.handleDenylist { b with cgb := m } groups request qs =
      Blocking.handleDenylist { b with cgb := m' } groups request qs := by
    intro groups request qs
    induction qs with
    | nil => rfl
    | cons q qs ih => unfold Blocking.handleDenylist; rw [ih]; rfl
  have hc : ∀ groups request rrs, Blocking.checkAnswer env { b with cgb := m } groups request rrs =
      Blocking.checkAnswer env { b with cgb := m' } groups request rrs := by
    intro groups request rrs
    induction rrs with
    | nil => rfl
    | cons r rrs ih => unfold Blocking.checkAnswer; rw [ih]
  funext request w
  unfold Blocking.resolve Blocking.askNext
  simp only [h.groups, hd, hc]

theorem newRewriter_congr {V : Type} (cfg : Cond.RewriteCfg) {order order' : Nat → List (Str × Str)}
    (h : ∀ i d, lower d = d → Cond.rewriteDomain (order i) d = Cond.rewriteDomain (order' i) d)
    (inner : Cond.MResolver V → Cond.MResolver V) (next : Cond.MResolver V) :
    Cond.newRewriter cfg order inner next = Cond.newRewriter cfg order' inner next := by
  unfold Cond.newRewriter Cond.rewriter
  simp only [rewriteQuestions_any_order h]

theorem conditional_congr {V : Type} {m m' : AMap Str (Resolver V)} (h : ∀ k, AMap.get m k = AMap.get m' k)
    (hl : m.length = m'.length) : Cond.conditional m = Cond.conditional m' := by
  unfold Cond.conditional Cond.lookup
  simp only [walk_congr h, h, hl]

/-! ### The whole server -/

theorem putAll_mem {K V : Type} [DecidableEq K] {l : List (K × V)} {m : AMap K V} {e : K × V} (h : e ∈ putAll l m) : e ∈ l ∨ e ∈ m := by
  have put_mem : ∀ {m : AMap K V} {k : K} {v : V}, e ∈ m.put k v → e = (k, v) ∨ e ∈ m := by
    intro m k v
    induction m with
    | nil => intro h; exact .inl (by simpa [AMap.put] using h)
    | cons x xs ih =>
      obtain ⟨a, b⟩ := x
      unfold AMap.put
      split
      · rename_i ha
        subst ha
        intro h
        rcases List.mem_cons.1 h with h | h
        · exact .inl h
        · exact .inr (.tail _ h)
      · intro h
        rcases List.mem_cons.1 h with h | h
        · exact .inr (by rw [h]; exact .head _)
        · rcases ih h with h | h
          · exact .inl h
          · exact .inr (.tail _ h)
  induction l generalizing m with
  | nil => exact .inr h
  | cons x l ih =>
    rcases ih h with h | h
    · exact .inl (.tail _ h)
    · rcases put_mem h with h | h
      · exact .inl (by rw [h]; exact .head _)
      · exact .inr h

/-- Every record in use is a configured one. -/
theorem dnsRecords_mem {ttl : UInt32} {m z : List (Str × List RR)} {u : Str} {es : List RR}
    (h : (u, es) ∈ CustomDns.dnsRecords ttl m z) :
    ∃ e ∈ m ++ z, u = extractDomain e.1 ∧ ∀ ip, (∃ r ∈ es, CustomDns.addressOf r = some ip) → ∃ r ∈ e.2, CustomDns.addressOf r = some ip := by
  unfold CustomDns.dnsRecords at h
  rw [addMapping_putAll, addZone_putAll] at h
  rcases putAll_mem h with h | h
  · obtain ⟨e, he, hx⟩ := List.mem_map.1 h
    cases hx
    exact ⟨e, List.mem_append_right _ he, rfl, fun ip h => h⟩
  · rcases putAll_mem h with h | h
    · obtain ⟨e, he, hx⟩ := List.mem_map.1 h
      cases hx
      refine ⟨e, List.mem_append_left _ he, rfl, ?_⟩
      rintro ip ⟨r, hr, hi⟩
      obtain ⟨r', hr', rfl⟩ := List.mem_map.1 hr
      exact ⟨r', hr', hi⟩
    · cases h

theorem reverseOf_mem {env : CustomDns.Env} {key : Str} {e : Str × List RR} (h : reverseOf env key e ≠ []) :
    ∃ ip, (∃ r ∈ e.2, CustomDns.addressOf r = some ip) ∧ env.reverseAddr ip = key := by
  obtain ⟨u, hu⟩ := List.exists_mem_of_ne_nil _ h
  unfold reverseOf at hu
  obtain ⟨r, hr, hx⟩ := List.mem_filterMap.1 hu
  cases ha : CustomDns.addressOf r with
  | none => simp [ha] at hx
  | some ip =>
    simp only [ha] at hx
    split at hx
    · rename_i hk; exact ⟨ip, ⟨r, hr, ha⟩, hk⟩
    · cases hx

theorem start_reverse {s : Settings E W} (hs : Unambiguous s) {o o' : Orders W} (ho : o.Of s) (ho' : o'.Of s) (key : Str) :
    AMap.get (CustomDns.reverseAddresses s.base.customEnv o.reverse []) key =
      AMap.get (CustomDns.reverseAddresses s.base.customEnv o'.reverse []) key := by
  have hmap := ho.mapping.trans ho'.mapping.symm
  have hzone := ho.zone.trans ho'.zone.symm
  have um := (ho.mapping.map (fun e => extractDomain e.1)).nodup_iff.2 hs.mapping
  have uz := (ho.zone.map (fun e => extractDomain e.1)).nodup_iff.2 hs.zone
  have hp := AMap.perm_of_get (dnsRecords_uniq s.base.customEnv.customTTL o.mapping o.zone)
    (dnsRecords_uniq s.base.customEnv.customTTL o'.mapping o'.zone) (dnsRecords_get hmap hzone um uz)
  refine reverseAddresses_any_order (ho.reverse.trans (hp.trans ho'.reverse.symm)) key ?_
  rintro ⟨u, es⟩ hx ⟨u', es'⟩ hy h1 h2
  have hx' := ho.reverse.mem_iff.1 hx
  have hy' := ho.reverse.mem_iff.1 hy
  obtain ⟨ip, hip, hk⟩ := reverseOf_mem h1
  obtain ⟨ip', hip', hk'⟩ := reverseOf_mem h2
  obtain ⟨e, he, rfl, hr⟩ := dnsRecords_mem hx'
  obtain ⟨e', he', rfl, hr'⟩ := dnsRecords_mem hy'
  obtain ⟨r, hr, ha⟩ := hr ip hip
  obtain ⟨r', hr', ha'⟩ := hr' ip' hip'
  have hperm : (o.mapping ++ o.zone).Perm (s.mapping ++ s.zone) := ho.mapping.append ho.zone
  have hu := hs.reverse e (hperm.mem_iff.1 he) e' (hperm.mem_iff.1 he') r hr r' hr' ip ip' ha ha' (hk.trans hk'.symm)
  have uniq := dnsRecords_uniq s.base.customEnv.customTTL o.mapping o.zone
  have g := uniq.get_of_mem hx'
  have g' := uniq.get_of_mem hy'
  rw [hu, g'] at g
  cases g
  rw [hu]

theorem samePairs_of_settings {s : Settings E W} {o o' : Orders W} (ho : o.Of s) (ho' : o'.Of s) : SamePairs o.groups o'.groups := by
  have part : ∀ {o : Orders W}, o.Of s → AMap.Uniq o.groups ∧ (pairs o.groups).Perm (listed s.groups) := by
    intro o ho
    obtain ⟨h1, h2⟩ := clientGroups_pairs o.groupsVisited [] AMap.uniq_nil
    refine ⟨(ho.groups.map Prod.fst).nodup_iff.2 h2, ?_⟩
    exact (ho.groups.flatMap_right _).trans (h1.trans (ho.groupsVisited.flatMap_right _))
  exact ⟨(part ho).1, (part ho').1, (part ho).2.trans (part ho').2.symm⟩

theorem buildMapping_uniq (l : List (Str × Resolver W)) : AMap.Uniq (Cond.buildMapping l []) := by
  rw [buildMapping_putAll]
  exact putAll_uniq _ AMap.uniq_nil

theorem buildMapping_any_order {l l' : List (Str × Resolver W)} (h : l.Perm l') (hu : (l.map (fun e => lower e.1)).Nodup) (k : Str) :
    AMap.get (Cond.buildMapping l []) k = AMap.get (Cond.buildMapping l' []) k := by
  have u : ∀ {l : List (Str × Resolver W)}, (l.map (fun e => lower e.1)).Nodup → AMap.Uniq (l.map (fun e => (lower e.1, e.2))) := by
    intro l h; simpa [AMap.Uniq, AMap.keys, Function.comp_def] using h
  rw [buildMapping_putAll, buildMapping_putAll, putAll_get (u hu), putAll_get (u ((h.map (fun e => lower e.1)).nodup_iff.1 hu)),
    AMap.get_of_perm (h.map _) (u hu)]

/-- C99: if the settings are unambiguous, the server behaves the same whatever the orders of the maps: the same
answers, the same queries to upstreams, the same entries in cache and query log. -/
theorem C99_whole_partial (s : Settings E W) (hs : Unambiguous s) (o o' : Orders W) (ho : o.Of s) (ho' : o'.Of s)
    (up : Resolver W) : Chain.whole (s.start o) up = Chain.whole (s.start o') up := by
  have hcond : Chain.cond (s.start o) up = Chain.cond (s.start o') up := by
    have hp := ho.conditional.trans ho'.conditional.symm
    have hu := (ho.conditional.map (fun e => lower e.1)).nodup_iff.2 hs.conditional
    have hg := buildMapping_any_order hp hu
    have hl := (AMap.perm_of_get (buildMapping_uniq o.conditional) (buildMapping_uniq o'.conditional) hg).length_eq
    show Chain.ofM (Cond.newRewriter s.base.condRewrite o.condRules (Cond.conditional (Cond.buildMapping o.conditional [])) _) =
      Chain.ofM (Cond.newRewriter s.base.condRewrite o'.condRules (Cond.conditional (Cond.buildMapping o'.conditional [])) _)
    rw [conditional_congr hg hl, newRewriter_congr _ (order' := o'.condRules)]
    · rfl
    · intro i d hd
      exact rewriteDomain_any_order hs.condRules.1 ho.condVisited ho'.condVisited (ho.condRules i) (ho'.condRules i) hs.condRules.2 hd
  have hblock : Chain.block (s.start o) up = Chain.block (s.start o') up := by
    unfold Chain.block
    rw [hcond]
    exact blocking_congr _ _ (samePairs_of_settings ho ho') _
  have hlocal : Chain.local (s.start o) up = Chain.local (s.start o') up := by
    unfold Chain.local
    rw [hblock]
    have h4 : ∀ ip, HostsFile.findHost ip o.hosts4 = HostsFile.findHost ip o'.hosts4 := fun ip =>
      findHost_any_order (ho.hosts4.trans ho'.hosts4.symm)
        (fun x hx y hy => hs.hosts4 x (ho.hosts4.mem_iff.1 hx) y (ho.hosts4.mem_iff.1 hy))
    have h6 : ∀ ip, HostsFile.findHost ip o.hosts6 = HostsFile.findHost ip o'.hosts6 := fun ip =>
      findHost_any_order (ho.hosts6.trans ho'.hosts6.symm)
        (fun x hx y hy => hs.hosts6 x (ho.hosts6.mem_iff.1 hx) y (ho.hosts6.mem_iff.1 hy))
    have um := (ho.mapping.map (fun e => extractDomain e.1)).nodup_iff.2 hs.mapping
    have uz := (ho.zone.map (fun e => extractDomain e.1)).nodup_iff.2 hs.zone
    have hg := dnsRecords_get (ttl := s.base.customEnv.customTTL) (ho.mapping.trans ho'.mapping.symm) (ho.zone.trans ho'.zone.symm) um uz
    have hh := hostsFile_congr s.base.hostsEnabled s.base.hostsCfg s.base.hosts h4 h6 (Chain.block (s.start o') up)
    have hc : ∀ next : Chain.MR (Caching.CState × W),
        Chain.customDns s.base.customEnv (CustomDns.dnsRecords s.base.customEnv.customTTL o.mapping o.zone)
          (CustomDns.reverseAddresses s.base.customEnv o.reverse []) s.base.customDepth next =
        Chain.customDns s.base.customEnv (CustomDns.dnsRecords s.base.customEnv.customTTL o'.mapping o'.zone)
          (CustomDns.reverseAddresses s.base.customEnv o'.reverse []) s.base.customDepth next := fun next =>
      customDns_congr _ hg (start_reverse hs ho ho') _ next
    have hr := fun inner next => newRewriter_congr (V := Caching.CState × W) s.base.customRewrite (order := o.customRules)
      (order' := o'.customRules) (fun i d hd => rewriteDomain_any_order hs.customRules.1 ho.customVisited ho'.customVisited
        (ho.customRules i) (ho'.customRules i) hs.customRules.2 hd) inner next
    simp only [Settings.start] at hh ⊢
    rw [hh, hr]
    simp only [hc]
  have hobs : Chain.observed (s.start o) up = Chain.observed (s.start o') up := by
    unfold Chain.observed
    rw [hlocal]
    rfl
  unfold Chain.whole
  rw [hobs]
  have hn := fun lookup next => clientNames_any_order (V := QueryLog.Queue × Caching.CState × W) (cfg := s.base.names)
    (ho.clients.trans ho'.clients.symm)
    (fun x hx y hy => hs.clients x (ho.clients.mem_iff.1 hx) y (ho.clients.mem_iff.1 hy)) lookup next
  show Small.filtering s.base.filterTypes (Small.fqdnOnly s.base.fqdnOnly (Chain.ecs s.base.ecs
      (Chain.clientNames { s.base.names with mapping := o.clients } (s.base.namesLookup.map Chain.liftLookup) _))) =
    Small.filtering s.base.filterTypes (Small.fqdnOnly s.base.fqdnOnly (Chain.ecs s.base.ecs
      (Chain.clientNames { s.base.names with mapping := o'.clients } (s.base.namesLookup.map Chain.liftLookup) _)))
  rw [hn]

/-- C99: the groups that apply to a client never depend on the orders of the maps, even if identifiers overlap. -/
theorem C99_groups (s : Settings E W) (o o' : Orders W) (ho : o.Of s) (ho' : o'.Of s) (env : Blocking.Env)
    (fqdnIPs : Str → Option (List IP)) (status : Blocking.Status) (request : Request) :
    Blocking.groupsToCheck env (s.start o).blockState.cgb fqdnIPs status request =
      Blocking.groupsToCheck env (s.start o').blockState.cgb fqdnIPs status request :=
  (samePairs_of_settings ho ho').groups env fqdnIPs status request

/-- The answers to a sequence of queries, the maps being iterated over in other orders each time. -/
def servedInOrders (senv : Server.Env) (s : Settings E W) (up : Resolver W) :
    List (Orders W × Server.Addr × Option Str × Msg) → Chain.World W → List (List Msg)
  | [], _ => []
  | (o, remote, sni, msg) :: qs, w =>
    (Chain.serve senv (s.start o) up remote sni msg w).1 ::
      servedInOrders senv s up qs (Chain.serve senv (s.start o) up remote sni msg w).2

/-- C99: two servers with the same unambiguous settings give the same answers to the same queries. -/
theorem C99_history_partial (senv : Server.Env) (s : Settings E W) (hs : Unambiguous s) (up : Resolver W)
    (qs qs' : List (Orders W × Server.Addr × Option Str × Msg)) (h : ∀ x ∈ qs, x.1.Of s) (h' : ∀ x ∈ qs', x.1.Of s)
    (hq : qs.map Prod.snd = qs'.map Prod.snd) (w : Chain.World W) :
    servedInOrders senv s up qs w = servedInOrders senv s up qs' w := by
  induction qs generalizing qs' w with
  | nil => cases qs' with | nil => rfl | cons x qs' => cases hq
  | cons x qs ih =>
    cases qs' with
    | nil => cases hq
    | cons x' qs' =>
      obtain ⟨o, remote, sni, msg⟩ := x
      obtain ⟨o', remote', sni', msg'⟩ := x'
      simp only [List.map_cons, List.cons.injEq, Prod.mk.injEq] at hq
      obtain ⟨⟨rfl, rfl, rfl⟩, hq⟩ := hq
      have e : Chain.serve senv (s.start o) up = Chain.serve senv (s.start o') up := by
        unfold Chain.serve
        rw [C99_whole_partial s hs o o' (h _ (.head _)) (h' _ (.head _)) up]
      simp only [servedInOrders, e]
      rw [ih qs' (fun x hx => h x (.tail _ hx)) (fun x hx => h' x (.tail _ hx)) hq]

/-! ### A sample, and settings that are not unambiguous -/

/-- The reverse names of the addresses 10.0.0.n. -/
def tenReverse (ip : IP) : Str :=
  match ip with
  | .v4 a => if a = 0x0a000001#32 then str! "1.0.0.10.in-addr.arpa." else if a = 0x0a000002#32 then str! "2.0.0.10.in-addr.arpa."
    else if a = 0x0a000003#32 then str! "3.0.0.10.in-addr.arpa." else []
  | .v6 _ => []

/-- An address record. -/
def tenRecord (a : BitVec 32) : RR := { name := [], rtype := typeA, ttl := 0, data := .a (.v4 a) }

/-- Settings with two entries in every map. -/
def orderSettings : Settings prefixEngine Nat where
  base := { caseConfig with
    names := ⟨[], [], fun ip => match ip with | .v4 a => if a = 1#32 then str! "a" else if a = 2#32 then str! "b" else [] | .v6 _ => []⟩
    customEnv := { sampleConfig.customEnv with reverseAddr := tenReverse }
    customRewrite := ⟨[(str! "home", str! "lan"), (str! "Office", str! "corp")], true⟩
    hosts := { v4 := { hosts := [(str! "printer", (.v4 0x0a000002#32, [])), (str! "router", (.v4 0x0a000009#32, []))] } }
    condRewrite := ⟨[(str! "old", str! "broken"), (str! "older", str! "broken")], false⟩ }
  clients := [(str! "laptop", [.v4 1#32]), (str! "phone", [.v4 2#32])]
  mapping := [(str! "nas.lan", [tenRecord 0x0a000001#32]), (str! "ads.lan", [tenRecord 0x0a000002#32])]
  zone := [(str! "tv.lan.", [tenRecord 0x0a000003#32])]
  groups := [(str! "default", [str! "g"]), (str! "laptop,phone", [str! "h", str! "g"])]
  conditional := [(str! "broken", foldingUp), (str! "Fritz.box", foldingUp)]

/-- The orders in which the settings are written. -/
def asWritten (s : Settings E W) : Orders W where
  clients := s.clients
  customVisited := s.base.customRewrite.rewrite
  customRules := fun _ => Cond.lowerRules s.base.customRewrite.rewrite s.base.customRewrite.rewrite
  mapping := s.mapping
  zone := s.zone
  reverse := CustomDns.dnsRecords s.base.customEnv.customTTL s.mapping s.zone
  hosts4 := s.base.hosts.v4.hosts
  hosts6 := s.base.hosts.v6.hosts
  groupsVisited := s.groups
  groups := Blocking.clientGroupsBlock { clientGroupsBlock := s.groups }
  conditional := s.conditional
  condVisited := s.base.condRewrite.rewrite
  condRules := fun _ => Cond.lowerRules s.base.condRewrite.rewrite s.base.condRewrite.rewrite

/-- The opposite orders. -/
def backwards (s : Settings E W) : Orders W where
  clients := s.clients.reverse
  customVisited := s.base.customRewrite.rewrite.reverse
  customRules := fun _ => (Cond.lowerRules s.base.customRewrite.rewrite.reverse s.base.customRewrite.rewrite).reverse
  mapping := s.mapping.reverse
  zone := s.zone.reverse
  reverse := (CustomDns.dnsRecords s.base.customEnv.customTTL s.mapping.reverse s.zone.reverse).reverse
  hosts4 := s.base.hosts.v4.hosts.reverse
  hosts6 := s.base.hosts.v6.hosts.reverse
  groupsVisited := s.groups.reverse
  groups := (Blocking.clientGroupsBlock { clientGroupsBlock := s.groups.reverse }).reverse
  conditional := s.conditional.reverse
  condVisited := s.base.condRewrite.rewrite.reverse
  condRules := fun _ => (Cond.lowerRules s.base.condRewrite.rewrite.reverse s.base.condRewrite.rewrite).reverse

theorem asWritten_of (s : Settings E W) : (asWritten s).Of s :=
  ⟨.refl _, .refl _, fun _ => .refl _, .refl _, .refl _, .refl _, .refl _, .refl _, .refl _, .refl _, .refl _, .refl _, fun _ => .refl _⟩

theorem backwards_of (s : Settings E W) : (backwards s).Of s :=
  ⟨List.reverse_perm _, List.reverse_perm _, fun _ => List.reverse_perm _, List.reverse_perm _, List.reverse_perm _,
    List.reverse_perm _, List.reverse_perm _, List.reverse_perm _, List.reverse_perm _, List.reverse_perm _, List.reverse_perm _,
    List.reverse_perm _, fun _ => List.reverse_perm _⟩

theorem inZone_of_isSuffixOf {n z : Str} (h : InZone n z) : z.isSuffixOf n = true := by
  rw [List.isSuffixOf_iff_suffix]
  rcases h with rfl | ⟨p, rfl⟩
  · exact List.suffix_refl _
  · exact ⟨p ++ ['.'], by simp⟩

theorem rulesApart_of_suffix {rules : List (Str × Str)} (h1 : (rules.map Prod.fst).Nodup)
    (h2 : ∀ e ∈ rules, ∀ e' ∈ rules, (lower e.1).isSuffixOf (lower e'.1) = true → e = e') : RulesApart rules :=
  ⟨h1, fun e he e' he' h => h2 e he e' he' (inZone_of_isSuffixOf h)⟩

theorem orderSettings_unambiguous : Unambiguous orderSettings where
  clients := by decide +kernel
  customRules := rulesApart_of_suffix (by decide +kernel) (by decide +kernel)
  mapping := by decide +kernel
  zone := by decide +kernel
  reverse := by
    intro e he e' he' r hr r' hr' ip ip' h1 h2 h3
    have key : ∀ e ∈ orderSettings.mapping ++ orderSettings.zone, ∀ r ∈ e.2, ∀ e' ∈ orderSettings.mapping ++ orderSettings.zone, ∀ r' ∈ e'.2,
        (CustomDns.addressOf r).map tenReverse = (CustomDns.addressOf r').map tenReverse → extractDomain e.1 = extractDomain e'.1 := by
      decide +kernel
    refine key e he r hr e' he' r' hr' ?_
    rw [h1, h2]
    exact congrArg some h3
  hosts4 := by decide +kernel
  hosts6 := by decide +kernel
  conditional := by decide +kernel
  condRules := rulesApart_of_suffix (by decide +kernel) (by decide +kernel)

/-- What a client sees: the codes and the data of the answers. -/
def orderView (s : Settings prefixEngine Nat) (os : List (Orders Nat)) (name : Str) (qtype : Nat := typeA) : List (List (Nat × List RData)) :=
  (servedInOrders sampleServer s foldingUp (os.map (fun o => (o, .udp (some (.v4 1#32)), none, query name qtype))) sampleWorld).map
    (fun ms => ms.map (fun m => (m.rcode, m.answer.map RR.data)))

-- One query after the other, in both orders: a custom name by way of a rewriting rule, its reverse name, a host,
-- and a blocked name.
example : orderView orderSettings [asWritten orderSettings, backwards orderSettings] (str! "nas.home.") =
    [[(0, [.a (.v4 0x0a000001#32)])], [(0, [.a (.v4 0x0a000001#32)])]] := by decide +kernel
example : orderView orderSettings [asWritten orderSettings, backwards orderSettings] (str! "1.0.0.10.in-addr.arpa.") typePTR =
    [[(0, [.ptr (str! "nas.lan.")])], [(0, [.ptr (str! "nas.lan.")])]] := by decide +kernel
example : orderView orderSettings [asWritten orderSettings, backwards orderSettings] (str! "9.0.0.10.in-addr.arpa.") typePTR =
    [[(0, [.ptr (str! "router.")])], [(0, [.ptr (str! "router.")])]] := by decide +kernel
example : orderView orderSettings [asWritten orderSettings, backwards orderSettings] (str! "ads.org.") =
    [[(0, [.a (.v4 0#32)])], [(0, [.a (.v4 0#32)])]] := by decide +kernel

-- Overlapping identifiers: the groups of a phone and of all clients, in both orders.
example : ([asWritten orderSettings, backwards orderSettings].map (fun o => Blocking.groupsToCheck ⟨fun _ => [], fun _ _ => false, fun _ _ => true⟩
    (orderSettings.start o).blockState.cgb (fun _ => none) {} { req := {}, clientNames := [str! "phone"] })) =
    [[str! "g", str! "g", str! "g", str! "h", str! "h"], [str! "g", str! "g", str! "g", str! "h", str! "h"]] := by decide +kernel

/-- C99 fails if two rewriting rules apply to a name: the same query, asked twice, gets two answers. -/
theorem C99_rules_false : ∃ (s : Settings prefixEngine Nat) (o o' : Orders Nat) (name : Str), o.Of s ∧ o'.Of s ∧
    orderView s [o, o'] name = [[(0, [.a (.v4 0x0a000001#32)])], [(0, [.a (.v4 0x0a000002#32)])]] :=
  ⟨{ orderSettings with
      base := { orderSettings.base with customRewrite := ⟨[(str! "home", str! "lan"), (str! "nas.home", str! "ads.lan")], true⟩ } },
    asWritten _, backwards _, str! "x.nas.home.", asWritten_of _, backwards_of _, by decide +kernel⟩

/-- C99 fails for reverse lookups of addresses with two names in the hosts files: each query gets one of them. -/
theorem C99_hosts_false : ∃ (s : Settings prefixEngine Nat) (o o' : Orders Nat) (name : Str), o.Of s ∧ o'.Of s ∧
    orderView s [o, o'] name typePTR = [[(0, [.ptr (str! "printer.")])], [(0, [.ptr (str! "scanner.")])]] :=
  ⟨{ orderSettings with
      base := { orderSettings.base with hosts := { v4 := { hosts := [(str! "printer", (.v4 0x0a000009#32, [])), (str! "scanner", (.v4 0x0a000009#32, []))] } } } },
    asWritten _, backwards _, str! "9.0.0.10.in-addr.arpa.", asWritten_of _, backwards_of _, by decide +kernel⟩

/-- Two custom names with the same address. -/
def twoNames : Settings prefixEngine Nat :=
  { orderSettings with
    mapping := [(str! "nas.lan", [tenRecord 0x0a000001#32]), (str! "ads.lan", [tenRecord 0x0a000001#32])], zone := [] }

/-- C99 fails for reverse lookups of addresses with two custom names: the order of the names depends on the start
of the server. -/
theorem C99_reverse_false : ∃ (s : Settings prefixEngine Nat) (o o' : Orders Nat) (name : Str), o.Of s ∧ o'.Of s ∧
    orderView s [o, o'] name typePTR =
      [[(0, [.ptr (str! "nas.lan."), .ptr (str! "ads.lan.")])], [(0, [.ptr (str! "ads.lan."), .ptr (str! "nas.lan.")])]] :=
  ⟨twoNames, asWritten _, { (backwards twoNames) with reverse := CustomDns.dnsRecords 60 twoNames.mapping.reverse [] },
    str! "1.0.0.10.in-addr.arpa.", asWritten_of _, { (backwards_of twoNames) with reverse := .refl _ }, by decide +kernel⟩

/-- C99 fails for custom names configured twice, in different letter case: which one counts depends on the start
of the server. -/
theorem C99_names_false : ∃ (s : Settings prefixEngine Nat) (o o' : Orders Nat) (name : Str), o.Of s ∧ o'.Of s ∧
    orderView s [o, o'] name = [[(0, [.a (.v4 0x0a000002#32)])], [(0, [.a (.v4 0x0a000001#32)])]] :=
  ⟨{ orderSettings with
      mapping := [(str! "nas.lan", [tenRecord 0x0a000001#32]), (str! "NAS.lan", [tenRecord 0x0a000002#32])], zone := [] },
    asWritten _, backwards _, str! "nas.lan.", asWritten_of _, backwards_of _, by decide +kernel⟩

end Verif.Props
