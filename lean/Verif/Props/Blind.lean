/-
C116: what clients can find out about each other's queries.
-/
import Verif.Props.ClientNames
import Verif.Props.Survival

namespace Verif.Props
open Verif.Dns Verif.ExpCache Verif.StringCache

variable {E : RegexEngine} {W : Type} {V : Type} {V' : Type} {A : Type}

/-! ### What a resolver's result depends on -/

/-- What the resolver returns depends on the request alone. -/
def Memoryless (n : Dns.Resolver W) : Prop := ∀ r w w', (n r w).1 = (n r w').1

/-- What the resolver returns depends on the request and on a part of the world. -/
def Sees (π : V → A) (n : Dns.Resolver V) : Prop :=
  ∀ r v v', π v = π v' → (n r v).1 = (n r v').1 ∧ π (n r v).2 = π (n r v').2

/-- Two resolvers with states of their own return the same, as far as their states look the same. -/
def SeesBoth (π : V → A) (π' : V' → A) (n : Dns.Resolver V) (n' : Dns.Resolver V') : Prop :=
  ∀ r v v', π v = π' v' → (n r v).1 = (n' r v').1 ∧ π (n r v).2 = π' (n' r v').2

/-- What the resolver returns and writes into the message depends on the request alone. -/
def Blind (n : Cond.MResolver W) : Prop := ∀ r w w', (n r w).1 = (n r w').1 ∧ (n r w).2.1 = (n r w').2.1

theorem blind_toM {n : Chain.MR W} (h : Sees Prod.fst n) : Blind (Chain.toM n) := fun r w w' => h r (r.req, w) (r.req, w') rfl

theorem sees_ofM {n : Cond.MResolver W} (h : Blind n) : Sees Prod.fst (Chain.ofM n) := fun r v v' _ => h r v.2 v'.2

theorem sees_liftUp {n : Dns.Resolver W} (h : Memoryless n) : Sees Prod.fst (Chain.liftUp n) := fun r v v' e => ⟨h r v.2 v'.2, e⟩

theorem sees_sudn {π : V → A} (cfg : Small.SudnCfg) {n : Dns.Resolver V} (h : Sees π n) : Sees π (Small.sudn cfg n) := by
  intro r v v' e
  unfold Small.sudn
  split
  · exact h r v v' e
  · split
    · exact ⟨rfl, e⟩
    · split
      · exact ⟨rfl, e⟩
      · exact h r v v' e

theorem sees_filtering {π : V → A} (types : List Nat) {n : Dns.Resolver V} (h : Sees π n) : Sees π (Small.filtering types n) := by
  intro r v v' e
  unfold Small.filtering
  split
  · exact ⟨rfl, e⟩
  · split
    · exact ⟨rfl, e⟩
    · exact h r v v' e

theorem sees_fqdnOnly {π : V → A} (b : Bool) {n : Dns.Resolver V} (h : Sees π n) : Sees π (Small.fqdnOnly b n) := by
  intro r v v' e
  unfold Small.fqdnOnly
  split
  · split
    · exact ⟨rfl, e⟩
    · split
      · exact ⟨rfl, e⟩
      · exact h r v v' e
  · exact h r v v' e

theorem sees_ede {π : V → A} (b : Bool) {n : Dns.Resolver V} (h : Sees π n) : Sees π (Small.ede b n) := by
  intro r v v' e
  unfold Small.ede
  have := h r v v' e
  split
  · exact this
  · revert this
    generalize n r v = y
    generalize n r v' = y'
    obtain ⟨o, x⟩ := y
    obtain ⟨o', x'⟩ := y'
    rintro ⟨h1, h2⟩
    simp only at h1 h2
    subst h1
    cases o <;> exact ⟨rfl, h2⟩

theorem sees_blocking {π : V → A} (env : Blocking.Env) (b : Blocking.BState E) {n : Dns.Resolver V} (h : Sees π n) :
    Sees π (Blocking.resolve env b n) := by
  intro r v v' e
  have hask : ∀ groups, (Blocking.askNext env b groups n r v).1 = (Blocking.askNext env b groups n r v').1 ∧
      π (Blocking.askNext env b groups n r v).2 = π (Blocking.askNext env b groups n r v').2 := by
    intro groups
    unfold Blocking.askNext
    have := h r v v' e
    revert this
    generalize n r v = y
    generalize n r v' = y'
    obtain ⟨o, x⟩ := y
    obtain ⟨o', x'⟩ := y'
    rintro ⟨h1, h2⟩
    simp only at h1 h2
    subst h1
    cases o with
    | ok a =>
      simp only
      split
      · split <;> exact ⟨rfl, h2⟩
      · exact ⟨rfl, h2⟩
    | _ => exact ⟨rfl, h2⟩
  unfold Blocking.resolve
  simp only
  split
  · split
    · exact h r v v' e
    · exact ⟨rfl, e⟩
    · exact hask _
  · exact hask _

theorem sees_hosts {π : V → A} (b : Bool) (cfg : HostsFile.Cfg) (hosts : HostsFile.Hosts) (o4 o6 : List (Str × (IP × List Str)))
    {n : Dns.Resolver V} (h : Sees π n) : Sees π (HostsFile.resolve b cfg hosts o4 o6 n) := by
  intro r v v' e
  unfold HostsFile.resolve
  split
  · exact h r v v' e
  · split
    · exact ⟨rfl, e⟩
    · split
      · exact ⟨rfl, e⟩
      · split
        · exact ⟨rfl, e⟩
        · exact h r v v' e

/-! ### Rewriting and conditional upstreams -/

theorem blind_conditional {mapping : AMap Str (Dns.Resolver W)} (hm : ∀ z r, AMap.get mapping z = some r → Memoryless r)
    {n : Cond.MResolver W} (h : Blind n) : Blind (Cond.conditional mapping n) := by
  intro r w w'
  unfold Cond.conditional
  split
  · split
    · exact ⟨rfl, rfl⟩
    · rename_i q _ _
      cases hl : Cond.lookup mapping (extractDomain q.name) with
      | none => exact h r w w'
      | some reso =>
        have hr : Memoryless reso := by
          unfold Cond.lookup at hl
          split at hl
          · cases hw : walk (AMap.get mapping) ((extractDomain q.name).length + 1) (extractDomain q.name) with
            | none => rw [hw] at hl; cases hl
            | some x =>
              rw [hw] at hl
              cases hl
              exact hm _ _ (walk_some hw).2.2.1
          · exact hm _ _ hl
        simp only [Cond.internalResolve]
        have := hr { r with req := { r.req with question := Cond.setName (fqdn (extractDomain q.name)) r.req.question } } w w'
        revert this
        generalize reso _ w = y
        generalize reso _ w' = y'
        obtain ⟨o, x⟩ := y
        obtain ⟨o', x'⟩ := y'
        intro h1
        simp only at h1
        subst h1
        cases o <;> exact ⟨rfl, rfl⟩
  · exact h r w w'

theorem blind_rewriter (fallback : Bool) (order : Nat → List (Str × Str)) {i n : Cond.MResolver W} (hi : Blind i) (hn : Blind n) :
    Blind (Cond.rewriter fallback order i n) := by
  intro r w w'
  unfold Cond.rewriter
  simp only
  generalize Cond.rewriteQuestions order 0 r.req.question [] = y
  obtain ⟨questions, rewritten, names⟩ := y
  simp only
  have h := hi (if rewritten then { r with req := { r.req with question := questions } } else r) w w'
  revert h
  generalize i _ w = z
  generalize i _ w' = z'
  obtain ⟨o, msg, x⟩ := z
  obtain ⟨o', msg', x'⟩ := z'
  rintro ⟨h1, h2⟩
  simp only at h1 h2
  subst h1 h2
  cases o with
  | panic => exact ⟨rfl, rfl⟩
  | err e => simp only; split
             · exact hn _ _ _
             · exact ⟨rfl, rfl⟩
  | noResponse => exact hn _ _ _
  | ok a =>
    simp only
    split
    · exact hn _ _ _
    · split <;> exact ⟨rfl, rfl⟩

theorem blind_newRewriter (cfg : Cond.RewriteCfg) (order : Nat → List (Str × Str)) {inner : Cond.MResolver W → Cond.MResolver W}
    (hi : ∀ n, Blind n → Blind (inner n)) {n : Cond.MResolver W} (hn : Blind n) : Blind (Cond.newRewriter cfg order inner n) := by
  unfold Cond.newRewriter
  split
  · exact hi _ hn
  · exact blind_rewriter _ _ (hi _ (fun _ _ _ => ⟨rfl, rfl⟩)) hn

/-! ### Custom DNS -/

/-- The same result, as far as it can be seen. -/
def SameSeen {R : Type} (π : V → A) (π' : V' → A) : Option (R × V) → Option (R × V') → Prop
  | none, none => True
  | some x, some y => x.1 = y.1 ∧ π x.2 = π' y.2
  | _, _ => False

theorem sees_entry {π : V → A} {π' : V' → A} (env : CustomDns.Env) {recur : Request → List Str → V → Option (Outcome × V)}
    {recur' : Request → List Str → V' → Option (Outcome × V')}
    (hr : ∀ r l v v', π v = π' v' → SameSeen π π' (recur r l v) (recur' r l v')) (r : Request) (l : List Str) (q : Question) (rr : RR)
    (v : V) (v' : V') (e : π v = π' v') :
    SameSeen π π' (CustomDns.processEntry env recur r l q rr v) (CustomDns.processEntry env recur' r l q rr v') := by
  unfold CustomDns.processEntry
  split
  · exact ⟨rfl, e⟩
  · exact ⟨rfl, e⟩
  · rename_i target _
    unfold CustomDns.processCNAME
    simp only
    split
    · exact ⟨rfl, e⟩
    · split
      · exact ⟨rfl, e⟩
      · have := hr (CustomDns.targetRequest env r (trimSuffixDot target) q.qtype (l ++ [trimSuffixDot target]))
          (l ++ [trimSuffixDot target]) v v' e
        revert this
        generalize recur _ _ v = y
        generalize recur' _ _ v' = y'
        intro this
        match y, y', this with
        | none, none, _ => trivial
        | some (o, x), some (o', x'), ⟨h1, h2⟩ =>
          simp only at h1 h2
          subst h1
          cases o <;> exact ⟨rfl, h2⟩
  · split <;> exact ⟨rfl, e⟩

theorem sees_entries {π : V → A} {π' : V' → A} (env : CustomDns.Env) {recur : Request → List Str → V → Option (Outcome × V)}
    {recur' : Request → List Str → V' → Option (Outcome × V')}
    (hr : ∀ r l v v', π v = π' v' → SameSeen π π' (recur r l v) (recur' r l v')) (r : Request) (l : List Str) (q : Question) (rs : List RR) :
    ∀ (acc : List RR) (v : V) (v' : V'), π v = π' v' →
      SameSeen π π' (CustomDns.processEntries env recur r l q rs acc v) (CustomDns.processEntries env recur' r l q rs acc v') := by
  induction rs with
  | nil => intro acc v v' e; exact ⟨rfl, e⟩
  | cons rr rs ih =>
    intro acc v v' e
    rw [CustomDns.processEntries, CustomDns.processEntries]
    have := sees_entry env hr r l q rr v v' e
    revert this
    generalize CustomDns.processEntry env recur r l q rr v = y
    generalize CustomDns.processEntry env recur' r l q rr v' = y'
    intro this
    match y, y', this with
    | none, none, _ => trivial
    | some (o, x), some (o', x'), ⟨h1, h2⟩ =>
      simp only at h1 h2
      subst h1
      cases o with
      | ok a => exact ih _ _ _ h2
      | _ => exact ⟨rfl, h2⟩

theorem sees_processRequest {π : V → A} {π' : V' → A} (env : CustomDns.Env) (mapping : CustomDns.Mapping) {n : Dns.Resolver V} {n' : Dns.Resolver V'} (h : SeesBoth π π' n n') (depth : Nat) :
    ∀ (r : Request) (l : List Str) (v : V) (v' : V'), π v = π' v' →
      SameSeen π π' (CustomDns.processRequest env mapping n depth r l v) (CustomDns.processRequest env mapping n' depth r l v') := by
  induction depth with
  | zero => intro r l v v' e; trivial
  | succ depth ih =>
    intro r l v v' e
    rw [CustomDns.processRequest, CustomDns.processRequest]
    split
    · exact ⟨rfl, e⟩
    · split
      · exact h r v v' e
      · rename_i q _ _ _ _ entries _
        have := sees_entries env ih r l q entries [] v v' e
        revert this
        generalize CustomDns.processEntries env (CustomDns.processRequest env mapping n depth) r l q entries [] v = y
        generalize CustomDns.processEntries env (CustomDns.processRequest env mapping n' depth) r l q entries [] v' = y'
        intro this
        match y, y', this with
        | none, none, _ => trivial
        | some (o, x), some (o', x'), ⟨h1, h2⟩ =>
          simp only at h1 h2
          subst h1
          cases o with
          | ok a =>
            simp only
            split
            · exact ⟨rfl, h2⟩
            · split
              · exact h r x x' h2
              · exact ⟨rfl, h2⟩
          | _ => exact ⟨rfl, h2⟩

theorem sees_customResolve {π : V → A} {π' : V' → A} (env : CustomDns.Env) (mapping : CustomDns.Mapping) (reverse : AMap Str (List Str))
    {n : Dns.Resolver V} {n' : Dns.Resolver V'} (h : SeesBoth π π' n n') (depth : Nat) (r : Request) (v : V) (v' : V') (e : π v = π' v') :
    SameSeen π π' (CustomDns.resolve env mapping reverse n depth r v) (CustomDns.resolve env mapping reverse n' depth r v') := by
  unfold CustomDns.resolve
  split
  · exact ⟨rfl, e⟩
  · split
    · exact ⟨rfl, e⟩
    · exact sees_processRequest env mapping h depth r [] v v' e

theorem sees_customBoth (env : CustomDns.Env) (mapping : CustomDns.Mapping) (reverse : AMap Str (List Str)) (depth : Nat)
    {n : Chain.MR V} {n' : Chain.MR V'} (h : SeesBoth Prod.fst Prod.fst n n') :
    SeesBoth Prod.fst Prod.fst (Chain.customDns env mapping reverse depth n) (Chain.customDns env mapping reverse depth n') := by
  intro r v v' e
  have hn : SeesBoth (Prod.fst : Msg × V → Msg) (Prod.fst : Msg × V' → Msg)
      (fun (r : Request) (w : Msg × V) => if r.internal then ((n r (r.req, w.2)).1, (w.1, (n r (r.req, w.2)).2.2)) else n r w)
      (fun (r : Request) (w : Msg × V') => if r.internal then ((n' r (r.req, w.2)).1, (w.1, (n' r (r.req, w.2)).2.2)) else n' r w) := by
    intro r v v' e
    simp only
    split
    · exact ⟨(h r (r.req, v.2) (r.req, v'.2) rfl).1, e⟩
    · exact h r v v' e
  have key := sees_customResolve env mapping reverse hn depth r v v' e
  unfold Chain.customDns
  revert key
  generalize CustomDns.resolve env mapping reverse _ depth r v = y
  generalize CustomDns.resolve env mapping reverse _ depth r v' = y'
  intro key
  cases y with
  | none =>
    cases y' with
    | none => exact ⟨rfl, e⟩
    | some x' => exact key.elim
  | some x =>
    cases y' with
    | none => exact key.elim
    | some x' => exact key

theorem sees_customDns (env : CustomDns.Env) (mapping : CustomDns.Mapping) (reverse : AMap Str (List Str)) (depth : Nat)
    {n : Chain.MR V} (h : Sees Prod.fst n) : Sees Prod.fst (Chain.customDns env mapping reverse depth n) :=
  sees_customBoth env mapping reverse depth h

/-! ### Caching switched off, metrics, query log -/

theorem sees_caching_off (env : Caching.Env) {cfg : Caching.Cfg} (hoff : cfg.enabled = false) {n : Chain.MR W} (h : Sees Prod.fst n) :
    Sees Prod.fst (Chain.caching env cfg n) := by
  intro r v v' e
  unfold Chain.caching Caching.resolve
  simp only [hoff]
  exact h r (v.1, v.2.2) (v'.1, v'.2.2) e

theorem sees_metrics (b : Bool) {n : Chain.MR W} (h : Sees Prod.fst n) : Sees Prod.fst (Chain.metrics b n) := by
  intro r v v' e
  unfold Chain.metrics
  have := h r v v' e
  revert this
  generalize n r v = y
  generalize n r v' = y'
  obtain ⟨o, m, x⟩ := y
  obtain ⟨o', m', x'⟩ := y'
  rintro ⟨h1, h2⟩
  simp only at h1 h2
  subst h1 h2
  cases o <;> simp only <;> first | exact ⟨rfl, rfl⟩ | exact ⟨trivial, trivial⟩ | (split <;> first | exact ⟨rfl, rfl⟩ | (split <;> exact ⟨rfl, rfl⟩))

theorem sees_queryLog (cfg : QueryLog.Cfg) (env : QueryLog.Env) (start duration : Int) {n : Chain.MR W} (h : Sees Prod.fst n) :
    Sees Prod.fst (Chain.queryLog cfg env start duration n) := by
  refine sees_ofM ?_
  intro r w w'
  unfold QueryLog.resolve
  have := blind_toM h r w.2 w'.2
  revert this
  generalize Chain.toM n r w.2 = y
  generalize Chain.toM n r w'.2 = y'
  obtain ⟨o, m, x⟩ := y
  obtain ⟨o', m', x'⟩ := y'
  rintro ⟨h1, h2⟩
  simp only at h1 h2
  subst h1 h2
  cases o with
  | ok a =>
    simp only
    split
    · exact ⟨rfl, rfl⟩
    · split <;> exact ⟨rfl, rfl⟩
  | _ => exact ⟨rfl, rfl⟩

/-- Everything behind the client names. -/
theorem sees_observed {c : Chain.Config E W} (hoff : c.cache.enabled = false) {up : Dns.Resolver W} (hu : Memoryless up)
    (hm : ∀ z r, AMap.get c.condMapping z = some r → Memoryless r) : Sees Prod.fst (Chain.observed c up) := by
  have hcond : Sees Prod.fst (Chain.cond c up) :=
    sees_ofM (blind_newRewriter _ _ (fun _ => blind_conditional hm) (blind_toM (sees_sudn _ (sees_liftUp hu))))
  have hblock : Sees Prod.fst (Chain.block c up) := sees_blocking _ _ (sees_caching_off _ hoff hcond)
  have hlocal : Sees Prod.fst (Chain.local c up) :=
    sees_ofM (blind_newRewriter _ _ (fun _ h => blind_toM (sees_customDns _ _ _ _ (sees_ofM h))) (blind_toM (sees_hosts _ _ _ _ _ hblock)))
  exact sees_ede _ (sees_queryLog _ _ _ _ (sees_metrics _ hlocal))

/-! ### Client names -/

/-- The resolver asked for names of clients goes by the address alone. -/
def MemorylessNames (lookup : Option (ClientNames.Lookup V)) : Prop :=
  ∀ ask, lookup = some ask → ∀ ip v v', (ask ip v).1 = (ask ip v').1

theorem resolveNames_same {cfg : ClientNames.Cfg} {lookup : Option (ClientNames.Lookup V)} (hl : MemorylessNames lookup) (ip : IP) (v v' : V) :
    (ClientNames.resolveClientNames cfg lookup ip v).1 = (ClientNames.resolveClientNames cfg lookup ip v').1 := by
  unfold ClientNames.resolveClientNames
  split
  · rfl
  · cases lookup with
    | none => rfl
    | some ask =>
      simp only
      have := hl ask rfl ip v v'
      revert this
      generalize ask ip v = y
      generalize ask ip v' = y'
      obtain ⟨o, x⟩ := y
      obtain ⟨o', x'⟩ := y'
      intro h1
      simp only at h1
      subst h1
      cases o with
      | none => rfl
      | some a => simp only; split <;> rfl

theorem getNames_same {cfg : ClientNames.Cfg} (hinj : ∀ a b, cfg.ipString a = cfg.ipString b → a = b)
    {lookup : Option (ClientNames.Lookup V)} (hl : MemorylessNames lookup) {cn : St (List Str)} (h : NamesSound cfg lookup cn) (r : Request)
    (v v0 : V) :
    (ClientNames.getClientNames cfg lookup r cn v).1 =
      if r.requestClientID ≠ [] then [r.requestClientID]
      else match r.clientIP with
        | none => []
        | some ip => (ClientNames.resolveClientNames cfg lookup ip v0).1 := by
  obtain ⟨h1, h2, h3, h4⟩ := C47_get_names cfg lookup r cn v
  split
  · rename_i hid
    rw [h1 hid]
  · rename_i hid
    have hid : r.requestClientID = [] := Classical.byContradiction hid
    cases hip : r.clientIP with
    | none => rw [h2 hid hip]
    | some ip =>
      simp only
      cases hp : cn.cache.peek (cfg.ipString ip) with
      | none => rw [(h3 ip hid hip hp).1]; exact resolveNames_same hl ip v v0
      | some el =>
        rw [(h4 ip el hid hip hp).1]
        obtain ⟨ip', w, e1, e2⟩ := h _ _ (AMap.get_eq_some_mem hp)
        rw [e2, hinj _ _ e1]
        exact resolveNames_same hl ip w v0

theorem withNames_same {cfg : ClientNames.Cfg} (hinj : ∀ a b, cfg.ipString a = cfg.ipString b → a = b)
    {lookup : Option (ClientNames.Lookup V)} (hl : MemorylessNames lookup) {cn cn' : St (List Str)} (h : NamesSound cfg lookup cn)
    (h' : NamesSound cfg lookup cn') (r : Request) (v v' : V) :
    (ClientNames.withNames cfg lookup r cn v).1 = (ClientNames.withNames cfg lookup r cn' v').1 := by
  unfold ClientNames.withNames
  simp only
  rw [getNames_same hinj hl h r v v, getNames_same hinj hl h' r v' v]

/-- The whole chain, in worlds whose cached client names are what lookups gave. -/
theorem whole_same {c : Chain.Config E W} (hoff : c.cache.enabled = false) {up : Dns.Resolver W} (hu : Memoryless up)
    (hm : ∀ z r, AMap.get c.condMapping z = some r → Memoryless r) (hinj : ∀ a b, c.names.ipString a = c.names.ipString b → a = b)
    (hl : MemorylessNames c.namesLookup) {w w' : Chain.World W} (h : NamesSound c.names c.namesLookup w.1)
    (h' : NamesSound c.names c.namesLookup w'.1) (r : Request) (m : Msg) :
    (Chain.whole c up r (m, w)).1 = (Chain.whole c up r (m, w')).1 ∧ (Chain.whole c up r (m, w)).2.1 = (Chain.whole c up r (m, w')).2.1 := by
  have hecs : ∀ r m, (Chain.ecs c.ecs (Chain.clientNames c.names (c.namesLookup.map Chain.liftLookup) (Chain.observed c up)) r (m, w)).1 =
      (Chain.ecs c.ecs (Chain.clientNames c.names (c.namesLookup.map Chain.liftLookup) (Chain.observed c up)) r (m, w')).1 ∧
      (Chain.ecs c.ecs (Chain.clientNames c.names (c.namesLookup.map Chain.liftLookup) (Chain.observed c up)) r (m, w)).2.1 =
      (Chain.ecs c.ecs (Chain.clientNames c.names (c.namesLookup.map Chain.liftLookup) (Chain.observed c up)) r (m, w')).2.1 := by
    intro r m
    obtain ⟨cn, q, v⟩ := w
    obtain ⟨cn', q', v'⟩ := w'
    unfold Chain.ecs
    cases Ecs.transform c.ecs r with
    | none => exact ⟨rfl, rfl⟩
    | some r =>
      simp only [Chain.clientNames, withNames_lift]
      rw [withNames_same hinj hl h h' r v v']
      exact sees_observed hoff hu hm _ _ _ rfl
  unfold Chain.whole Small.filtering
  split
  · exact ⟨rfl, rfl⟩
  · split
    · exact ⟨rfl, rfl⟩
    · unfold Small.fqdnOnly
      split
      · split
        · exact ⟨rfl, rfl⟩
        · split
          · exact ⟨rfl, rfl⟩
          · exact hecs _ _
      · exact hecs _ _

theorem serve_same (senv : Server.Env) {c : Chain.Config E W} (hoff : c.cache.enabled = false) {up : Dns.Resolver W} (hu : Memoryless up)
    (hm : ∀ z r, AMap.get c.condMapping z = some r → Memoryless r) (hinj : ∀ a b, c.names.ipString a = c.names.ipString b → a = b)
    (hl : MemorylessNames c.namesLookup) {w w' : Chain.World W} (h : NamesSound c.names c.namesLookup w.1)
    (h' : NamesSound c.names c.namesLookup w'.1) (remote : Server.Addr) (sni : Option Str) (msg : Msg) :
    (Chain.serve senv c up remote sni msg w).1 = (Chain.serve senv c up remote sni msg w').1 := by
  unfold Chain.serve Server.onRequest Server.handleReq Server.resolve
  generalize Server.newRequestFromDNS remote sni msg = r
  cases r.req.question with
  | nil => rfl
  | cons q qs =>
    simp only
    have := whole_same hoff hu hm hinj hl h h' r r.req
    have : (Chain.toM (Chain.whole c up) r w).1 = (Chain.toM (Chain.whole c up) r w').1 ∧
        (Chain.toM (Chain.whole c up) r w).2.1 = (Chain.toM (Chain.whole c up) r w').2.1 := this
    revert this
    generalize Chain.toM (Chain.whole c up) r w = y
    generalize Chain.toM (Chain.whole c up) r w' = y'
    obtain ⟨o, m, x⟩ := y
    obtain ⟨o', m', x'⟩ := y'
    rintro ⟨h1, h2⟩
    simp only at h1 h2
    subst h1 h2
    cases o with
    | err e => simp only; cases senv.asUpstream e <;> rfl
    | _ => rfl

/-! ### Histories -/

theorem withNames_sound {cfg : ClientNames.Cfg} {lookup : Option (ClientNames.Lookup V)} {cn : St (List Str)} (h : NamesSound cfg lookup cn)
    (r : Request) (v : V) : NamesSound cfg lookup (ClientNames.withNames cfg lookup r cn v).2.1 :=
  namesSound_step cfg lookup ⟨cn, v⟩ h (.request r)

theorem names_whole {c : Chain.Config E W} (up : Dns.Resolver W) (r : Request) (m : Msg) {w : Chain.World W}
    (h : NamesSound c.names c.namesLookup w.1) : NamesSound c.names c.namesLookup (Chain.whole c up r (m, w)).2.2.1 := by
  obtain ⟨cn, q, v⟩ := w
  have hecs : ∀ r m, NamesSound c.names c.namesLookup
      (Chain.ecs c.ecs (Chain.clientNames c.names (c.namesLookup.map Chain.liftLookup) (Chain.observed c up)) r (m, (cn, (q, v)))).2.2.1 := by
    intro r m
    unfold Chain.ecs
    cases Ecs.transform c.ecs r with
    | none => exact h
    | some r =>
      simp only [Chain.clientNames, withNames_lift]
      exact withNames_sound h r v
  unfold Chain.whole Small.filtering
  split
  · exact h
  · split
    · exact h
    · unfold Small.fqdnOnly
      split
      · split
        · exact h
        · split
          · exact h
          · exact hecs _ _
      · exact hecs _ _

theorem names_befall (senv : Server.Env) {c : Chain.Config E W} (up : Dns.Resolver W) {w w' : Chain.World W} (x : Incident)
    (h : NamesSound c.names c.namesLookup w.1) (hw : (befall senv c up w x).2 = some w') : NamesSound c.names c.namesLookup w'.1 := by
  cases x with
  | event e =>
    cases e with
    | query remote sni msg =>
      simp only [befall, happen, Option.some.injEq] at hw
      rw [← hw, serve_world]
      split
      · exact h
      · exact names_whole up _ _ h
    | pass ms =>
      simp only [befall, happen, Option.some.injEq] at hw
      rw [← hw]
      exact h
    | cleanUp =>
      simp only [befall, happen] at hw
      revert hw
      split
      · rintro ⟨rfl⟩; exact h
      · rintro ⟨⟩
  | message id m =>
    simp only [befall] at hw
    revert hw
    split <;> (rintro ⟨rfl⟩; exact h)
  | load store now later k => simp only [befall, Option.some.injEq] at hw; rw [← hw]; exact h
  | flush => simp only [befall, Option.some.injEq] at hw; rw [← hw]; exact h

theorem names_endures (senv : Server.Env) {names : ClientNames.Cfg} {lookup : Option (ClientNames.Lookup (Caching.CState × W))}
    (xs : List (Chain.Config E W × Dns.Resolver W × Incident)) (hxs : ∀ x ∈ xs, x.1.names = names ∧ x.1.namesLookup = lookup) :
    ∀ {w w' : Chain.World W}, NamesSound names lookup w.1 → endures senv xs w = some w' → NamesSound names lookup w'.1 := by
  induction xs with
  | nil => intro w w' h hw; cases hw; exact h
  | cons x xs ih =>
    intro w w' h hw
    unfold endures at hw
    obtain ⟨rfl, rfl⟩ := hxs x (by simp)
    revert hw
    cases hb : (befall senv x.1 x.2.1 w x.2.2).2 with
    | none => rintro ⟨⟩
    | some v =>
      intro hw
      exact ih (fun y hy => hxs y (by simp [hy])) (names_befall senv x.2.1 x.2.2 h hb) hw

/-- A server that was just started has no client names yet. -/
theorem namesSound_fresh {cfg : ClientNames.Cfg} {lookup : Option (ClientNames.Lookup V)} {cn : St (List Str)} (h : cn.cache.items = []) :
    NamesSound cfg lookup cn := by
  intro k el hm
  rw [h] at hm
  cases hm

/-- **C116, without caching.** If answers are not cached and the upstreams (also conditional ones, and those asked for client names)
answer by what they are asked alone, then what a client gets depends on its query alone: whatever happened before - queries of this
and other clients, messages from other instances, other lists, upstreams and settings (but for client names) -, the messages sent
are the same. -/
theorem C116_uncached_partial (senv : Server.Env) (c : Chain.Config E W) (hoff : c.cache.maxTime < 0) (up : Dns.Resolver W) (hu : Memoryless up)
    (hm : ∀ z r, AMap.get c.condMapping z = some r → Memoryless r) (hinj : ∀ a b, c.names.ipString a = c.names.ipString b → a = b)
    (hl : MemorylessNames c.namesLookup) (xs ys : List (Chain.Config E W × Dns.Resolver W × Incident))
    (hxs : ∀ x ∈ xs, x.1.names = c.names ∧ x.1.namesLookup = c.namesLookup)
    (hys : ∀ y ∈ ys, y.1.names = c.names ∧ y.1.namesLookup = c.namesLookup) (w0 v0 w v : Chain.World W)
    (hw0 : w0.1.cache.items = []) (hv0 : v0.1.cache.items = []) (hw : endures senv xs w0 = some w) (hv : endures senv ys v0 = some v)
    (remote : Server.Addr) (sni : Option Str) (msg : Msg) :
    (Chain.serve senv c up remote sni msg w).1 = (Chain.serve senv c up remote sni msg v).1 :=
  serve_same senv (by simp only [Caching.Cfg.enabled, decide_eq_false_iff_not]; omega) hu hm hinj hl
    (names_endures senv xs hxs (namesSound_fresh hw0) hw) (names_endures senv ys hys (namesSound_fresh hv0) hv) remote sni msg

/-! ### Instances -/

/-- A way to write addresses, each another way. -/
def unaryText : IP → Str
  | .v4 a => '4' :: List.replicate a.toNat '.'
  | .v6 a => '6' :: List.replicate a.toNat ':'

theorem unaryText_inj (a b : IP) (h : unaryText a = unaryText b) : a = b := by
  cases a <;> cases b <;> simp only [unaryText, List.cons.injEq] at h
  · congr 1
    exact BitVec.eq_of_toNat_eq (by simpa using congrArg List.length h.2)
  · exact absurd h.1 (by decide)
  · exact absurd h.1 (by decide)
  · congr 1
    exact BitVec.eq_of_toNat_eq (by simpa using congrArg List.length h.2)

/-- The sample server with caching up to `maxTime`, and with names of clients asked for. -/
def askingConfig (maxTime : Int) : Chain.Config prefixEngine Nat :=
  { sampleConfig with
    ecs := {}
    names := ⟨[], [], unaryText⟩
    namesLookup := some (fun ip w => (match ip with
      | .v4 1#32 => some [{ name := str! "1.", rtype := 12, ttl := 60, data := .ptr (str! "laptop.") }]
      | _ => none, w.1, w.2 + 1))
    cache := { maxTime := maxTime } }

theorem countingUp_memoryless : Memoryless countingUp := by
  intro r w w'
  unfold countingUp
  split
  · rfl
  · split <;> rfl

/-- Another client asks for a name, and ten seconds pass. -/
def curiousHistory (maxTime : Int) : List (Chain.Config prefixEngine Nat × Dns.Resolver Nat × Incident) :=
  [.event (.query (.udp (some (.v4 1#32))) none (query (str! "www.org."))), .event (.pass 10000)].map
    (fun i => (askingConfig maxTime, countingUp, i))

/-- What a client gets to see of answers: codes and TTLs, after a history. -/
def ttlsAfter (maxTime : Int) (xs : List (Chain.Config prefixEngine Nat × Dns.Resolver Nat × Incident)) : Option (List (Nat × List UInt32)) :=
  (endures sampleServer xs sampleWorld).map (fun w =>
    (Chain.serve sampleServer (askingConfig maxTime) countingUp (.udp (some (.v4 2#32))) none (query (str! "www.org.")) w).1.map
      (fun m => (m.rcode, m.answer.map RR.ttl)))

/-- All hypotheses of `C116_uncached_partial` are met, and a query is answered. -/
example (w : Chain.World Nat) (hw : endures sampleServer (curiousHistory (-1)) sampleWorld = some w) :
    (Chain.serve sampleServer (askingConfig (-1)) countingUp (.udp (some (.v4 2#32))) none (query (str! "www.org.")) w).1 =
    (Chain.serve sampleServer (askingConfig (-1)) countingUp (.udp (some (.v4 2#32))) none (query (str! "www.org.")) sampleWorld).1 := by
  refine C116_uncached_partial sampleServer (askingConfig (-1)) (by decide) countingUp countingUp_memoryless ?_ unaryText_inj ?_
    (curiousHistory (-1)) [] ?_ (fun _ h => by cases h) sampleWorld sampleWorld w sampleWorld rfl rfl hw rfl _ _ _
  · intro z r h
    have hm := AMap.get_eq_some_mem h
    simp only [askingConfig, sampleConfig, List.mem_singleton, Prod.mk.injEq] at hm
    rw [hm.2]
    exact countingUp_memoryless
  · intro ask h ip v v'
    cases h
    rfl
  · intro x hx
    obtain ⟨i, _, rfl⟩ := List.mem_map.1 hx
    exact ⟨rfl, rfl⟩

example : ttlsAfter (-1) [] = some [(0, [60])] ∧ ttlsAfter (-1) (curiousHistory (-1)) = some [(0, [60])] := by decide +kernel

/-- **C116 is false with caching**, as configured by default: the TTL of the answer tells a client that, and when, another one asked for
the name. -/
theorem C116_cached_false : ttlsAfter 0 [] = some [(0, [60])] ∧ ttlsAfter 0 (curiousHistory 0) = some [(0, [50])] := by decide +kernel

end Verif.Props
