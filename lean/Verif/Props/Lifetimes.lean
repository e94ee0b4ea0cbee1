/-
C132: the TTLs clients get keep to the configuration, over whole histories of the whole server.
-/
import Verif.Props.Origin
import Verif.Props.CacheTTL
import Verif.Props.Transparent

namespace Verif.Props
open Verif.Dns Verif.ExpCache Verif.StringCache Verif.Spec

variable {E : RegexEngine} {V W : Type}

/-! ### Specification -/

/-- The TTL of a block answer. -/
def blockTTL : Blocking.Handler → Option UInt32
  | .zeroIP ttl => some ttl
  | .nxDomain => none
  | .ips _ ttl => some ttl

/-- The TTLs written in the configuration: of the records of custom DNS, of its reverse names, of hosts files, of block
answers. -/
inductive ConfiguredTTL (c : Chain.Config E W) : UInt32 → Prop where
  | record {z : Str} {es : List RR} {e : RR} : AMap.get c.customMapping z = some es → e ∈ es → ConfiguredTTL c e.ttl
  | reverse : ConfiguredTTL c c.customEnv.customTTL
  | hosts : ConfiguredTTL c c.hostsCfg.ttl
  | block {t : UInt32} : blockTTL c.blockState.handler = some t → ConfiguredTTL c t

/-- Whole seconds of a duration in nanoseconds. -/
def wholeSeconds (ns : Int) : Nat := (ns / 1000000000).toNat

/-! ### Resolvers -/

/-- The TTLs and data of the records of an answer. -/
def Short (T : UInt32 → RData → Prop) (o : Outcome) : Prop := ∀ y, o = .ok y → ∀ rr ∈ y.res.answer, T rr.ttl rr.data

/-- A resolver keeps the invariant, and gives answers with such records to the requests in `C`. -/
def Brief (C : Request → Prop) (T : UInt32 → RData → Prop) (I : V → Prop) (n : Chain.MR V) : Prop :=
  ∀ r w, I w.2 → I (n r w).2.2 ∧ (C r → Short T (n r w).1)

/-- If `b`: requests the answer cache is used for, without client subnet but that of a single address. -/
def ForAll (b : Bool) (r : Request) : Prop := b = true → Caching.isRequestCacheable r.req = true

variable {C : Request → Prop} {T : UInt32 → RData → Prop} {I : V → Prop} {n : Chain.MR V} {b : Bool}

theorem Short.panic : Short T .panic := fun _ h => nomatch h
theorem Short.noResponse : Short T .noResponse := fun _ h => nomatch h
theorem Short.err {e : Str} : Short T (.err e) := fun _ h => nomatch h
theorem Short.ok {y : Response} (h : ∀ rr ∈ y.res.answer, T rr.ttl rr.data) : Short T (.ok y) := fun z hz => by cases hz; exact h

theorem brief_filtering (ts : List Nat) (h : Brief C T I n) : Brief C T I (Small.filtering ts n) := by
  intro r w hi
  unfold Small.filtering
  cases r.req.question with
  | nil => exact ⟨hi, fun _ => Short.panic⟩
  | cons q _ =>
    simp only
    split
    · exact ⟨hi, fun _ => Short.ok (fun _ h => nomatch h)⟩
    · exact h r w hi

theorem brief_fqdnOnly (e : Bool) (h : Brief C T I n) : Brief C T I (Small.fqdnOnly e n) := by
  intro r w hi
  unfold Small.fqdnOnly
  split
  · cases r.req.question with
    | nil => exact ⟨hi, fun _ => Short.panic⟩
    | cons q _ =>
      simp only
      split
      · exact ⟨hi, fun _ => Short.ok (fun _ h => nomatch h)⟩
      · exact h r w hi
  · exact h r w hi

theorem brief_ecs (cfg : Ecs.Cfg) (h : Brief C T I n) :
    Brief (fun r => ∀ r1, Ecs.transform cfg r = some r1 → C r1) T I (Chain.ecs cfg n) := by
  intro r w hi
  unfold Chain.ecs
  cases hr : Ecs.transform cfg r with
  | none => exact ⟨hi, fun _ => Short.panic⟩
  | some r1 => exact ⟨(h r1 (r1.req, w.2) hi).1, fun hc => (h r1 (r1.req, w.2) hi).2 (hc r1 hr)⟩

theorem brief_clientNames (cfg : ClientNames.Cfg) (l : Option (ClientNames.Lookup V))
    (hl : ∀ ask, l = some ask → ∀ ip v, I v → I (ask ip v).2) (h : Brief (ForAll b) T I n) :
    Brief (ForAll b) T (fun x => I x.2) (Chain.clientNames cfg l n) := by
  intro r w hi
  have hk := withNames_keeps cfg l I hl r w.2.1 w.2.2 hi
  have hr := withNames_req cfg l r w.2.1 w.2.2
  unfold Chain.clientNames
  generalize ClientNames.withNames cfg l r w.2.1 w.2.2 = x at hk hr
  obtain ⟨r1, cn, v1⟩ := x
  have hg := h r1 (w.1, v1) hk
  exact ⟨hg.1, fun hc => hg.2 (by unfold ForAll at hc ⊢; rw [show r1.req = r.req from hr]; exact hc)⟩

theorem brief_ede (e : Bool) (h : Brief C T I n) : Brief C T I (Small.ede e n) := by
  intro r w hi
  have hg := h r w hi
  unfold Small.ede
  split
  · exact hg
  · generalize n r w = x at hg
    obtain ⟨o, w'⟩ := x
    cases o with
    | ok x =>
      refine ⟨hg.1, fun hc => Short.ok ?_⟩
      have hm := (C29_only_opt_changes x.res (.ede (Small.toExtendedErrorCode x.rtype) x.reason) 0).1.1
      unfold SameOutsideExtra at hm
      have e := congrArg Msg.answer hm
      simp only at e
      have ha : (Small.addExtraReasoning x).res.answer = x.res.answer := by
        unfold Small.addExtraReasoning
        by_cases hz : Small.toExtendedErrorCode x.rtype = 0
        · simp [hz]
        · simp only [hz, if_false]; exact e
      rw [ha]
      exact hg.2 hc x rfl
    | noResponse => exact hg
    | err e => exact hg
    | panic => exact hg

theorem brief_queryLog (cfg : QueryLog.Cfg) (env : QueryLog.Env) (s d : Int) (h : Brief C T I n) :
    Brief C T (fun x => I x.2) (Chain.queryLog cfg env s d n) := by
  intro r w hi
  have hg := h r (r.req, w.2.2) hi
  unfold Chain.queryLog Chain.ofM QueryLog.resolve Chain.toM
  simp only
  generalize n r (r.req, w.2.2) = x at hg
  obtain ⟨o, m, v⟩ := x
  cases o with
  | panic => exact hg
  | noResponse => exact ⟨hg.1, fun _ => Short.panic⟩
  | err e => exact hg
  | ok x =>
    simp only
    split
    · exact ⟨hg.1, fun _ => Short.panic⟩
    · split
      · exact hg
      · exact hg

theorem brief_metrics (e : Bool) (h : Brief C T I n) : Brief C T I (Chain.metrics e n) := by
  intro r w hi
  have hg := h r w hi
  unfold Chain.metrics
  generalize n r w = x at hg
  obtain ⟨o, m, v⟩ := x
  cases o with
  | panic => exact hg
  | noResponse =>
    simp only
    split
    · cases m.question <;> exact ⟨hg.1, fun _ => Short.panic⟩
    · exact hg
  | ok x =>
    simp only
    split
    · cases m.question
      · exact ⟨hg.1, fun _ => Short.panic⟩
      · exact hg
    · exact hg
  | err x =>
    simp only
    split
    · cases m.question
      · exact ⟨hg.1, fun _ => Short.panic⟩
      · exact hg
    · exact hg

theorem brief_hosts (en : Bool) (cfg : HostsFile.Cfg) (hs : HostsFile.Hosts) (o4 o6 : List (Str × (IP × List Str)))
    (hT : ∀ t name ip, hs.getIP t name = some ip → T cfg.ttl (addressData t ip))
    (hT' : ∀ host ip aliases u, (host, (ip, aliases)) ∈ o4 ++ o6 → u ∈ host :: aliases → T cfg.ttl (.ptr (fqdn u)))
    (h : Brief C T I n) : Brief C T I (HostsFile.resolve en cfg hs o4 o6 n) := by
  intro r w hi
  unfold HostsFile.resolve
  split
  · exact h r w hi
  · cases r.req.question with
    | nil => exact ⟨hi, fun _ => Short.panic⟩
    | cons q _ =>
      simp only
      cases hx : HostsFile.handleReverse cfg o4 o6 r q with
      | some y =>
        refine ⟨hi, fun _ => Short.ok ?_⟩
        unfold HostsFile.handleReverse at hx
        split at hx
        · cases hx
        · split at hx
          · cases hx
          · rename_i ip _
            split at hx
            · cases hx
            · split at hx
              · cases hx
              · rename_i host aliases hf
                cases hx
                intro rr hr
                obtain ⟨u, hu, rfl⟩ := List.mem_map.1 hr
                refine hT' host ip aliases u ?_ hu
                have := findHost_mem ip _ host aliases hf
                cases ip with
                | v4 a => exact List.mem_append_left _ this
                | v6 a => exact List.mem_append_right _ this
      | none =>
        simp only
        cases hg : hs.getIP q.qtype (extractDomain q.name) with
        | some ip =>
          refine ⟨hi, fun _ => Short.ok ?_⟩
          intro rr hr
          simp only [List.mem_singleton] at hr
          subst hr
          exact hT _ _ ip hg
        | none => exact h r w hi

theorem block_ttl (hd : Blocking.Handler) (q : Question) (m : Msg) (hm : m.answer = []) :
    ∀ rr ∈ (hd.handleBlock q m).answer, blockTTL hd = some rr.ttl := by
  have hz : ∀ (ttl : UInt32) (m : Msg), m.answer = [] → ∀ rr ∈ (Blocking.handleZeroIP ttl q m).answer, ttl = rr.ttl := by
    intro ttl m hm rr hr
    unfold Blocking.handleZeroIP at hr
    split at hr
    · simp only [hm, List.nil_append, List.mem_singleton] at hr
      subst hr
      rfl
    · split at hr
      · simp only [hm, List.nil_append, List.mem_singleton] at hr
        subst hr
        rfl
      · simp only [hm] at hr
        cases hr
  cases hd with
  | zeroIP ttl => exact fun rr hr => congrArg some (hz ttl _ hm rr hr)
  | nxDomain =>
    intro rr hr
    rw [show (Blocking.Handler.nxDomain.handleBlock q m).answer = m.answer from rfl, hm] at hr
    cases hr
  | ips dest ttl =>
    intro rr hr
    simp only [Blocking.Handler.handleBlock] at hr
    split at hr
    · rename_i hl
      exact congrArg some (hz ttl _ (List.length_eq_zero_iff.1 hl) rr hr)
    · simp only [hm, List.nil_append, List.mem_map] at hr
      obtain ⟨ip, _, rfl⟩ := hr
      rfl

theorem blocked_short (hd : Blocking.Handler) (hT : ∀ t ty ip, blockTTL hd = some t → Sink hd ip → T t (addressData ty ip))
    (r : Request) (q : Question) (reason : Str) : Short T (Blocking.handleBlocked hd r q reason) := by
  refine Short.ok ?_
  intro rr hr
  obtain ⟨ip, h1, _, h3⟩ := block_data hd q _ rfl rr hr
  rw [h3]
  exact hT _ _ ip (block_ttl hd q _ rfl rr hr) h1

theorem denylist_short (bs : Blocking.BState E) (hT : ∀ t ty ip, blockTTL bs.handler = some t → Sink bs.handler ip → T t (addressData ty ip)) (groups : List Str) (r : Request)
    (qs : List Question) (o : Outcome) (h : Blocking.handleDenylist bs groups r qs = .blocked o) : Short T o := by
  induction qs with
  | nil => cases h
  | cons q qs ih =>
    unfold Blocking.handleDenylist at h
    split at h
    · cases h
    · split at h
      · cases h; exact blocked_short _ hT r q _
      · split at h
        · cases h; exact blocked_short _ hT r q _
        · exact ih h

theorem checkAnswer_short (env : Blocking.Env) (bs : Blocking.BState E) (hT : ∀ t ty ip, blockTTL bs.handler = some t → Sink bs.handler ip → T t (addressData ty ip))
    (groups : List Str) (r : Request) (rrs : List RR) (o : Outcome)
    (h : Blocking.checkAnswer env bs groups r rrs = some o) : Short T o := by
  induction rrs with
  | nil => cases h
  | cons rr rrs ih =>
    simp only [Blocking.checkAnswer] at h
    split at h
    · split at h
      · exact ih h
      · split at h
        · split at h
          · cases h; exact Short.panic
          · cases h; exact blocked_short _ hT r _ _
        · exact ih h
    · exact ih h

theorem brief_blocking (env : Blocking.Env) (bs : Blocking.BState E) (hT : ∀ t ty ip, blockTTL bs.handler = some t → Sink bs.handler ip → T t (addressData ty ip))
    (h : Brief C T I n) : Brief C T I (Blocking.resolve env bs n) := by
  intro r w hi
  have hg := h r w hi
  have hask : ∀ groups, I (Blocking.askNext env bs groups n r w).2.2 ∧ (C r → Short T (Blocking.askNext env bs groups n r w).1) := by
    intro groups
    unfold Blocking.askNext
    generalize n r w = x at hg
    obtain ⟨o, w'⟩ := x
    cases o with
    | ok x =>
      simp only
      split
      · cases hc : Blocking.checkAnswer env bs groups r x.res.answer with
        | none => exact hg
        | some o => exact ⟨hg.1, fun _ => checkAnswer_short env bs hT groups r _ o hc⟩
      · exact hg
    | noResponse => exact hg
    | err e => exact hg
    | panic => exact hg
  unfold Blocking.resolve
  simp only
  split
  · cases hd : Blocking.handleDenylist bs (Blocking.groupsToCheck env bs.cgb bs.fqdnIPs bs.status r) r r.req.question with
    | allowed => exact hg
    | blocked o => exact ⟨hi, fun _ => denylist_short bs hT _ r _ o hd⟩
    | no => exact hask _
  · exact hask _

/-! Custom DNS -/

theorem supported_family {ip : IP} {q : Question} (h : CustomDns.isSupportedType ip q = true) : OfFamily q.qtype ip := by
  cases ip with
  | v4 a =>
    have : q.qtype = 1 := by simpa [CustomDns.isSupportedType, typeA] using h
    rw [this]; trivial
  | v6 a =>
    have : q.qtype = 28 := by simpa [CustomDns.isSupportedType, typeAAAA] using h
    rw [this]; trivial

theorem processRequest_short (env : CustomDns.Env) (mapping : CustomDns.Mapping)
    (hT : ∀ z es, AMap.get mapping z = some es → ∀ e ∈ es, ∀ t x, Gives t e x → T e.ttl x) (h : Brief (ForAll b) T I n) (d : Nat) :
    ∀ (r : Request) (resolved : List Str) (w : Msg × V) (x : Outcome × (Msg × V)), I w.2 →
      CustomDns.processRequest env mapping (innerNext n) d r resolved w = some x → I x.2.2 ∧ (ForAll b r → Short T x.1) := by
  have hnx : ∀ (r : Request) (w : Msg × V), I w.2 → I (innerNext n r w).2.2 ∧ (ForAll b r → Short T (innerNext n r w).1) := by
    intro r w hi
    unfold innerNext
    split
    · exact h r (r.req, w.2) hi
    · exact h r w hi
  induction d with
  | zero => intro r resolved w x _ hx; cases hx
  | succ d ih =>
    intro r resolved w x hi hx
    unfold CustomDns.processRequest at hx
    split at hx
    · cases hx; exact ⟨hi, fun _ => Short.panic⟩
    · rename_i q qs hq
      split at hx
      · cases hx; exact hnx r w hi
      · rename_i z entries hwk
        have hz := (walk_some hwk).2.2.1
        have hes : ∀ (es acc : List RR), (∀ e ∈ es, e ∈ entries) → (∀ rr ∈ acc, T rr.ttl rr.data) → ∀ (w : Msg × V) (y : CustomDns.Entry × (Msg × V)), I w.2 →
            CustomDns.processEntries env (CustomDns.processRequest env mapping (innerNext n) d) r resolved q es acc w = some y →
            I y.2.2 ∧ ∀ rrs, y.1 = .ok rrs → ∀ rr ∈ rrs, T rr.ttl rr.data := by
          intro es
          induction es with
          | nil =>
            intro acc _ hacc w y hi hy
            cases hy
            exact ⟨hi, fun rrs h => by cases h; exact hacc⟩
          | cons e es ihe =>
            intro acc hsub hacc w y hi hy
            have hTe : ∀ t x, Gives t e x → T e.ttl x := hT z entries hz e (hsub e List.mem_cons_self)
            have hentry : ∀ y, CustomDns.processEntry env (CustomDns.processRequest env mapping (innerNext n) d) r resolved q e w = some y →
                I y.2.2 ∧ ∀ rrs, y.1 = .ok rrs → ∀ rr ∈ rrs, T rr.ttl rr.data := by
              intro y hy
              have hip : ∀ ip, (e.data = .a ip ∨ e.data = .aaaa ip) → ∀ rr ∈ CustomDns.processIP ip q e.ttl, T rr.ttl rr.data := by
                intro ip hd rr hr
                unfold CustomDns.processIP at hr
                split at hr
                · rename_i hs
                  rw [List.mem_singleton] at hr
                  subst hr
                  exact hTe q.qtype _ (.inl ⟨ip, hd, supported_family hs, rfl⟩)
                · cases hr
              have hplain : ∀ rr ∈ CustomDns.processPlain e q, T rr.ttl rr.data := by
                intro rr hr
                unfold CustomDns.processPlain at hr
                split at hr
                · rename_i ht
                  rw [List.mem_singleton] at hr
                  subst hr
                  exact hTe q.qtype _ (.inr (.inr ⟨ht.symm, rfl⟩))
                · cases hr
              unfold CustomDns.processEntry at hy
              split at hy
              · rename_i hd
                cases hy; exact ⟨hi, fun rrs h => by cases h; exact hip _ (.inl hd)⟩
              · rename_i hd
                cases hy; exact ⟨hi, fun rrs h => by cases h; exact hip _ (.inr hd)⟩
              · rename_i target hdt
                have hTc : T e.ttl (.cname (fqdn target)) := hTe q.qtype _ (.inr (.inl ⟨target, hdt, rfl⟩))
                unfold CustomDns.processCNAME at hy
                simp only at hy
                split at hy
                · cases hy
                  refine ⟨hi, fun rrs h => ?_⟩
                  cases h
                  intro rr hr
                  rw [List.mem_singleton] at hr
                  subst hr
                  exact hTc
                · split at hy
                  · cases hy; exact ⟨hi, fun rrs h => nomatch h⟩
                  · split at hy
                    · cases hy
                    · rename_i hrec
                      cases hy
                      exact ⟨(ih _ _ _ _ hi hrec).1, fun rrs h => nomatch h⟩
                    · rename_i hrec
                      cases hy
                      exact ⟨(ih _ _ _ _ hi hrec).1, fun rrs h => nomatch h⟩
                    · rename_i hrec
                      cases hy
                      exact ⟨(ih _ _ _ _ hi hrec).1, fun rrs h => nomatch h⟩
                    · rename_i y' w' hrec
                      cases hy
                      have hg := ih _ _ _ _ hi hrec
                      refine ⟨hg.1, fun rrs h => ?_⟩
                      cases h
                      intro rr hr
                      rcases List.mem_cons.1 hr with rfl | hr
                      · exact hTc
                      · exact hg.2 (fun _ => rfl) _ rfl rr hr
              · split at hy
                · cases hy; exact ⟨hi, fun rrs h => by cases h; exact hplain⟩
                · cases hy; exact ⟨hi, fun rrs h => nomatch h⟩
            unfold CustomDns.processEntries at hy
            split at hy
            · cases hy
            · rename_i rrs w' he
              have hg := hentry _ he
              exact ihe (acc ++ rrs) (fun e h => hsub e (List.mem_cons_of_mem _ h))
                (fun rr hr => (List.mem_append.1 hr).elim (hacc rr) (hg.2 rrs rfl rr)) w' y hg.1 hy
            · rename_i o w' hne he
              cases hy
              have hg := hentry _ he
              exact ⟨hg.1, fun rrs h => absurd (show o = .ok rrs from h) (by intro h'; exact hne _ h')⟩
        have hall := hes entries [] (fun _ h => h) (fun _ h => nomatch h) w
        split at hx
        · cases hx
        · rename_i hy
          cases hx
          exact ⟨(hall _ hi hy).1, fun _ => Short.err⟩
        · rename_i hy
          cases hx
          exact ⟨(hall _ hi hy).1, fun _ => Short.panic⟩
        · rename_i rrs w' hy
          have hg := hall _ hi hy
          split at hx
          · cases hx
            exact ⟨hg.1, fun _ => Short.ok (hg.2 rrs rfl)⟩
          · split at hx
            · cases hx
              exact hnx r w' hg.1
            · cases hx
              exact ⟨hg.1, fun _ => Short.ok (fun _ h => nomatch h)⟩

theorem brief_customDns (env : CustomDns.Env) (mapping : CustomDns.Mapping) (reverse : AMap Str (List Str)) (depth : Nat)
    (hT : ∀ z es, AMap.get mapping z = some es → ∀ e ∈ es, ∀ t x, Gives t e x → T e.ttl x) (hT' : ∀ k us, AMap.get reverse k = some us → ∀ u ∈ us, T env.customTTL (.ptr (fqdn u))) (h : Brief (ForAll b) T I n) :
    Brief (ForAll b) T I (Chain.customDns env mapping reverse depth n) := by
  intro r w hi
  unfold Chain.customDns
  change I (match CustomDns.resolve env mapping reverse (innerNext n) depth r w with
    | some x => x
    | none => (.panic, w)).2.2 ∧ (ForAll b r → Short T (match CustomDns.resolve env mapping reverse (innerNext n) depth r w with
    | some x => x
    | none => (.panic, w)).1)
  cases hx : CustomDns.resolve env mapping reverse (innerNext n) depth r w with
  | none => exact ⟨hi, fun _ => Short.panic⟩
  | some x =>
    simp only
    unfold CustomDns.resolve at hx
    split at hx
    · cases hx; exact ⟨hi, fun _ => Short.panic⟩
    · rename_i q qs hq
      split at hx
      · rename_i y hr
        cases hx
        refine ⟨hi, fun _ => Short.ok ?_⟩
        unfold CustomDns.handleReverse at hr
        split at hr
        · split at hr
          · rename_i hx
            cases hr
            intro rr hrr
            obtain ⟨u, hu, rfl⟩ := List.mem_map.1 hrr
            exact hT' _ _ hx u hu
          · cases hr
        · cases hr
      · exact processRequest_short env mapping hT h depth r [] w x hi hx

/-- Rewriting in front of custom DNS. -/
theorem brief_custom (cfg : Cond.RewriteCfg) (order : Nat → List (Str × Str)) (env : CustomDns.Env) (mapping : CustomDns.Mapping)
    (reverse : AMap Str (List Str)) (depth : Nat) (hT : ∀ z es, AMap.get mapping z = some es → ∀ e ∈ es, ∀ t x, Gives t e x → T e.ttl x)
    (hT' : ∀ k us, AMap.get reverse k = some us → ∀ u ∈ us, T env.customTTL (.ptr (fqdn u))) (h : Brief (ForAll b) T I n) :
    Brief (ForAll b) T I (Chain.ofM (Cond.newRewriter cfg order
      (fun next => Chain.toM (Chain.customDns env mapping reverse depth (Chain.ofM next))) (Chain.toM n))) := by
  have hto : ∀ r (v : V), I v → I (Chain.toM n r v).2.2 ∧ (ForAll b r → Short T (Chain.toM n r v).1) := fun r v hi => h r (r.req, v) hi
  intro r w hi
  unfold Cond.newRewriter
  split
  · have hb : Brief (ForAll b) T I (Chain.ofM (Chain.toM n)) := fun r w hi => hto r w.2 hi
    exact brief_customDns env mapping reverse depth hT hT' hb r (r.req, w.2) hi
  · have hnoop : Brief (ForAll b) T I (Chain.ofM (W := V) (fun request w => (.noResponse, request.req, w))) :=
      fun r w hi => ⟨hi, fun _ => Short.noResponse⟩
    have hin := brief_customDns env mapping reverse depth hT hT' hnoop
    unfold Chain.ofM Cond.rewriter
    simp only
    generalize Cond.rewriteQuestions order 0 r.req.question [] = x
    obtain ⟨questions, rewritten, names⟩ := x
    simp only
    have hsame : ∀ qs, ForAll b r → ForAll b { r with req := { r.req with question := qs } } := fun _ h => h
    have hr1 : ForAll b r → ForAll b (if rewritten then { r with req := { r.req with question := questions } } else r) := by
      intro hc
      split
      · exact hsame questions hc
      · exact hc
    have hreq : rewritten = false → (if rewritten = true then { r with req := { r.req with question := questions } } else r) = r := fun h => by rw [h]; rfl
    generalize hr : (if rewritten = true then { r with req := { r.req with question := questions } } else r) = r1 at hr1 hreq
    have hg := hin r1 (r1.req, w.2) hi
    have hm := customDns_leaves env mapping reverse depth r1 w.2
    unfold Chain.toM at hm ⊢
    simp only at hm ⊢
    unfold Chain.ofM at hg hm
    generalize Chain.customDns env mapping reverse depth (fun request w => ((Outcome.noResponse, request.req, w.2) : Outcome × Msg × V)) r1 (r1.req, w.2) = y at hg hm
    obtain ⟨o, msg, v⟩ := y
    simp only at hg hm ⊢
    have horig : (if rewritten = true then r.req else msg) = r.req := by
      cases hrw : rewritten with
      | true => rfl
      | false => rw [hm, hreq hrw]; rfl
    simp only [horig]
    have hnext := h { r with req := r.req } (r.req, v) hg.1
    cases o with
    | panic => exact ⟨hg.1, fun _ => Short.panic⟩
    | err e =>
      simp only
      split
      · exact hnext
      · exact ⟨hg.1, fun _ => Short.err⟩
    | noResponse => exact hnext
    | ok y =>
      simp only
      split
      · exact hnext
      · split
        · refine ⟨hg.1, fun hc => Short.ok ?_⟩
          intro rr hrr
          obtain ⟨a, ha, rfl⟩ := List.mem_map.1 hrr
          exact hg.2 (hr1 hc) y rfl a ha
        · exact ⟨hg.1, fun hc => hg.2 (hr1 hc)⟩

/-! The cache -/

/-- What holds of the entries of the answer cache: the TTLs are at most the maximum, and an entry lives no longer than
its smallest TTL; a negative answer (`nx`: it may contain records) lives for the time of negative answers. -/
def EntriesOk (cfg : Caching.Cfg) (nx : Prop) (s : St Msg) : Prop :=
  ∀ x ∈ s.cache.items, (∀ rr ∈ x.2.val.answer, rr.ttl.toNat ≤ (Caching.secondsU32 cfg.maxTime).toNat) ∧
    (x.2.val.answer = [] ∨ x.2.expires ≤ s.now + (Caching.minTTL x.2.val.answer).toNat * 1000 ∨
      (nx ∧ x.2.expires ≤ s.now + cfg.negTime / 1000000))

theorem clamped_le (cfg : Caching.Cfg) (hmax : 0 < cfg.maxTime) (t : UInt32) :
    (Caching.clampTTL cfg t).toNat ≤ (Caching.secondsU32 cfg.maxTime).toNat := by
  unfold Caching.clampTTL
  simp only
  rw [if_pos hmax]
  generalize (if cfg.minTime > 0 then if t < Caching.secondsU32 cfg.minTime then Caching.secondsU32 cfg.minTime else t else t) = t1
  split
  · exact Nat.le_refl _
  · rename_i h
    exact UInt32.le_iff_toNat_le.1 (UInt32.not_lt.1 h)

theorem adjusted_le (cfg : Caching.Cfg) (hmax : 0 < cfg.maxTime) (a : List RR) :
    ∀ rr ∈ (Caching.adjustTTLs cfg a).1, rr.ttl.toNat ≤ (Caching.secondsU32 cfg.maxTime).toNat := by
  intro rr hr
  unfold Caching.adjustTTLs at hr
  split at hr
  · rename_i h
    rw [List.isEmpty_iff.1 h] at hr
    cases hr
  · simp only [List.mem_map] at hr
    obtain ⟨b, _, rfl⟩ := hr
    exact clamped_le cfg hmax b.ttl

theorem entries_sub {cfg : Caching.Cfg} {nx : Prop} {s s' : St Msg} (h : EntriesOk cfg nx s) (hn : s'.now = s.now)
    (hs : ∀ x ∈ s'.cache.items, x ∈ s.cache.items) : EntriesOk cfg nx s' := by
  intro x hx
  rw [hn]
  exact h x (hs x hx)

theorem put_entries (s : Cache Msg) (now : Int) (k : Str) (m : Msg) (ttl : Int) :
    ∀ x ∈ (s.put now k m ttl).items, x ∈ s.items ∨ x = (k, ⟨m, now + ttl / 1000000⟩) := by
  intro x hx
  unfold Cache.put at hx
  split at hx
  · exact .inl hx
  · unfold Cache.add at hx
    split at hx
    · rcases List.mem_cons.1 hx with h | h
      · exact .inr h
      · exact .inl (List.mem_filter.1 h).1
    · split at hx
      · rcases List.mem_cons.1 (List.dropLast_subset _ hx) with h | h
        · exact .inr h
        · exact .inl h
      · rcases List.mem_cons.1 hx with h | h
        · exact .inr h
        · exact .inl h

theorem live_until (now : Int) (n : Nat) : now + ((n : Int) * 1000000000) / 1000000 ≤ now + n * 1000 := by omega

theorem entries_store {cfg : Caching.Cfg} {nx : Prop} (hmax : 0 < cfg.maxTime) {s : Caching.CState} (h : EntriesOk cfg nx s.main)
    (env : Caching.Env) (k : Str) (r : Response) (hnx : nx ∨ (r.res.rcode = 3 → r.res.answer = [])) :
    EntriesOk cfg nx (Caching.store env cfg s k r).main := by
  have hval : (removeEdns0Record (Caching.adjusted cfg r).res).answer = (Caching.adjustTTLs cfg r.res.answer).1 :=
    rfl
  have key : ∀ ttl, (ttl = (Caching.adjustTTLs cfg r.res.answer).2 ∨ (r.res.rcode = 3 ∧ ttl = cfg.negTime)) →
      EntriesOk cfg nx (step s.main (.put k (removeEdns0Record (Caching.adjusted cfg r).res) ttl)) := by
    intro ttl ht x hx
    rcases put_entries _ _ _ _ _ x hx with hx | rfl
    · exact h x hx
    · have hnow : (step s.main (.put k (removeEdns0Record (Caching.adjusted cfg r).res) ttl)).now = s.main.now := rfl
      rw [hnow]
      simp only
      refine ⟨by rw [hval]; exact adjusted_le cfg hmax _, ?_⟩
      rw [hval]
      generalize s.main.now = now
      by_cases he : r.res.answer = []
      · left
        rw [he]
        rfl
      · rcases ht with rfl | ⟨h3, rfl⟩
        · right; left
          rw [Caching.adjustTTLs_ttl cfg he]
          exact live_until now _
        · right; right
          rcases hnx with hnx | hnx
          · exact ⟨hnx, Int.le_refl _⟩
          · exact absurd (hnx h3) he
  unfold Caching.store Caching.putOps
  simp only
  split
  · split
    · exact key _ (.inl rfl)
    · split
      · rename_i h3
        split
        · exact key _ (.inr ⟨by simpa [Caching.adjusted, rcodeNXDomain] using h3, rfl⟩)
        · exact h
      · exact h
  · exact h

theorem hit_le {cfg : Caching.Cfg} {nx : Prop} {s : St Msg} (h : EntriesOk cfg nx s) (x : Str × Element Msg) (hx : x ∈ s.cache.items) :
    ∀ rr ∈ Caching.setTTLs x.2.val.answer (remainTTL s.now x.2.expires),
      rr.ttl.toNat ≤ (Caching.secondsU32 cfg.maxTime).toNat ∨
      (nx ∧ rr.ttl.toNat ≤ (Caching.secondsU32 cfg.maxTime).toNat + wholeSeconds cfg.negTime) := by
  intro rr hr
  obtain ⟨h1, h2⟩ := h x hx
  simp only [Caching.setTTLs, List.mem_map] at hr
  obtain ⟨b, hb, rfl⟩ := hr
  have hb1 := h1 b hb
  have hmin := Caching.minTTL_le hb
  have h0 : 0 ≤ remainTTL s.now x.2.expires := by unfold remainTTL; split <;> omega
  have hshort : remainTTL s.now x.2.expires ≤ (Caching.minTTL x.2.val.answer).toNat * 1000 →
      (b.ttl - Caching.minTTL x.2.val.answer + UInt32.ofNat (remainTTL s.now x.2.expires / 1000).toNat).toNat ≤
        (Caching.secondsU32 cfg.maxTime).toNat := by
    intro hle
    rw [setTTL_toNat _ _ h0 hle b hb]
    omega
  rcases h2 with h2 | h2 | ⟨h2, h3⟩
  · rw [h2] at hb
    cases hb
  · exact .inl (hshort (by unfold remainTTL; split <;> omega))
  · right
    refine ⟨h2, ?_⟩
    have hsub : (b.ttl - Caching.minTTL x.2.val.answer).toNat = b.ttl.toNat - (Caching.minTTL x.2.val.answer).toNat :=
      UInt32.toNat_sub_of_le _ _ (UInt32.le_iff_toNat_le.2 hmin)
    show (b.ttl - Caching.minTTL x.2.val.answer + UInt32.ofNat (remainTTL s.now x.2.expires / 1000).toNat).toNat ≤ _
    rw [UInt32.toNat_add, hsub, UInt32.toNat_ofNat']
    refine Nat.le_trans (Nat.mod_le _ _) ?_
    have hrem : (remainTTL s.now x.2.expires / 1000).toNat ≤ wholeSeconds cfg.negTime := by
      unfold wholeSeconds remainTTL
      split <;> omega
    have := Nat.mod_le (remainTTL s.now x.2.expires / 1000).toNat (2 ^ 32)
    omega

theorem brief_caching (env : Caching.Env) (cfg : Caching.Cfg) (hmax : 0 < cfg.maxTime) (nx : Prop) {next : Chain.MR W}
    (hnx : nx ∨ ∀ r w y, (next r w).1 = .ok y → y.res.rcode = 3 → y.res.answer = [])
    (hT : ∀ (t : UInt32) d, t.toNat ≤ (Caching.secondsU32 cfg.maxTime).toNat → T t d)
    (hT' : nx → ∀ (t : UInt32) d, t.toNat ≤ (Caching.secondsU32 cfg.maxTime).toNat + wholeSeconds cfg.negTime → T t d) :
    Brief (ForAll true) T (fun x : Caching.CState × W => EntriesOk cfg nx x.1.main) (Chain.caching env cfg next) := by
  intro r w hi
  have loop : ∀ (qs : List Question) (last : Outcome) (s : Caching.CState) (v : Msg × W), Short T last → EntriesOk cfg nx s.main →
      EntriesOk cfg nx (Caching.resolveLoop env cfg next r qs last s v).2.1.main ∧ Short T (Caching.resolveLoop env cfg next r qs last s v).1 := by
    intro qs
    induction qs with
    | nil => intro last s v hl hs; exact ⟨hs, hl⟩
    | cons q qs ih =>
      intro last s v _ hs
      unfold Caching.resolveLoop
      have hsub := cacheGet_sub cfg s (Caching.questionKey q)
      have hnow : (Caching.cacheGet cfg s (Caching.questionKey q)).2.main.now = s.main.now := by
        unfold Caching.cacheGet
        cases cfg.prefetching <;> rfl
      have hfound : ∀ m t, (Caching.cacheGet cfg s (Caching.questionKey q)).1 = some (m, t) →
          ∃ el, (Caching.questionKey q, el) ∈ s.main.cache.items ∧ el.val = m ∧ t = remainTTL s.main.now el.expires := by
        intro m t h
        have key : (s.main.cache.get s.main.now (Caching.questionKey q)).1 = some (m, t) := by
          unfold Caching.cacheGet at h
          cases hp : cfg.prefetching <;> rw [hp] at h <;> exact h
        unfold Cache.get at key
        split at key
        · rename_i el hp
          cases key
          exact ⟨el, AMap.get_eq_some_mem hp, rfl, rfl⟩
        · cases key
      generalize Caching.cacheGet cfg s (Caching.questionKey q) = x at hsub hnow hfound
      obtain ⟨found, s1⟩ := x
      have hs1 : EntriesOk cfg nx s1.main := entries_sub hs hnow hsub
      cases found with
      | some mt =>
        obtain ⟨m, t⟩ := mt
        refine ⟨hs1, Short.ok ?_⟩
        obtain ⟨el, g1, g2, g3⟩ := hfound m t rfl
        intro rr hr
        have hr' : rr ∈ Caching.setTTLs m.answer t := hr
        rw [← g2, g3] at hr'
        rcases hit_le hs _ g1 rr hr' with h | ⟨h1, h2⟩
        · exact hT _ _ h
        · exact hT' h1 _ _ h2
      | none =>
        simp only
        have hn : nx ∨ ∀ y, (next r v).1 = .ok y → y.res.rcode = 3 → y.res.answer = [] := hnx.imp_right (fun h => h r v)
        generalize next r v = y at hn
        obtain ⟨o, v1⟩ := y
        cases o with
        | ok y =>
          refine ih _ _ _ (Short.ok fun rr hr => hT _ _ (adjusted_le cfg hmax _ rr hr)) ?_
          exact entries_store hmax hs1 env _ y (hn.imp_right (fun h => h y rfl))
        | err e => exact ih _ _ _ Short.err hs1
        | noResponse => exact ⟨hs1, Short.panic⟩
        | panic => exact ⟨hs1, Short.panic⟩
  unfold Chain.caching Caching.resolve
  by_cases hc : (!cfg.enabled || !Caching.isRequestCacheable r.req) = true
  · rw [if_pos hc]
    refine ⟨hi, fun hf => ?_⟩
    have he : cfg.enabled = true := by unfold Caching.Cfg.enabled; simp; omega
    unfold ForAll at hf
    rw [he, hf rfl] at hc
    cases hc
  · rw [if_neg hc]
    have := loop r.req.question .noResponse w.2.1 (w.1, w.2.2) Short.noResponse hi
    exact ⟨this.1, fun _ => this.2⟩

/-! The whole server -/

/-- The bound of TTLs of records that come from upstreams. -/
def Bounded (c : Chain.Config E W) (bound : Nat) (t : UInt32) : Prop := t.toNat ≤ bound ∨ ConfiguredTTL c t

/-- Looking up names of clients leaves the answer cache alone. -/
def NamesLeaveAnswers (c : Chain.Config E W) : Prop := ∀ l, c.namesLookup = some l → ∀ ip v, (l ip v).2.1 = v.1

/-- The whole chain, if the cache and what is behind it behave. `J`: what holds of the answer cache. -/
theorem brief_chain (c : Chain.Config E W) (up : Resolver W) (hn : NamesLeaveAnswers c) (J : Caching.CState → Prop)
    (hcustom : ∀ z es, AMap.get c.customMapping z = some es → ∀ e ∈ es, ∀ t x, Gives t e x → T e.ttl x)
    (hreverse : ∀ k us, AMap.get c.customReverse k = some us → ∀ u ∈ us, T c.customEnv.customTTL (.ptr (fqdn u)))
    (hhosts : ∀ t name ip, c.hosts.getIP t name = some ip → T c.hostsCfg.ttl (addressData t ip))
    (hhosts' : ∀ host ip aliases u, (host, (ip, aliases)) ∈ c.hostsOrder4 ++ c.hostsOrder6 → u ∈ host :: aliases →
      T c.hostsCfg.ttl (.ptr (fqdn u)))
    (hblock : ∀ t ty ip, blockTTL c.blockState.handler = some t → Sink c.blockState.handler ip → T t (addressData ty ip))
    (h : Brief (ForAll b) T (fun x => J x.1) (Chain.caching c.cacheEnv c.cache (Chain.cond c up))) :
    Brief (fun r => ∀ r1, Ecs.transform c.ecs r = some r1 → ForAll b r1) T (fun x => J x.2.2.1) (Chain.whole c up) := by
  refine brief_filtering _ (brief_fqdnOnly _ (brief_ecs _ ?_))
  refine brief_clientNames (I := fun (x : QueryLog.Queue × Caching.CState × W) => J x.2.1) c.names _ ?_
    (brief_ede _ (brief_queryLog (I := fun (x : Caching.CState × W) => J x.1) _ _ _ _ (brief_metrics _
      (brief_custom _ _ _ _ _ _ hcustom hreverse (brief_hosts _ _ _ _ _ hhosts hhosts' (brief_blocking _ _ hblock h))))))
  intro ask ha ip v hv
  cases hl : c.namesLookup with
  | none => rw [hl] at ha; cases ha
  | some l =>
    rw [hl] at ha
    cases ha
    show J (l ip v.2).2.1
    rw [hn l hl ip v.2]
    exact hv

theorem brief_whole (c : Chain.Config E W) (up : Resolver W) (hmax : 0 < c.cache.maxTime) (hn : NamesLeaveAnswers c) (nx : Prop) (bound : Nat)
    (hnx : nx ∨ ∀ r w y, (Chain.cond c up r w).1 = .ok y → y.res.rcode = 3 → y.res.answer = [])
    (hb : (Caching.secondsU32 c.cache.maxTime).toNat ≤ bound)
    (hb' : nx → (Caching.secondsU32 c.cache.maxTime).toNat + wholeSeconds c.cache.negTime ≤ bound) :
    Brief (fun r => ∀ r1, Ecs.transform c.ecs r = some r1 → ForAll true r1) (fun t _ => Bounded c bound t)
      (fun x => EntriesOk c.cache nx x.2.2.1.main) (Chain.whole c up) :=
  brief_chain c up hn (fun s => EntriesOk c.cache nx s.main) (fun _ _ hz _ he _ _ _ => .inr (.record hz he)) (fun _ _ _ _ _ => .inr .reverse)
    (fun _ _ _ _ => .inr .hosts) (fun _ _ _ _ _ _ => .inr .hosts) (fun _ _ _ ht _ => .inr (.block ht))
    (brief_caching _ _ hmax nx hnx (fun _ _ ht => .inl (Nat.le_trans ht hb)) (fun h _ _ ht => .inl (Nat.le_trans ht (hb' h))))

/-! Negative answers of upstreams -/

/-- An answer that the name does not exist contains no records. -/
def EmptyNegative (o : Outcome) : Prop := ∀ y, o = .ok y → y.res.rcode = 3 → y.res.answer = []

theorem cond_negative (c : Chain.Config E W) (up : Resolver W) (hup : ∀ r w, EmptyNegative (up r w).1)
    (hcond : ∀ k reso, AMap.get c.condMapping k = some reso → ∀ r w, EmptyNegative (reso r w).1) (r : Request) (w : Msg × W) :
    EmptyNegative (Chain.cond c up r w).1 := by
  have htail : ∀ r (v : W), EmptyNegative (Chain.toM (Chain.tail c up) r v).1 := by
    intro r v
    unfold Chain.toM Chain.tail Small.sudn
    split
    · exact hup r v
    · cases r.req.question with
      | nil => exact fun _ h => nomatch h
      | cons q _ =>
        simp only
        cases hs : (Small.sudnHandler q.name).bind (Small.callSudn c.sudn r q) with
        | none => exact hup r v
        | some y =>
          intro z hz hrc
          cases hz
          obtain ⟨hd, _, hcall⟩ := Option.bind_eq_some_iff.1 hs
          unfold Small.callSudn at hcall
          cases hd with
          | nxdomain => cases hcall; rfl
          | localhost =>
            cases hcall
            unfold Small.sudnLocalhost at hrc ⊢
            split
            · rename_i ht
              rw [if_pos ht] at hrc
              cases hrc
            · rename_i ht
              rw [if_neg ht] at hrc
              split
              · rename_i ht2
                rw [if_pos ht2] at hrc
                cases hrc
              · rfl
          | pass => cases hcall
          | appendixG =>
            simp only at hcall
            split at hcall
            · cases hcall
            · cases hcall; rfl
          | homeArpa =>
            simp only at hcall
            split at hcall
            · cases hcall
            · cases hcall; rfl
  have hin : ∀ (next : Cond.MResolver W), (∀ r v, EmptyNegative (next r v).1) → ∀ r v, EmptyNegative (Cond.conditional c.condMapping next r v).1 := by
    intro next hnext r v
    unfold Cond.conditional
    split
    · cases r.req.question with
      | nil => exact fun _ h => nomatch h
      | cons q _ =>
        simp only
        cases hl : Cond.lookup c.condMapping (extractDomain q.name) with
        | none => exact hnext r v
        | some reso =>
          have hk : ∃ k, AMap.get c.condMapping k = some reso := by
            unfold Cond.lookup at hl
            split at hl
            · obtain ⟨x, hx, rfl⟩ := Option.map_eq_some_iff.1 hl
              exact ⟨x.1, (walk_some hx).2.2.1⟩
            · exact ⟨_, hl⟩
          obtain ⟨k, hk⟩ := hk
          have hg := hcond k reso hk
          simp only
          unfold Cond.internalResolve
          simp only
          have hg' := hg { r with req := { r.req with question := Cond.setName (fqdn (extractDomain q.name)) r.req.question } } v
          generalize reso { r with req := { r.req with question := Cond.setName (fqdn (extractDomain q.name)) r.req.question } } v = x at hg'
          obtain ⟨o, v'⟩ := x
          cases o with
          | ok y => exact fun z hz hrc => by cases hz; exact hg' y rfl hrc
          | noResponse => exact fun _ h => nomatch h
          | err e => exact fun _ h => nomatch h
          | panic => exact fun _ h => nomatch h
    · exact hnext r v
  unfold Chain.cond Chain.ofM Cond.newRewriter
  simp only
  split
  · exact hin _ htail _ _
  · have hin' := hin (fun request w => (.noResponse, request.req, w)) (fun _ _ _ h => nomatch h)
    unfold Cond.rewriter
    generalize Cond.rewriteQuestions c.condOrder 0 r.req.question [] = x
    obtain ⟨questions, rewritten, names⟩ := x
    simp only
    have hg := hin' (if rewritten = true then { r with req := { r.req with question := questions } } else r) w.2
    generalize Cond.conditional c.condMapping (fun request w => (.noResponse, request.req, w))
      (if rewritten = true then { r with req := { r.req with question := questions } } else r) w.2 = y at hg
    obtain ⟨o, msg, v⟩ := y
    cases o with
    | panic => exact fun _ h => nomatch h
    | err e =>
      simp only
      split
      · exact htail _ _
      · exact fun _ h => nomatch h
    | noResponse => exact htail _ _
    | ok y =>
      simp only
      split
      · exact htail _ _
      · split
        · intro z hz hrc
          cases hz
          have := hg y rfl hrc
          simp only [Cond.revert, this, List.map_nil]
        · exact fun z hz hrc => by cases hz; exact hg y rfl hrc

/-! ### Histories -/

/-- Errors that carry a message of an upstream are server failures (upstream_resolver.go 31-34, 226-227). -/
def OnlyFailures (senv : Server.Env) : Prop := ∀ e m, senv.asUpstream e = some m → m.rcode = 2

/-- The query as it is behind the resolver of client subnets is one the cache answers. -/
def CacheAnswers (c : Chain.Config E W) (remote : Server.Addr) (sni : Option Str) (msg : Msg) : Prop :=
  ∀ r, Ecs.transform c.ecs (Server.newRequestFromDNS remote sni msg) = some r → ForAll true r

theorem serve_brief {senv : Server.Env} {len : Msg → Nat} (ht : TruncContract len senv.trunc) (herr : OnlyFailures senv)
    {c : Chain.Config E W} {up : Resolver W} {T : UInt32 → RData → Prop} {J : Caching.CState → Prop} {b : Bool}
    (h : Brief (fun r => ∀ r1, Ecs.transform c.ecs r = some r1 → ForAll b r1) T (fun x => J x.2.2.1) (Chain.whole c up))
    (remote : Server.Addr) (sni : Option Str) (msg : Msg) (w : Chain.World W) (hi : J w.2.2.1) :
    J (Chain.serve senv c up remote sni msg w).2.2.2.1 ∧
    ((b = true → CacheAnswers c remote sni msg) → ∀ m ∈ (Chain.serve senv c up remote sni msg w).1, m.rcode ≠ 2 → ∀ rr ∈ m.answer, T rr.ttl rr.data) := by
  have hcode : ∀ req p m, (Server.finish senv req p m).rcode = m.rcode := by
    intro req p m
    obtain ⟨tc, a, ns, e, he⟩ := ht.header (Server.getMaxResponseSize req p) { m with recursionAvailable := req.recursionDesired }
    unfold Server.finish
    rw [he]
  have hg := h (Server.newRequestFromDNS remote sni msg) (msg, w) hi
  have hreq : (Server.newRequestFromDNS remote sni msg).req = msg := rfl
  unfold Chain.serve Server.onRequest Server.handleReq Server.resolve
  rw [hreq]
  cases msg.question with
  | nil =>
    refine ⟨hi, fun _ m hm hrc rr hr => ?_⟩
    simp only [List.mem_singleton] at hm
    subst hm
    cases finish_data senv ht _ _ _ rr hr
  | cons q qs =>
    simp only
    have hto : Chain.toM (Chain.whole c up) (Server.newRequestFromDNS remote sni msg) w =
      Chain.whole c up (Server.newRequestFromDNS remote sni msg) (msg, w) := rfl
    rw [hto]
    generalize Chain.whole c up (Server.newRequestFromDNS remote sni msg) (msg, w) = x at hg
    obtain ⟨o, m', w'⟩ := x
    cases o with
    | ok y =>
      refine ⟨hg.1, fun hc m hm hrc rr hr => ?_⟩
      simp only [List.mem_singleton] at hm
      subst hm
      exact hg.2 (fun r1 hr1 hb => hc hb r1 hr1 rfl) y rfl rr (finish_data senv ht _ _ _ rr hr)
    | err e =>
      simp only
      cases hum : senv.asUpstream e with
      | none =>
        refine ⟨hg.1, fun hc m hm hrc rr hr => ?_⟩
        simp only [List.mem_singleton] at hm
        subst hm
        cases hr
      | some um =>
        refine ⟨hg.1, fun hc m hm hrc rr hr => ?_⟩
        simp only [List.mem_singleton] at hm
        subst hm
        exact absurd (by rw [hcode]; exact herr e um hum) hrc
    | noResponse =>
      refine ⟨hg.1, fun hc m hm hrc rr hr => ?_⟩
      simp only [List.mem_singleton] at hm
      subst hm
      cases hr
    | panic =>
      refine ⟨hg.1, fun hc m hm hrc rr hr => ?_⟩
      simp only [List.mem_singleton] at hm
      subst hm
      cases hr

theorem cleanUp_entries (env : Caching.Env) (cfg : Caching.Cfg) (hp : cfg.prefetching = false) (nx : Prop) {next : Chain.MR W}
    (s s' : Caching.CState) (w w' : Msg × W) (hi : EntriesOk cfg nx s.main) (hr : Caching.cleanUpCache env cfg next s w = (some s', w')) :
    EntriesOk cfg nx s'.main := by
  have hloop : ∀ (ks del : List Str) (s s1 : Caching.CState) (del1 : List Str) (w w1 : Msg × W),
      Caching.reloadLoop env cfg next ks del s w = (some (del1, s1), w1) → s1 = s := by
    intro ks
    induction ks with
    | nil => intro del s s1 del1 w w1 h; cases h; rfl
    | cons k ks ih =>
      intro del s s1 del1 w w1 h
      unfold Caching.reloadLoop Caching.onExpired at h
      rw [hp] at h
      exact ih _ _ _ _ _ _ h
  have hnow : ∀ (del : List Str) (s : St Msg), (run s (del.map Op.remove)).now = s.now := by
    intro del
    induction del with
    | nil => exact fun _ => rfl
    | cons k ks ih => exact fun s => ih (step s (.remove k))
  unfold Caching.cleanUpCache at hr
  split at hr
  · rename_i del s1 w1 hx
    cases hr
    rw [hloop _ _ _ _ _ _ _ hx]
    exact entries_sub hi (hnow del _) (removes_sub del _)
  · cases hr

theorem reached_entries {senv : Server.Env} {len : Msg → Nat} (ht : TruncContract len senv.trunc) (herr : OnlyFailures senv)
    {c : Chain.Config E W} {up : Resolver W} {T : UInt32 → RData → Prop} {nx : Prop} {b : Bool} (hp : c.cache.prefetching = false)
    (h : Brief (fun r => ∀ r1, Ecs.transform c.ecs r = some r1 → ForAll b r1) T (fun x => EntriesOk c.cache nx x.2.2.1.main) (Chain.whole c up))
    {w0 w : Chain.World W} {es : List Event} (hr : ReachedBy senv c up w0 es w) (h0 : w0.2.2.1.main.cache.items = []) :
    EntriesOk c.cache nx w.2.2.1.main := by
  induction hr with
  | start =>
    intro x hx
    rw [h0] at hx
    cases hx
  | @step es w e w' _ hw ih =>
    cases e with
    | query remote sni msg =>
      cases hw
      exact (serve_brief (J := fun s => EntriesOk c.cache nx s.main) ht herr h remote sni msg w ih).1
    | pass ms =>
      cases hw
      intro x hx
      obtain ⟨g1, g2⟩ := ih x hx
      refine ⟨g1, ?_⟩
      have hn : (step w.2.2.1.main (.tick ms)).now = w.2.2.1.main.now + ms := rfl
      show _ ∨ _ ≤ (step w.2.2.1.main (.tick ms)).now + _ ∨ _ ∧ _ ≤ (step w.2.2.1.main (.tick ms)).now + _
      rw [hn]
      rcases g2 with g | g | ⟨g, g'⟩
      · exact .inl g
      · exact .inr (.inl (by omega))
      · exact .inr (.inr ⟨g, by omega⟩)
    | cleanUp =>
      unfold happen at hw
      simp only at hw
      have hc := fun s mw => cleanUp_entries c.cacheEnv c.cache hp nx (next := Chain.cond c up) w.2.2.1 s ({}, w.2.2.2) mw ih
      generalize Caching.cleanUpCache c.cacheEnv c.cache (Chain.cond c up) w.2.2.1 ({}, w.2.2.2) = x at hw hc
      obtain ⟨s, mw⟩ := x
      cases s with
      | none => cases hw
      | some s =>
        cases hw
        exact hc s mw rfl

theorem secondsU32_le (ns : Int) : (Caching.secondsU32 ns).toNat ≤ wholeSeconds ns := by
  unfold Caching.secondsU32 wholeSeconds
  rw [UInt32.toNat_ofNat']
  exact Nat.mod_le _ _

/-- **C132.** Whatever has happened before - queries of any clients with any numbers of questions, time passing,
cleaning up -, a record that a client gets has a TTL written in the configuration (custom DNS, hosts files, block
answers), or one of at most the maximum caching time and the time of negative answers together. (Missing: prefetching,
queries with the subnet of a client, a maximum of the maximum caching time alone.) -/
theorem C132_ttls_partial {senv : Server.Env} {len : Msg → Nat} (ht : TruncContract len senv.trunc) (herr : OnlyFailures senv)
    {c : Chain.Config E W} {up : Resolver W} (hmax : 0 < c.cache.maxTime) (hp : c.cache.prefetching = false) (hn : NamesLeaveAnswers c)
    {w0 w : Chain.World W} {es : List Event} (h0 : w0.2.2.1.main.cache.items = []) (hr : ReachedBy senv c up w0 es w)
    (remote : Server.Addr) (sni : Option Str) (msg : Msg) (hc : CacheAnswers c remote sni msg) :
    ∀ m ∈ (Chain.serve senv c up remote sni msg w).1, m.rcode ≠ 2 → ∀ rr ∈ m.answer,
      rr.ttl.toNat ≤ wholeSeconds c.cache.maxTime + wholeSeconds c.cache.negTime ∨ ConfiguredTTL c rr.ttl := by
  have hs := secondsU32_le c.cache.maxTime
  have h := brief_whole c up hmax hn True (wholeSeconds c.cache.maxTime + wholeSeconds c.cache.negTime) (.inl trivial)
    (by omega) (fun _ => by omega)
  exact (serve_brief (b := true) (J := fun s => EntriesOk c.cache _ s.main) ht herr h remote sni msg w (reached_entries ht herr hp h hr h0)).2 (fun _ => hc)

/-- **C132**, if answers of upstreams that a name does not exist contain no records: then TTLs are at most the
maximum caching time. -/
theorem C132_ttls_max {senv : Server.Env} {len : Msg → Nat} (ht : TruncContract len senv.trunc) (herr : OnlyFailures senv)
    {c : Chain.Config E W} {up : Resolver W} (hmax : 0 < c.cache.maxTime) (hp : c.cache.prefetching = false) (hn : NamesLeaveAnswers c)
    (hup : ∀ r w, EmptyNegative (up r w).1)
    (hcond : ∀ k reso, AMap.get c.condMapping k = some reso → ∀ r w, EmptyNegative (reso r w).1)
    {w0 w : Chain.World W} {es : List Event} (h0 : w0.2.2.1.main.cache.items = []) (hr : ReachedBy senv c up w0 es w)
    (remote : Server.Addr) (sni : Option Str) (msg : Msg) (hc : CacheAnswers c remote sni msg) :
    ∀ m ∈ (Chain.serve senv c up remote sni msg w).1, m.rcode ≠ 2 → ∀ rr ∈ m.answer,
      rr.ttl.toNat ≤ wholeSeconds c.cache.maxTime ∨ ConfiguredTTL c rr.ttl := by
  have h := brief_whole c up hmax hn False (wholeSeconds c.cache.maxTime) (.inr (cond_negative c up hup hcond))
    (secondsU32_le c.cache.maxTime) (fun h => h.elim)
  exact (serve_brief (b := true) (J := fun s => EntriesOk c.cache _ s.main) ht herr h remote sni msg w (reached_entries ht herr hp h hr h0)).2 (fun _ => hc)

/-! ### Samples -/

/-- An upstream with long TTLs; names that do not exist have records nevertheless. -/
def longUp : Resolver Nat := fun request n =>
  (.ok { res := { ({} : Msg).setReply request.req with
      rcode := if request.req.question.any (fun q => (str! "none.").isSuffixOf q.name) then 3 else 0
      answer := request.req.question.flatMap (fun q => [
        { name := q.name, rtype := typeA, ttl := 0, data := .a (.v4 0x01020304#32) },
        { name := q.name, rtype := typeA, ttl := 86400, data := .a (.v4 0x01020305#32) }]) } }, n + 1)

/-- The sample server keeping answers for at most an hour and at least a minute. -/
def hourConfig : Chain.Config prefixEngine Nat :=
  { sampleConfig with
    ecs := {}
    cache := { minTime := 60000000000, maxTime := 3600000000000 } }

/-- The TTLs in the answers of a history. -/
def ttlsOf (c : Chain.Config prefixEngine Nat) (es : List Event) : List (List UInt32) :=
  (answersOf sampleServer c longUp es sampleWorld).map (fun ms => ms.flatMap (fun m => m.answer.map RR.ttl))

/-- A query of a client. -/
def ttlQuery (name : Str) : Event := .query (.udp (some (.v4 1#32))) none (query name)

/-- A query with the subnet of the client. -/
def subnetQuery (name : Str) : Msg :=
  setEdns0Option (query name) (.subnet 1 24 0 (some (.v4 0x0a000000#32)))

-- clamped, then counted down; blocked names and custom DNS have their own TTLs
example : ttlsOf hourConfig [ttlQuery (str! "www.org."), .pass 20000, ttlQuery (str! "www.org."), .cleanUp, ttlQuery (str! "WWW.org."),
    ttlQuery (str! "nas.lan."), ttlQuery (str! "ads.org.")] =
    [[60, 3600], [], [40, 3580], [], [40, 3580], [60], [60]] := by decide +kernel

theorem sample_failures : OnlyFailures sampleServer := by
  intro e m h
  unfold sampleServer at h
  simp only at h
  split at h
  · cases h; rfl
  · cases h

theorem counting_negative (r : Request) (n : Nat) : EmptyNegative (countingUp r n).1 := by
  intro y hy hrc
  unfold countingUp at hy
  split at hy
  · cases hy
  · split at hy
    · cases hy
    · cases hy
      cases hrc

-- an upstream and conditional upstreams as in `C132_ttls_max`, and a history
example : (∀ r w, EmptyNegative (countingUp r w).1) ∧
    (∀ k reso, AMap.get hourConfig.condMapping k = some reso → ∀ r w, EmptyNegative (reso r w).1) ∧
    ∃ w, ReachedBy sampleServer hourConfig countingUp sampleWorld [ttlQuery (str! "www.org."), .pass 20000] w ∧
      w.2.2.1.main.cache.items.length = 1 := by
  refine ⟨counting_negative, ?_, _, .step (.step .start rfl) rfl, by decide +kernel⟩
  have hall : ∀ x ∈ hourConfig.condMapping, x.2 = countingUp := by
    intro x hx
    simp only [hourConfig, sampleConfig, List.mem_cons, List.not_mem_nil, or_false] at hx
    rcases hx with rfl | rfl <;> rfl
  intro k reso hk r w
  have := hall _ (AMap.get_eq_some_mem hk)
  simp only at this
  rw [this]
  exact counting_negative r w

-- a history to which C132 applies
example : OnlyFailures sampleServer ∧ NamesLeaveAnswers hourConfig ∧ 0 < hourConfig.cache.maxTime ∧ hourConfig.cache.prefetching = false ∧
    sampleWorld.2.2.1.main.cache.items = [] ∧ CacheAnswers hourConfig (.udp (some (.v4 1#32))) none (query (str! "www.org.")) :=
  ⟨sample_failures, (fun _ h => nomatch h), by decide, rfl, rfl, fun _ h => by cases h; exact (fun _ => show Caching.isRequestCacheable _ = true by decide)⟩

/-- **C132** is false for the maximum caching time alone: a record of a name that does not exist, with the maximum
of an hour, gets a TTL of an hour and a half out of the cache. -/
theorem C132_ttls_negative_false :
    ttlsOf hourConfig [ttlQuery (str! "a.none."), ttlQuery (str! "a.none.")] = [[60, 3600], [1800, 5340]] := by decide +kernel

/-- **C132** is false for queries with the subnet of the client: neither bound is heeded. -/
theorem C132_ttls_subnet_false :
    ttlsOf hourConfig [.query (.udp (some (.v4 1#32))) none (subnetQuery (str! "www.org."))] = [[0, 86400]] := by decide +kernel

/-- **C132** is false with prefetching: records fetched again do not keep to the maximum. -/
theorem C132_ttls_prefetching_false :
    ttlsOf { hourConfig with cache := { minTime := 60000000000, maxTime := 3600000000000, prefetching := true, prefetchThreshold := 0 } }
      [ttlQuery (str! "www.org."), .pass 61000, .cleanUp, ttlQuery (str! "www.org.")] = [[60, 3600], [], [], [60, 86460]] := by decide +kernel

end Verif.Props
