/-
C82: a name about which nothing is configured gets the upstream's answer. Whole chain.
-/
import Verif.Props.Zones
import Verif.Props.CacheTTL

namespace Verif.Props
open Dns ExpCache StringCache
open Spec (InZone SpecialUse)

variable {E : RegexEngine} {W : Type}

/-- The name the conditional upstreams are asked for. -/
def condName (c : Chain.Config E W) (name : Str) : Str := ruledName c.condRewrite c.condOrder name

/-- Nothing is configured about the name of the question: no filter, no local record, no list entry, no zone, no
special use (for custom DNS and zones: about the name as their rewriting rules make it). `r` is the request as the inner resolvers see it. -/
structure Unconfigured (s : Setup E) (c : Chain.Config E W) (r : Request) (q : Question) : Prop where
  type : q.qtype ∉ c.filterTypes
  labels : c.fqdnOnly = false ∨ '.' ∈ extractDomain q.name
  depth : 0 < c.customDepth
  notLocal : NotLocal c r q
  env : c.blockEnv = s.env
  state : c.blockState = s.state
  «open» : s.Open r q
  noZone : ¬ Zoned c.condMapping (extractDomain (condName c q.name))
  notSpecial : c.sudn.enable = true → ¬ SpecialUse c.sudn.appendixG q.name (q.qtype == 43)

theorem lookup_notZoned {mapping : AMap Str (Resolver W)} {d : Str} (h : ¬ Zoned mapping d) : Cond.lookup mapping d = none := by
  unfold Cond.lookup
  by_cases hd : '.' ∈ d
  · have : d.contains '.' = true := by simpa using hd
    rw [if_pos this]
    cases hw : walk (AMap.get mapping) (d.length + 1) d with
    | none => rfl
    | some x =>
      obtain ⟨g1, g2, g3, _⟩ := walk_some (z := x.1) (v := x.2) hw
      exact absurd (.inl ⟨hd, x.1, g2, g1, by rw [g3]; rfl⟩) h
  · have : ¬ d.contains '.' = true := by simpa using hd
    rw [if_neg this]
    cases hg : AMap.get mapping (str! ".") with
    | none => rfl
    | some x => exact absurd (.inr ⟨hd, by rw [hg]; rfl⟩) h

/-- The part behind the cache hands the request to the upstreams. -/
theorem cond_unconfigured (c : Chain.Config E W) (up : Resolver W) (r : Request) (q : Question)
    (hq : r.req.question = [q]) (hz : ¬ Zoned c.condMapping (extractDomain (condName c q.name)))
    (hs : c.sudn.enable = true → ¬ SpecialUse c.sudn.appendixG q.name (q.qtype == 43)) (w : W) :
    Chain.cond c up r (r.req, w) = ((up r w).1, (r.req, (up r w).2)) := by
  have ht : Chain.tail c up r (r.req, w) = ((up r w).1, (r.req, (up r w).2)) := by
    unfold Chain.tail
    cases he : c.sudn.enable with
    | false =>
      unfold Small.sudn
      rw [he]
      rfl
    | true =>
      rw [C30_others c.sudn r q [] hq (hs he)]
      rfl
  have hc : ∀ (next : Cond.MResolver W) (r : Request) (q : Question), r.req.question = [q] → ¬ Zoned c.condMapping (extractDomain q.name) →
      Cond.conditional c.condMapping next r w = next r w := by
    intro next r q hq hz
    unfold Cond.conditional
    split
    · rw [hq]
      simp only [lookup_notZoned hz]
    · rfl
  unfold Chain.cond Cond.newRewriter
  by_cases hrw : c.condRewrite.rewrite = []
  · have hn : condName c q.name = q.name := by unfold condName ruledName; rw [if_pos hrw]
    rw [hn] at hz
    simp only [hrw, List.length_nil, if_true, Chain.ofM]
    rw [hc _ r q hq hz]
    simp only [Chain.toM, ht]
  · have hlen : ¬ c.condRewrite.rewrite.length = 0 := fun h => hrw (List.length_eq_zero_iff.1 h)
    rw [if_neg hlen]
    by_cases hsame : Cond.rewriteDomain (c.condOrder 0) (extractDomain q.name) = extractDomain q.name
    · have hn : condName c q.name = q.name := by unfold condName ruledName; rw [if_neg hrw, if_pos hsame]
      rw [hn] at hz
      have hr : Cond.rewriteQuestions c.condOrder 0 r.req.question [] = ([q], false, []) := by
        rw [hq]
        simp [Cond.rewriteQuestions, hsame]
      unfold Chain.ofM Cond.rewriter
      simp only [hr, Bool.false_eq_true, if_false, hc _ r q hq hz]
      simp only [Chain.toM, ht]
    · have hn : condName c q.name = fqdn (Cond.rewriteDomain (c.condOrder 0) (extractDomain q.name)) := by
        unfold condName ruledName; rw [if_neg hrw, if_neg hsame]
      have hr : Cond.rewriteQuestions c.condOrder 0 r.req.question [] =
          ([{ q with name := condName c q.name }], true, AMap.put [] (condName c q.name) q.name) := by
        rw [hq, hn]
        simp [Cond.rewriteQuestions, hsame]
      unfold Chain.ofM Cond.rewriter
      simp only [hr, if_true, hc _ { r with req := { r.req with question := [{ q with name := condName c q.name }] } }
        { q with name := condName c q.name } rfl hz]
      simp only [Chain.toM, ht]

theorem cacheGet_none (cfg : Caching.Cfg) (s : Caching.CState) (k : Str) (h : AMap.get s.main.cache.items k = none) :
    (Caching.cacheGet cfg s k).1 = none := by
  unfold Caching.cacheGet
  have : ∀ s1 : Caching.CState, s1.main = s.main → (s1.main.cache.get s1.main.now k).1 = none := by
    intro s1 h1
    rw [h1]
    unfold Cache.get Cache.peek
    rw [h]
  simp only
  split
  · exact this _ rfl
  · exact this _ rfl

theorem transform_internal {cfg : Ecs.Cfg} {request r1 : Request} (h1 : Ecs.transform cfg request = some r1) :
    r1.internal = request.internal := by
  unfold Ecs.transform at h1
  split at h1
  · simp only at h1
    split at h1
    · split at h1
      · cases h1
      · cases h1; rfl
      · cases h1; rfl
    · split at h1
      · cases h1; rfl
      · cases h1; rfl
  · cases h1; rfl

/-- The upstream's answer as the client may get it: every record in order, with its TTL or the clamped one. -/
def Delivered (cfg : Caching.Cfg) (u y : Msg) : Prop :=
  SameOutsideExtra { y with answer := [] } { u with answer := [] } ∧
  Pointwise (fun a a' => SameButTTL a a' ∧
    (a'.ttl = a.ttl ∨ ClampedTo cfg.minTime cfg.maxTime a.ttl.toNat a'.ttl.toNat)) u.answer y.answer

theorem pointwise_mem {α β : Type} {R : α → β → Prop} {l : List α} {m : List β} (h : Pointwise R l m) {b : β} (hb : b ∈ m) :
    ∃ a ∈ l, R a b := by
  induction h with
  | nil => cases hb
  | cons h1 _ ih =>
    rcases List.mem_cons.1 hb with rfl | hb
    · exact ⟨_, by simp, h1⟩
    · obtain ⟨a, ha, hr⟩ := ih hb
      exact ⟨a, by simp [ha], hr⟩

theorem block_forwards (s : Setup E) (c : Chain.Config E W)
    (hmin : c.cache.minTime / 1000000000 < 4294967296) (hmax : c.cache.maxTime / 1000000000 < 4294967296)
    (up : Resolver W) (r : Request) (q : Question) (hq : r.req.question = [q]) (hu : Unconfigured s c r q)
    (cache : Caching.CState) (hmiss : AMap.get cache.main.cache.items (Caching.questionKey q) = none) (w w' : W) :
    (∀ u, up r w = (.ok u, w') → ¬ s.AnswerBlocked r u.res.answer →
      ∃ y cache', Chain.block c up r (r.req, (cache, w)) = (.ok y, (r.req, (cache', w'))) ∧
        y = { u with res := { u.res with answer := y.res.answer } } ∧ Delivered c.cache u.res y.res) ∧
    (∀ e, up r w = (.err e, w') →
      ∃ cache', Chain.block c up r (r.req, (cache, w)) = (.err e, (r.req, (cache', w')))) := by
  have hnext := cond_unconfigured c up r q hq hu.noZone hu.notSpecial w
  have hopen : ∀ q' ∈ r.req.question, s.Open r q' := by
    rw [hq]
    intro q' h
    rw [List.mem_singleton.1 h]
    exact hu.open
  have hm := cacheGet_none c.cache cache _ hmiss
  constructor
  · intro u hup hb
    rw [hup] at hnext
    have hcache : ∃ y cache', Chain.caching c.cacheEnv c.cache (Chain.cond c up) r (r.req, (cache, w)) = (.ok y, (r.req, (cache', w'))) ∧
        y = { u with res := { u.res with answer := y.res.answer } } ∧
        Pointwise (fun a a' => SameButTTL a a' ∧
          (a'.ttl = a.ttl ∨ ClampedTo c.cache.minTime c.cache.maxTime a.ttl.toNat a'.ttl.toNat)) u.res.answer y.res.answer := by
      unfold Chain.caching
      cases hen : c.cache.enabled && Caching.isRequestCacheable r.req with
      | false =>
        have : (!c.cache.enabled || !Caching.isRequestCacheable r.req) = true := by
          revert hen
          cases c.cache.enabled <;> cases Caching.isRequestCacheable r.req <;> simp
        refine ⟨u, cache, ?_, rfl, ?_⟩
        · simp only [Caching.resolve, this, if_true, hnext]
        · generalize u.res.answer = l
          induction l with
          | nil => exact .nil
          | cons a l ih => exact .cons ⟨rfl, .inl rfl⟩ ih
      | true =>
        rw [Bool.and_eq_true] at hen
        obtain ⟨y, s', h1, h2, h3⟩ := C09_clamped c.cacheEnv c.cache (Chain.cond c up) r cache (r.req, w) (r.req, w') q u hmin hmax
          hen.1 hen.2 hq hm hnext
        refine ⟨y, s', by simp only [h1], h2, ?_⟩
        exact h3.imp (fun _ _ h => ⟨h.1, .inr h.2⟩)
    obtain ⟨y, cache', h1, h2, h3⟩ := hcache
    refine ⟨y, cache', ?_, h2, ?_, h3⟩
    · unfold Chain.block
      rw [hu.env, hu.state, C15_passed s _ r _ hopen, h1]
      intro y' hy'
      rw [h1] at hy'
      cases hy'
      rintro ⟨rr, hrr, x, hx, hd⟩
      obtain ⟨a, ha, hs, _⟩ := pointwise_mem h3 hrr
      refine hb ⟨a, ha, x, ?_, hd⟩
      have hdata : a.data = rr.data := by
        have := congrArg RR.data hs
        simp only at this
        exact this
      unfold Checked at hx ⊢
      rw [hdata]
      exact hx
    · rw [h2]; rfl
  · intro e hup
    rw [hup] at hnext
    have hcache : ∃ cache', Chain.caching c.cacheEnv c.cache (Chain.cond c up) r (r.req, (cache, w)) = (.err e, (r.req, (cache', w'))) := by
      unfold Chain.caching Caching.resolve
      by_cases hc : (!c.cache.enabled || !Caching.isRequestCacheable r.req) = true
      · simp only [hc, if_true, hnext]
        exact ⟨_, rfl⟩
      · simp only [hc]
        rw [hq]
        simp only [Caching.resolveLoop]
        cases hg : Caching.cacheGet c.cache cache (Caching.questionKey q) with
        | mk o s1 =>
          rw [hg] at hm
          simp only at hm
          subst hm
          simp only [hnext]
          exact ⟨_, rfl⟩
    obtain ⟨cache', h1⟩ := hcache
    refine ⟨cache', ?_⟩
    unfold Chain.block
    rw [hu.env, hu.state, C15_passed s _ r _ hopen, h1]
    intro y' hy'
    rw [h1] at hy'
    cases hy'

/-- **C82.** A query for a name about which nothing is configured, not in the cache: the upstreams are asked once
with the request (after the client-subnet resolver and with the client's names), and the client gets their answer -
every record in order, only TTLs clamped and extended errors added in the additional section -, or their error.
(One question; the answer holds nothing denied; bounds for TTLs are below 2^32 seconds.) -/
theorem C82_forwarded (s : Setup E) (c : Chain.Config E W)
    (hmin : c.cache.minTime / 1000000000 < 4294967296) (hmax : c.cache.maxTime / 1000000000 < 4294967296)
    (up : Resolver W) (request r1 r2 : Request) (hint : request.internal = false) (q : Question) (hq : request.req.question = [q])
    (h1 : Ecs.transform c.ecs request = some r1) (cn cn' : St (List Str)) (v : Caching.CState × W) (cache : Caching.CState) (w w' : W)
    (h2 : ClientNames.withNames c.names c.namesLookup r1 cn v = (r2, cn', (cache, w))) (hu : Unconfigured s c r2 q)
    (hmiss : AMap.get cache.main.cache.items (Caching.questionKey q) = none) (m : Msg) (queue : QueryLog.Queue) :
    (∀ u, up r2 w = (.ok u, w') → ¬ s.AnswerBlocked r2 u.res.answer →
      ∃ y m' queue' cache', Chain.whole c up request (m, (cn, queue, v)) = (.ok y, (m', (cn', queue', cache', w'))) ∧
        y.rtype = u.rtype ∧ y.reason = u.reason ∧ Delivered c.cache u.res y.res ∧
        (c.ede = false ∨ u.rtype = .resolved → y.res.extra = u.res.extra)) ∧
    (∀ e, up r2 w = (.err e, w') →
      ∃ m' queue' cache', Chain.whole c up request (m, (cn, queue, v)) = (.err e, (m', (cn', queue', cache', w')))) := by
  have hw := whole_front_names c up request r1 r2 q hq hu.type hu.labels h1 m cn cn' queue v (cache, w) h2
  have hr2 : r2.req = r1.req := by
    have := withNames_req c.names c.namesLookup r1 cn v
    rw [h2] at this
    exact this
  have hq1 : r2.req.question = [q] := by rw [hr2]; exact (ecs_question h1).trans hq
  have hi1 : r2.internal = false := by
    have : r2.internal = r1.internal := by
      have h3 : (ClientNames.withNames c.names c.namesLookup r1 cn v).1.internal = r1.internal := by
        unfold ClientNames.withNames
        rfl
      rw [h2] at h3
      exact h3
    exact this.trans ((transform_internal h1).trans hint)
  have hne : r2.req.question ≠ [] := by rw [hq1]; simp
  have hloc := local_passes c hu.depth up r2 hi1 q hq1 hu.notLocal (cache, w)
  obtain ⟨queue', hobs⟩ := observed_eq c up r2 hne r1.req queue (cache, w)
  obtain ⟨hok, herr⟩ := block_forwards s c hmin hmax up r2 q hq1 hu cache hmiss w w'
  rw [hw, hobs, hloc]
  constructor
  · intro u hup hb
    obtain ⟨y, cache', g1, g2, g3, g4⟩ := hok u hup hb
    rw [g1]
    have ht : y.rtype = u.rtype := by rw [g2]
    have hr : y.reason = u.reason := by rw [g2]
    have hx : y.res.extra = u.res.extra := by rw [g2]
    simp only [observedAnswer]
    by_cases he : c.ede = true
    · rw [if_pos he]
      refine ⟨_, _, queue', cache', rfl, ?_⟩
      unfold Small.addExtraReasoning
      split
      · exact ⟨ht, hr, ⟨g3, g4⟩, fun _ => hx⟩
      · rename_i hcode
        have hsame := (C29_only_opt_changes y.res (.ede (Small.toExtendedErrorCode y.rtype) y.reason) 0).1.1
        unfold SameOutsideExtra at hsame
        have hans := congrArg Msg.answer hsame
        simp only at hans
        refine ⟨ht, hr, ⟨?_, ?_⟩, ?_⟩
        · have h2 := congrArg (fun m : Msg => { m with answer := [] }) hsame
          exact Eq.trans h2 g3
        · simp only
          rw [hans]
          exact g4
        · rintro (h | h)
          · rw [he] at h; cases h
          · rw [ht, h] at hcode
            exact absurd rfl hcode
    · rw [if_neg he]
      exact ⟨_, _, queue', cache', rfl, ht, hr, ⟨g3, g4⟩, fun _ => hx⟩
  · intro e hup
    obtain ⟨cache', g1⟩ := herr e hup
    rw [g1]
    exact ⟨_, queue', cache', rfl⟩

-- Concrete: the sample server, with the client's subnet cut to 24 bits; the name "www.org.".
example : ∃ r1, Ecs.transform sampleConfig.ecs (sampleRequest (str! "www.org.")) = some r1 ∧
    Unconfigured demoSetup sampleConfig (seen sampleConfig r1 sampleWorld.1) ⟨str! "www.org.", typeA, 1⟩ ∧
    AMap.get sampleWorld.2.2.1.main.cache.items (Caching.questionKey ⟨str! "www.org.", typeA, 1⟩) = none := by
  refine ⟨_, rfl, ?_, rfl⟩
  constructor
  · decide
  · exact .inl rfl
  · decide
  · refine ⟨(walk_eq_none _ 8 _ (by decide)).1 (by decide), (fun h => nomatch h), .inr ⟨rfl, rfl⟩⟩
  · rfl
  · rfl
  · refine ⟨?_, ?_, ?_⟩
    · rw [← demoSetup.allow_iff]
      decide +kernel
    · rw [← demoSetup.only_iff]
      decide +kernel
    · rw [← demoSetup.deny_iff]
      decide +kernel
  · rw [show condName sampleConfig (str! "www.org.") = str! "www.org." by decide]
    rintro (⟨_, z, hz, hi, hs⟩ | ⟨hd, _⟩)
    · have := (walk_eq_none (AMap.get sampleConfig.condMapping) 8 (extractDomain (str! "www.org.")) (by decide)).1 (by decide) z hi hz
      rw [this] at hs
      cases hs
    · exact hd (by decide)
  · intro _ h
    have := (C30_special_use_partial (W := Unit) ⟨true, true⟩ rfl { req := query (str! "www.org.") } ⟨str! "www.org.", typeA, 1⟩ [] rfl (by decide)).1 h
    obtain ⟨r, _, _, _, _, hr⟩ := this
    have := hr (fun _ w => (.panic, w)) ()
    have h2 : (Small.sudn (W := Unit) ⟨true, true⟩ (fun _ w => (.panic, w)) { req := query (str! "www.org.") } ()).1 = .panic := by decide +kernel
    rw [this] at h2
    cases h2

end Verif.Props
