/-
C126: where the records in answers come from when many queries are handled at the same time.
-/
import Verif.Props.Origin
import Verif.Props.Inside

namespace Verif.Props
open Verif.Dns Verif.Spec Verif.ExpCache Verif.StringCache Verif.Threads Verif.Chain

variable {E : RegexEngine}

/-! ### What upstreams have said in an execution -/

/-- Upstreams have been asked for the name and type by some goroutine and have answered with the data. -/
def SaidIn (asUp : Str → Option Msg) (s : Sys E) (n : Str) (ty : Nat) (d : RData) : Prop :=
  ∃ t ∈ s.threads, ∃ z r o q m rr, (Threads.Op.ask z r, Res.answer o) ∈ t.made ∧ r.req.question = [q] ∧ bare q.name = n ∧ q.qtype = ty ∧
    messageIn asUp o = some m ∧ rr ∈ m.answer ∧ rr.data = d

/-- All the records that `c` allows to turn up for a name and type are allowed by `c0`. -/
def Covers (c0 c : Config E Unit) : Prop := ∀ said n t d, Origin c said n t d → Origin c0 said n t d

/-! ### One goroutine -/

/-- The configuration with the questions to upstreams as steps; client names are not looked up with it. -/
def forRuns (c : Config E Unit) : Config E Replay where
  filterTypes := c.filterTypes
  fqdnOnly := c.fqdnOnly
  ecs := c.ecs
  names := c.names
  namesLookup := none
  ede := c.ede
  log := c.log
  logEnv := c.logEnv
  logStart := c.logStart
  logDuration := c.logDuration
  metrics := c.metrics
  customRewrite := c.customRewrite
  customOrder := c.customOrder
  customEnv := c.customEnv
  customMapping := c.customMapping
  customReverse := c.customReverse
  customDepth := c.customDepth
  hostsEnabled := c.hostsEnabled
  hostsCfg := c.hostsCfg
  hosts := c.hosts
  hostsOrder4 := c.hostsOrder4
  hostsOrder6 := c.hostsOrder6
  blockEnv := c.blockEnv
  blockState := c.blockState
  cacheEnv := c.cacheEnv
  cache := c.cache
  condRewrite := c.condRewrite
  condOrder := c.condOrder
  condMapping := zonesBy asking c.condMapping
  sudn := c.sudn

theorem leads_forRuns {c : Config E Unit} {n m : Str} (h : Leads (forRuns c) n m) : Leads c n m := by
  induction h with
  | self => exact .self
  | custom _ h1 h2 ih => exact .custom ih h1 h2
  | conditional _ h1 h2 ih => exact .conditional ih h1 h2
  | alias _ h1 h2 h3 h4 ih => exact .alias ih h1 h2 h3 h4

theorem leads_forRuns' {c : Config E Unit} {n m : Str} (h : Leads c n m) : Leads (forRuns c) n m := by
  induction h with
  | self => exact .self
  | custom _ h1 h2 ih => exact .custom ih h1 h2
  | conditional _ h1 h2 ih => exact .conditional ih h1 h2
  | alias _ h1 h2 h3 h4 ih => exact .alias ih h1 h2 h3 h4

theorem origin_forRuns {c : Config E Unit} {said : Str → Nat → RData → Prop} {n : Str} {t : Nat} {d : RData} (h : Origin (forRuns c) said n t d) :
    Origin c said n t d := by
  cases h with
  | upstream h1 h2 => exact .upstream (leads_forRuns h1) h2
  | record h1 h2 h3 h4 h5 => exact .record (leads_forRuns h1) h2 h3 h4 h5
  | reverse h1 h2 h3 h4 => exact .reverse h1 (leads_forRuns h2) h3 h4
  | host h1 h2 h3 => exact .host h1 (leads_forRuns h2) h3
  | hostReverse h1 h2 h3 h4 h5 h6 => exact .hostReverse h1 h2 (leads_forRuns h3) h4 h5 h6
  | sink h1 h2 => exact .sink h1 h2
  | localhost4 h1 h2 h3 h4 => exact .localhost4 h1 (leads_forRuns h2) h3 h4
  | localhost6 h1 h2 h3 h4 => exact .localhost6 h1 (leads_forRuns h2) h3 h4

theorem origin_forRuns' {c : Config E Unit} {said : Str → Nat → RData → Prop} {n : Str} {t : Nat} {d : RData} (h : Origin c said n t d) :
    Origin (forRuns c) said n t d := by
  cases h with
  | upstream h1 h2 => exact .upstream (leads_forRuns' h1) h2
  | record h1 h2 h3 h4 h5 => exact .record (leads_forRuns' h1) h2 h3 h4 h5
  | reverse h1 h2 h3 h4 => exact .reverse h1 (leads_forRuns' h2) h3 h4
  | host h1 h2 h3 => exact .host h1 (leads_forRuns' h2) h3
  | hostReverse h1 h2 h3 h4 h5 h6 => exact .hostReverse h1 h2 (leads_forRuns' h3) h4 h5 h6
  | sink h1 h2 => exact .sink h1 h2
  | localhost4 h1 h2 h3 h4 => exact .localhost4 h1 (leads_forRuns' h2) h3 h4
  | localhost6 h1 h2 h3 h4 => exact .localhost6 h1 (leads_forRuns' h2) h3 h4

/-- The records of a message have origins, as an answer to the question of a key. -/
def KeyKnown (c : Config E Unit) (S : Str → Nat → RData → Prop) (key : Str) (m : Msg) : Prop :=
  ∀ t n, Caching.extractKey key = some (t, n) → ∀ rr ∈ m.answer, Origin c S (bare n) t rr.data

/-- For a goroutine that waits anything goes. -/
def saidT (S : Str → Nat → RData → Prop) (v : Replay) (n : Str) (t : Nat) (d : RData) : Prop := v.wish ≠ none ∨ S n t d

/-- The steps made: what upstreams have answered and what has been found in the cache is as in `S`; what is to be stored has origins. -/
structure GoodRun (c : Config E Unit) (asUp : Str → Option Msg) (S : Str → Nat → RData → Prop) (v : Replay) : Prop where
  asked : ∀ z r o q m rr, (Threads.Op.ask z r, Res.answer o) ∈ v.todo → r.req.question = [q] → messageIn asUp o = some m → rr ∈ m.answer →
    S (bare q.name) q.qtype rr.data
  found : ∀ k m ttl t n rr, (Threads.Op.find k, Res.found (some (m, ttl))) ∈ v.todo → Caching.extractKey k = some (t, n) → rr ∈ m.answer →
    S (bare n) t rr.data
  keep : ∀ k m ttl, v.wish = some (.keep k m ttl) → KeyKnown c S k m

variable {c : Config E Unit} {asUp : Str → Option Msg} {S : Str → Nat → RData → Prop}

theorem grows_wish {v v' : Replay} (h : v.wish ≠ none → v'.wish ≠ none) : Grows (saidT S) v v' := by
  intro n t d hs
  rcases hs with hs | hs
  · exact .inl (h hs)
  · exact .inr hs

theorem GoodRun.fewer {v : Replay} {e : Threads.Op × Res} {rest : List (Threads.Op × Res)} (h : GoodRun c asUp S v) (he : v.todo = e :: rest) :
    GoodRun c asUp S { v with todo := rest } where
  asked z r o q m rr hm := h.asked z r o q m rr (by rw [he]; exact List.mem_cons_of_mem _ hm)
  found k m ttl t n rr hm := h.found k m ttl t n rr (by rw [he]; exact List.mem_cons_of_mem _ hm)
  keep := h.keep

theorem GoodRun.waits {v : Replay} (h : GoodRun c asUp S v) (op : Threads.Op) (hop : v.wish = none → ∀ k m ttl, op = .keep k m ttl → KeyKnown c S k m) :
    GoodRun c asUp S (v.wait op) ∧ (v.wait op).wish ≠ none := by
  unfold Replay.wait
  cases hw : v.wish with
  | none => exact ⟨⟨h.asked, h.found, fun k m ttl e => by cases e; exact hop hw k m ttl rfl⟩, fun e => nomatch e⟩
  | some x => exact ⟨⟨h.asked, h.found, fun k m ttl e => h.keep k m ttl (by rw [hw]; exact e)⟩, fun e => nomatch e⟩

theorem records_ask (z : Option Str) (u : Resolver Unit) : RecordsIn asUp (saidT S) (GoodRun c asUp S) (asking z u) := by
  have key : ∀ (r : Request) (v : Replay), GoodRun c asUp S v → GoodRun c asUp S (asking z u r v).2 ∧ (v.wish ≠ none → (asking z u r v).2.wish ≠ none) ∧
      ((asking z u r v).2.wish ≠ none ∨ (Threads.Op.ask z r, Res.answer (asking z u r v).1) ∈ v.todo) := by
    intro r v h
    have hw := h.waits (.ask z r) (fun _ _ _ _ e => nomatch e)
    unfold asking ask
    split
    · rename_i z' r' o rest he
      split
      · rename_i hz
        obtain ⟨rfl, rfl⟩ := hz
        exact ⟨h.fewer he, fun x => x, .inr (by rw [he]; exact List.mem_cons_self)⟩
      · exact ⟨hw.1, fun _ => hw.2, .inl hw.2⟩
    · exact ⟨hw.1, fun _ => hw.2, .inl hw.2⟩
  refine ⟨fun r v h => (key r v h).1, fun r v h => grows_wish (key r v h).2.1, fun r v q y h hq hy rr hr => ?_, fun r v q e m h hq he hm rr hr => ?_⟩
  · rcases (key r v h).2.2 with h1 | h1
    · exact .inl h1
    · exact .inr (h.asked z r _ q y.res rr h1 hq (by rw [hy]; rfl) hr)
  · rcases (key r v h).2.2 with h1 | h1
    · exact .inl h1
    · exact .inr (h.asked z r _ q m rr h1 hq (by rw [he]; exact hm) hr)

theorem tells_condT (c : Config E Unit) (up : Resolver Unit) :
    Tells (forRuns c) asUp (saidT S) id (GoodRun c asUp S) (fun _ => True) (Threads.cond c up) :=
  tells_ofM (tells_newRewriter _ _ (fun h _ _ _ hm => .conditional (c := forRuns c) .self h hm)
    (fun h => tells_conditional (c := forRuns c) (fun d r hd => by
      have := zonesBy_get asking c.condMapping d
      rw [show (forRuns c).condMapping = zonesBy asking c.condMapping from rfl] at hd
      rw [hd] at this
      cases hu : AMap.get c.condMapping d with
      | none => rw [hu] at this; cases this
      | some u => rw [hu] at this; cases this; exact records_ask _ _) h)
    (tells_toM (tells_sudn (c := forRuns c) (tells_liftUp (records_ask none up)))))

theorem keep_good {v : Replay} (h : GoodRun c asUp S v) (k : Str) (m : Msg) (ttl : Int) (hk : v.wish = none → KeyKnown c S k m) :
    GoodRun c asUp S (keep k m ttl v) ∧ (v.wish ≠ none → (keep k m ttl v).wish ≠ none) := by
  unfold keep
  split
  · rename_i he
    exact ⟨h.fewer he, fun x => x⟩
  · have := h.waits (.keep k m ttl) (fun hw k' m' ttl' e => by cases e; exact hk hw)
    exact ⟨this.1, fun _ => this.2⟩

theorem find_good {v : Replay} (h : GoodRun c asUp S v) (k : Str) :
    GoodRun c asUp S (find k v).2 ∧ (v.wish ≠ none → (find k v).2.wish ≠ none) ∧
    ∀ m ttl, (find k v).1 = some (m, ttl) → ∀ t n, Caching.extractKey k = some (t, n) → ∀ rr ∈ m.answer, S (bare n) t rr.data := by
  have hw := h.waits (.find k) (fun _ _ _ _ e => nomatch e)
  unfold find
  split
  · rename_i k' x rest he
    split
    · rename_i hk
      subst hk
      refine ⟨h.fewer he, fun x => x, fun m ttl hx t n ht rr hr => ?_⟩
      simp only at hx
      subst hx
      exact h.found _ m ttl t n rr (by rw [he]; exact List.mem_cons_self) ht hr
    · exact ⟨hw.1, fun _ => hw.2, fun _ _ e => nomatch e⟩
  · exact ⟨hw.1, fun _ => hw.2, fun _ _ e => nomatch e⟩

theorem origin_done {v : Replay} (hv : v.wish = none) {n : Str} {t : Nat} {d : RData} (h : Origin (forRuns c) (saidT S v) n t d) : Origin c S n t d :=
  (origin_forRuns h).mono (fun _ _ _ hs => hs.resolve_left (fun hn => hn hv))

theorem tells_cachingT (env : Caching.Env) (cfg : Caching.Cfg) {next : MR Replay}
    (h : Tells (forRuns c) asUp (saidT S) id (GoodRun c asUp S) (fun _ => True) next) :
    Tells (forRuns c) asUp (saidT S) id (GoodRun c asUp S) (fun t => t < 65536) (Threads.caching env cfg next) := by
  intro request w q hq hD hw hi
  unfold Threads.caching
  by_cases hc : (!cfg.enabled || !Caching.isRequestCacheable request.req) = true
  · rw [if_pos hc]
    exact h request w q hq trivial hw hi
  · rw [if_neg hc, hq]
    simp only [Threads.cachingLoop]
    have hf := find_good hi (Caching.questionKey q)
    generalize find (Caching.questionKey q) w.2 = x at hf
    obtain ⟨r, v⟩ := x
    obtain ⟨hv, hwish, hknown⟩ := hf
    simp only at hv hwish hknown
    cases r with
    | some mt =>
      obtain ⟨m, t⟩ := mt
      simp only
      refine Told.after (v' := v) (Told.reply (I := GoodRun c asUp S) (proj := id) (w := (w.1, v)) hq hw hv _ ?_) (grows_wish hwish)
      intro rr hr
      simp only [Caching.hitResponse, Caching.setTTLs, List.mem_map] at hr
      obtain ⟨b, hb, rfl⟩ := hr
      have z := hknown m t rfl _ _ (C08_question_roundtrip q hD) b hb
      rw [bare_extractDomain] at z
      exact .upstream .self (.inr z)
    | none =>
      simp only
      have hg := (h request (w.1, v) q hq trivial hw hv).after (grows_wish (S := S) hwish)
      generalize next request (w.1, v) = x at hg
      obtain ⟨o, m, v1⟩ := x
      cases o with
      | ok r =>
        simp only
        have hk := hg.ok r rfl
        have ha : v1.wish = none → KeyKnown c S (Caching.questionKey q) (removeEdns0Record (Caching.adjusted cfg r).res) := by
          intro hn t n he rr hr
          rw [C08_question_roundtrip q hD] at he
          cases he
          rw [bare_extractDomain]
          exact origin_done hn (hk.data (adjust_data cfg r.res.answer) rr hr)
        have hstore : GoodRun c asUp S (keepAll (Caching.putOps env cfg (Caching.questionKey q) (Caching.adjusted cfg r).res
              (Caching.adjustTTLs cfg r.res.answer).2) v1) ∧
            (v1.wish ≠ none → (keepAll (Caching.putOps env cfg (Caching.questionKey q) (Caching.adjusted cfg r).res
              (Caching.adjustTTLs cfg r.res.answer).2) v1).wish ≠ none) := by
          have hnil : GoodRun c asUp S v1 ∧ (v1.wish ≠ none → v1.wish ≠ none) := ⟨hg.inv, fun x => x⟩
          unfold Caching.putOps
          simp only
          split
          · split
            · exact keep_good hg.inv _ _ _ ha
            · split
              · split
                · exact keep_good hg.inv _ _ _ ha
                · exact hnil
              · exact hnil
          · exact hnil
        refine ⟨fun n t d hs => grows_wish hstore.2 n t d (hg.grows n t d hs), hstore.1, ?_, (fun _ _ h => nomatch h), fun _ => hg.msg (fun h => nomatch h)⟩
        intro y hy
        cases hy
        exact (hk.data (adjust_data cfg r.res.answer)).grow (grows_wish hstore.2)
      | err e => exact hg
      | noResponse => exact Told.fail hg.grows hg.inv (fun _ h => nomatch h) (fun _ h => nomatch h) (fun h => absurd rfl h)
      | panic => exact Told.fail hg.grows hg.inv (fun _ h => nomatch h) (fun _ h => nomatch h) (fun h => absurd rfl h)

theorem log_good {v : Replay} (h : GoodRun c asUp S v) (e : QueryLogFile.LogEntry) :
    GoodRun c asUp S (log e v) ∧ (v.wish ≠ none → (log e v).wish ≠ none) := by
  unfold log
  split
  · rename_i he
    exact ⟨h.fewer he, fun x => x⟩
  · have := h.waits (.log e) (fun _ _ _ _ e => nomatch e)
    exact ⟨this.1, fun _ => this.2⟩

theorem tells_queryLogT (cfg : QueryLog.Cfg) (env : QueryLog.Env) (s d : Int) {next : MR Replay} {D : Nat → Prop}
    (h : Tells (forRuns c) asUp (saidT S) id (GoodRun c asUp S) D next) :
    Tells (forRuns c) asUp (saidT S) id (GoodRun c asUp S) D (ofM (Threads.queryLog cfg env s d (toM next))) := by
  apply tells_ofM
  intro request w q hq hD hi
  unfold Threads.queryLog
  have hg := tells_toM h request w q hq hD hi
  generalize toM next request w = x at hg
  obtain ⟨o, m, v⟩ := x
  cases o with
  | panic => exact hg
  | noResponse => exact Told.fail hg.grows hg.inv (fun _ h => nomatch h) (fun _ h => nomatch h) (fun h => absurd rfl h)
  | err e => exact hg
  | ok r =>
    simp only
    split
    · exact Told.fail hg.grows hg.inv (fun _ h => nomatch h) (fun _ h => nomatch h) (fun h => absurd rfl h)
    · rename_i entry _
      split
      · exact hg
      · have hl := log_good hg.inv entry
        exact ⟨fun n t d hs => grows_wish hl.2 n t d (hg.grows n t d hs), hl.1, fun y hy => (hg.ok y hy).grow (grows_wish hl.2),
          (fun _ _ h => nomatch h), hg.msg⟩

theorem getNames_good (cfg : ClientNames.Cfg) (l : Option (ClientNames.Lookup (Caching.CState × Unit))) (r : Request) {v : Replay} (h : GoodRun c asUp S v) :
    GoodRun c asUp S (getNames cfg (l.map askNames) r v).2 ∧ (v.wish ≠ none → (getNames cfg (l.map askNames) r v).2.wish ≠ none) := by
  have hfind : ∀ (k : Str) (v : Replay), GoodRun c asUp S v → GoodRun c asUp S (findNames k v).2 ∧ (v.wish ≠ none → (findNames k v).2.wish ≠ none) := by
    intro k v h
    have hw := h.waits (.findNames k) (fun _ _ _ _ e => nomatch e)
    unfold findNames
    split
    · rename_i he
      split
      · exact ⟨h.fewer he, fun x => x⟩
      · exact ⟨hw.1, fun _ => hw.2⟩
    · exact ⟨hw.1, fun _ => hw.2⟩
  have hkeep : ∀ (k : Str) (ns : List Str) (v : Replay), GoodRun c asUp S v →
      GoodRun c asUp S (keepNames k ns v) ∧ (v.wish ≠ none → (keepNames k ns v).wish ≠ none) := by
    intro k ns v h
    have hw := h.waits (.keepNames k ns) (fun _ _ _ _ e => nomatch e)
    unfold keepNames
    split
    · rename_i he
      exact ⟨h.fewer he, fun x => x⟩
    · exact ⟨hw.1, fun _ => hw.2⟩
  have hask : ∀ (e : ClientNames.Lookup (Caching.CState × Unit)) (ip : IP) (v : Replay), GoodRun c asUp S v →
      GoodRun c asUp S (askNames e ip v).2 ∧ (v.wish ≠ none → (askNames e ip v).2.wish ≠ none) := by
    intro e ip v h
    have hw := h.waits (.askNames ip) (fun _ _ _ _ e => nomatch e)
    unfold askNames
    split
    · rename_i he
      split
      · exact ⟨h.fewer he, fun x => x⟩
      · exact ⟨hw.1, fun _ => hw.2⟩
    · exact ⟨hw.1, fun _ => hw.2⟩
  have hres : ∀ (ip : IP) (v : Replay), GoodRun c asUp S v → GoodRun c asUp S (ClientNames.resolveClientNames cfg (l.map askNames) ip v).2 ∧
      (v.wish ≠ none → (ClientNames.resolveClientNames cfg (l.map askNames) ip v).2.wish ≠ none) := by
    intro ip v h
    unfold ClientNames.resolveClientNames
    split
    · exact ⟨h, fun x => x⟩
    · cases l with
      | none => exact ⟨h, fun x => x⟩
      | some e =>
        simp only [Option.map]
        have := hask e ip v h
        generalize askNames e ip v = x at this
        obtain ⟨a, v1⟩ := x
        cases a with
        | none => exact this
        | some ans =>
          simp only
          split
          · exact this
          · exact this
  unfold getNames
  split
  · exact ⟨h, fun x => x⟩
  · split
    · exact ⟨h, fun x => x⟩
    · rename_i ip _
      have h1 := hfind (cfg.ipString ip) v h
      generalize findNames (cfg.ipString ip) v = x at h1
      obtain ⟨a, v1⟩ := x
      cases a with
      | some ns => exact h1
      | none =>
        simp only
        have h2 := hres ip v1 h1.1
        have h3 := hkeep (cfg.ipString ip) (ClientNames.resolveClientNames cfg (l.map askNames) ip v1).1 _ h2.1
        exact ⟨h3.1, fun hw => h3.2 (h2.2 (h1.2 hw))⟩

theorem tells_wholeT (c : Config E Unit) (up : Resolver Unit) (hloop : ∀ names, asUp (CustomDns.loopError names) = none)
    (hother : asUp (str! "unsupported customDNS RR type") = none) :
    Tells (forRuns c) asUp (saidT S) id (GoodRun c asUp S) (fun t => t < 65536) (Threads.whole c up) := by
  refine tells_filtering _ (tells_fqdnOnly _ (tells_ecs _ ?_))
  have hobs : Tells (forRuns c) asUp (saidT S) id (GoodRun c asUp S) (fun t => t < 65536) (Threads.observed c up) :=
    tells_ede _ (tells_queryLogT _ _ _ _ (tells_metrics _
      (tells_ofM (tells_newRewriter _ _ (fun h _ _ _ hm => .custom (c := forRuns c) .self h hm)
        (fun h => tells_toM (tells_customDns (c := forRuns c) _ hloop hother _ (tells_ofM h)))
        (tells_toM (tells_hosts (c := forRuns c) _ (tells_blocking (c := forRuns c) _ (tells_cachingT _ _ (tells_condT c up)))))))))
  intro request w q hq hD hw hi
  have hn := getNames_good c.names c.namesLookup request hi
  exact (hobs { request with clientNames := (getNames c.names (c.namesLookup.map askNames) request w.2).1 }
    (w.1, (getNames c.names (c.namesLookup.map askNames) request w.2).2) q hq hD hw hn.1).after (grows_wish hn.2)

/-- A query's run: what is to be stored has origins; and so have the records of the reply. -/
theorem serve_tellsT {senv : Server.Env} {len : Msg → Nat} (ht : TruncContract len senv.trunc) (c : Config E Unit) (up : Resolver Unit)
    (hloop : ∀ names, senv.asUpstream (CustomDns.loopError names) = none) (hother : senv.asUpstream (str! "unsupported customDNS RR type") = none)
    (remote : Server.Addr) (sni : Option Str) (msg : Msg) (hm : OneQuestion msg) (v : Replay) (hi : GoodRun c senv.asUpstream S v) :
    GoodRun c senv.asUpstream S (Threads.serve senv c up remote sni msg v).2 ∧
    ((Threads.serve senv c up remote sni msg v).2.wish = none → ∀ m ∈ (Threads.serve senv c up remote sni msg v).1, ∀ rr ∈ m.answer, ∃ q,
      msg.question = [q] ∧ Origin c S (bare q.name) q.qtype rr.data) := by
  cases hq : msg.question with
  | nil =>
    have hreq : (Server.newRequestFromDNS remote sni msg).req.question = [] := hq
    unfold Threads.serve Server.onRequest Server.handleReq Server.resolve
    rw [hreq]
    simp only
    refine ⟨hi, fun _ m hm rr hr => ?_⟩
    rw [List.mem_singleton] at hm
    subst hm
    cases finish_data senv ht _ _ _ rr hr
  | cons q qs =>
    obtain ⟨h1, h2⟩ := hm q (by rw [hq]; exact List.mem_cons_self)
    have hqs : qs = [] := by rw [hq] at h1; simpa using h1
    subst hqs
    have hg := tells_wholeT (S := S) c up hloop hother (Server.newRequestFromDNS remote sni msg) (msg, v) q hq h2 rfl hi
    have hreq : (Server.newRequestFromDNS remote sni msg).req = msg := rfl
    unfold Threads.serve Server.onRequest Server.handleReq Server.resolve
    rw [hreq, hq]
    simp only
    have hto : toM (Threads.whole c up) (Server.newRequestFromDNS remote sni msg) v =
      Threads.whole c up (Server.newRequestFromDNS remote sni msg) (msg, v) := rfl
    rw [hto]
    generalize Threads.whole c up (Server.newRequestFromDNS remote sni msg) (msg, v) = x at hg
    obtain ⟨o, m', v'⟩ := x
    have hsf : v'.wish = none → ∀ m ∈ [({} : Msg).setRcode m' rcodeServFail], ∀ rr ∈ m.answer, ∃ q0, [q] = [q0] ∧
        Origin c S (bare q0.name) q0.qtype rr.data := by
      intro _ m hm rr hr
      rw [List.mem_singleton] at hm
      subst hm
      cases hr
    cases o with
    | ok r =>
      refine ⟨hg.inv, fun hn m hm rr hr => ?_⟩
      rw [List.mem_singleton] at hm
      subst hm
      exact ⟨q, rfl, origin_done hn (hg.ok r rfl rr (finish_data senv ht _ _ _ rr hr))⟩
    | err e =>
      simp only
      cases hum : senv.asUpstream e with
      | none => exact ⟨hg.inv, hsf⟩
      | some um =>
        refine ⟨hg.inv, fun hn m hm rr hr => ?_⟩
        rw [List.mem_singleton] at hm
        subst hm
        exact ⟨q, rfl, origin_done hn (hg.err e um rfl hum rr (finish_data senv ht _ _ _ rr hr))⟩
    | noResponse => exact ⟨hg.inv, hsf⟩
    | panic => exact ⟨hg.inv, hsf⟩

theorem refresh_tellsT (c : Config E Unit) (up : Resolver Unit) (key : Str) (v : Replay) (hi : GoodRun c asUp S v) :
    GoodRun c asUp S (Threads.refresh c up key v) := by
  have h := reload_tellsIn (c := forRuns c) c.cacheEnv c.cache (tells_condT (asUp := asUp) (S := S) c up) (fun _ _ _ => ⟨rfl, rfl⟩) key ({}, v) hi
  unfold Threads.refresh
  generalize Caching.reload c.cacheEnv c.cache (Threads.cond c up) key ({}, v) = x at h
  obtain ⟨a, m0, v1⟩ := x
  obtain ⟨h1, h2, h3⟩ := h
  match a with
  | none => exact h2
  | some none => exact h2
  | some (some (m, ttl)) =>
    exact (keep_good h2 key m ttl (fun hn t n he rr hr => origin_done hn (h3 m ttl rfl t n he rr hr))).1

/-! ### The whole execution -/

/-- Origins of what has origins. -/
theorem origin_flat {S : Str → Nat → RData → Prop} {n : Str} {t : Nat} {d : RData} (h : Origin c (Origin c S) n t d) : Origin c S n t d := by
  cases h with
  | upstream h1 h2 => exact h2.lead h1
  | record h1 h2 h3 h4 h5 => exact .record h1 h2 h3 h4 h5
  | reverse h1 h2 h3 h4 => exact .reverse h1 h2 h3 h4
  | host h1 h2 h3 => exact .host h1 h2 h3
  | hostReverse h1 h2 h3 h4 h5 h6 => exact .hostReverse h1 h2 h3 h4 h5 h6
  | sink h1 h2 => exact .sink h1 h2
  | localhost4 h1 h2 h3 h4 => exact .localhost4 h1 h2 h3 h4
  | localhost6 h1 h2 h3 h4 => exact .localhost6 h1 h2 h3 h4

/-- The entries of the cache have origins. -/
def EntriesKnown (c0 : Config E Unit) (S : Str → Nat → RData → Prop) (items : List (Str × Element Msg)) : Prop :=
  ∀ x ∈ items, KeyKnown c0 S x.1 x.2.val

/-- A goroutine's job is allowed: its settings are covered, a query has one question. -/
def JobIn (c0 : Config E Unit) : Job E → Prop
  | .query c _ _ msg => Covers c0 c ∧ OneQuestion msg
  | .refresh c _ => Covers c0 c

/-- What holds all the time. -/
structure Sourced (c0 : Config E Unit) (asUp : Str → Option Msg) (s : Sys E) : Prop where
  cache : EntriesKnown c0 (SaidIn asUp s) s.cache.main.cache.items
  found : ∀ t ∈ s.threads, ∀ k m ttl, (Threads.Op.find k, Res.found (some (m, ttl))) ∈ t.made → KeyKnown c0 (SaidIn asUp s) k m
  jobs : ∀ t ∈ s.threads, JobIn c0 t.job

theorem KeyKnown.mono {S S' : Str → Nat → RData → Prop} (hs : ∀ n t d, S n t d → S' n t d) {k : Str} {m : Msg} (h : KeyKnown c S k m) : KeyKnown c S' k m :=
  fun t n he rr hr => (h t n he rr hr).mono hs

theorem Covers.key {c0 c : Config E Unit} (hc : Covers c0 c) {S : Str → Nat → RData → Prop} {k : Str} {m : Msg} (h : KeyKnown c (Origin c0 S) k m) :
    KeyKnown c0 S k m := fun t n he rr hr => origin_flat (hc _ _ _ _ (h t n he rr hr))

theorem sourced_run {c0 : Config E Unit} {asUp : Str → Option Msg} {s : Sys E} (hs : Sourced c0 asUp s) {t : Thread E} (ht : t ∈ s.threads)
    (c : Config E Unit) : GoodRun c asUp (Origin c0 (SaidIn asUp s)) { todo := t.made } where
  asked z r o q m rr hm hq hmsg hr := .upstream .self ⟨t, ht, z, r, o, q, m, rr, hm, hq, rfl, rfl, hmsg, hr, rfl⟩
  found k m ttl ty n rr hm he hr := hs.found t ht k m ttl hm ty n he rr hr
  keep _ _ _ h := nomatch h

/-- What a goroutine stores has origins. -/
theorem sourced_next {c0 : Config E Unit} {senv : Server.Env} {len : Msg → Nat} (htc : TruncContract len senv.trunc) (up : Resolver Unit)
    (hloop : ∀ names, senv.asUpstream (CustomDns.loopError names) = none) (hother : senv.asUpstream (str! "unsupported customDNS RR type") = none)
    {s : Sys E} (hs : Sourced c0 senv.asUpstream s) {t : Thread E} (ht : t ∈ s.threads) {k : Str} {m : Msg} {ttl : Int}
    (hn : t.next senv up = some (.keep k m ttl)) : KeyKnown c0 (SaidIn senv.asUpstream s) k m := by
  have hj := hs.jobs t ht
  have hr := fun c => sourced_run hs ht c
  obtain ⟨job, made⟩ := t
  cases job with
  | query c remote sni msg => exact hj.1.key ((serve_tellsT htc c up hloop hother remote sni msg hj.2 _ (hr c)).1.keep k m ttl hn)
  | refresh c key => exact hj.key ((refresh_tellsT c up key _ (hr c)).keep k m ttl hn)

theorem said_moved {asUp : Str → Option Msg} {s s' : Sys E} {i : Nat} {t : Thread E} {e : List (Threads.Op × Res)} (hi : s.threads[i]? = some t)
    (he : s'.threads = s.threads.set i { t with made := t.made ++ e }) {n : Str} {ty : Nat} {d : RData} (h : SaidIn asUp s n ty d) : SaidIn asUp s' n ty d := by
  obtain ⟨u, hu, z, r, o, q, m, rr, h1, h2⟩ := h
  obtain ⟨j, hj, rfl⟩ := List.mem_iff_getElem.1 hu
  by_cases hij : i = j
  · subst hij
    have : t = s.threads[i] := by
      rw [List.getElem?_eq_getElem hj] at hi
      exact (Option.some.inj hi).symm
    refine ⟨{ t with made := t.made ++ e }, ?_, z, r, o, q, m, rr, List.mem_append_left _ (this ▸ h1), h2⟩
    rw [he]
    exact List.mem_set hj _
  · refine ⟨s.threads[j], ?_, z, r, o, q, m, rr, h1, h2⟩
    rw [he]
    refine List.mem_iff_getElem.2 ⟨j, by rw [List.length_set]; exact hj, ?_⟩
    rw [List.getElem_set_ne hij]

theorem said_same {asUp : Str → Option Msg} {s s' : Sys E} (hsub : ∀ t ∈ s.threads, t ∈ s'.threads) {n : Str} {ty : Nat} {d : RData}
    (h : SaidIn asUp s n ty d) : SaidIn asUp s' n ty d := by
  obtain ⟨u, hu, h⟩ := h
  exact ⟨u, hsub u hu, h⟩

theorem sourced_started {c0 : Config E Unit} {asUp : Str → Option Msg} {s : Sys E} (hs : Sourced c0 asUp s) (j : Job E) (hj : JobIn c0 j) :
    Sourced c0 asUp { s with threads := s.threads ++ [{ job := j }] } := by
  have hm : ∀ n ty d, SaidIn asUp s n ty d → SaidIn asUp ({ s with threads := s.threads ++ [{ job := j }] } : Sys E) n ty d :=
    fun n ty d h => said_same (fun t ht => List.mem_append_left _ ht) h
  refine ⟨fun x hx => (hs.cache x hx).mono hm, ?_, ?_⟩
  · intro t ht k m ttl hk
    rcases List.mem_append.1 ht with ht | ht
    · exact (hs.found t ht k m ttl hk).mono hm
    · rw [List.mem_singleton] at ht
      subst ht
      cases hk
  · intro t ht
    rcases List.mem_append.1 ht with ht | ht
    · exact hs.jobs t ht
    · rw [List.mem_singleton] at ht
      subst ht
      exact hj

/-- Events that leave goroutines alone and add nothing to the cache. -/
theorem sourced_less {c0 : Config E Unit} {asUp : Str → Option Msg} {s s' : Sys E} (hs : Sourced c0 asUp s) (ht : s'.threads = s.threads)
    (hc : ∀ x ∈ s'.cache.main.cache.items, x ∈ s.cache.main.cache.items) : Sourced c0 asUp s' := by
  have hm : ∀ n ty d, SaidIn asUp s n ty d → SaidIn asUp s' n ty d := fun n ty d h => said_same (fun t h' => by rw [ht]; exact h') h
  exact ⟨fun x hx => (hs.cache x (hc x hx)).mono hm, fun t h' k m ttl hk => (hs.found t (ht ▸ h') k m ttl hk).mono hm, fun t h' => hs.jobs t (ht ▸ h')⟩

/-- A goroutine has made a step. -/
theorem sourced_moved {c0 : Config E Unit} {asUp : Str → Option Msg} {s s' : Sys E} (hs : Sourced c0 asUp s) {i : Nat} {t : Thread E} {op : Threads.Op} {res : Res}
    (hi : s.threads[i]? = some t) (he : s'.threads = s.threads.set i { t with made := t.made ++ [(op, res)] })
    (hc : EntriesKnown c0 (SaidIn asUp s) s'.cache.main.cache.items)
    (hf : ∀ k m ttl, op = .find k → res = .found (some (m, ttl)) → KeyKnown c0 (SaidIn asUp s) k m) : Sourced c0 asUp s' := by
  have hm : ∀ n ty d, SaidIn asUp s n ty d → SaidIn asUp s' n ty d := fun n ty d h => said_moved hi he h
  have htm := List.mem_of_getElem? hi
  have hall : ∀ u ∈ s'.threads, u ∈ s.threads ∨ u = { t with made := t.made ++ [(op, res)] } := by
    intro u hu
    rw [he] at hu
    exact List.mem_or_eq_of_mem_set hu
  refine ⟨fun x hx => (hc x hx).mono hm, ?_, ?_⟩
  · intro u hu k m ttl hk
    rcases hall u hu with hu | rfl
    · exact (hs.found u hu k m ttl hk).mono hm
    · rcases List.mem_append.1 hk with hk | hk
      · exact (hs.found t htm k m ttl hk).mono hm
      · rw [List.mem_singleton] at hk
        cases hk
        exact (hf k m ttl rfl rfl).mono hm
  · intro u hu
    rcases hall u hu with hu | rfl
    · exact hs.jobs u hu
    · exact hs.jobs t htm

/-- An event is allowed. -/
def EvIn (c0 : Config E Unit) : Ev E → Prop
  | .query c _ _ msg => Covers c0 c ∧ OneQuestion msg
  | .refresh c _ => Covers c0 c
  | _ => True

theorem sourced_advance {c0 : Config E Unit} {senv : Server.Env} {len : Msg → Nat} (htc : TruncContract len senv.trunc) (up : Resolver Unit)
    (hloop : ∀ names, senv.asUpstream (CustomDns.loopError names) = none) (hother : senv.asUpstream (str! "unsupported customDNS RR type") = none)
    {s : Sys E} (hs : Sourced c0 senv.asUpstream s) (ev : Ev E) (hev : EvIn c0 ev) : Sourced c0 senv.asUpstream (advance senv up s ev) := by
  cases ev with
  | query c remote sni msg => exact sourced_started hs _ hev
  | refresh c key =>
    unfold advance
    simp only
    split
    · exact sourced_started hs _ hev
    · exact hs
  | pass d => exact sourced_less hs rfl (fun x hx => hx)
  | drop key => exact sourced_less hs rfl (fun x hx => removes_sub [key] s.cache.main x hx)
  | dropNames key => exact sourced_less hs rfl (fun x hx => hx)
  | flush => exact sourced_less hs rfl (fun x hx => nomatch hx)
  | take => exact sourced_less hs rfl (fun x hx => hx)
  | written => exact sourced_less hs rfl (fun x hx => hx)
  | move i o x =>
    unfold advance
    simp only
    split
    · rename_i t hi
      have htm := List.mem_of_getElem? hi
      split
      · rename_i op hn
        cases op with
        | find key =>
          unfold perform
          simp only
          have hsub := cacheGet_sub t.job.config.cache s.cache key
          have hmem := cacheGet_mem t.job.config.cache s.cache key
          generalize Caching.cacheGet t.job.config.cache s.cache key = y at hsub hmem
          obtain ⟨found, cache⟩ := y
          refine sourced_moved hs hi rfl (fun x hx => hs.cache x (hsub x hx)) (fun k m ttl h1 h2 => ?_)
          cases h1
          cases h2
          obtain ⟨el, h3, h4⟩ := hmem m ttl rfl
          exact h4 ▸ hs.cache _ h3
        | keep key m ttl =>
          refine sourced_moved hs hi rfl ?_ (fun k m ttl h1 h2 => nomatch h1)
          have hk := sourced_next htc up hloop hother hs htm hn
          have hput := CacheKnown.put (c := c0) (said := fun (_ : Unit) => SaidIn senv.asUpstream s) (w := ()) (s := s.cache.main.cache)
            (fun x hx => hs.cache x hx) s.cache.main.now key m ttl hk
          exact hput
        | findNames key => exact sourced_moved hs hi rfl hs.cache (fun k m ttl h1 h2 => nomatch h1)
        | keepNames key ns => exact sourced_moved hs hi rfl hs.cache (fun k m ttl h1 h2 => nomatch h1)
        | log e => exact sourced_moved hs hi rfl hs.cache (fun k m ttl h1 h2 => nomatch h1)
        | ask z r => exact sourced_moved hs hi rfl hs.cache (fun k m ttl h1 h2 => nomatch h1)
        | askNames ip => exact sourced_moved hs hi rfl hs.cache (fun k m ttl h1 h2 => nomatch h1)
      · exact hs
    · exact hs

theorem sourced_execute {c0 : Config E Unit} {senv : Server.Env} {len : Msg → Nat} (htc : TruncContract len senv.trunc) (up : Resolver Unit)
    (hloop : ∀ names, senv.asUpstream (CustomDns.loopError names) = none) (hother : senv.asUpstream (str! "unsupported customDNS RR type") = none)
    (es : List (Ev E)) : ∀ {s : Sys E}, Sourced c0 senv.asUpstream s → (∀ ev ∈ es, EvIn c0 ev) → Sourced c0 senv.asUpstream (execute senv up s es) := by
  induction es with
  | nil => exact fun hs _ => hs
  | cons ev es ih =>
    exact fun hs h => ih (sourced_advance htc up hloop hother hs ev (h ev List.mem_cons_self)) (fun e he => h e (List.mem_cons_of_mem _ he))

/-- **C126.** Any number of queries handled at the same time, in any interleaving, with entries of the cache asked for again, dropped and
flushed meanwhile, and with settings changing from query to query: the data of every record in a reply come from an answer of an upstream to
a question of that type, asked by any goroutine of this execution for the name - or for a name it leads to by configured rewriting or aliases -,
or from the configuration: a custom record, the hosts file, the addresses for blocked names, the address of localhost. -/
theorem C126_origin {c0 : Config E Unit} {senv : Server.Env} {len : Msg → Nat} (htc : TruncContract len senv.trunc) (up : Resolver Unit)
    (hloop : ∀ names, senv.asUpstream (CustomDns.loopError names) = none) (hother : senv.asUpstream (str! "unsupported customDNS RR type") = none)
    (s : Sys E) (hs : s.threads = []) (hempty : s.cache.main.cache.items = []) (es : List (Ev E))
    (hes : ∀ ev ∈ es, (∀ c remote sni msg, ev = .query c remote sni msg → Covers c0 c ∧ OneQuestion msg) ∧ ∀ c key, ev = .refresh c key → Covers c0 c)
    (t : Thread E) (ht : t ∈ (execute senv up s es).threads) (c : Config E Unit) (remote : Server.Addr) (sni : Option Str) (msg : Msg)
    (hj : t.job = .query c remote sni msg) (ms : List Msg) (hd : t.reply senv up = some ms) :
    ∀ m ∈ ms, ∀ rr ∈ m.answer, ∃ q, msg.question = [q] ∧ Origin c0 (SaidIn senv.asUpstream (execute senv up s es)) (bare q.name) q.qtype rr.data := by
  have h0 : Sourced c0 senv.asUpstream s := by
    refine ⟨fun x hx => ?_, fun t h => ?_, fun t h => ?_⟩
    · rw [hempty] at hx; cases hx
    · rw [hs] at h; cases h
    · rw [hs] at h; cases h
  have hev : ∀ ev ∈ es, EvIn c0 ev := by
    intro ev h
    cases ev with
    | query c remote sni msg => exact (hes _ h).1 _ _ _ _ rfl
    | refresh c key => exact (hes _ h).2 _ _ rfl
    | _ => trivial
  have hx := sourced_execute htc up hloop hother es h0 hev
  have hjob := hx.jobs t ht
  have hrun := sourced_run hx ht c
  obtain ⟨job, made⟩ := t
  simp only at hj
  subst hj
  have hk := serve_tellsT htc c up hloop hother remote sni msg hjob.2 _ hrun
  unfold Thread.reply at hd
  intro m hm rr hr
  split at hd
  · cases hd
  · rename_i hn
    cases hd
    obtain ⟨q, h1, h2⟩ := hk.2 hn m hm rr hr
    exact ⟨q, h1, origin_flat (hjob.1 _ _ _ _ h2)⟩

/-- **C126**: without rewriting and aliases, answers of upstreams turn up in replies for the names they have been asked for only. -/
theorem C126_not_elsewhere {c0 : Config E Unit} {senv : Server.Env} {len : Msg → Nat} (htc : TruncContract len senv.trunc) (up : Resolver Unit)
    (hloop : ∀ names, senv.asUpstream (CustomDns.loopError names) = none) (hother : senv.asUpstream (str! "unsupported customDNS RR type") = none)
    (h1 : c0.customRewrite.rewrite = []) (h2 : c0.condRewrite.rewrite = [])
    (h3 : ∀ z es, c0.customMapping.get z = some es → ∀ e ∈ es, ∀ target, e.data ≠ .cname target)
    (s : Sys E) (hs : s.threads = []) (hempty : s.cache.main.cache.items = []) (es : List (Ev E))
    (hes : ∀ ev ∈ es, (∀ c remote sni msg, ev = .query c remote sni msg → Covers c0 c ∧ OneQuestion msg) ∧ ∀ c key, ev = .refresh c key → Covers c0 c)
    (t : Thread E) (ht : t ∈ (execute senv up s es).threads) (c : Config E Unit) (remote : Server.Addr) (sni : Option Str) (msg : Msg)
    (hj : t.job = .query c remote sni msg) (ms : List Msg) (hd : t.reply senv up = some ms) :
    ∀ m ∈ ms, ∀ rr ∈ m.answer, ∃ q, msg.question = [q] ∧
      (SaidIn senv.asUpstream (execute senv up s es) (bare q.name) q.qtype rr.data ∨ Origin c0 (fun _ _ _ => False) (bare q.name) q.qtype rr.data) := by
  intro m hm rr hr
  obtain ⟨q, hq, ho⟩ := C126_origin htc up hloop hother s hs hempty es hes t ht c remote sni msg hj ms hd m hm rr hr
  exact ⟨q, hq, C103_not_elsewhere ho h1 h2 h3⟩

/-! ### Settings that change -/

/-- Lists, names of clients, the log, the cache, upstreams of zones, types filtered and so on make no difference for where records may come from. -/
theorem covers_lists (c0 : Config E Unit) (bs : Blocking.BState E) (hb : bs.handler = c0.blockState.handler) (types : List Nat) (ecs : Ecs.Cfg)
    (names : ClientNames.Cfg) (lookup : Option (ClientNames.Lookup (Caching.CState × Unit))) (log : QueryLog.Cfg) (cache : Caching.Cfg)
    (zones : AMap Str (Resolver Unit)) :
    Covers c0 { c0 with blockState := bs, filterTypes := types, ecs := ecs, names := names, namesLookup := lookup, log := log, cache := cache, condMapping := zones } := by
  have hl : ∀ n m, Leads { c0 with blockState := bs, filterTypes := types, ecs := ecs, names := names, namesLookup := lookup, log := log, cache := cache, condMapping := zones } n m →
      Leads c0 n m := by
    intro n m h
    induction h with
    | self => exact .self
    | custom _ h1 h2 ih => exact .custom ih h1 h2
    | conditional _ h1 h2 ih => exact .conditional ih h1 h2
    | alias _ h1 h2 h3 h4 ih => exact .alias ih h1 h2 h3 h4
  intro said n t d h
  cases h with
  | upstream h1 h2 => exact .upstream (hl _ _ h1) h2
  | record h1 h2 h3 h4 h5 => exact .record (hl _ _ h1) h2 h3 h4 h5
  | reverse h1 h2 h3 h4 => exact .reverse h1 (hl _ _ h2) h3 h4
  | host h1 h2 h3 => exact .host h1 (hl _ _ h2) h3
  | hostReverse h1 h2 h3 h4 h5 h6 => exact .hostReverse h1 h2 (hl _ _ h3) h4 h5 h6
  | sink h1 h2 => exact .sink (hb ▸ h1) h2
  | localhost4 h1 h2 h3 h4 => exact .localhost4 h1 (hl _ _ h2) h3 h4
  | localhost6 h1 h2 h3 h4 => exact .localhost6 h1 (hl _ _ h2) h3 h4

/-! ### Examples -/

theorem planned_events {P : Ev prefixEngine → Prop} (hmove : ∀ i o x, P (.move i o x)) (ps : List Plan) (hps : ∀ e, Plan.event e ∈ ps → P e) :
    ∀ s, ∀ e ∈ planned s ps, P e := by
  induction ps with
  | nil => exact fun _ _ h => nomatch h
  | cons p ps ih =>
    intro s e he
    have ih := ih (fun e he => hps e (List.mem_cons_of_mem _ he))
    cases p with
    | event e' =>
      rcases List.mem_cons.1 he with rfl | he
      · exact hps _ List.mem_cons_self
      · exact ih _ e he
    | go i ttl =>
      rcases List.mem_cons.1 he with rfl | he
      · unfold stepOf
        split <;> exact hmove _ _ _
      · exact ih _ e he

/-- The hypotheses of `C126_origin` are met by the queries that overlap; the answer of the upstream for the one goes to the other one from the cache. -/
example (t : Thread prefixEngine) (ht : t ∈ (execute sampleServer bareUp freshSys (planned freshSys overlapping)).threads)
    (remote : Server.Addr) (name : Str) (hj : t.job = .query (threadsConfig 0) remote none (query name)) (ms : List Msg)
    (hms : t.reply sampleServer bareUp = some ms) : ∀ m ∈ ms, ∀ rr ∈ m.answer, ∃ q, (query name).question = [q] ∧
      Origin (threadsConfig 0) (SaidIn sampleServer.asUpstream (execute sampleServer bareUp freshSys (planned freshSys overlapping))) (bare q.name) q.qtype rr.data := by
  refine C126_origin (c0 := threadsConfig 0) sample_contract bareUp sample_loop sample_other freshSys rfl rfl _ ?_ t ht _ _ _ _ hj ms hms
  have hself : Covers (threadsConfig 0) (threadsConfig 0) := fun _ _ _ _ h => h
  refine planned_events (P := fun ev => (∀ c remote sni msg, ev = .query c remote sni msg → Covers (threadsConfig 0) c ∧ OneQuestion msg) ∧
    ∀ c key, ev = .refresh c key → Covers (threadsConfig 0) c) (fun i o x => ⟨(fun _ _ _ _ h => nomatch h), (fun _ _ h => nomatch h)⟩) _ ?_ _
  intro e he
  simp only [overlapping, asks, List.mem_append, List.mem_cons, List.not_mem_nil, or_false] at he
  refine ⟨fun c remote sni msg h => ?_, fun c key h => ?_⟩
  · subst h
    simp at he
    rcases he with (⟨rfl, _, _, rfl⟩ | ⟨rfl, _, _, rfl⟩ | ⟨rfl, _, _, rfl⟩) | ⟨rfl, _, _, rfl⟩ <;> exact ⟨hself, query_one _⟩
  · subst h
    simp at he
    obtain ⟨rfl, _⟩ := he
    exact hself

end Verif.Props
