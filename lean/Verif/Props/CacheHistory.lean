/-
C10 – C13: what can be served from the cache, over all histories.
-/
import Verif.Props.CacheTTL
import Verif.Props.CacheKey
import Verif.Props.ExpCache
import Verif.Lemmas.Edns

namespace Verif.Props
open Caching Dns ExpCache Spec

/-- An answer obtained from the next resolver for a request. -/
structure Obtained where
  req : Request
  resp : Response

/-- The store of `m` under `key` for `ttl` is one that handling the obtained answer to a client
query leads to. -/
def FromQuery (env : Env) (c : Cfg) (log : List Obtained) (key : Str) (m : Msg) (ttl : Int) : Prop :=
  ∃ e ∈ log, isRequestCacheable e.req.req = true ∧ ∃ q ∈ e.req.req.question, key = questionKey q ∧
    Op.put key m ttl ∈ putOps env c key (adjusted c e.resp).res (adjustTTLs c e.resp.res.answer).2

/-- The store is one that a background reload of `key` leads to. -/
def FromReload (env : Env) (c : Cfg) (log : List Obtained) (key : Str) (m : Msg) (ttl : Int) : Prop :=
  ∃ e ∈ log, ∃ t name, extractKey key = some (t, name) ∧ e.req = reloadRequest env t name ∧
    e.resp.res.rcode = rcodeSuccess ∧ m = e.resp.res ∧ ttl = (adjustTTLs c e.resp.res.answer).2

/-- A history of cache operations (of any number of concurrent queries, clean-ups and reloads, in any
interleaving) in which each store comes from an answer obtained from the next resolver. -/
def Admissible (env : Env) (c : Cfg) (log : List Obtained) (ops : List (Op Msg)) : Prop :=
  ∀ k m ttl, Op.put k m ttl ∈ ops → FromQuery env c log k m ttl ∨ FromReload env c log k m ttl

/-! ### The resolver produces admissible histories -/

/-- The next resolver, with the answers it gives recorded. -/
def logged {W : Type} (next : Resolver W) : Resolver (W × List Obtained) := fun req wl =>
  match next req wl.1 with
  | (.ok r, w') => (.ok r, (w', wl.2 ++ [⟨req, r⟩]))
  | (o, w') => (o, (w', wl.2))

/-- States the caching resolver can reach, with the answers obtained so far. Clean-ups of the query
counters are covered by letting the counters change arbitrarily. -/
inductive Reach {W : Type} (env : Env) (c : Cfg) (next : Resolver W) (maxSize : Nat) (t0 : Int)
    (w0 : W) : CState → W → List Obtained → Prop where
  | init (names) : Reach env c next maxSize t0 w0 ⟨freshCache maxSize t0, names⟩ w0 []
  | query {s w log} (req : Request) {o s' w' log'} : Reach env c next maxSize t0 w0 s w log →
      resolve env c (logged next) req s (w, log) = (o, s', (w', log')) →
      Reach env c next maxSize t0 w0 s' w' log'
  | cleanUp {s w log s' w' log'} : Reach env c next maxSize t0 w0 s w log →
      cleanUpCache env c (logged next) s (w, log) = (some s', (w', log')) →
      Reach env c next maxSize t0 w0 s' w' log'
  | tick {s w log} (d : Nat) : Reach env c next maxSize t0 w0 s w log →
      Reach env c next maxSize t0 w0 { s with main := step s.main (.tick d) } w log
  | flush {s w log} : Reach env c next maxSize t0 w0 s w log →
      Reach env c next maxSize t0 w0 (flush s) w log
  | names {s w log} (names : Cache Nat) : Reach env c next maxSize t0 w0 s w log →
      Reach env c next maxSize t0 w0 { s with names := names } w log

/-- The state is the result of an admissible history. -/
def Hist (env : Env) (c : Cfg) (maxSize : Nat) (t0 : Int) (s : CState) (log : List Obtained) : Prop :=
  ∃ ops, s.main = run (freshCache maxSize t0) ops ∧ Admissible env c log ops

theorem FromQuery.mono {env : Env} {c : Cfg} {log : List Obtained} {k : Str} {m : Msg} {ttl : Int}
    (h : FromQuery env c log k m ttl) (l : List Obtained) : FromQuery env c (log ++ l) k m ttl := by
  obtain ⟨e, he, h⟩ := h
  exact ⟨e, by simp [he], h⟩

theorem FromReload.mono {env : Env} {c : Cfg} {log : List Obtained} {k : Str} {m : Msg} {ttl : Int}
    (h : FromReload env c log k m ttl) (l : List Obtained) : FromReload env c (log ++ l) k m ttl := by
  obtain ⟨e, he, h⟩ := h
  exact ⟨e, by simp [he], h⟩

theorem Admissible.mono {env : Env} {c : Cfg} {log : List Obtained} {ops : List (Op Msg)}
    (h : Admissible env c log ops) (l : List Obtained) : Admissible env c (log ++ l) ops :=
  fun k m ttl hm => (h k m ttl hm).imp (·.mono l) (·.mono l)

theorem Hist.mono {env : Env} {c : Cfg} {n : Nat} {t0 : Int} {s : CState} {log : List Obtained}
    (h : Hist env c n t0 s log) (l : List Obtained) : Hist env c n t0 s (log ++ l) := by
  obtain ⟨ops, h1, h2⟩ := h
  exact ⟨ops, h1, h2.mono l⟩

theorem Hist.ops {env : Env} {c : Cfg} {n : Nat} {t0 : Int} {s s' : CState} {log : List Obtained}
    (h : Hist env c n t0 s log) (more : List (Op Msg)) (hs : s'.main = run s.main more)
    (hm : Admissible env c log more) : Hist env c n t0 s' log := by
  obtain ⟨ops, h1, h2⟩ := h
  refine ⟨ops ++ more, by rw [hs, h1, run_append], ?_⟩
  intro k m ttl hp
  rcases List.mem_append.1 hp with hp | hp
  · exact h2 k m ttl hp
  · exact hm k m ttl hp

theorem cacheGet_main (c : Cfg) (s : CState) (k : Str) :
    (cacheGet c s k).2.main = run s.main [.get k] := by
  unfold cacheGet
  by_cases h : c.prefetching
  · simp only [h, if_true, track, run, List.foldl_cons, List.foldl_nil, step]
  · simp only [h, Bool.false_eq_true, if_false, run, List.foldl_cons, List.foldl_nil, step]

theorem cacheGet_result (c : Cfg) (s : CState) (k : Str) :
    (cacheGet c s k).1 = lookup s.main k := by
  unfold cacheGet lookup
  by_cases h : c.prefetching
  · simp only [h, if_true, track]
  · simp only [h, Bool.false_eq_true, if_false]

theorem Hist.get {env : Env} {c : Cfg} {n : Nat} {t0 : Int} {s : CState} {log : List Obtained}
    (h : Hist env c n t0 s log) (k : Str) : Hist env c n t0 (cacheGet c s k).2 log :=
  h.ops [.get k] (cacheGet_main c s k) (by
    intro k m ttl hm; simp at hm)

theorem logged_log {W : Type} (next : Resolver W) (req : Request) (w : W) (log : List Obtained) :
    ∃ l, (logged next req (w, log)).2.2 = log ++ l ∧
      ∀ r, (logged next req (w, log)).1 = .ok r → l = [⟨req, r⟩] := by
  simp only [logged]
  cases h : next req w with
  | mk o w' =>
    cases o with
    | ok r => exact ⟨[⟨req, r⟩], rfl, fun r' hr => by cases hr; rfl⟩
    | noResponse => exact ⟨[], by simp, fun r' hr => by cases hr⟩
    | err e => exact ⟨[], by simp, fun r' hr => by cases hr⟩
    | panic => exact ⟨[], by simp, fun r' hr => by cases hr⟩

theorem resolveLoop_hist {W : Type} (env : Env) (c : Cfg) (next : Resolver W) (n : Nat) (t0 : Int)
    (req : Request) (hreq : isRequestCacheable req.req = true) (qs : List Question)
    (hqs : ∀ q ∈ qs, q ∈ req.req.question) (last : Outcome) (s : CState) (w : W)
    (log : List Obtained) (h : Hist env c n t0 s log) :
    ∃ l, (resolveLoop env c (logged next) req qs last s (w, log)).2.2.2 = log ++ l ∧
      Hist env c n t0 (resolveLoop env c (logged next) req qs last s (w, log)).2.1 (log ++ l) := by
  induction qs generalizing last s w log with
  | nil => exact ⟨[], by simp [resolveLoop], by simpa [resolveLoop] using h⟩
  | cons q qs ih =>
    have hget := h.get (k := questionKey q)
    have ih' := ih (fun x hx => hqs x (by simp [hx]))
    cases hg : cacheGet c s (questionKey q) with
    | mk o s1 =>
      rw [hg] at hget
      simp only at hget
      cases o with
      | some mt =>
        obtain ⟨m, ttl⟩ := mt
        simp only [resolveLoop, hg]
        exact ⟨[], by simp, by simpa using hget⟩
      | none =>
        simp only [resolveLoop, hg]
        obtain ⟨l, hl, hok⟩ := logged_log next req w log
        cases hn : logged next req (w, log) with
        | mk o' wl =>
          rw [hn] at hl hok
          obtain ⟨w1, log1⟩ := wl
          simp only at hl hok
          subst hl
          cases o' with
          | panic => exact ⟨l, rfl, hget.mono l⟩
          | noResponse => exact ⟨l, rfl, hget.mono l⟩
          | err e =>
            obtain ⟨l2, h1, h2⟩ := ih' (.err e) s1 w1 (log ++ l) (hget.mono l)
            exact ⟨l ++ l2, by simpa [List.append_assoc] using h1, by
              simpa [List.append_assoc] using h2⟩
          | ok r =>
            have hl := hok r rfl
            subst hl
            have hst : Hist env c n t0 (store env c s1 (questionKey q) r) (log ++ [⟨req, r⟩]) := by
              refine (hget.mono _).ops _ rfl ?_
              intro k m ttl hm
              left
              have hk : k = questionKey q := by
                simp only [putOps] at hm
                split at hm
                · split at hm
                  · simp at hm; exact hm.1
                  · split at hm
                    · split at hm
                      · simp at hm; exact hm.1
                      · simp at hm
                    · simp at hm
                · simp at hm
              subst hk
              exact ⟨⟨req, r⟩, by simp, hreq, q, hqs q (by simp), rfl, hm⟩
            obtain ⟨l2, h1, h2⟩ := ih' (.ok (adjusted c r)) _ w1 (log ++ [⟨req, r⟩]) hst
            exact ⟨[⟨req, r⟩] ++ l2, by simpa [List.append_assoc] using h1, by
              simpa [List.append_assoc] using h2⟩

theorem shouldPrefetch_main (c : Cfg) (s : CState) (k : Str) :
    (shouldPrefetch c s k).2.main = s.main := by
  unfold shouldPrefetch
  split <;> rfl

theorem onExpired_hist {W : Type} (env : Env) (c : Cfg) (next : Resolver W) (n : Nat) (t0 : Int)
    (s : CState) (w : W) (log : List Obtained) (k : Str) (h : Hist env c n t0 s log) :
    ∃ l, (onExpired env c (logged next) s (w, log) k).2.2.2 = log ++ l ∧
      Hist env c n t0 (onExpired env c (logged next) s (w, log) k).2.1 (log ++ l) ∧
      ∀ m ttl, (onExpired env c (logged next) s (w, log) k).1 = some (some (m, ttl)) →
        FromReload env c (log ++ l) k m ttl := by
  have hmain : Hist env c n t0 (shouldPrefetch c s k).2 log :=
    h.ops [] (shouldPrefetch_main c s k) (by intro k m ttl hm; simp at hm)
  unfold onExpired
  split
  · split
    · have hrel : ∃ l, (reload env c (logged next) k (w, log)).2.2 = log ++ l ∧
          ∀ m ttl, (reload env c (logged next) k (w, log)).1 = some (some (m, ttl)) →
            FromReload env c (log ++ l) k m ttl := by
        unfold reload
        cases hk : extractKey k with
        | none => exact ⟨[], by simp, fun m ttl h => by simp at h⟩
        | some tn =>
          obtain ⟨t, name⟩ := tn
          simp only
          obtain ⟨l, hl, hok⟩ := logged_log next (reloadRequest env t name) w log
          cases hn : logged next (reloadRequest env t name) (w, log) with
          | mk o' wl =>
            rw [hn] at hl hok
            obtain ⟨w1, log1⟩ := wl
            simp only at hl hok
            subst hl
            cases o' with
            | panic => exact ⟨l, rfl, fun m ttl h => by simp at h⟩
            | noResponse => exact ⟨l, rfl, fun m ttl h => by simp at h⟩
            | err e => exact ⟨l, rfl, fun m ttl h => by simp at h⟩
            | ok r =>
              have hl := hok r rfl
              subst hl
              simp only
              split
              · next hr =>
                split
                · refine ⟨_, rfl, ?_⟩
                  intro m ttl he
                  simp only [Option.some.injEq, Prod.mk.injEq] at he
                  exact ⟨⟨reloadRequest env t name, r⟩, by simp, t, name, hk, rfl,
                    by simpa using hr, he.1.symm, he.2.symm⟩
                · exact ⟨_, rfl, fun m ttl h => by simp at h⟩
              · exact ⟨_, rfl, fun m ttl h => by simp at h⟩
      obtain ⟨l, h1, h2⟩ := hrel
      exact ⟨l, h1, hmain.mono l, h2⟩
    · exact ⟨[], by simp, by simpa using hmain, fun m ttl h => by simp at h⟩
  · exact ⟨[], by simp, by simpa using h, fun m ttl h => by simp at h⟩

theorem reloadLoop_hist {W : Type} (env : Env) (c : Cfg) (next : Resolver W) (n : Nat) (t0 : Int)
    (ks del : List Str) (s : CState) (w : W) (log : List Obtained) (h : Hist env c n t0 s log) :
    ∃ l, (reloadLoop env c (logged next) ks del s (w, log)).2.2 = log ++ l ∧
      ∀ del' s', (reloadLoop env c (logged next) ks del s (w, log)).1 = some (del', s') →
        Hist env c n t0 s' (log ++ l) := by
  induction ks generalizing del s w log with
  | nil =>
    refine ⟨[], by simp [reloadLoop], ?_⟩
    intro del' s' he
    simp only [reloadLoop, Option.some.injEq, Prod.mk.injEq] at he
    simpa [he.2] using h
  | cons k ks ih =>
    obtain ⟨l, h1, h2, h3⟩ := onExpired_hist env c next n t0 s w log k h
    simp only [reloadLoop]
    cases ho : onExpired env c (logged next) s (w, log) k with
    | mk r sw =>
      obtain ⟨s1, w1, log1⟩ := sw
      rw [ho] at h1 h2 h3
      simp only at h1 h2 h3
      subst h1
      cases r with
      | none => exact ⟨l, rfl, fun _ _ he => by simp at he⟩
      | some r =>
        cases r with
        | none =>
          obtain ⟨l2, g1, g2⟩ := ih (del ++ [k]) s1 w1 (log ++ l) h2
          exact ⟨l ++ l2, by simpa [List.append_assoc] using g1, by
            simpa [List.append_assoc] using g2⟩
        | some mt =>
          obtain ⟨m, ttl⟩ := mt
          have hp : Hist env c n t0 { s1 with main := step s1.main (.put k m ttl) } (log ++ l) :=
            h2.ops [.put k m ttl] rfl (by
              intro k' m' ttl' hm
              simp only [List.mem_singleton, Op.put.injEq] at hm
              obtain ⟨rfl, rfl, rfl⟩ := hm
              exact .inr (h3 _ _ rfl))
          obtain ⟨l2, g1, g2⟩ := ih del _ w1 (log ++ l) hp
          exact ⟨l ++ l2, by simpa [List.append_assoc] using g1, by
            simpa [List.append_assoc] using g2⟩

/-- Every state the resolver reaches is the result of an admissible history of cache operations. -/
theorem reach_hist {W : Type} {env : Env} {c : Cfg} {next : Resolver W} {n : Nat} {t0 : Int} {w0 : W}
    {s : CState} {w : W} {log : List Obtained} (h : Reach env c next n t0 w0 s w log) :
    Hist env c n t0 s log := by
  have none_put : ∀ (log : List Obtained) (ops : List (Op Msg)),
      (∀ k m ttl, Op.put k m ttl ∉ ops) → Admissible env c log ops :=
    fun log ops hn k m ttl hm => absurd hm (hn k m ttl)
  induction h with
  | init names => exact ⟨[], rfl, none_put _ _ (by simp)⟩
  | @query s w log req o s' w' log' _ hr ih =>
    unfold resolve at hr
    split at hr
    · obtain ⟨l, hl, _⟩ := logged_log next req w log
      cases hn : logged next req (w, log) with
      | mk o1 wl =>
        rw [hn] at hl hr
        simp only [Prod.mk.injEq] at hr hl
        obtain ⟨_, rfl, hwl⟩ := hr
        have hlog : log' = log ++ l := by rw [← hl, hwl]
        subst hlog
        exact ih.mono l
    · next hc =>
      have hreq : isRequestCacheable req.req = true := by
        simp only [Bool.or_eq_true, Bool.not_eq_true', not_or, Bool.not_eq_false] at hc
        exact hc.2
      obtain ⟨l, h1, h2⟩ := resolveLoop_hist env c next n t0 req hreq req.req.question
        (fun _ h => h) .noResponse s w log ih
      rw [hr] at h1 h2
      simp only at h1 h2
      subst h1
      exact h2
  | @cleanUp s w log s' w' log' _ hr ih =>
    unfold cleanUpCache at hr
    obtain ⟨l, h1, h2⟩ := reloadLoop_hist env c next n t0
      (s.main.cache.expiredKeys s.main.now) [] s w log ih
    cases hn : reloadLoop env c (logged next) (s.main.cache.expiredKeys s.main.now) [] s (w, log) with
    | mk r wl =>
      rw [hn] at hr h1 h2
      cases r with
      | none => simp at hr
      | some ds =>
        obtain ⟨del, s1⟩ := ds
        simp only [Prod.mk.injEq, Option.some.injEq] at hr h1
        obtain ⟨hs, hwl⟩ := hr
        have hlog : log' = log ++ l := by rw [← h1, hwl]
        subst hlog
        have := h2 del s1 rfl
        refine this.ops (del.map Op.remove) (by rw [← hs]) (none_put _ _ ?_)
        intro k m ttl hm
        obtain ⟨x, _, hx⟩ := List.mem_map.1 hm
        cases hx
  | tick d _ ih => exact ih.ops [.tick d] rfl (none_put _ _ (by simp))
  | flush _ ih => exact ih.ops [.clear] rfl (none_put _ _ (by simp))
  | names nm _ ih => exact ih.ops [] rfl (none_put _ _ (by simp))

/-! ### C11: what is stored -/

/-- Unfolding of the stores of a client query. -/
theorem fromQuery_cases {env : Env} {c : Cfg} {log : List Obtained} {k : Str} {m : Msg} {ttl : Int}
    (h : FromQuery env c log k m ttl) :
    ∃ e ∈ log, isRequestCacheable e.req.req = true ∧ (∃ q ∈ e.req.req.question, k = questionKey q) ∧
      m = removeEdns0Record (adjusted c e.resp).res ∧
      ((e.resp.res.rcode = rcodeSuccess ∧ isResponseCacheable e.resp.res = true ∧
          ttl = (adjustTTLs c e.resp.res.answer).2) ∨
        (e.resp.res.rcode = rcodeNXDomain ∧ ttl = c.negTime ∧ c.negTime > 0)) := by
  obtain ⟨e, he, hc, q, hq, hk, hm⟩ := h
  refine ⟨e, he, hc, ⟨q, hq, hk⟩, ?_⟩
  simp only [putOps] at hm
  split at hm
  · split at hm
    · next hs =>
      simp only [List.mem_singleton, Op.put.injEq, true_and] at hm
      simp only [Bool.and_eq_true, beq_iff_eq] at hs
      exact ⟨hm.1, .inl ⟨hs.1, hs.2, hm.2⟩⟩
    · split at hm
      · next hs =>
        split at hm
        · next hn =>
          simp only [List.mem_singleton, Op.put.injEq, true_and] at hm
          have hs : (adjusted c e.resp).res.rcode = rcodeNXDomain := by simpa using hs
          exact ⟨hm.1, .inr ⟨hs, hm.2, hn⟩⟩
        · simp at hm
      · simp at hm
  · simp at hm

/-- **C11 (response codes).** Whatever happened, what is served from the cache was obtained as a
success or as NXDOMAIN: server failures and errors are never stored. -/
theorem C11_only_success_or_nxdomain (env : Env) (c : Cfg) (log : List Obtained) (ops : List (Op Msg))
    (maxSize : Nat) (t0 : Int) (hadm : Admissible env c log ops) (k : Str) (m : Msg) (r : Int)
    (h : lookup (run (freshCache maxSize t0) ops) k = some (m, r)) :
    ∃ e ∈ log, m.rcode = e.resp.res.rcode ∧ (m.rcode = rcodeSuccess ∨ m.rcode = rcodeNXDomain) := by
  obtain ⟨t, ttl, hl, _⟩ := C06_get_latest maxSize t0 ops k m r h
  obtain ⟨pre, post, hops, _⟩ := hl
  rcases hadm k m ttl (by rw [hops]; simp) with hq | hq
  · obtain ⟨e, he, _, _, hm, hcase⟩ := fromQuery_cases hq
    have : m.rcode = e.resp.res.rcode := by rw [hm]; rfl
    exact ⟨e, he, this, hcase.imp (fun h => this ▸ h.1) (fun h => this ▸ h.1)⟩
  · obtain ⟨e, he, t', name, _, _, hrc, hm, _⟩ := hq
    exact ⟨e, he, by rw [hm], .inl (by rw [hm, hrc])⟩

/-- **C11, provable part.** A successful answer that is truncated or was obtained with checking
disabled is never stored by a client query. Missing: NXDOMAIN answers
(`C11_truncated_nxdomain_cached`) and background reloads (`C11_prefetch_stores_truncated`), which do
not look at these flags. -/
theorem C11_clean_success_partial (env : Env) (c : Cfg) (log : List Obtained) (k : Str) (m : Msg)
    (ttl : Int) (h : FromQuery env c log k m ttl) (hok : m.rcode = rcodeSuccess) :
    m.truncated = false ∧ m.checkingDisabled = false ∧
      ∃ e ∈ log, e.resp.res.truncated = false ∧ e.resp.res.checkingDisabled = false ∧
        m.rcode = e.resp.res.rcode := by
  obtain ⟨e, he, _, _, hm, hcase⟩ := fromQuery_cases h
  have hrc : m.rcode = e.resp.res.rcode := by rw [hm]; rfl
  rcases hcase with ⟨_, hc, _⟩ | ⟨h3, _⟩
  · simp only [isResponseCacheable, Bool.and_eq_true, Bool.not_eq_true'] at hc
    exact ⟨by rw [hm]; exact hc.1, by rw [hm]; exact hc.2, e, he, hc.1, hc.2, hrc⟩
  · rw [hrc, h3] at hok
    exact absurd hok (by decide)

/-! ### C13: cache transparency -/

theorem sameButTTL_trans {a b c : RR} (h : SameButTTL a b) (h' : SameButTTL b c) : SameButTTL a c :=
  h.trans h'

theorem pointwise_refl (l : List RR) : Pointwise SameButTTL l l := by
  induction l with
  | nil => exact .nil
  | cons a l ih => exact .cons rfl ih

theorem pointwise_adjust (c : Cfg) (l : List RR) : Pointwise SameButTTL l (adjustTTLs c l).1 := by
  rw [adjustTTLs_answer]
  exact Pointwise.map _ _ (fun _ _ => rfl)

theorem pointwise_setTTLs (l : List RR) (r : Int) : Pointwise SameButTTL l (setTTLs l r) :=
  Pointwise.map _ _ (fun _ _ => rfl)

/-- The name has no empty last label: what precedes the root dot does not end in a dot. -/
def WellFormedName (n : Str) : Prop := ∃ s, n = s ++ ['.'] ∧ s.getLast? ≠ some '.'

/-- The response to a request `req` (with the one question `q`) that repeats an earlier answer `a`:
own id and question, same response code, the same records up to TTLs. -/
structure Repeats (req : Msg) (q : Question) (a res : Msg) : Prop where
  id : res.id = req.id
  question : res.question = [q]
  isResponse : res.response = true
  rcode : res.rcode = a.rcode
  answer : Pointwise SameButTTL a.answer res.answer
  ns : res.ns = a.ns
  extra : plainRecords res.extra = plainRecords a.extra

theorem getLast_lower (s : Str) : (lower s).getLast? = some '.' ↔ s.getLast? = some '.' := by
  rcases List.eq_nil_or_concat s with rfl | ⟨i, c, rfl⟩
  · simp
  · rw [List.concat_eq_append, lower_append]
    simp [lowerChar_dot_iff]

theorem fqdn_of_wf (s : Str) (h : s.getLast? ≠ some '.') : fqdn (fqdn (lower s)) = lower (s ++ ['.']) := by
  have h' : (lower s).getLast? ≠ some '.' := fun hh => h ((getLast_lower s).1 hh)
  have e : fqdn (lower s) = lower s ++ ['.'] := by rw [fqdn, if_neg h']
  rw [e, fqdn, if_pos (by simp), lower_append]
  rfl

/-- **C13 (provable part: requests with a single question).** What is served from the cache for a
question was obtained earlier from the next resolver for a question of the same type and the same
name ignoring case; the response has the client's id and question, and the obtained response code
and records up to their TTLs. Holds for every history of cache operations, including all
interleavings of concurrent queries, clean-ups and reloads. Missing: requests with several
questions, see `C13_two_questions_poison`. -/
theorem C13_served_was_obtained_partial (env : Env) (c : Cfg) (log : List Obtained)
    (ops : List (Op Msg)) (maxSize : Nat) (t0 : Int) (hadm : Admissible env c log ops)
    (hsingle : ∀ e ∈ log, ∃ q, e.req.req.question = [q] ∧ q.qtype < 65536 ∧ WellFormedName q.name)
    (req : Msg) (q : Question) (hreq : req.question = [q]) (hqt : q.qtype < 65536)
    (hqn : WellFormedName q.name) (m : Msg) (r : Int)
    (h : lookup (run (freshCache maxSize t0) ops) (questionKey q) = some (m, r)) :
    ∃ e ∈ log, ∃ q', e.req.req.question = [q'] ∧ q'.qtype = q.qtype ∧ lower q'.name = lower q.name ∧
      Repeats req q e.resp.res (hitResponse req m r).res := by
  obtain ⟨t, ttl, hl, _⟩ := C06_get_latest maxSize t0 ops _ m r h
  obtain ⟨pre, post, hops, _⟩ := hl
  have hfq : ∀ n : Str, WellFormedName n → IsFqdn n := fun n ⟨s, hs, _⟩ => ⟨s, hs⟩
  have hrep : ∀ a : Msg, m.rcode = a.rcode → Pointwise SameButTTL a.answer m.answer → m.ns = a.ns →
      plainRecords m.extra = plainRecords a.extra → Repeats req q a (hitResponse req m r).res := by
    intro a h1 h2 h3 h4
    exact ⟨rfl, by simp [hitResponse, Msg.setRcode, Msg.setReply, hreq], rfl, h1,
      h2.comp (pointwise_setTTLs _ _) (fun _ _ _ => sameButTTL_trans), h3, h4⟩
  rcases hadm (questionKey q) m ttl (by rw [hops]; simp) with hq | hq
  · obtain ⟨e, he, _, ⟨q', hq', hk⟩, hm, _⟩ := fromQuery_cases hq
    obtain ⟨q1, hq1, hq1t, hq1n⟩ := hsingle e he
    rw [hq1, List.mem_singleton] at hq'
    subst hq'
    obtain ⟨h1, h2⟩ := (C08_share_iff q q' hqt hq1t (hfq _ hqn) (hfq _ hq1n)).1 hk
    refine ⟨e, he, q', hq1, h1.symm, h2.symm, hrep _ ?_ ?_ ?_ ?_⟩
    · rw [hm]; rfl
    · rw [hm]; exact pointwise_adjust c _
    · rw [hm]; rfl
    · rw [hm]; exact plainRecords_dropFirst _
  · obtain ⟨e, he, t', name, hk, hereq, _, hm, _⟩ := hq
    rw [C08_question_roundtrip q hqt] at hk
    simp only [Option.some.injEq, Prod.mk.injEq] at hk
    obtain ⟨rfl, rfl⟩ := hk
    refine ⟨e, he, ⟨fqdn (fqdn (extractDomain q.name)), q.qtype, 1⟩, by rw [hereq]; rfl, rfl, ?_,
      hrep _ (by rw [hm]) (by rw [hm]; exact pointwise_refl _) (by rw [hm]) (by rw [hm])⟩
    obtain ⟨s, hs, hlast⟩ := hqn
    rw [hs, extractDomain_fqdn]
    simp only
    rw [fqdn_of_wf s hlast, lower_idem]

/-- **C13, from the resolver's point of view.** In every state the caching resolver can reach, a
request with one question is answered by passing it on, or by repeating an earlier answer. -/
theorem C13_transparent_partial {W : Type} (env : Env) (c : Cfg) (next : Resolver W) (n : Nat)
    (t0 : Int) (w0 : W) (s : CState) (w : W) (log : List Obtained)
    (hreach : Reach env c next n t0 w0 s w log)
    (hsingle : ∀ e ∈ log, ∃ q, e.req.req.question = [q] ∧ q.qtype < 65536 ∧ WellFormedName q.name)
    (req : Request) (q : Question) (hreq : req.req.question = [q]) (hqt : q.qtype < 65536)
    (hqn : WellFormedName q.name) :
    (∃ e ∈ log, ∃ q' r, e.req.req.question = [q'] ∧ q'.qtype = q.qtype ∧
        lower q'.name = lower q.name ∧ (resolve env c next req s w).1 = .ok r ∧
        (resolve env c next req s w).2.2 = w ∧ Repeats req.req q e.resp.res r.res) ∨
    ((resolve env c next req s w).2.2 = (next req w).2 ∧
      match (next req w).1 with
      | .ok r0 => ∃ r, (resolve env c next req s w).1 = .ok r ∧
          r = { r0 with res := { r0.res with answer := r.res.answer } } ∧
          Pointwise SameButTTL r0.res.answer r.res.answer
      | .err e => (resolve env c next req s w).1 = .err e
      | .noResponse => True
      | .panic => (resolve env c next req s w).1 = .panic) := by
  unfold resolve
  split
  · right
    cases hn : next req w with
    | mk o w' =>
      refine ⟨rfl, ?_⟩
      cases o with
      | ok r0 => exact ⟨r0, rfl, rfl, pointwise_refl _⟩
      | err e => rfl
      | noResponse => trivial
      | panic => rfl
  · rw [hreq]
    obtain ⟨ops, hmain, hadm⟩ := reach_hist hreach
    cases hg : cacheGet c s (questionKey q) with
    | mk o s1 =>
      cases o with
      | some mt =>
        obtain ⟨m, ttl⟩ := mt
        left
        have hlook : lookup (run (freshCache n t0) ops) (questionKey q) = some (m, ttl) := by
          rw [← hmain, ← cacheGet_result c, hg]
        obtain ⟨e, he, q', h1, h2, h3, h4⟩ := C13_served_was_obtained_partial env c log ops n t0 hadm
          hsingle req.req q hreq hqt hqn m ttl hlook
        exact ⟨e, he, q', hitResponse req.req m ttl, h1, h2, h3, by simp [resolveLoop, hg],
          by simp [resolveLoop, hg], h4⟩
      | none =>
        right
        simp only [resolveLoop, hg]
        cases hn : next req w with
        | mk o w' =>
          cases o with
          | ok r0 => exact ⟨rfl, adjusted c r0, rfl, rfl, pointwise_adjust c _⟩
          | err e => exact ⟨rfl, rfl⟩
          | noResponse => exact ⟨rfl, trivial⟩
          | panic => exact ⟨rfl, rfl⟩

/-! ### C10 over histories -/

/-- **C10 over histories (provable part).** Whatever happened, an answer that a client query stored
as a success with records and that is served before its lifetime has passed shows every record's
stored TTL minus the time since it was stored, rounded up to seconds. Missing: NXDOMAIN answers that
have records (`C10_negative_answer_ttl_grows`) and reloaded answers. -/
theorem C10_served_partial (env : Env) (c : Cfg) (ops : List (Op Msg)) (maxSize : Nat) (t0 : Int)
    (k : Str) (m : Msg) (r : Int)
    (h : lookup (run (freshCache maxSize t0) ops) k = some (m, r)) (req : Msg) :
    ∃ t ttl, LastStored t0 ops k m t ttl ∧
      ∀ log, FromQuery env c log k m ttl → m.rcode = rcodeSuccess → m.answer ≠ [] →
        0 ≤ clockAfter t0 ops - t →
        (clockAfter t0 ops - t) * 1000000 ≤ ttl →
        Pointwise (fun a a' => SameButTTL a a' ∧
          (a'.ttl.toNat : Int) = a.ttl.toNat - ceilSeconds (clockAfter t0 ops - t))
          m.answer (hitResponse req m r).res.answer := by
  obtain ⟨t, ttl, hl, hr⟩ := C06_get_latest maxSize t0 ops k m r h
  refine ⟨t, ttl, hl, ?_⟩
  intro log hq hok hne h0 hlive
  obtain ⟨e, he, _, _, hm, hcase⟩ := fromQuery_cases hq
  have hans : m.answer = (adjustTTLs c e.resp.res.answer).1 := by rw [hm]; rfl
  have hne' : e.resp.res.answer ≠ [] := by
    intro h0
    rw [h0] at hans
    exact hne (by rw [hans]; rfl)
  have httl : ttl = (minTTL m.answer).toNat * 1000000000 := by
    rcases hcase with ⟨_, _, ht⟩ | ⟨h3, _⟩
    · rw [ht, adjustTTLs_ttl c hne', hans]
    · have hrc : m.rcode = e.resp.res.rcode := by rw [hm]; rfl
      rw [hrc, h3] at hok
      exact absurd hok (by decide)
  have hrem : r = (minTTL m.answer).toNat * 1000 - (clockAfter t0 ops - t) := by
    rw [hr, httl]
    rw [httl] at hlive
    omega
  have := (C10_countdown m.answer (clockAfter t0 ops - t) h0 (by rw [httl] at hlive; omega)).1
  have e : (hitResponse req m r).res.answer = setTTLs m.answer r := rfl
  rw [e, hrem]
  exact this

/-! ### Instances -/

/-- An answer of two records, and the request it answers. -/
def obtainedA : Obtained :=
  let req : Request := { req := { id := 5, question := [⟨str! "Bank.", 1, 1⟩] } }
  ⟨req, { res := { ({} : Msg).setReply req.req with answer := twoRecords } }⟩

/-- It is stored, half a minute passes, it is looked up, and another half passes. -/
def historyA : List (Op Msg) :=
  putOps ⟨fun _ => true, 1⟩ {} (questionKey ⟨str! "Bank.", 1, 1⟩) (adjusted {} obtainedA.resp).res (adjustTTLs {} obtainedA.resp.res.answer).2 ++
    [.tick 30000, .get (questionKey ⟨str! "Bank.", 1, 1⟩), .tick 29000]

theorem admissibleA : Admissible ⟨fun _ => true, 1⟩ {} [obtainedA] historyA := by
  intro k m ttl h
  rcases List.mem_append.1 h with h | h
  · refine .inl ⟨obtainedA, by simp, rfl, ⟨str! "Bank.", 1, 1⟩, by simp [obtainedA], ?_⟩
    have hk : k = questionKey ⟨str! "Bank.", 1, 1⟩ := by
      have h' : Op.put k m ttl ∈ [Op.put (questionKey ⟨str! "Bank.", 1, 1⟩) (removeEdns0Record (adjusted {} obtainedA.resp).res)
        (adjustTTLs {} obtainedA.resp.res.answer).2] := h
      simp only [List.mem_singleton, Op.put.injEq] at h'
      exact h'.1
    subst hk
    exact ⟨rfl, h⟩
  · simp at h

/-- Asked for "BANK." after 59 seconds: the records have 241 and one second left. -/
example : ∃ m r, lookup (run (freshCache 10 0) historyA) (questionKey ⟨str! "BANK.", 1, 1⟩) = some (m, r) ∧
    (hitResponse { question := [⟨str! "BANK.", 1, 1⟩] } m r).res.answer.map (·.ttl) = [241, 1] := ⟨_, _, rfl, by decide⟩

example : ∀ m r, lookup (run (freshCache 10 0) historyA) (questionKey ⟨str! "BANK.", 1, 1⟩) = some (m, r) →
    ∃ e ∈ [obtainedA], ∃ q', e.req.req.question = [q'] ∧ q'.qtype = 1 ∧ lower q'.name = lower (str! "BANK.") ∧
      Repeats { question := [⟨str! "BANK.", 1, 1⟩] } ⟨str! "BANK.", 1, 1⟩ e.resp.res (hitResponse { question := [⟨str! "BANK.", 1, 1⟩] } m r).res := by
  intro m r h
  refine C13_served_was_obtained_partial _ {} _ historyA 10 0 admissibleA ?_ _ ⟨str! "BANK.", 1, 1⟩ rfl (by decide) ⟨str! "BANK", rfl, by decide⟩ m r h
  intro e he
  rcases List.mem_singleton.1 he with rfl
  exact ⟨_, rfl, by decide, ⟨str! "Bank", rfl, by decide⟩⟩

example : ∃ k m ttl, FromQuery ⟨fun _ => true, 1⟩ {} [obtainedA] k m ttl ∧ m.rcode = rcodeSuccess :=
  ⟨_, _, _, ⟨obtainedA, by simp, rfl, _, by simp [obtainedA]; rfl, rfl, List.mem_singleton.2 rfl⟩, rfl⟩

/-- A state that is reached: two queries for the same name, the second answered from the cache. -/
example : ∃ s log, Reach ⟨fun _ => true, 1⟩ {} twoRecordsNext 10 0 0 s 1 log ∧ log.length = 1 ∧ s.main.cache.items.length = 1 :=
  ⟨_, _, .query { req := { question := [⟨str! "BANK.", 1, 1⟩] } }
      (.query { req := { question := [⟨str! "bank.", 1, 1⟩] } } (.init (newCache 10)) rfl) rfl, rfl, rfl⟩

end Verif.Props
