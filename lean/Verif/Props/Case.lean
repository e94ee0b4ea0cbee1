/-
C98: the letter case of the name asked for does not matter.
-/
import Verif.Lemmas.Case
import Verif.Props.Chain

namespace Verif.Props
open Dns Spec ExpCache StringCache

variable {W : Type} {E : RegexEngine} {R : Str → Str → Prop}

/-! ### Cleaning up the cache -/

theorem foldState_names {s s' : Caching.CState} (h : foldState s = foldState s') : s.names = s'.names := by
  have : (foldState s).names = (foldState s').names := by rw [h]
  exact this

theorem foldState_now {s s' : Caching.CState} (h : foldState s = foldState s') : s.main.now = s'.main.now := by
  have : (foldState s).main.now = (foldState s').main.now := by rw [h]
  exact this

theorem foldState_cache {s s' : Caching.CState} (h : foldState s = foldState s') :
    foldCache s.main.cache = foldCache s'.main.cache := by
  have : (foldState s).main.cache = (foldState s').main.cache := by rw [h]
  exact this

theorem foldState_ext {s s' : Caching.CState} (h1 : s.names = s'.names) (h2 : s.main.now = s'.main.now)
    (h3 : foldCache s.main.cache = foldCache s'.main.cache) : foldState s = foldState s' := by
  unfold foldState
  simp only [h1, h2, h3]

theorem expiredKeys_fold (c : Cache Msg) (now : Int) : (foldCache c).expiredKeys now = c.expiredKeys now := by
  unfold Cache.expiredKeys foldCache
  simp only [← List.map_reverse, List.filter_map, List.map_map]
  rfl

theorem shouldPrefetch_fold (c : Caching.Cfg) {s s' : Caching.CState} (h : foldState s = foldState s') (k : Str) :
    (Caching.shouldPrefetch c s k).1 = (Caching.shouldPrefetch c s' k).1 ∧
      foldState (Caching.shouldPrefetch c s k).2 = foldState (Caching.shouldPrefetch c s' k).2 := by
  unfold Caching.shouldPrefetch
  simp only [foldState_names h, foldState_now h]
  split
  · exact ⟨rfl, h⟩
  · exact ⟨rfl, foldState_ext rfl (by have z := foldState_now h; exact z) (by have z := foldState_cache h; exact z)⟩

theorem onExpired_fold {V : Type} (env : Caching.Env) (c : Caching.Cfg) (next : Resolver V) {s s' : Caching.CState}
    (h : foldState s = foldState s') (w : V) (k : Str) :
    (Caching.onExpired env c next s w k).1 = (Caching.onExpired env c next s' w k).1 ∧
      foldState (Caching.onExpired env c next s w k).2.1 = foldState (Caching.onExpired env c next s' w k).2.1 ∧
      (Caching.onExpired env c next s w k).2.2 = (Caching.onExpired env c next s' w k).2.2 := by
  obtain ⟨h1, h2⟩ := shouldPrefetch_fold c h k
  unfold Caching.onExpired
  simp only [h1]
  split
  · split
    · exact ⟨rfl, h2, rfl⟩
    · exact ⟨rfl, h2, rfl⟩
  · exact ⟨rfl, h, rfl⟩

theorem put_fold {s s' : Caching.CState} (h : foldState s = foldState s') (k : Str) (m : Msg) (ttl : Int) :
    foldState { s with main := step s.main (.put k m ttl) } = foldState { s' with main := step s'.main (.put k m ttl) } := by
  refine foldState_ext (by have z := foldState_names h; exact z) (by have z := foldState_now h; exact z) ?_
  simp only [step]
  rw [← foldCache_put, ← foldCache_put, foldState_cache h, foldState_now h]

theorem reloadLoop_fold {V : Type} (env : Caching.Env) (c : Caching.Cfg) (next : Resolver V) (ks : List Str) :
    ∀ (del : List Str) (s s' : Caching.CState) (w : V), foldState s = foldState s' →
      (Caching.reloadLoop env c next ks del s w).1.map (fun x => (x.1, foldState x.2)) =
        (Caching.reloadLoop env c next ks del s' w).1.map (fun x => (x.1, foldState x.2)) ∧
      (Caching.reloadLoop env c next ks del s w).2 = (Caching.reloadLoop env c next ks del s' w).2 := by
  induction ks with
  | nil =>
    intro del s s' w h
    simp only [Caching.reloadLoop, Option.map_some, h, and_self]
  | cons k ks ih =>
    intro del s s' w h
    obtain ⟨h1, h2, h3⟩ := onExpired_fold env c next h w k
    unfold Caching.reloadLoop
    generalize Caching.onExpired env c next s w k = x at h1 h2 h3 ⊢
    generalize Caching.onExpired env c next s' w k = x' at h1 h2 h3 ⊢
    obtain ⟨a, b, d⟩ := x
    obtain ⟨a', b', d'⟩ := x'
    simp only at h1 h2 h3
    subst h1 h3
    cases a with
    | none => exact ⟨rfl, rfl⟩
    | some a =>
      cases a with
      | none => exact ih _ _ _ _ h2
      | some p => exact ih _ _ _ _ (put_fold h2 k p.1 p.2)

theorem removes_fold (del : List Str) : ∀ (s s' : Caching.CState), foldState s = foldState s' →
    foldState { s with main := run s.main (del.map Op.remove) } = foldState { s' with main := run s'.main (del.map Op.remove) } := by
  induction del with
  | nil => exact fun _ _ h => h
  | cons k ks ih =>
    intro s s' h
    have hrem : ∀ c : Cache Msg, foldCache (c.remove k) = (foldCache c).remove k := by
      intro c
      unfold Cache.remove
      simp only [foldCache, foldCache_filter]
    exact ih { s with main := step s.main (.remove k) } { s' with main := step s'.main (.remove k) }
      (foldState_ext (by have z := foldState_names h; exact z) (by have z := foldState_now h; exact z) (by
        simp only [step]
        rw [hrem, hrem, foldState_cache h]))

theorem cleanUpCache_fold {V : Type} (env : Caching.Env) (c : Caching.Cfg) (next : Resolver V) {s s' : Caching.CState}
    (h : foldState s = foldState s') (w : V) :
    (Caching.cleanUpCache env c next s w).1.map foldState = (Caching.cleanUpCache env c next s' w).1.map foldState ∧
      (Caching.cleanUpCache env c next s w).2 = (Caching.cleanUpCache env c next s' w).2 := by
  have hk : s'.main.cache.expiredKeys s'.main.now = s.main.cache.expiredKeys s.main.now := by
    rw [← expiredKeys_fold, ← foldState_cache h, expiredKeys_fold, foldState_now h]
  obtain ⟨h1, h2⟩ := reloadLoop_fold env c next (s.main.cache.expiredKeys s.main.now) [] s s' w h
  unfold Caching.cleanUpCache
  rw [hk]
  generalize Caching.reloadLoop env c next (s.main.cache.expiredKeys s.main.now) [] s w = x at h1 h2 ⊢
  generalize Caching.reloadLoop env c next (s.main.cache.expiredKeys s.main.now) [] s' w = x' at h1 h2 ⊢
  obtain ⟨a, b⟩ := x
  obtain ⟨a', b'⟩ := x'
  simp only at h1 h2
  subst h2
  cases a with
  | none =>
    cases a' with
    | none => exact ⟨rfl, rfl⟩
    | some y => simp at h1
  | some y =>
    cases a' with
    | none => simp at h1
    | some y' =>
      obtain ⟨del, s1⟩ := y
      obtain ⟨del', s1'⟩ := y'
      simp only [Option.map_some, Option.some.injEq, Prod.mk.injEq] at h1
      obtain ⟨rfl, h1⟩ := h1
      exact ⟨by simp only [Option.map_some, removes_fold del s1 s1' h1], rfl⟩

/-! ### Histories -/

/-- What happens to a server: a client's query, time passes (ms), the cache is cleaned up (with prefetching). -/
inductive Event where
  | query (remote : Server.Addr) (sni : Option Str) (msg : Msg)
  | pass (ms : Nat)
  | cleanUp

/-- The messages sent, and the world afterwards. A panic while cleaning up ends the process (`none`). -/
def happen (senv : Server.Env) (c : Chain.Config E W) (up : Resolver W) (w : Chain.World W) :
    Event → List Msg × Option (Chain.World W)
  | .query remote sni msg =>
    ((Chain.serve senv c up remote sni msg w).1, some (Chain.serve senv c up remote sni msg w).2)
  | .pass ms =>
    ([], some (step w.1 (.tick ms), w.2.1, { w.2.2.1 with main := step w.2.2.1.main (.tick ms) }, w.2.2.2))
  | .cleanUp =>
    match Caching.cleanUpCache c.cacheEnv c.cache (Chain.cond c up) w.2.2.1 ({}, w.2.2.2) with
    | (some s, mw) => ([], some (w.1, w.2.1, s, mw.2))
    | (none, _) => ([], none)

/-- The messages sent in a history, event by event. -/
def answersOf (senv : Server.Env) (c : Chain.Config E W) (up : Resolver W) : List Event → Chain.World W → List (List Msg)
  | [], _ => []
  | e :: es, w =>
    match happen senv c up w e with
    | (ms, some w') => ms :: answersOf senv c up es w'
    | (ms, none) => [ms]

/-- The letter case of this query does not matter: no reverse lookup, no special-use name (if these are
handled). -/
def CaseIgnored (sc : Small.SudnCfg) (m : Msg) : Prop :=
  ∀ q ∈ m.question, q.qtype ≠ 12 ∧ (sc.enable = false ∨ ¬ SpecialUse sc.appendixG q.name (q.qtype == 43))

/-- The same events, but for the letter case of names asked for. -/
inductive OtherEvent (sc : Small.SudnCfg) : Event → Event → Prop
  | same {remote sni msg q} (h : msg.question = [q]) : OtherEvent sc (.query remote sni msg) (.query remote sni msg)
  | query {remote sni msg msg'} (h : OtherCase msg msg') (hi : CaseIgnored sc msg) :
      OtherEvent sc (.query remote sni msg) (.query remote sni msg')
  | pass {ms} : OtherEvent sc (.pass ms) (.pass ms)
  | cleanUp : OtherEvent sc .cleanUp .cleanUp

/-- Lists of equal length, elements related pairwise. -/
inductive Pairwise2 {A : Type} (P : A → A → Prop) : List A → List A → Prop
  | nil : Pairwise2 P [] []
  | cons {a b : A} {l m : List A} (h : P a b) (t : Pairwise2 P l m) : Pairwise2 P (a :: l) (b :: m)

/-- Errors of upstreams that carry alike messages (or none). -/
def ErrorAlike (senv : Server.Env) (e e' : Str) : Prop :=
  (senv.asUpstream e).map foldNames = (senv.asUpstream e').map foldNames

/-- What is cut off a message that is too long does not depend on letter case. (With message compression this is
an assumption: names in equal letter case take less room.) -/
def TruncCase (senv : Server.Env) : Prop := ∀ n m m', Alike m m' → Alike (senv.trunc n m) (senv.trunc n m')

theorem twin_of_other {sc : Small.SudnCfg} {m m' : Msg} (h : OtherCase m m') (hi : CaseIgnored sc m) : TwinM sc m m' := by
  obtain ⟨q, q', h1, h2, h3, h4, h5⟩ := h
  obtain ⟨i1, i2⟩ := hi q (by rw [h1]; exact List.mem_singleton.2 rfl)
  exact ⟨q, q', h1, .inr ⟨h2, h3, h4, i1, i2⟩, h5⟩

theorem serve_twin (senv : Server.Env) (htr : TruncCase senv) (c : Chain.Config E W) (up : Resolver W)
    (hc : CaseOk (ErrorAlike senv) c up) (remote : Server.Addr) (sni : Option Str) {msg msg' : Msg} (ht : TwinM c.sudn msg msg')
    {w w' : Chain.World W} (hw : WorldAlike w w') :
    Pairwise2 Alike (Chain.serve senv c up remote sni msg w).1 (Chain.serve senv c up remote sni msg' w').1 ∧
      WorldAlike (Chain.serve senv c up remote sni msg w).2 (Chain.serve senv c up remote sni msg' w').2 := by
  have hr : TwinR c.sudn (Server.newRequestFromDNS remote sni msg) (Server.newRequestFromDNS remote sni msg') := ⟨ht, rfl⟩
  have hx := like_toM (like_whole (R := ErrorAlike senv) (fun _ => rfl) hc) _ _ w w' hr hw
  obtain ⟨q, q', hq, hq', _, _⟩ := ht.other
  unfold Chain.serve Server.onRequest Server.handleReq Server.resolve
  have e1 : (Server.newRequestFromDNS remote sni msg).req.question = [q] := hq
  have e2 : (Server.newRequestFromDNS remote sni msg').req.question = [q'] := hq'
  have e3 : (Server.newRequestFromDNS remote sni msg').protocol = (Server.newRequestFromDNS remote sni msg).protocol := rfl
  simp only [e1, e2, e3]
  generalize Chain.toM (Chain.whole c up) (Server.newRequestFromDNS remote sni msg) w = x at hx ⊢
  generalize Chain.toM (Chain.whole c up) (Server.newRequestFromDNS remote sni msg') w' = x' at hx ⊢
  obtain ⟨o, m, w1⟩ := x
  obtain ⟨o', m', w1'⟩ := x'
  obtain ⟨ho, hm, hw1⟩ := hx
  simp only at ho hm hw1
  have hfin : ∀ r r' : Msg, foldNames r = foldNames r' → ∀ p, Alike (Server.finish senv m p r) (Server.finish senv m' p r') := by
    intro r r' h p
    obtain ⟨_, _, _, _, hmm⟩ := hm
    unfold Server.finish
    rw [hmm]
    exact htr _ _ _ (fold_ra h _)
  have hfail : ∀ n, Pairwise2 Alike [({} : Msg).setRcode m n] [({} : Msg).setRcode m' n] :=
    fun n => .cons (fold_rcode (hm.reply rfl) n) .nil
  cases ho with
  | ok h => exact ⟨.cons (hfin _ _ (foldResponse_eq h).1 _) .nil, hw1⟩
  | noResponse => exact ⟨hfail _, hw1⟩
  | panic => exact ⟨hfail _, hw1⟩
  | @err e e' he =>
    unfold ErrorAlike at he
    cases ha : senv.asUpstream e with
    | none =>
      cases ha' : senv.asUpstream e' with
      | none =>
        simp only [ha, ha']
        exact ⟨hfail _, hw1⟩
      | some y => simp [ha, ha'] at he
    | some y =>
      cases ha' : senv.asUpstream e' with
      | none => simp [ha, ha'] at he
      | some y' =>
        simp only [ha, ha']
        simp only [ha, ha', Option.map_some, Option.some.injEq] at he
        exact ⟨.cons (hfin _ _ he _) .nil, hw1⟩

/-- **C98 (one query).** The same query with the name in other letter case gets the same answer but for the letter
case of names: same response code, same records with the same TTLs and addresses, same flags - unless it is a
reverse lookup or asks for a special-use name. -/
theorem C98_query_partial (senv : Server.Env) (htr : TruncCase senv) (c : Chain.Config E W) (up : Resolver W)
    (hc : CaseOk (ErrorAlike senv) c up) (remote : Server.Addr) (sni : Option Str) (msg msg' : Msg) (h : OtherCase msg msg')
    (hi : CaseIgnored c.sudn msg) (w : Chain.World W) :
    Pairwise2 Alike (Chain.serve senv c up remote sni msg w).1 (Chain.serve senv c up remote sni msg' w).1 :=
  (serve_twin senv htr c up hc remote sni (twin_of_other h hi) ⟨rfl, rfl, rfl⟩).1

theorem happen_twin (senv : Server.Env) (htr : TruncCase senv) (c : Chain.Config E W) (up : Resolver W)
    (hc : CaseOk (ErrorAlike senv) c up) {e e' : Event} (he : OtherEvent c.sudn e e') {w w' : Chain.World W}
    (hw : WorldAlike w w') :
    Pairwise2 Alike (happen senv c up w e).1 (happen senv c up w' e').1 ∧
      ((happen senv c up w e).2 = none ∧ (happen senv c up w' e').2 = none ∨
        ∃ x x', (happen senv c up w e).2 = some x ∧ (happen senv c up w' e').2 = some x' ∧ WorldAlike x x') := by
  have hquery : ∀ remote sni msg msg', TwinM c.sudn msg msg' →
      Pairwise2 Alike (happen senv c up w (.query remote sni msg)).1 (happen senv c up w' (.query remote sni msg')).1 ∧
      ((happen senv c up w (.query remote sni msg)).2 = none ∧ (happen senv c up w' (.query remote sni msg')).2 = none ∨
        ∃ x x', (happen senv c up w (.query remote sni msg)).2 = some x ∧
          (happen senv c up w' (.query remote sni msg')).2 = some x' ∧ WorldAlike x x') := by
    intro remote sni msg msg' ht
    obtain ⟨h1, h2⟩ := serve_twin senv htr c up hc remote sni ht hw
    exact ⟨h1, .inr ⟨_, _, rfl, rfl, h2⟩⟩
  cases he with
  | same h => exact hquery _ _ _ _ (TwinM.refl h)
  | query h hi => exact hquery _ _ _ _ (twin_of_other h hi)
  | pass =>
    refine ⟨.nil, .inr ⟨_, _, rfl, rfl, ?_⟩⟩
    obtain ⟨h1, h2, h3⟩ := hw
    refine ⟨by rw [h1], ?_, h3⟩
    refine foldState_ext (by have z := foldState_names h2; exact z) ?_ ?_
    · simp only [step, foldState_now h2]
    · have z := foldState_cache h2
      exact z
  | cleanUp =>
    obtain ⟨h1, h2, h3⟩ := hw
    unfold happen
    obtain ⟨k1, k2⟩ := cleanUpCache_fold c.cacheEnv c.cache (Chain.cond c up) h2 (({} : Msg), w.2.2.2)
    rw [← h3]
    generalize Caching.cleanUpCache c.cacheEnv c.cache (Chain.cond c up) w.2.2.1 (({} : Msg), w.2.2.2) = x at k1 k2 ⊢
    generalize Caching.cleanUpCache c.cacheEnv c.cache (Chain.cond c up) w'.2.2.1 (({} : Msg), w.2.2.2) = x' at k1 k2 ⊢
    obtain ⟨a, b⟩ := x
    obtain ⟨a', b'⟩ := x'
    simp only at k1 k2
    subst k2
    cases a with
    | none =>
      cases a' with
      | none => exact ⟨.nil, .inl ⟨rfl, rfl⟩⟩
      | some y => simp at k1
    | some y =>
      cases a' with
      | none => simp at k1
      | some y' =>
        simp only [Option.map_some, Option.some.injEq] at k1
        exact ⟨.nil, .inr ⟨_, _, rfl, rfl, h1, k1, rfl⟩⟩

/-- **C98 (histories).** Changing the letter case of names in any queries of a history - of any clients, with time
passing and the cache being cleaned up in between - changes no answer in the history but for letter case: an answer
is from the cache or has expired in the one history exactly if it is or has in the other. -/
theorem C98_history_partial (senv : Server.Env) (htr : TruncCase senv) (c : Chain.Config E W) (up : Resolver W)
    (hc : CaseOk (ErrorAlike senv) c up) (es es' : List Event) (h : Pairwise2 (OtherEvent c.sudn) es es')
    (w : Chain.World W) :
    Pairwise2 (Pairwise2 Alike) (answersOf senv c up es w) (answersOf senv c up es' w) := by
  have key : ∀ (w w' : Chain.World W), WorldAlike w w' →
      Pairwise2 (Pairwise2 Alike) (answersOf senv c up es w) (answersOf senv c up es' w') := by
    induction h with
    | nil => exact fun _ _ _ => .nil
    | @cons e e' es es' he _ ih =>
      intro w w' hw
      obtain ⟨h1, h2⟩ := happen_twin senv htr c up hc he hw
      unfold answersOf
      generalize happen senv c up w e = x at h1 h2 ⊢
      generalize happen senv c up w' e' = x' at h1 h2 ⊢
      obtain ⟨a, b⟩ := x
      obtain ⟨a', b'⟩ := x'
      simp only at h1 h2
      rcases h2 with ⟨rfl, rfl⟩ | ⟨y, y', rfl, rfl, hy⟩
      · exact .cons h1 .nil
      · exact .cons h1 (ih _ _ hy)
  exact key w w ⟨rfl, rfl, rfl⟩

/-! ### A concrete server -/

/-- An upstream that counts the queries and answers with an address; names of `broken` make it fail. -/
def foldingUp : Resolver Nat := fun request n =>
  match request.req.question with
  | [] => (.err (str! "no question"), n + 1)
  | q :: _ =>
    if (str! "broken.").isSuffixOf (lower q.name) then (.err (str! "servfail"), n + 1)
    else (.ok { res := { ({} : Msg).setReply request.req with
        answer := [{ name := q.name, rtype := typeA, ttl := 60, data := .a (.v4 0x01020304#32) }] } }, n + 1)

theorem foldingUp_case : UpCase R foldingUp ↔ R (str! "servfail") (str! "servfail") := by
  constructor
  · intro h
    have := (h { req := { question := [⟨str! "broken.", 1, 1⟩] } } { req := { question := [⟨str! "broken.", 1, 1⟩] } } 0
      ⟨_, _, rfl, rfl, rfl, rfl, rfl⟩ rfl).1
    simp only [foldingUp] at this
    rw [if_pos (by decide)] at this
    cases this with
    | err h => exact h
  · intro hR request request' w h hr
    obtain ⟨q, q', h1, h2, h3, h4, h5⟩ := h
    have hq' : request'.req.question = [q'] := by rw [h5]
    have hf : foldQuestion q = foldQuestion q' := by
      unfold foldQuestion
      rw [h2, h3, h4]
    unfold foldingUp
    simp only [h1, hq', h2]
    split
    · exact ⟨.err hR, rfl⟩
    · refine ⟨.ok (foldResponse_mk (fold_answer (fold_setReply _ _ _ _ q q' rfl h1 h5 hf) ?_) _ _), rfl⟩
      simp only [List.map_cons, List.map_nil, foldRecord, h2]

theorem sampleTrunc_case (f : Str → Option Msg) : TruncCase ⟨f, sampleTrunc⟩ := by
  intro n m m' h
  have hopt : ∀ r : RR, (foldRecord r).isOpt = r.isOpt := by
    intro r
    obtain ⟨a, b, c, d, e⟩ := r
    cases e <;> rfl
  have hlen : sampleLen m = sampleLen m' := by
    have e : ∀ x : Msg, sampleLen (foldNames x) = sampleLen x := by
      intro x
      unfold sampleLen foldNames
      simp only [List.length_map, List.filter_map]
      congr 3
      exact congrArg _ (List.filter_congr (fun r _ => by simp [hopt]))
    rw [← e m, ← e m', show foldNames m = foldNames m' from h]
  have hex : m.extra.map foldRecord = m'.extra.map foldRecord := congrArg Msg.extra h
  simp only [sampleTrunc, hlen]
  split
  · exact h
  · have e : ∀ x : Msg, foldNames { x with truncated := true, answer := [], ns := [], extra := x.extra.filter RR.isOpt } =
        { foldNames x with truncated := true, answer := [], ns := [], extra := (x.extra.map foldRecord).filter RR.isOpt } := by
      intro x
      unfold foldNames
      simp only [List.map_nil, List.filter_map, Msg.mk.injEq, true_and]
      congr 1
      exact List.filter_congr (fun r _ => by simp [hopt])
    unfold Alike
    rw [e m, e m', show foldNames m = foldNames m' from h, hex]

/-- The sample server, with the upstream above for everything. -/
def caseConfig : Chain.Config prefixEngine Nat :=
  { sampleConfig with
    ecs := {}
    condMapping := [(str! "broken", foldingUp)]
    customReverse := [(str! "1.0.0.10.in-addr.arpa.", [str! "nas.lan"])]
    hostsOrder4 := [(str! "printer", (.v4 0x0a000002#32, []))] }

theorem caseConfig_ok : CaseOk (ErrorAlike sampleServer) caseConfig foldingUp where
  up := foldingUp_case.2 rfl
  packs := fun _ => rfl
  names := fun _ h => nomatch h

/-- A client's query to the sample server. -/
def caseEvent (name : Str) (qtype : Nat := typeA) : Event := .query (.udp (some (.v4 1#32))) none (query name qtype)

instance : DecidableEq (Str × Nat × RData) := inferInstance
instance : DecidableEq (Nat × List (Str × Nat × RData)) := inferInstance

/-- Code and names, TTLs and data of the answers. -/
def caseView (es : List Event) : List (List (Nat × List (Str × Nat × RData))) :=
  (answersOf sampleServer caseConfig foldingUp es sampleWorld).map (fun ms => ms.map (fun m =>
    (m.rcode, m.answer.map (fun r => (r.name, r.ttl.toNat, r.data)))))

-- From the upstream, then, 20 s later and in other letter case, from the cache with the name of the first query;
-- custom DNS; blocked.
example : caseView [caseEvent (str! "Www.org."), .pass 20000, caseEvent (str! "wwW.org."), caseEvent (str! "NAS.lan."),
    caseEvent (str! "ADS.org.")] =
    [[(0, [(str! "Www.org.", 60, .a (.v4 0x01020304#32))])], [], [(0, [(str! "Www.org.", 40, .a (.v4 0x01020304#32))])],
     [(0, [(str! "NAS.lan.", 60, .a (.v4 0x0a000001#32))])], [(0, [(str! "ADS.org.", 60, .a (.v4 0#32))])]] := by decide +kernel

example : Pairwise2 (Pairwise2 Alike)
    (answersOf sampleServer caseConfig foldingUp [caseEvent (str! "Www.org."), .pass 20000, caseEvent (str! "www.ORG."), .cleanUp]
      sampleWorld)
    (answersOf sampleServer caseConfig foldingUp [caseEvent (str! "www.org."), .pass 20000, caseEvent (str! "wWw.org."), .cleanUp]
      sampleWorld) := by
  have hi : ∀ n : Str, lower n = str! "www.org." → CaseIgnored caseConfig.sudn (query n) := by
    intro n hn q hq
    rw [List.mem_singleton.1 hq]
    refine ⟨by simp only [typeA]; decide, .inr ?_⟩
    rintro ⟨z, hz, h⟩
    simp only [hn] at hz
    have hsuf : ∃ p, str! "www.org." = p ++ z := by
      rcases hz with hz | ⟨p, hp⟩
      · exact ⟨[], hz⟩
      · exact ⟨p ++ ['.'], by rw [hp]; simp⟩
    obtain ⟨p, hp⟩ := hsuf
    have hlast : ∀ y, y <:+ (str! "www.org.") → Reserved y ∨ y = str! "localhost." ∨ AppendixG y ∨ y = str! "home.arpa." → False := by
      intro y hy
      rw [List.suffix_iff_eq_drop] at hy
      have hall : ∀ n ∈ List.range 9, ¬ (Reserved ((str! "www.org.").drop n) ∨ (str! "www.org.").drop n = str! "localhost." ∨
          AppendixG ((str! "www.org.").drop n) ∨ (str! "www.org.").drop n = str! "home.arpa.") := by decide +kernel
      rw [hy]
      exact hall _ (List.mem_range.2 (by simp only [List.length_cons, List.length_nil]; omega))
    refine hlast z ⟨p, hp.symm⟩ ?_
    rcases h with h | h | ⟨_, h⟩ | ⟨h, _⟩
    · exact .inl h
    · exact .inr (.inl h)
    · exact .inr (.inr (.inl h))
    · exact .inr (.inr (.inr h))
  refine C98_history_partial sampleServer (sampleTrunc_case _) caseConfig foldingUp caseConfig_ok _ _ ?_ _
  refine .cons (.query ⟨_, ⟨str! "www.org.", typeA, 1⟩, rfl, ?_, rfl, rfl, rfl⟩ (hi _ (by decide))) (.cons .pass
    (.cons (.query ⟨_, ⟨str! "wWw.org.", typeA, 1⟩, rfl, ?_, rfl, rfl, rfl⟩ (hi _ (by decide))) (.cons .cleanUp .nil)))
  · decide
  · decide

/-- **C98 is false for special-use names.** "printer.local." is answered with NXDOMAIN by the server itself,
"printer.LOCAL." is sent upstream. -/
theorem C98_special_false :
    caseView [caseEvent (str! "printer.local.")] = [[(3, [])]] ∧
    caseView [caseEvent (str! "printer.LOCAL.")] = [[(0, [(str! "printer.LOCAL.", 60, .a (.v4 0x01020304#32))])]] := by
  constructor <;> decide +kernel

/-- **C98 is false for reverse lookups.** Of custom DNS records: the name is found in lower case only. -/
theorem C98_reverse_false :
    (answersOf sampleServer caseConfig foldingUp [caseEvent (str! "1.0.0.10.in-addr.arpa.") typePTR] sampleWorld).map
      (fun ms => ms.map (fun m => m.answer.map RR.data)) = [[[.ptr (str! "nas.lan.")]]] ∧
    (answersOf sampleServer caseConfig foldingUp [caseEvent (str! "1.0.0.10.IN-ADDR.ARPA.") typePTR] sampleWorld).map
      (fun ms => ms.map (fun m => m.answer.map RR.data)) = [[[.a (.v4 0x01020304#32)]]] := by
  constructor <;> decide +kernel

/-- **C98 is false for reverse lookups in hosts files.** -/
theorem C98_hosts_reverse_false :
    (answersOf sampleServer caseConfig foldingUp [caseEvent (str! "2.0.0.10.in-addr.arpa.") typePTR] sampleWorld).map
      (fun ms => ms.map (fun m => m.answer.map RR.data)) = [[[.ptr (str! "printer.")]]] ∧
    (answersOf sampleServer caseConfig foldingUp [caseEvent (str! "2.0.0.10.IN-ADDR.ARPA.") typePTR] sampleWorld).map
      (fun ms => ms.map (fun m => m.answer.map RR.data)) = [[[.a (.v4 0x01020304#32)]]] := by
  constructor <;> decide +kernel

end Verif.Props
