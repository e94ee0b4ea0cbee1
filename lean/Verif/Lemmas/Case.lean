/-
The invariant behind C98: two runs of the chain for queries that differ in the letter case of the name stay
alike.
-/
import Verif.Spec.Case
import Verif.Props.Small
import Verif.Lemmas.Chain

namespace Verif.Props
open Dns Spec ExpCache StringCache

variable {W : Type}

/-! ### Folding -/

theorem foldData_idem (d : RData) : foldData (foldData d) = foldData d := by
  cases d <;> simp [foldData, lower_idem]

@[simp] theorem foldNames_answer (m : Msg) : (foldNames m).answer = m.answer.map foldRecord := rfl

theorem extractDomain_congr {a b : Str} (h : lower a = lower b) : extractDomain a = extractDomain b := by
  unfold extractDomain
  rw [h]

theorem fold_setReply (m m' req req' : Msg) (q q' : Question) (h : foldNames m = foldNames m')
    (hq : req.question = [q]) (hr : req' = { req with question := [q'] }) (hf : foldQuestion q = foldQuestion q') :
    foldNames (m.setReply req) = foldNames (m'.setReply req') := by
  subst hr
  obtain ⟨a1, a2, a3, a4, a5, a6, a7, a8, a9, a10, a11, a12, a13, a14⟩ := m
  obtain ⟨b1, b2, b3, b4, b5, b6, b7, b8, b9, b10, b11, b12, b13, b14⟩ := m'
  simp only [foldNames, Msg.mk.injEq] at h
  obtain ⟨rfl, rfl, rfl, rfl, rfl, rfl, rfl, rfl, rfl, rfl, h11, h12, h13, h14⟩ := h
  unfold Msg.setReply foldNames
  simp only [hq, List.map_cons, List.map_nil, hf, h12, h13, h14]

theorem fold_rcode {m m' : Msg} (h : foldNames m = foldNames m') (n : Nat) :
    foldNames { m with rcode := n } = foldNames { m' with rcode := n } := by
  have : ∀ x : Msg, foldNames { x with rcode := n } = { foldNames x with rcode := n } := fun _ => rfl
  rw [this, this, h]

theorem fold_answer {m m' : Msg} (h : foldNames m = foldNames m') {a a' : List RR} (ha : a.map foldRecord = a'.map foldRecord) :
    foldNames { m with answer := a } = foldNames { m' with answer := a' } := by
  have : ∀ (x : Msg) a, foldNames { x with answer := a } = { foldNames x with answer := a.map foldRecord } := fun _ _ => rfl
  rw [this m a, this m' a', h, ha]

theorem fold_question {m m' : Msg} (h : foldNames m = foldNames m') {a a' : List Question}
    (ha : a.map foldQuestion = a'.map foldQuestion) :
    foldNames { m with question := a } = foldNames { m' with question := a' } := by
  have : ∀ (x : Msg) a, foldNames { x with question := a } = { foldNames x with question := a.map foldQuestion } :=
    fun _ _ => rfl
  rw [this m a, this m' a', h, ha]

theorem fold_ra {m m' : Msg} (h : foldNames m = foldNames m') (b : Bool) :
    foldNames { m with recursionAvailable := b } = foldNames { m' with recursionAvailable := b } := by
  have : ∀ (x : Msg), foldNames { x with recursionAvailable := b } = { foldNames x with recursionAvailable := b } :=
    fun _ => rfl
  rw [this, this, h]

/-! EDNS0 -/

theorem lastOpt_fold (l : List RR) : lastOpt (l.map foldRecord) = lastOpt l := by
  induction l with
  | nil => rfl
  | cons r rs ih =>
    simp only [List.map_cons, lastOpt, ih]
    cases lastOpt rs with
    | some o => rfl
    | none =>
      obtain ⟨n, t, c, ttl, d⟩ := r
      cases d <;> rfl

theorem updateLastOpt_fold (f : List EOption → List EOption) (l : List RR) :
    updateLastOpt f (l.map foldRecord) = (updateLastOpt f l).map foldRecord := by
  induction l with
  | nil => rfl
  | cons r rs ih =>
    simp only [List.map_cons, updateLastOpt, lastOpt_fold, ih]
    split
    · rfl
    · obtain ⟨n, t, c, ttl, d⟩ := r
      cases d <;> rfl

theorem dropFirstOpt_fold (l : List RR) : dropFirstOpt (l.map foldRecord) = (dropFirstOpt l).map foldRecord := by
  induction l with
  | nil => rfl
  | cons r rs ih =>
    have : (foldRecord r).isOpt = r.isOpt := by
      obtain ⟨n, t, c, ttl, d⟩ := r
      cases d <;> rfl
    simp only [List.map_cons, dropFirstOpt, ih, this]
    split <;> rfl

theorem removeEdns0Record_fold (m : Msg) : removeEdns0Record (foldNames m) = foldNames (removeEdns0Record m) := by
  unfold removeEdns0Record foldNames
  simp only [dropFirstOpt_fold]

theorem setEdns0Option_fold (m : Msg) (o : EOption) : setEdns0Option (foldNames m) o = foldNames (setEdns0Option m o) := by
  unfold setEdns0Option Msg.edns0
  have : (foldNames m).extra = m.extra.map foldRecord := rfl
  rw [this, lastOpt_fold]
  cases lastOpt m.extra with
  | none =>
    simp only [foldNames, List.map_append, List.map_cons, List.map_nil]
    rfl
  | some x =>
    simp only [foldNames, updateLastOpt_fold]

/-! ### The relations -/

/-- The same question, or one differing in the letter case of a name for which case is ignored: no reverse lookup,
no special-use name. -/
def TwinQ (sc : Small.SudnCfg) (q q' : Question) : Prop :=
  q = q' ∨ (lower q.name = lower q'.name ∧ q.qtype = q'.qtype ∧ q.qclass = q'.qclass ∧ q.qtype ≠ 12 ∧
    (sc.enable = false ∨ ¬ SpecialUse sc.appendixG q.name (q.qtype == 43)))

/-- Messages differing in the question only, and there in letter case only. -/
def TwinM (sc : Small.SudnCfg) (m m' : Msg) : Prop :=
  ∃ q q', m.question = [q] ∧ TwinQ sc q q' ∧ m' = { m with question := [q'] }

/-- Requests with such messages. -/
def TwinR (sc : Small.SudnCfg) (r r' : Request) : Prop := TwinM sc r.req r'.req ∧ r' = { r with req := r'.req }

variable {sc : Small.SudnCfg}

theorem TwinQ.low {q q' : Question} (h : TwinQ sc q q') : lower q.name = lower q'.name := by
  rcases h with rfl | h
  · rfl
  · exact h.1

theorem TwinQ.qtype {q q' : Question} (h : TwinQ sc q q') : q.qtype = q'.qtype := by
  rcases h with rfl | h
  · rfl
  · exact h.2.1

theorem TwinQ.fold {q q' : Question} (h : TwinQ sc q q') : foldQuestion q = foldQuestion q' := by
  rcases h with rfl | ⟨h1, h2, h3, _⟩
  · rfl
  · obtain ⟨n, t, c⟩ := q
    obtain ⟨n', t', c'⟩ := q'
    simp only at h1 h2 h3
    subst h2 h3
    simp [foldQuestion, h1]

theorem TwinQ.domain {q q' : Question} (h : TwinQ sc q q') : extractDomain q.name = extractDomain q'.name :=
  extractDomain_congr h.low

theorem TwinM.refl {m : Msg} {q : Question} (h : m.question = [q]) : TwinM sc m m :=
  ⟨q, q, h, .inl rfl, by rw [← h]⟩

theorem TwinM.other {m m' : Msg} (h : TwinM sc m m') : ∃ q q', m.question = [q] ∧ m'.question = [q'] ∧ TwinQ sc q q' ∧
    m' = { m with question := [q'] } := by
  obtain ⟨q, q', h1, h2, h3⟩ := h
  exact ⟨q, q', h1, by rw [h3], h2, h3⟩

theorem TwinM.reply {req req' m m' : Msg} (hr : TwinM sc req req') (h : foldNames m = foldNames m') :
    foldNames (m.setReply req) = foldNames (m'.setReply req') := by
  obtain ⟨q, q', h1, h2, h3⟩ := hr
  exact fold_setReply m m' req req' q q' h h1 h3 h2.fold

/-- The response with all names in lower case. -/
def foldResponse (r : Response) : Response := { r with res := foldNames r.res }

theorem foldResponse_mk {m m' : Msg} (h : foldNames m = foldNames m') (reason : Str) (t : RType) :
    foldResponse ⟨m, reason, t⟩ = foldResponse ⟨m', reason, t⟩ := by
  unfold foldResponse
  simp only [h]

theorem foldResponse_eq {r r' : Response} (h : foldResponse r = foldResponse r') :
    foldNames r.res = foldNames r'.res ∧ r.reason = r'.reason ∧ r.rtype = r'.rtype := by
  unfold foldResponse at h
  simp only [Response.mk.injEq] at h
  exact h

/-- Outcomes that are equal but for letter case; errors are related by `R`. -/
inductive LikeO (R : Str → Str → Prop) : Outcome → Outcome → Prop
  | ok {r r' : Response} (h : foldResponse r = foldResponse r') : LikeO R (.ok r) (.ok r')
  | noResponse : LikeO R .noResponse .noResponse
  | err {e e' : Str} (h : R e e') : LikeO R (.err e) (.err e')
  | panic : LikeO R .panic .panic

variable {R : Str → Str → Prop}

theorem LikeO.refl (hR : ∀ e, R e e) (o : Outcome) : LikeO R o o := by
  cases o with
  | ok r => exact .ok rfl
  | noResponse => exact .noResponse
  | err e => exact .err (hR e)
  | panic => exact .panic

/-- Results: like outcomes, messages that differ in letter case only, worlds related by `S`. -/
def LikeRes (sc : Small.SudnCfg) (R : Str → Str → Prop) (S : W → W → Prop) (x y : Outcome × Msg × W) : Prop :=
  LikeO R x.1 y.1 ∧ TwinM sc x.2.1 y.2.1 ∧ S x.2.2 y.2.2

/-- A resolver whose results for twin requests are alike. -/
def LikeR (sc : Small.SudnCfg) (R : Str → Str → Prop) (S : W → W → Prop) (r : Chain.MR W) : Prop :=
  ∀ request request' w w', TwinR sc request request' → TwinM sc w.1 w'.1 → S w.2 w'.2 →
    LikeRes sc R S (r request w) (r request' w')

/-- The same for resolvers that return the message. -/
def LikeMR (sc : Small.SudnCfg) (R : Str → Str → Prop) (S : W → W → Prop) (r : Cond.MResolver W) : Prop :=
  ∀ request request' w w', TwinR sc request request' → S w w' → LikeRes sc R S (r request w) (r request' w')

theorem like_toM {S : W → W → Prop} {r : Chain.MR W} (h : LikeR sc R S r) : LikeMR sc R S (Chain.toM r) :=
  fun request request' w w' hr hs => h request request' (request.req, w) (request'.req, w') hr hr.1 hs

theorem like_ofM {S : W → W → Prop} {r : Cond.MResolver W} (h : LikeMR sc R S r) : LikeR sc R S (Chain.ofM r) :=
  fun request request' w w' hr _ hs => h request request' w.2 w'.2 hr hs

/-- What is assumed of upstreams: their answers do not depend on the letter case of the name asked for. -/
def UpCase (R : Str → Str → Prop) (up : Resolver W) : Prop :=
  ∀ request request' w, OtherCase request.req request'.req → request' = { request with req := request'.req } →
    LikeO R (up request w).1 (up request' w).1 ∧ (up request w).2 = (up request' w).2

theorem TwinM.otherCase {m m' : Msg} (h : TwinM sc m m') : OtherCase m m' := by
  obtain ⟨q, q', h1, h2, h3⟩ := h
  refine ⟨q, q', h1, h2.low, h2.qtype, ?_, h3⟩
  rcases h2 with rfl | h2
  · rfl
  · exact h2.2.2.1

theorem like_liftUp {up : Resolver W} (h : UpCase R up) : LikeR sc R Eq (Chain.liftUp up) := by
  intro request request' w w' hr hm hs
  obtain ⟨h1, h2⟩ := h request request' w.2 hr.1.otherCase hr.2
  refine ⟨?_, hm, ?_⟩
  · simp only [Chain.liftUp, ← hs]; exact h1
  · simp only [Chain.liftUp, ← hs]; exact h2

theorem special_twin {q q' : Question} {b : Bool} (h : lower q.name = lower q'.name) :
    SpecialUse b q.name (q.qtype == 43) ↔ SpecialUse b q'.name (q.qtype == 43) := by
  unfold SpecialUse
  rw [h]

theorem like_sudn {S : W → W → Prop} {next : Chain.MR W} (h : LikeR sc R S next) : LikeR sc R S (Small.sudn sc next) := by
  intro request request' w w' hr hm hs
  obtain ⟨q, q', hq, hq', ht, _⟩ := hr.1.other
  rcases ht with rfl | ⟨h1, h2, _, _, h5⟩
  · -- the same question
    have hreq : request' = request := by
      obtain ⟨⟨p, p', e1, _, e3⟩, e4⟩ := hr
      rw [e4, e3]
      have : p' = q := by
        have := hq'
        rw [e3] at this
        simpa using this
      subst this
      rw [← hq]
    subst hreq
    unfold Small.sudn
    by_cases he : sc.enable = true
    · simp only [he, Bool.not_true, Bool.false_eq_true, if_false, hq]
      cases (Small.sudnHandler q.name).bind (Small.callSudn sc request' q) with
      | none => exact h _ _ _ _ hr hm hs
      | some resp => exact ⟨.ok rfl, hm, hs⟩
    · simp only [he, Bool.not_false, if_true]
      exact h _ _ _ _ hr hm hs
  · by_cases he : sc.enable = true
    · have hn : ¬ SpecialUse sc.appendixG q.name (q.qtype == 43) := by
        rcases h5 with h5 | h5
        · rw [he] at h5; cases h5
        · exact h5
      rw [C30_others sc request q [] hq hn, C30_others sc request' q' [] hq'
        (by rw [← h2, ← special_twin h1]; exact hn)]
      exact h _ _ _ _ hr hm hs
    · unfold Small.sudn
      simp only [he, Bool.not_false, if_true]
      exact h _ _ _ _ hr hm hs

theorem like_filtering (types : List Nat) {S : W → W → Prop} {next : Chain.MR W} (h : LikeR sc R S next) :
    LikeR sc R S (Small.filtering types next) := by
  intro request request' w w' hr hm hs
  obtain ⟨q, q', hq, hq', ht, _⟩ := hr.1.other
  unfold Small.filtering
  simp only [hq, hq', ← ht.qtype]
  split
  · exact ⟨.ok (foldResponse_mk (fold_rcode (hr.1.reply rfl) _) _ _), hm, hs⟩
  · exact h _ _ _ _ hr hm hs

theorem like_fqdnOnly (b : Bool) {S : W → W → Prop} {next : Chain.MR W} (h : LikeR sc R S next) :
    LikeR sc R S (Small.fqdnOnly b next) := by
  intro request request' w w' hr hm hs
  obtain ⟨q, q', hq, hq', ht, _⟩ := hr.1.other
  unfold Small.fqdnOnly
  simp only [hq, hq', ← ht.domain]
  split
  · split
    · exact ⟨.ok rfl, hm, hs⟩
    · exact h _ _ _ _ hr hm hs
  · exact h _ _ _ _ hr hm hs

theorem addExtraReasoning_fold (r : Response) :
    Small.addExtraReasoning (foldResponse r) = foldResponse (Small.addExtraReasoning r) := by
  unfold Small.addExtraReasoning
  have : (foldResponse r).rtype = r.rtype := rfl
  rw [this]
  split
  · rfl
  · simp only [foldResponse, setEdns0Option_fold]

theorem like_ede (b : Bool) {S : W → W → Prop} {next : Chain.MR W} (h : LikeR sc R S next) :
    LikeR sc R S (Small.ede b next) := by
  intro request request' w w' hr hm hs
  have hx := h _ _ _ _ hr hm hs
  unfold Small.ede
  cases b with
  | false => exact hx
  | true =>
    simp only [Bool.not_true, Bool.false_eq_true, if_false]
    generalize next request w = x at hx ⊢
    generalize next request' w' = x' at hx ⊢
    obtain ⟨o, w1⟩ := x
    obtain ⟨o', w1'⟩ := x'
    obtain ⟨ho, hx⟩ := hx
    cases ho with
    | ok hr =>
      refine ⟨.ok ?_, hx⟩
      rw [← addExtraReasoning_fold, ← addExtraReasoning_fold, hr]
    | noResponse => exact ⟨.noResponse, hx⟩
    | err he => exact ⟨.err he, hx⟩
    | panic => exact ⟨.panic, hx⟩

theorem like_metrics (b : Bool) {S : W → W → Prop} {next : Chain.MR W} (h : LikeR sc R S next) :
    LikeR sc R S (Chain.metrics b next) := by
  intro request request' w w' hr hm hs
  have hx := h _ _ _ _ hr hm hs
  unfold Chain.metrics
  generalize next request w = x at hx ⊢
  generalize next request' w' = x' at hx ⊢
  obtain ⟨o, m1, w1⟩ := x
  obtain ⟨o', m1', w1'⟩ := x'
  obtain ⟨ho, hm1, hx⟩ := hx
  obtain ⟨q, q', hq, hq', ht, _⟩ := hm1.other
  simp only at hq hq'
  cases b <;> cases ho with
  | ok hr => simp only [hq, hq']; exact ⟨.ok hr, hm1, hx⟩
  | noResponse => simp only [hq, hq']; first | exact ⟨.noResponse, hm1, hx⟩ | exact ⟨.panic, hm1, hx⟩
  | err he => simp only [hq, hq']; exact ⟨.err he, hm1, hx⟩
  | panic => exact ⟨.panic, hm1, hx⟩

theorem like_queryLog (cfg : QueryLog.Cfg) (env : QueryLog.Env) (s d : Int) {S : W → W → Prop} {next : Chain.MR W}
    (h : LikeR sc R S next) : LikeR sc R (fun x y => S x.2 y.2) (Chain.queryLog cfg env s d next) := by
  intro request request' w w' hr hm hs
  have hx := like_toM h request request' w.2.2 w'.2.2 hr hs
  unfold Chain.queryLog Chain.ofM QueryLog.resolve
  generalize Chain.toM next request w.2.2 = x at hx ⊢
  generalize Chain.toM next request' w'.2.2 = x' at hx ⊢
  obtain ⟨o, m1, w1⟩ := x
  obtain ⟨o', m1', w1'⟩ := x'
  obtain ⟨ho, hm1, hx⟩ := hx
  obtain ⟨q, q', hq, hq', ht, _⟩ := hm1.other
  simp only at hq hq'
  cases ho with
  | @ok r r' hr' =>
    obtain ⟨e, he⟩ := chain_fillFields env request m1 r d q hq cfg.fields (QueryLog.emptyEntry env s)
    obtain ⟨e', he'⟩ := chain_fillFields env request' m1' r' d q' hq' cfg.fields (QueryLog.emptyEntry env s)
    have hi : QueryLog.ignore cfg r' = QueryLog.ignore cfg r := by
      unfold QueryLog.ignore
      rw [(foldResponse_eq hr').2.2]
    simp only [QueryLog.createLogEntry, he, he', hi]
    split <;> exact ⟨.ok hr', hm1, hx⟩
  | noResponse => exact ⟨.panic, hm1, hx⟩
  | err he => exact ⟨.err he, hm1, hx⟩
  | panic => exact ⟨.panic, hm1, hx⟩

/-- A lookup of client names that respects the relation of the worlds. -/
def LookupCase (S : W → W → Prop) (l : ClientNames.Lookup W) : Prop :=
  ∀ ip w w', S w w' → (l ip w).1 = (l ip w').1 ∧ S (l ip w).2 (l ip w').2

theorem like_clientNames (cfg : ClientNames.Cfg) (l : Option (ClientNames.Lookup W)) {S : W → W → Prop}
    (hl : ∀ x, l = some x → LookupCase S x) {next : Chain.MR W}
    (h : LikeR sc R S next) : LikeR sc R (fun x y => x.1 = y.1 ∧ S x.2 y.2) (Chain.clientNames cfg l next) := by
  intro request request' w w' hr hm hs
  obtain ⟨m, cn, w⟩ := w
  obtain ⟨m', cn', w'⟩ := w'
  obtain ⟨hcn, hs⟩ := hs
  simp only at hcn hs hm
  subst hcn
  -- the names are the same
  have hnames : (ClientNames.getClientNames cfg l request cn w).1 = (ClientNames.getClientNames cfg l request' cn w').1 ∧
      (ClientNames.getClientNames cfg l request cn w).2.1 = (ClientNames.getClientNames cfg l request' cn w').2.1 ∧
      S (ClientNames.getClientNames cfg l request cn w).2.2 (ClientNames.getClientNames cfg l request' cn w').2.2 := by
    have e1 : request'.requestClientID = request.requestClientID := by rw [hr.2]
    have e2 : request'.clientIP = request.clientIP := by rw [hr.2]
    unfold ClientNames.getClientNames
    simp only [e1, e2]
    split
    · exact ⟨rfl, rfl, hs⟩
    · cases request.clientIP with
      | none => exact ⟨rfl, rfl, hs⟩
      | some ip =>
        simp only
        cases hc : cn.cache.get cn.now (cfg.ipString ip) with
        | mk found cache =>
          cases found with
          | some x => exact ⟨rfl, rfl, hs⟩
          | none =>
            have hres : (ClientNames.resolveClientNames cfg l ip w).1 = (ClientNames.resolveClientNames cfg l ip w').1 ∧
                S (ClientNames.resolveClientNames cfg l ip w).2 (ClientNames.resolveClientNames cfg l ip w').2 := by
              unfold ClientNames.resolveClientNames
              split
              · exact ⟨rfl, hs⟩
              · cases l with
                | none => exact ⟨rfl, hs⟩
                | some ask =>
                  obtain ⟨h1, h2⟩ := hl ask rfl ip w w' hs
                  simp only
                  generalize ask ip w = x at h1 h2 ⊢
                  generalize ask ip w' = x' at h1 h2 ⊢
                  obtain ⟨a, b⟩ := x
                  obtain ⟨a', b'⟩ := x'
                  simp only at h1 h2
                  subst h1
                  cases a with
                  | none => exact ⟨rfl, h2⟩
                  | some answer =>
                    simp only
                    split <;> exact ⟨rfl, h2⟩
            simp only [hres.1]
            exact ⟨trivial, trivial, hres.2⟩
  unfold Chain.clientNames ClientNames.withNames
  simp only
  generalize ClientNames.getClientNames cfg l request cn w = x at hnames ⊢
  generalize ClientNames.getClientNames cfg l request' cn w' = x' at hnames ⊢
  obtain ⟨a, b, c⟩ := x
  obtain ⟨a', b', c'⟩ := x'
  simp only at hnames
  obtain ⟨rfl, rfl, hs'⟩ := hnames
  simp only
  have htw : TwinR sc { request with clientNames := a } { request' with clientNames := a } := by
    refine ⟨hr.1, ?_⟩
    have := hr.2
    simp only
    rw [this]
  have hx := h _ _ (m, c) (m', c') htw hm hs'
  generalize next { request with clientNames := a } (m, c) = x at hx ⊢
  generalize next { request' with clientNames := a } (m', c') = x' at hx ⊢
  obtain ⟨o, m1, w1⟩ := x
  obtain ⟨o', m1', w1'⟩ := x'
  exact ⟨hx.1, hx.2.1, rfl, hx.2.2⟩

theorem setEdns0Option_question (m : Msg) (qs : List Question) (o : EOption) :
    setEdns0Option { m with question := qs } o = { setEdns0Option m o with question := qs } := by
  unfold setEdns0Option Msg.edns0
  simp only
  cases lastOpt m.extra <;> rfl

theorem removeEdns0Option_question (m : Msg) (qs : List Question) (n : Nat) :
    removeEdns0Option { m with question := qs } n = { removeEdns0Option m n with question := qs } := by
  unfold removeEdns0Option Msg.edns0
  simp only
  cases lastOpt m.extra with
  | none => rfl
  | some x =>
    simp only
    split <;> rfl

theorem setEdns0Option_keeps (m : Msg) (o : EOption) : (setEdns0Option m o).question = m.question := by
  unfold setEdns0Option Msg.edns0
  cases lastOpt m.extra <;> rfl

theorem removeEdns0Option_keeps (m : Msg) (n : Nat) : (removeEdns0Option m n).question = m.question := by
  unfold removeEdns0Option Msg.edns0
  cases lastOpt m.extra with
  | none => rfl
  | some x =>
    simp only
    split <;> rfl

/-- The ECS resolver's changes do not concern the question. -/
theorem transform_twin (cfg : Ecs.Cfg) {request request' : Request} (hr : TwinR sc request request') :
    (Ecs.transform cfg request = none ∧ Ecs.transform cfg request' = none) ∨
    ∃ r r', Ecs.transform cfg request = some r ∧ Ecs.transform cfg request' = some r' ∧ TwinR sc r r' := by
  obtain ⟨⟨q, q', hq, ht, hm⟩, hreq⟩ := hr
  have hreq' : request' = { request with req := { request.req with question := [q'] } } := by rw [hreq, hm]
  subst hreq'
  have hso : getEdns0Option { request.req with question := [q'] } 8 = getEdns0Option request.req 8 := rfl
  unfold Ecs.transform
  simp only [hso]
  split
  · split
    · cases Ecs.newOption cfg (Ecs.subnetSource cfg (Ecs.optionAddress (getEdns0Option request.req 8))
        (Ecs.effectiveClient cfg (getEdns0Option request.req 8) request.clientIP)) with
      | none => exact .inl ⟨rfl, rfl⟩
      | some x =>
        cases x with
        | none => exact .inr ⟨_, _, rfl, rfl, ⟨q, q', hq, ht, rfl⟩, rfl⟩
        | some o =>
          refine .inr ⟨_, _, rfl, rfl, ⟨q, q', ?_, ht, ?_⟩, rfl⟩
          · simp only [setEdns0Option_keeps]; exact hq
          · exact setEdns0Option_question _ _ _
    · split
      · refine .inr ⟨_, _, rfl, rfl, ⟨q, q', ?_, ht, ?_⟩, rfl⟩
        · simp only [removeEdns0Option_keeps]; exact hq
        · exact removeEdns0Option_question _ _ _
      · exact .inr ⟨_, _, rfl, rfl, ⟨q, q', hq, ht, rfl⟩, rfl⟩
  · exact .inr ⟨_, _, rfl, rfl, ⟨q, q', hq, ht, rfl⟩, rfl⟩

theorem like_ecs (cfg : Ecs.Cfg) {S : W → W → Prop} {next : Chain.MR W} (h : LikeR sc R S next) :
    LikeR sc R S (Chain.ecs cfg next) := by
  intro request request' w w' hr hm hs
  unfold Chain.ecs
  rcases transform_twin cfg hr with ⟨h1, h2⟩ | ⟨r, r', h1, h2, h3⟩
  · rw [h1, h2]; exact ⟨.panic, hm, hs⟩
  · rw [h1, h2]; exact h _ _ _ _ h3 h3.1 hs

theorem like_hosts (en : Bool) (cfg : HostsFile.Cfg) (hosts : HostsFile.Hosts) (o4 o6 : List (Str × (IP × List Str)))
    {S : W → W → Prop} {next : Chain.MR W} (h : LikeR sc R S next) :
    LikeR sc R S (HostsFile.resolve en cfg hosts o4 o6 next) := by
  intro request request' w w' hr hm hs
  obtain ⟨q, q', hq, hq', ht, _⟩ := hr.1.other
  unfold HostsFile.resolve
  cases en with
  | false => exact h _ _ _ _ hr hm hs
  | true =>
    simp only [Bool.not_true, Bool.false_eq_true, if_false, hq, hq']
    -- reverse lookups are for the same question
    have hrev : (HostsFile.handleReverse cfg o4 o6 request q = none ∧ HostsFile.handleReverse cfg o4 o6 request' q' = none) ∨
        ∃ r r', HostsFile.handleReverse cfg o4 o6 request q = some r ∧ HostsFile.handleReverse cfg o4 o6 request' q' = some r' ∧
          foldResponse r = foldResponse r' := by
      rcases ht with rfl | ⟨_, h2, _, h4, _⟩
      · unfold HostsFile.handleReverse
        split
        · exact .inl ⟨rfl, rfl⟩
        · cases Arpa.parse q.name with
          | none => exact .inl ⟨rfl, rfl⟩
          | some ip =>
            simp only
            split
            · exact .inl ⟨rfl, rfl⟩
            · generalize HostsFile.findHost ip _ = fh
              cases fh with
              | none => exact .inl ⟨rfl, rfl⟩
              | some x =>
                refine .inr ⟨_, _, rfl, rfl, ?_⟩
                exact foldResponse_mk (fold_answer (hr.1.reply rfl) rfl) _ _
      · left
        unfold HostsFile.handleReverse
        rw [if_pos (by exact h4), if_pos (by rw [← h2]; exact h4)]
        exact ⟨rfl, rfl⟩
    rcases hrev with ⟨e1, e2⟩ | ⟨r, r', e1, e2, e3⟩
    · rw [e1, e2]
      simp only [← ht.domain, ← ht.qtype]
      cases hosts.getIP q.qtype (extractDomain q.name) with
      | none => exact h _ _ _ _ hr hm hs
      | some ip =>
        refine ⟨.ok (foldResponse_mk (fold_answer (hr.1.reply rfl) ?_) _ _), hm, hs⟩
        have := ht.low
        have h2 := ht.qtype
        simp only [List.map_cons, List.map_nil, HostsFile.createAnswer, foldRecord, this, ← h2]
    · rw [e1, e2]
      exact ⟨.ok e3, hm, hs⟩

/-! ### Blocking -/

variable {E : RegexEngine}

theorem createAnswer_fold {q q' : Question} (ht : TwinQ sc q q') (ip : IP) (ttl : UInt32) :
    foldRecord (Blocking.createAnswer q ip ttl) = foldRecord (Blocking.createAnswer q' ip ttl) := by
  unfold Blocking.createAnswer foldRecord
  simp only [ht.low, ht.qtype]

theorem handleZeroIP_fold {q q' : Question} (ht : TwinQ sc q q') (ttl : UInt32) {m m' : Msg} (h : foldNames m = foldNames m') :
    foldNames (Blocking.handleZeroIP ttl q m) = foldNames (Blocking.handleZeroIP ttl q' m') := by
  have ha : m.answer.map foldRecord = m'.answer.map foldRecord := congrArg Msg.answer h
  unfold Blocking.handleZeroIP
  simp only [← ht.qtype]
  split
  · exact fold_answer h (by simp [ha, createAnswer_fold ht])
  · split
    · exact fold_answer h (by simp [ha, createAnswer_fold ht])
    · exact fold_rcode h _

theorem handleBlock_fold (hd : Blocking.Handler) {q q' : Question} (ht : TwinQ sc q q') {m m' : Msg}
    (h : foldNames m = foldNames m') : foldNames (hd.handleBlock q m) = foldNames (hd.handleBlock q' m') := by
  have ha : m.answer.map foldRecord = m'.answer.map foldRecord := congrArg Msg.answer h
  cases hd with
  | zeroIP ttl => exact handleZeroIP_fold ht ttl h
  | nxDomain => exact fold_rcode h _
  | ips dest ttl =>
    have hdst : Blocking.destinationsFor dest q = Blocking.destinationsFor dest q' := by
      unfold Blocking.destinationsFor
      simp only [ht.qtype]
    have hans : (m.answer ++ (Blocking.destinationsFor dest q).map (fun ip => Blocking.createAnswer q ip ttl)).map foldRecord =
        (m'.answer ++ (Blocking.destinationsFor dest q').map (fun ip => Blocking.createAnswer q' ip ttl)).map foldRecord := by
      rw [List.map_append, List.map_append, ha, hdst, List.map_map, List.map_map]
      congr 1
      apply List.map_congr_left
      intro ip _
      exact createAnswer_fold ht ip ttl
    have h1 := fold_answer h hans
    have hlen := congrArg List.length hans
    simp only [List.length_map] at hlen
    unfold Blocking.Handler.handleBlock
    simp only [hlen]
    split
    · exact handleZeroIP_fold ht ttl h1
    · exact h1

theorem handleBlocked_fold (hd : Blocking.Handler) {request request' : Request} {q q' : Question}
    (hr : TwinR sc request request') (ht : TwinQ sc q q') (reason : Str) :
    LikeO R (Blocking.handleBlocked hd request q reason) (Blocking.handleBlocked hd request' q' reason) :=
  .ok (foldResponse_mk (handleBlock_fold hd ht (hr.1.reply rfl)) _ _)

theorem extractEntry_fold (env : Blocking.Env) (rr : RR) : Blocking.extractEntry env (foldRecord rr) = Blocking.extractEntry env rr := by
  obtain ⟨n, t, c, ttl, d⟩ := rr
  cases d <;> simp [Blocking.extractEntry, foldRecord, foldData, extractDomain, lower_idem]

/-- Results of the check of an answer. -/
inductive LikeOpt (R : Str → Str → Prop) : Option Outcome → Option Outcome → Prop
  | none : LikeOpt R none none
  | some {o o' : Outcome} (h : LikeO R o o') : LikeOpt R (some o) (some o')

theorem checkAnswer_like (env : Blocking.Env) (b : Blocking.BState E) (groups : List Str)
    {request request' : Request} (hr : TwinR sc request request') (l : List RR) : ∀ l', l.map foldRecord = l'.map foldRecord →
    LikeOpt R (Blocking.checkAnswer env b groups request l) (Blocking.checkAnswer env b groups request' l') := by
  obtain ⟨q, q', hq, hq', ht, _⟩ := hr.1.other
  induction l with
  | nil =>
    intro l' h
    cases l' with
    | nil => exact .none
    | cons a b => simp at h
  | cons r rs ih =>
    intro l' h
    cases l' with
    | nil => simp at h
    | cons r' rs' =>
      simp only [List.map_cons, List.cons.injEq] at h
      have he : Blocking.extractEntry env r = Blocking.extractEntry env r' := by
        rw [← extractEntry_fold, h.1, extractEntry_fold]
      unfold Blocking.checkAnswer
      rw [← he]
      obtain ⟨entry, tName⟩ := Blocking.extractEntry env r
      simp only [hq, hq']
      split
      · split
        · exact ih _ h.2
        · split
          · exact .some (handleBlocked_fold _ hr ht _)
          · exact ih _ h.2
      · exact ih _ h.2

theorem like_blocking (env : Blocking.Env) (b : Blocking.BState E) {S : W → W → Prop} {next : Chain.MR W}
    (h : LikeR sc R S next) : LikeR sc R S (Blocking.resolve env b next) := by
  intro request request' w w' hr hm hs
  obtain ⟨q, q', hq, hq', ht, _⟩ := hr.1.other
  have hx := h _ _ _ _ hr hm hs
  have hg : Blocking.groupsToCheck env b.cgb b.fqdnIPs b.status request' =
      Blocking.groupsToCheck env b.cgb b.fqdnIPs b.status request := by
    have e1 : request'.clientNames = request.clientNames := by rw [hr.2]
    have e2 : request'.clientIP = request.clientIP := by rw [hr.2]
    unfold Blocking.groupsToCheck Blocking.matchedGroups
    simp only [e1, e2]
  unfold Blocking.resolve
  simp only [hg, hq, hq']
  generalize Blocking.groupsToCheck env b.cgb b.fqdnIPs b.status request = groups
  have hask : LikeRes sc R S (Blocking.askNext env b groups next request w) (Blocking.askNext env b groups next request' w') := by
    unfold Blocking.askNext
    generalize next request w = x at hx ⊢
    generalize next request' w' = x' at hx ⊢
    obtain ⟨o, m1, w1⟩ := x
    obtain ⟨o', m1', w1'⟩ := x'
    obtain ⟨ho, hx⟩ := hx
    simp only at ho
    cases ho with
    | @ok r r' hr' =>
      simp only
      have hc := checkAnswer_like (R := R) env b groups hr r.res.answer r'.res.answer (congrArg Msg.answer (foldResponse_eq hr').1)
      split
      · generalize Blocking.checkAnswer env b groups request r.res.answer = y at hc ⊢
        generalize Blocking.checkAnswer env b groups request' r'.res.answer = y' at hc ⊢
        cases hc with
        | none => exact ⟨.ok hr', hx⟩
        | some ho => exact ⟨ho, hx⟩
      · exact ⟨.ok hr', hx⟩
    | noResponse => exact ⟨.noResponse, hx⟩
    | err he => exact ⟨.err he, hx⟩
    | panic => exact ⟨.panic, hx⟩
  split
  · unfold Blocking.handleDenylist
    simp only [← ht.domain]
    split
    · rename_i heq
      split at heq
      · rw [if_pos (by assumption)]; exact hx
      · split at heq
        · cases heq
        · split at heq
          · cases heq
          · cases heq
    · rename_i o heq
      split at heq
      · cases heq
      · rename_i hn
        rw [if_neg hn]
        split at heq
        · rename_i hao
          rw [if_pos hao]
          cases heq
          exact ⟨handleBlocked_fold _ hr ht _, hm, hs⟩
        · rename_i hao
          rw [if_neg hao]
          split at heq
          · rename_i hd
            rw [if_pos hd]
            cases heq
            exact ⟨handleBlocked_fold _ hr ht _, hm, hs⟩
          · cases heq
    · rename_i heq
      split at heq
      · cases heq
      · rename_i hn
        rw [if_neg hn]
        split at heq
        · cases heq
        · rename_i hao
          rw [if_neg hao]
          split at heq
          · cases heq
          · rename_i hd
            rw [if_neg hd]
            exact hask
  · exact hask

/-! ### Caching -/

/-- The cache with all names in the stored messages in lower case. -/
def foldCache (c : Cache Msg) : Cache Msg :=
  { c with items := c.items.map (fun e => (e.1, ⟨foldNames e.2.val, e.2.expires⟩)) }

/-- The state of the answer cache, likewise. -/
def foldState (s : Caching.CState) : Caching.CState := { s with main := { s.main with cache := foldCache s.main.cache } }

theorem foldCache_peek (c : Cache Msg) (k : Str) :
    (foldCache c).peek k = (c.peek k).map (fun el => ⟨foldNames el.val, el.expires⟩) := by
  obtain ⟨cap, items⟩ := c
  unfold Cache.peek foldCache
  simp only
  induction items with
  | nil => rfl
  | cons e es ih =>
    simp only [List.map_cons, AMap.get]
    split
    · rfl
    · exact ih

theorem foldCache_filter (items : List (Str × Element Msg)) (k : Str) :
    (items.map (fun e => (e.1, (⟨foldNames e.2.val, e.2.expires⟩ : Element Msg)))).filter (fun e => decide (e.1 ≠ k)) =
      (items.filter (fun e => decide (e.1 ≠ k))).map (fun e => (e.1, (⟨foldNames e.2.val, e.2.expires⟩ : Element Msg))) := by
  induction items with
  | nil => rfl
  | cons e es ih =>
    simp only [List.map_cons, List.filter_cons, ih]
    split <;> simp

theorem foldCache_touch (c : Cache Msg) (k : Str) : (foldCache c).touch k = foldCache (c.touch k) := by
  unfold Cache.touch
  rw [foldCache_peek]
  cases c.peek k with
  | none => rfl
  | some el =>
    unfold foldCache
    simp only [Option.map_some, foldCache_filter, List.map_cons]

theorem foldCache_get (c : Cache Msg) (now : Int) (k : Str) :
    (foldCache c).get now k = ((c.get now k).1.map (fun p => (foldNames p.1, p.2)), foldCache (c.get now k).2) := by
  unfold Cache.get
  rw [foldCache_peek]
  cases c.peek k with
  | none => rfl
  | some el => simp only [Option.map_some, foldCache_touch]

theorem foldCache_add (c : Cache Msg) (k : Str) (el : Element Msg) :
    (foldCache c).add k ⟨foldNames el.val, el.expires⟩ = foldCache (c.add k el) := by
  have hk : (foldCache c).items.map Prod.fst = c.items.map Prod.fst := by
    unfold foldCache
    simp only [List.map_map]
    rfl
  have hl : (foldCache c).items.length = c.items.length := by simp [foldCache]
  have hc : (foldCache c).cap = c.cap := rfl
  unfold Cache.add
  rw [hk, hl, hc]
  split
  · unfold foldCache
    simp only [foldCache_filter, List.map_cons]
  · split
    · unfold foldCache
      simp only [List.map_dropLast, List.map_cons]
    · rfl

theorem foldCache_put (c : Cache Msg) (now : Int) (k : Str) (m : Msg) (ttl : Int) :
    (foldCache c).put now k (foldNames m) ttl = foldCache (c.put now k m ttl) := by
  unfold Cache.put
  split
  · rfl
  · exact foldCache_add c k ⟨m, now + ttl / 1000000⟩

theorem track_fold (c : Caching.Cfg) (s : Caching.CState) (k : Str) :
    Caching.track c (foldState s) k = foldState (Caching.track c s k) := rfl

theorem cacheGet_fold (c : Caching.Cfg) (s : Caching.CState) (k : Str) :
    Caching.cacheGet c (foldState s) k =
      ((Caching.cacheGet c s k).1.map (fun p => (foldNames p.1, p.2)), foldState (Caching.cacheGet c s k).2) := by
  unfold Caching.cacheGet
  simp only [track_fold]
  have : (if c.prefetching = true then foldState (Caching.track c s k) else foldState s) =
      foldState (if c.prefetching = true then Caching.track c s k else s) := by split <;> rfl
  rw [this]
  generalize (if c.prefetching = true then Caching.track c s k else s) = s1
  have e1 : (foldState s1).main.cache = foldCache s1.main.cache := rfl
  have e2 : (foldState s1).main.now = s1.main.now := rfl
  rw [e1, e2, foldCache_get]
  rfl

theorem minTTL_fold (l : List RR) : Caching.minTTL (l.map foldRecord) = Caching.minTTL l := by
  unfold Caching.minTTL
  rw [List.foldl_map]
  rfl

theorem adjustTTLs_fold (c : Caching.Cfg) (l : List RR) :
    Caching.adjustTTLs c (l.map foldRecord) = ((Caching.adjustTTLs c l).1.map foldRecord, (Caching.adjustTTLs c l).2) := by
  cases l with
  | nil => rfl
  | cons r rs =>
    unfold Caching.adjustTTLs
    simp only [List.map_cons, List.isEmpty_cons, Bool.false_eq_true, if_false]
    have e : ∀ x : RR, ({ foldRecord x with ttl := Caching.clampTTL c (foldRecord x).ttl } : RR) =
        foldRecord { x with ttl := Caching.clampTTL c x.ttl } := fun _ => rfl
    have e2 : ∀ xs : List RR, (xs.map foldRecord).map (fun x => ({ x with ttl := Caching.clampTTL c x.ttl } : RR)) =
        (xs.map (fun x => ({ x with ttl := Caching.clampTTL c x.ttl } : RR))).map foldRecord := by
      intro xs
      rw [List.map_map, List.map_map]
      rfl
    refine Prod.ext ?_ ?_
    · simp only [e, e2]
    · simp only [e, e2]
      have := minTTL_fold ({ r with ttl := Caching.clampTTL c r.ttl } ::
        rs.map (fun x => ({ x with ttl := Caching.clampTTL c x.ttl } : RR)))
      simp only [List.map_cons] at this
      rw [this]

theorem adjusted_fold (c : Caching.Cfg) (r : Response) :
    Caching.adjusted c (foldResponse r) = foldResponse (Caching.adjusted c r) := by
  unfold Caching.adjusted foldResponse
  simp only [foldNames_answer, adjustTTLs_fold]
  rfl

theorem setTTLs_fold (l : List RR) (ms : Int) : Caching.setTTLs (l.map foldRecord) ms = (Caching.setTTLs l ms).map foldRecord := by
  unfold Caching.setTTLs
  rw [minTTL_fold, List.map_map, List.map_map]
  rfl

theorem store_fold (env : Caching.Env) (hp : ∀ m, env.packs (foldNames m) = env.packs m) (c : Caching.Cfg) (s : Caching.CState)
    (k : Str) (r : Response) :
    Caching.store env c (foldState s) k (foldResponse r) = foldState (Caching.store env c s k r) := by
  have e1 : (foldResponse r).res.answer = r.res.answer.map foldRecord := rfl
  have hputs : ∀ (m : Msg) (ttl : Int),
      run (foldState s).main (Caching.putOps env c k (foldNames m) ttl) =
        (foldState { s with main := run s.main (Caching.putOps env c k m ttl) }).main := by
    intro m ttl
    unfold Caching.putOps
    have e2 : (foldNames m).rcode = m.rcode := rfl
    have e3 : Caching.isResponseCacheable (foldNames m) = Caching.isResponseCacheable m := rfl
    simp only [removeEdns0Record_fold, hp, e2, e3]
    have hput : ∀ (x : Msg) (t : Int), run (foldState s).main [.put k (foldNames x) t] =
        (foldState { s with main := run s.main [.put k x t] }).main := by
      intro x t
      simp only [run, List.foldl_cons, List.foldl_nil, step]
      unfold foldState
      simp only [foldCache_put]
    have hnil : run (foldState s).main [] = (foldState { s with main := run s.main [] }).main := rfl
    split
    · split
      · exact hput _ _
      · split
        · split
          · exact hput _ _
          · exact hnil
        · exact hnil
    · exact hnil
  unfold Caching.store
  rw [e1, adjustTTLs_fold, adjusted_fold]
  have e4 : (foldResponse (Caching.adjusted c r)).res = foldNames (Caching.adjusted c r).res := rfl
  simp only [e4, hputs]
  rfl

/-- The worlds of the answer cache: same entries but for letter case, same rest. -/
def CacheAlike (x y : Caching.CState × W) : Prop := foldState x.1 = foldState y.1 ∧ x.2 = y.2

theorem like_caching (env : Caching.Env) (hp : ∀ m, env.packs (foldNames m) = env.packs m) (c : Caching.Cfg)
    {next : Chain.MR W} (h : LikeR sc R Eq next) : LikeR sc R CacheAlike (Chain.caching env c next) := by
  intro request request' w w' hr hm hs
  obtain ⟨m, s, w⟩ := w
  obtain ⟨m', s', w'⟩ := w'
  obtain ⟨hs, hw⟩ := hs
  simp only at hs hw hm
  subst hw
  obtain ⟨q, q', hq, hq', ht, hmm⟩ := hr.1.other
  have hcb : Caching.isRequestCacheable request'.req = Caching.isRequestCacheable request.req := by
    rw [hmm]; rfl
  have hx := h _ _ (m, w) (m', w) hr hm rfl
  unfold Chain.caching Caching.resolve
  simp only [hcb]
  split
  · generalize next request (m, w) = x at hx ⊢
    generalize next request' (m', w) = x' at hx ⊢
    obtain ⟨o, m1, w1⟩ := x
    obtain ⟨o', m1', w1'⟩ := x'
    exact ⟨hx.1, hx.2.1, hs, hx.2.2⟩
  · have hk : Caching.questionKey q' = Caching.questionKey q := by
      unfold Caching.questionKey
      rw [← ht.domain, ← ht.qtype]
    simp only [hq, hq', Caching.resolveLoop, hk]
    have hg := cacheGet_fold c s (Caching.questionKey q)
    rw [hs, cacheGet_fold] at hg
    generalize Caching.cacheGet c s (Caching.questionKey q) = y at hg ⊢
    generalize Caching.cacheGet c s' (Caching.questionKey q) = y' at hg ⊢
    obtain ⟨g, s1⟩ := y
    obtain ⟨g', s1'⟩ := y'
    simp only [Prod.mk.injEq] at hg
    obtain ⟨hg1, hg2⟩ := hg
    cases g with
    | some p =>
      cases g' with
      | none => simp at hg1
      | some p' =>
        obtain ⟨cm, ttl⟩ := p
        obtain ⟨cm', ttl'⟩ := p'
        simp only [Option.map_some, Option.some.injEq, Prod.mk.injEq] at hg1
        obtain ⟨hcm, rfl⟩ := hg1
        have hrc : (foldNames cm').rcode = (foldNames cm).rcode := congrArg Msg.rcode hcm
        have hrc : cm'.rcode = cm.rcode := hrc
        refine ⟨?_, hm, hg2.symm, rfl⟩
        apply LikeO.ok
        unfold Caching.hitResponse
        simp only [hrc]
        apply foldResponse_mk
        apply fold_answer
        · exact fold_rcode (hr.1.reply hcm.symm) _
        · rw [← setTTLs_fold, ← setTTLs_fold]
          have : cm'.answer.map foldRecord = cm.answer.map foldRecord := congrArg Msg.answer hcm
          rw [this]
    | none =>
      cases g' with
      | some p' => simp at hg1
      | none =>
        simp only
        generalize next request (m, w) = x at hx ⊢
        generalize next request' (m', w) = x' at hx ⊢
        obtain ⟨o, m1, w1⟩ := x
        obtain ⟨o', m1', w1'⟩ := x'
        obtain ⟨ho, hm1, hw1⟩ := hx
        simp only at ho hm1 hw1
        cases ho with
        | @ok r r' hr' =>
          refine ⟨.ok ?_, hm1, ?_, hw1⟩
          · rw [← adjusted_fold, ← adjusted_fold, hr']
          · simp only
            rw [← store_fold env hp, ← store_fold env hp, hr', hg2]
        | noResponse => exact ⟨.panic, hm1, hg2.symm, hw1⟩
        | err he => exact ⟨.err he, hm1, hg2.symm, hw1⟩
        | panic => exact ⟨.panic, hm1, hg2.symm, hw1⟩

/-! ### Conditional upstreams and rewriting -/

theorem setName_twin {request request' : Request} (hr : TwinR sc request request') (n : Str) :
    ({ request with req := { request.req with question := Cond.setName n request.req.question } } : Request) =
      { request' with req := { request'.req with question := Cond.setName n request'.req.question } } := by
  obtain ⟨q, q', hq, hq', ht, hmm⟩ := hr.1.other
  rw [hr.2]
  simp only [hq, hq', Cond.setName]
  have hqq : ({ q with name := n } : Question) = { q' with name := n } := by
    rcases ht with rfl | ⟨_, h2, h3, _⟩
    · rfl
    · simp only [h2, h3]
  rw [hqq, hmm]

/-- What the conditional resolver makes of the request with the name in lower case. -/
def internalResult (reso : Resolver W) (name : Str) (request : Request) (w : W) : Outcome × Msg × W :=
  match reso request w with
  | (.ok r, w) =>
    (.ok { res := { r.res with question := Cond.setName name r.res.question },
           reason := str! "CONDITIONAL", rtype := .conditional }, request.req, w)
  | (.noResponse, w) => (.panic, request.req, w)
  | (o, w) => (o, request.req, w)

theorem internalResolve_eq (reso : Resolver W) (d : Str) (request : Request) (w : W) :
    Cond.internalResolve reso d request w = internalResult reso (fqdn d)
      { request with req := { request.req with question := Cond.setName (fqdn d) request.req.question } } w := rfl

theorem like_conditional (hR : ∀ e, R e e) (mapping : AMap Str (Resolver W)) {next : Cond.MResolver W}
    (h : LikeMR sc R Eq next) : LikeMR sc R Eq (Cond.conditional mapping next) := by
  intro request request' w w' hr hs
  subst hs
  obtain ⟨q, q', hq, hq', ht, _⟩ := hr.1.other
  unfold Cond.conditional
  simp only [hq, hq', ← ht.domain]
  split
  · cases Cond.lookup mapping (extractDomain q.name) with
    | none => exact h _ _ _ _ hr rfl
    | some reso =>
      simp only
      rw [internalResolve_eq, internalResolve_eq, setName_twin hr (fqdn (extractDomain q.name))]
      have hm : TwinM sc { request'.req with question := Cond.setName (fqdn (extractDomain q.name)) request'.req.question }
          { request'.req with question := Cond.setName (fqdn (extractDomain q.name)) request'.req.question } := by
        apply TwinM.refl (q := { q' with name := fqdn (extractDomain q.name) })
        simp only [hq', Cond.setName]
      unfold internalResult
      generalize reso _ w = x
      obtain ⟨o, w1⟩ := x
      cases o with
      | ok r => exact ⟨.ok rfl, hm, rfl⟩
      | noResponse => exact ⟨.panic, hm, rfl⟩
      | err e => exact ⟨.err (hR e), hm, rfl⟩
      | panic => exact ⟨.panic, hm, rfl⟩
  · exact h _ _ _ _ hr rfl

/-- The outcome for one and the same request is the same in related worlds. -/
def SameOutcome (S : W → W → Prop) (r : Cond.MResolver W) : Prop :=
  ∀ request q w w', request.req.question = [q] → S w w' → (r request w).1 = (r request w').1

theorem revert_fold {key n n' : Str} (h : lower n = lower n') (r : Response) :
    foldResponse (Cond.revert [(key, n)] r) = foldResponse (Cond.revert [(key, n')] r) := by
  have hn : ∀ x, lower (Cond.revertName [(key, n)] x) = lower (Cond.revertName [(key, n')] x) := by
    intro x
    unfold Cond.revertName
    simp only [AMap.get]
    by_cases hx : key = x
    · simp only [hx, if_true, h]
    · simp only [hx, if_false]
  unfold Cond.revert foldResponse
  simp only [Response.mk.injEq, and_true]
  unfold foldNames
  simp only [List.map_map, Msg.mk.injEq, true_and, and_true]
  constructor
  · apply List.map_congr_left
    intro q _
    simp only [Function.comp, foldQuestion, hn]
  · apply List.map_congr_left
    intro a _
    simp only [Function.comp, foldRecord, hn]

theorem like_rewriter (fb : Bool) (order : Nat → List (Str × Str)) {S : W → W → Prop} {inner next : Cond.MResolver W}
    (hi : LikeMR sc R S inner) (hsame : SameOutcome S inner) (h : LikeMR sc R S next) :
    LikeMR sc R S (Cond.rewriter fb order inner next) := by
  intro request request' w w' hr hs
  obtain ⟨q, q', hq, hq', ht, hmm⟩ := hr.1.other
  unfold Cond.rewriter
  simp only [hq, hq', Cond.rewriteQuestions, ← ht.domain]
  by_cases hne : Cond.rewriteDomain (order 0) (extractDomain q.name) ≠ extractDomain q.name
  · rw [if_pos hne, if_pos hne]
    simp only [if_true, AMap.put]
    generalize hd : Cond.rewriteDomain (order 0) (extractDomain q.name) = d
    have heq : ({ request with req := { request.req with question := [{ q with name := fqdn d }] } } : Request) =
        { request' with req := { request'.req with question := [{ q' with name := fqdn d }] } } := by
      have := setName_twin hr (fqdn d)
      rw [hq, hq'] at this
      exact this
    have hx := hi { request with req := { request.req with question := [{ q with name := fqdn d }] } }
      { request with req := { request.req with question := [{ q with name := fqdn d }] } } w w'
      ⟨TwinM.refl rfl, rfl⟩ hs
    have hso := hsame { request with req := { request.req with question := [{ q with name := fqdn d }] } } _ w w' rfl hs
    rw [← heq]
    generalize inner { request with req := { request.req with question := [{ q with name := fqdn d }] } } w = x at hx hso ⊢
    generalize inner { request with req := { request.req with question := [{ q with name := fqdn d }] } } w' = x' at hx hso ⊢
    obtain ⟨o, m1, w1⟩ := x
    obtain ⟨o', m1', w1'⟩ := x'
    obtain ⟨ho, hm1, hw1⟩ := hx
    simp only at hso ho hm1 hw1
    subst hso
    cases o with
    | panic => exact ⟨.panic, hm1, hw1⟩
    | err e =>
      simp only
      split
      · exact h _ _ _ _ hr hw1
      · exact ⟨ho, hr.1, hw1⟩
    | noResponse => exact h _ _ _ _ hr hw1
    | ok r =>
      simp only
      split
      · exact h _ _ _ _ hr hw1
      · exact ⟨.ok (revert_fold ht.low r), hr.1, hw1⟩
  · rw [if_neg hne, if_neg hne]
    simp only [Bool.false_eq_true, if_false]
    have hx := hi _ _ _ _ hr hs
    generalize inner request w = x at hx ⊢
    generalize inner request' w' = x' at hx ⊢
    obtain ⟨o, m1, w1⟩ := x
    obtain ⟨o', m1', w1'⟩ := x'
    obtain ⟨ho, hm1, hw1⟩ := hx
    simp only at ho hm1 hw1
    have htw : TwinR sc { request with req := m1 } { request' with req := m1' } := by
      refine ⟨hm1, ?_⟩
      rw [hr.2]
    cases ho with
    | panic => exact ⟨.panic, hm1, hw1⟩
    | err he =>
      simp only
      split
      · exact h _ _ _ _ htw hw1
      · exact ⟨.err he, hm1, hw1⟩
    | noResponse => exact h _ _ _ _ htw hw1
    | @ok r r' hr' =>
      have hemp : r'.res.answer.isEmpty = r.res.answer.isEmpty := by
        have h1 := congrArg (fun x : Response => x.res.answer.length) hr'
        simp only [foldResponse, foldNames_answer, List.length_map] at h1
        rw [Bool.eq_iff_iff, List.isEmpty_iff_length_eq_zero, List.isEmpty_iff_length_eq_zero, h1]
      simp only [hemp]
      split
      · exact h _ _ _ _ htw hw1
      · exact ⟨.ok hr', hm1, hw1⟩

theorem like_noop {S : W → W → Prop} : LikeMR sc R S (fun request (w : W) => (.noResponse, request.req, w)) :=
  fun _ _ _ _ hr hs => ⟨.noResponse, hr.1, hs⟩

theorem like_newRewriter (cfg : Cond.RewriteCfg) (order : Nat → List (Str × Str)) {S : W → W → Prop}
    {inner : Cond.MResolver W → Cond.MResolver W} {next : Cond.MResolver W}
    (hi : ∀ n, LikeMR sc R S n → LikeMR sc R S (inner n))
    (hsame : SameOutcome S (inner (fun request (w : W) => (.noResponse, request.req, w)))) (h : LikeMR sc R S next) :
    LikeMR sc R S (Cond.newRewriter cfg order inner next) := by
  unfold Cond.newRewriter
  split
  · exact hi _ h
  · exact like_rewriter _ _ (hi _ like_noop) hsame h

/-! ### Custom DNS -/

/-- Results of the recursion of the custom DNS resolver. -/
inductive LikeRec (sc : Small.SudnCfg) (R : Str → Str → Prop) (S : W → W → Prop) :
    Option (Outcome × Msg × W) → Option (Outcome × Msg × W) → Prop
  | none : LikeRec sc R S none none
  | some {x y : Outcome × Msg × W} (h : LikeRes sc R S x y) : LikeRec sc R S (some x) (some y)

/-- Results for entries. -/
inductive LikeEntry (sc : Small.SudnCfg) (R : Str → Str → Prop) (S : W → W → Prop) :
    Option (CustomDns.Entry × Msg × W) → Option (CustomDns.Entry × Msg × W) → Prop
  | none : LikeEntry sc R S none none
  | ok {l l' : List RR} {m m' : Msg} {w w' : W} (h : l.map foldRecord = l'.map foldRecord) (hm : TwinM sc m m') (hs : S w w') :
      LikeEntry sc R S (some (.ok l, m, w)) (some (.ok l', m', w'))
  | err {e e' : Str} {m m' : Msg} {w w' : W} (h : R e e') (hm : TwinM sc m m') (hs : S w w') :
      LikeEntry sc R S (some (.err e, m, w)) (some (.err e', m', w'))
  | panic {m m' : Msg} {w w' : W} (hm : TwinM sc m m') (hs : S w w') :
      LikeEntry sc R S (some (.panic, m, w)) (some (.panic, m', w'))

/-- A step of the recursion whose results for requests of the resolver itself are alike. -/
def RecAlike (sc : Small.SudnCfg) (R : Str → Str → Prop) (S : W → W → Prop)
    (recur : Request → List Str → Msg × W → Option (Outcome × Msg × W)) : Prop :=
  ∀ request request' resolved w w', TwinR sc request request' → TwinM sc w.1 w'.1 → S w.2 w'.2 →
    LikeRec sc R S (recur request resolved w) (recur request' resolved w')

theorem processEntry_like (hR : ∀ e, R e e) (env : CustomDns.Env) {S : W → W → Prop}
    {recur : Request → List Str → Msg × W → Option (Outcome × Msg × W)} (hrec : RecAlike sc R S recur)
    {request request' : Request} (hr : TwinR sc request request') (resolved : List Str) {q q' : Question} (ht : TwinQ sc q q')
    (e : RR) {w w' : Msg × W} (hm : TwinM sc w.1 w'.1) (hs : S w.2 w'.2) :
    LikeEntry sc R S (CustomDns.processEntry env recur request resolved q e w)
      (CustomDns.processEntry env recur request' resolved q' e w') := by
  have hlow := ht.low
  have htype := ht.qtype
  have hip : ∀ ip ttl, (CustomDns.processIP ip q ttl).map foldRecord = (CustomDns.processIP ip q' ttl).map foldRecord := by
    intro ip ttl
    have : CustomDns.isSupportedType ip q = CustomDns.isSupportedType ip q' := by
      unfold CustomDns.isSupportedType
      cases ip <;> simp only [htype]
    unfold CustomDns.processIP
    rw [this]
    split
    · simp only [List.map_cons, List.map_nil, CustomDns.createAnswer, foldRecord, hlow, htype]
    · rfl
  have hplain : (CustomDns.processPlain e q).map foldRecord = (CustomDns.processPlain e q').map foldRecord := by
    unfold CustomDns.processPlain
    rw [htype]
    split
    · simp only [List.map_cons, List.map_nil, foldRecord, hlow]
    · rfl
  have hcname : ∀ t ttl, LikeEntry sc R S (CustomDns.processCNAME env recur request t ttl resolved q w)
      (CustomDns.processCNAME env recur request' t ttl resolved q' w') := by
    intro t ttl
    unfold CustomDns.processCNAME
    simp only [← htype]
    split
    · exact .ok (by simp only [List.map_cons, List.map_nil, foldRecord, hlow]) hm hs
    · split
      · exact .err (hR _) hm hs
      · have htr : CustomDns.targetRequest env request' (trimSuffixDot t) q.qtype (resolved ++ [trimSuffixDot t]) =
            CustomDns.targetRequest env request (trimSuffixDot t) q.qtype (resolved ++ [trimSuffixDot t]) := by
          unfold CustomDns.targetRequest
          have e1 : request'.clientIP = request.clientIP := by rw [hr.2]
          have e2 : request'.requestClientID = request.requestClientID := by rw [hr.2]
          rw [e1, e2]
        rw [htr]
        have hx := hrec (CustomDns.targetRequest env request (trimSuffixDot t) q.qtype (resolved ++ [trimSuffixDot t]))
          (CustomDns.targetRequest env request (trimSuffixDot t) q.qtype (resolved ++ [trimSuffixDot t]))
          (resolved ++ [trimSuffixDot t]) w w' ⟨TwinM.refl rfl, rfl⟩ hm hs
        generalize recur (CustomDns.targetRequest env request (trimSuffixDot t) q.qtype (resolved ++ [trimSuffixDot t]))
          (resolved ++ [trimSuffixDot t]) w = x at hx ⊢
        generalize recur (CustomDns.targetRequest env request (trimSuffixDot t) q.qtype (resolved ++ [trimSuffixDot t]))
          (resolved ++ [trimSuffixDot t]) w' = x' at hx ⊢
        cases hx with
        | none => exact .none
        | @some x y h =>
          obtain ⟨o, m1, w1⟩ := x
          obtain ⟨o', m1', w1'⟩ := y
          obtain ⟨ho, hm1, hs1⟩ := h
          simp only at ho hm1 hs1
          cases ho with
          | err he => exact .err he hm1 hs1
          | panic => exact .panic hm1 hs1
          | noResponse => exact .panic hm1 hs1
          | @ok r r' hr' =>
            refine .ok ?_ hm1 hs1
            have : r.res.answer.map foldRecord = r'.res.answer.map foldRecord := congrArg Msg.answer (foldResponse_eq hr').1
            simp only [List.map_cons, this, foldRecord, hlow]
  unfold CustomDns.processEntry
  cases hd : e.data with
  | a ip => exact .ok (hip ip e.ttl) hm hs
  | aaaa ip => exact .ok (hip ip e.ttl) hm hs
  | cname t => exact hcname t e.ttl
  | ptr t => simp only; split; · exact .ok hplain hm hs
             · exact .err (hR _) hm hs
  | opt o => simp only; split; · exact .ok hplain hm hs
             · exact .err (hR _) hm hs
  | other raw => simp only; split; · exact .ok hplain hm hs
                 · exact .err (hR _) hm hs

theorem processEntries_like (hR : ∀ e, R e e) (env : CustomDns.Env) {S : W → W → Prop}
    {recur : Request → List Str → Msg × W → Option (Outcome × Msg × W)} (hrec : RecAlike sc R S recur)
    {request request' : Request} (hr : TwinR sc request request') (resolved : List Str) {q q' : Question} (ht : TwinQ sc q q')
    (es : List RR) : ∀ (acc acc' : List RR) (w w' : Msg × W), acc.map foldRecord = acc'.map foldRecord → TwinM sc w.1 w'.1 →
      S w.2 w'.2 → LikeEntry sc R S (CustomDns.processEntries env recur request resolved q es acc w)
        (CustomDns.processEntries env recur request' resolved q' es acc' w') := by
  induction es with
  | nil =>
    intro acc acc' w w' ha hm hs
    exact .ok ha hm hs
  | cons e es ih =>
    intro acc acc' w w' ha hm hs
    unfold CustomDns.processEntries
    have hx := processEntry_like hR env hrec hr resolved ht e hm hs
    generalize CustomDns.processEntry env recur request resolved q e w = x at hx ⊢
    generalize CustomDns.processEntry env recur request' resolved q' e w' = x' at hx ⊢
    cases hx with
    | none => exact .none
    | ok h hm hs => exact ih _ _ _ _ (by simp only [List.map_append, ha, h]) hm hs
    | err h hm hs => exact .err h hm hs
    | panic hm hs => exact .panic hm hs

theorem processRequest_like (hR : ∀ e, R e e) (env : CustomDns.Env) (mapping : CustomDns.Mapping) {S : W → W → Prop}
    {next : Chain.MR W} (h : LikeR sc R S next) (depth : Nat) :
    RecAlike sc R S (CustomDns.processRequest env mapping next depth) := by
  induction depth with
  | zero => intro _ _ _ _ _ _ _ _; exact .none
  | succ depth ih =>
    intro request request' resolved w w' hr hm hs
    obtain ⟨q, q', hq, hq', ht, _⟩ := hr.1.other
    unfold CustomDns.processRequest
    simp only [hq, hq', ← ht.domain]
    cases walk (AMap.get mapping) ((extractDomain q.name).length + 1) (extractDomain q.name) with
    | none => exact .some (h _ _ _ _ hr hm hs)
    | some x =>
      simp only
      have hx := processEntries_like hR env ih hr resolved ht x.2 [] [] w w' rfl hm hs
      generalize CustomDns.processEntries env (CustomDns.processRequest env mapping next depth) request resolved q x.2 [] w =
        y at hx ⊢
      generalize CustomDns.processEntries env (CustomDns.processRequest env mapping next depth) request' resolved q' x.2 [] w' =
        y' at hx ⊢
      cases hx with
      | none => exact .none
      | err h hm hs => exact .some ⟨.err h, hm, hs⟩
      | panic hm hs => exact .some ⟨.panic, hm, hs⟩
      | @ok l l' m m' w1 w1' hl hm hs =>
        have hlen : l.length = l'.length := by simpa using congrArg List.length hl
        simp only [← hlen]
        split
        · exact .some ⟨.ok (foldResponse_mk (fold_answer (hr.1.reply rfl) hl) _ _), hm, hs⟩
        · split
          · exact .some (h _ _ _ _ hr hm hs)
          · exact .some ⟨.ok (foldResponse_mk (fold_answer (hr.1.reply rfl) rfl) _ _), hm, hs⟩

theorem like_innerNext {S : W → W → Prop} {next : Chain.MR W} (h : LikeR sc R S next) :
    LikeR sc R S (innerNext next) := by
  intro request request' w w' hr hm hs
  unfold innerNext
  have : request'.internal = request.internal := by rw [hr.2]
  rw [this]
  split
  · obtain ⟨h1, h2, h3⟩ := h request request' (request.req, w.2) (request'.req, w'.2) hr hr.1 hs
    exact ⟨h1, hm, h3⟩
  · exact h _ _ _ _ hr hm hs

theorem like_customDns (hR : ∀ e, R e e) (env : CustomDns.Env) (mapping : CustomDns.Mapping) (reverse : AMap Str (List Str))
    (depth : Nat) {S : W → W → Prop} {next : Chain.MR W} (h : LikeR sc R S next) :
    LikeR sc R S (Chain.customDns env mapping reverse depth next) := by
  intro request request' w w' hr hm hs
  obtain ⟨q, q', hq, hq', ht, _⟩ := hr.1.other
  have hx : LikeRec sc R S (CustomDns.resolve env mapping reverse (innerNext next) depth request w)
      (CustomDns.resolve env mapping reverse (innerNext next) depth request' w') := by
    unfold CustomDns.resolve
    simp only [hq, hq']
    have hproc := processRequest_like hR env mapping (like_innerNext h) depth request request' [] w w' hr hm hs
    rcases ht with rfl | ⟨h1, h2, h3, h4, _⟩
    · unfold CustomDns.handleReverse
      by_cases hp : q.qtype = typePTR
      · rw [if_pos hp, if_pos hp]
        cases AMap.get reverse q.name with
        | none => exact hproc
        | some urls => exact .some ⟨.ok (foldResponse_mk (fold_answer (hr.1.reply rfl) rfl) _ _), hm, hs⟩
      · rw [if_neg hp, if_neg hp]
        exact hproc
    · unfold CustomDns.handleReverse
      rw [if_neg (by exact h4), if_neg (by rw [← h2]; exact h4)]
      exact hproc
  unfold Chain.customDns
  have e : (fun (r : Request) (w : Msg × W) => if r.internal = true then ((next r (r.req, w.2)).1, (w.1, (next r (r.req, w.2)).2.2))
      else next r w) = innerNext next := rfl
  rw [e]
  generalize CustomDns.resolve env mapping reverse (innerNext next) depth request w = x at hx ⊢
  generalize CustomDns.resolve env mapping reverse (innerNext next) depth request' w' = x' at hx ⊢
  cases hx with
  | none => exact ⟨.panic, hm, hs⟩
  | some h => exact h

/-- Without a resolver behind it, the outcome of the custom DNS resolver does not depend on the world. -/
theorem processEntries_world {V : Type} (env : CustomDns.Env) {recur : Request → List Str → V → Option (Outcome × V)}
    (hrec : ∀ r l w w', (recur r l w).map Prod.fst = (recur r l w').map Prod.fst) (request : Request) (resolved : List Str)
    (q : Question) (es : List RR) : ∀ (acc : List RR) (w w' : V),
    (CustomDns.processEntries env recur request resolved q es acc w).map Prod.fst =
      (CustomDns.processEntries env recur request resolved q es acc w').map Prod.fst := by
  have hentry : ∀ e w w', (CustomDns.processEntry env recur request resolved q e w).map Prod.fst =
      (CustomDns.processEntry env recur request resolved q e w').map Prod.fst := by
    intro e w w'
    have hc : ∀ t ttl, (CustomDns.processCNAME env recur request t ttl resolved q w).map Prod.fst =
        (CustomDns.processCNAME env recur request t ttl resolved q w').map Prod.fst := by
      intro t ttl
      unfold CustomDns.processCNAME
      simp only
      split
      · rfl
      · split
        · rfl
        · have hx := hrec (CustomDns.targetRequest env request (trimSuffixDot t) q.qtype (resolved ++ [trimSuffixDot t]))
            (resolved ++ [trimSuffixDot t]) w w'
          generalize recur (CustomDns.targetRequest env request (trimSuffixDot t) q.qtype (resolved ++ [trimSuffixDot t]))
            (resolved ++ [trimSuffixDot t]) w = x at hx ⊢
          generalize recur (CustomDns.targetRequest env request (trimSuffixDot t) q.qtype (resolved ++ [trimSuffixDot t]))
            (resolved ++ [trimSuffixDot t]) w' = x' at hx ⊢
          cases x with
          | none =>
            cases x' with
            | none => rfl
            | some y => simp at hx
          | some y =>
            cases x' with
            | none => simp at hx
            | some y' =>
              obtain ⟨o, w1⟩ := y
              obtain ⟨o', w1'⟩ := y'
              simp only [Option.map_some, Option.some.injEq] at hx
              subst hx
              cases o <;> rfl
    unfold CustomDns.processEntry
    cases e.data with
    | a ip => rfl
    | aaaa ip => rfl
    | cname t => exact hc t e.ttl
    | ptr t => simp only; split <;> rfl
    | opt o => simp only; split <;> rfl
    | other raw => simp only; split <;> rfl
  induction es with
  | nil => intro _ _ _; rfl
  | cons e es ih =>
    intro acc w w'
    unfold CustomDns.processEntries
    have hx := hentry e w w'
    generalize CustomDns.processEntry env recur request resolved q e w = x at hx ⊢
    generalize CustomDns.processEntry env recur request resolved q e w' = x' at hx ⊢
    cases x with
    | none =>
      cases x' with
      | none => rfl
      | some y => simp at hx
    | some y =>
      cases x' with
      | none => simp at hx
      | some y' =>
        obtain ⟨o, w1⟩ := y
        obtain ⟨o', w1'⟩ := y'
        simp only [Option.map_some, Option.some.injEq] at hx
        subst hx
        cases o with
        | ok rrs => exact ih _ _ _
        | err e => rfl
        | panic => rfl

theorem processRequest_world {V : Type} (env : CustomDns.Env) (mapping : CustomDns.Mapping) {next : Resolver V}
    (hn : ∀ r w w', (next r w).1 = (next r w').1) (depth : Nat) : ∀ (r : Request) (l : List Str) (w w' : V),
    (CustomDns.processRequest env mapping next depth r l w).map Prod.fst =
      (CustomDns.processRequest env mapping next depth r l w').map Prod.fst := by
  induction depth with
  | zero => intro _ _ _ _; rfl
  | succ depth ih =>
    intro r l w w'
    unfold CustomDns.processRequest
    cases r.req.question with
    | nil => rfl
    | cons q qs =>
      simp only
      cases walk (AMap.get mapping) ((extractDomain q.name).length + 1) (extractDomain q.name) with
      | none => simp only [Option.map_some, hn r w w']
      | some x =>
        simp only
        have hx := processEntries_world env ih r l q x.2 [] w w'
        generalize CustomDns.processEntries env (CustomDns.processRequest env mapping next depth) r l q x.2 [] w = y at hx ⊢
        generalize CustomDns.processEntries env (CustomDns.processRequest env mapping next depth) r l q x.2 [] w' = y' at hx ⊢
        cases y with
        | none =>
          cases y' with
          | none => rfl
          | some y => simp at hx
        | some y =>
          cases y' with
          | none => simp at hx
          | some y' =>
            obtain ⟨o, w1⟩ := y
            obtain ⟨o', w1'⟩ := y'
            simp only [Option.map_some, Option.some.injEq] at hx
            subst hx
            cases o with
            | ok rrs =>
              simp only
              split
              · rfl
              · split
                · simp only [Option.map_some, hn r w1 w1']
                · rfl
            | err e => rfl
            | panic => rfl

theorem same_custom (env : CustomDns.Env) (mapping : CustomDns.Mapping) (reverse : AMap Str (List Str))
    (depth : Nat) (S : W → W → Prop) :
    SameOutcome S (Chain.toM (Chain.customDns env mapping reverse depth
      (Chain.ofM (fun request (w : W) => (.noResponse, request.req, w))))) := by
  intro request q w w' hq _
  generalize hnx : Chain.ofM (fun request (w : W) => ((.noResponse : Outcome), request.req, w)) = next
  have hn : ∀ r w w', (innerNext next r w).1 = (innerNext next r w').1 := by
    intro r w w'
    subst hnx
    unfold innerNext Chain.ofM
    split <;> rfl
  have hx : (CustomDns.resolve env mapping reverse (innerNext next) depth request (request.req, w)).map Prod.fst =
      (CustomDns.resolve env mapping reverse (innerNext next) depth request (request.req, w')).map Prod.fst := by
    unfold CustomDns.resolve
    rw [hq]
    simp only
    cases CustomDns.handleReverse env reverse request q with
    | some r => rfl
    | none => exact processRequest_world env mapping hn depth _ _ _ _
  unfold Chain.toM Chain.customDns
  have e : (fun (r : Request) (w : Msg × W) => if r.internal = true then ((next r (r.req, w.2)).1, (w.1, (next r (r.req, w.2)).2.2))
      else next r w) = innerNext next := rfl
  simp only [e]
  generalize CustomDns.resolve env mapping reverse (innerNext next) depth request (request.req, w) = x at hx ⊢
  generalize CustomDns.resolve env mapping reverse (innerNext next) depth request (request.req, w') = x' at hx ⊢
  cases x with
  | none =>
    cases x' with
    | none => rfl
    | some y => simp at hx
  | some y =>
    cases x' with
    | none => simp at hx
    | some y' => simpa using hx

/-! ### The whole chain -/

/-- The worlds of the whole chain: the same but for the letter case of names in cached answers and for the query
log. -/
def WorldAlike (x y : Chain.World W) : Prop := x.1 = y.1 ∧ CacheAlike x.2.2 y.2.2

/-- What is assumed of what surrounds the chain: the upstreams, the packing of messages and the lookup of client
names do not depend on the letter case of names. -/
structure CaseOk (R : Str → Str → Prop) (c : Chain.Config E W) (up : Resolver W) : Prop where
  up : UpCase R up
  packs : ∀ m, c.cacheEnv.packs (foldNames m) = c.cacheEnv.packs m
  names : ∀ l, c.namesLookup = some l → LookupCase CacheAlike l

theorem like_whole (hR : ∀ e, R e e) {c : Chain.Config E W} {up : Resolver W} (hc : CaseOk R c up) :
    LikeR c.sudn R WorldAlike (Chain.whole c up) := by
  have hcond : LikeR c.sudn R Eq (Chain.cond c up) := by
    apply like_ofM
    apply like_newRewriter
    · intro n hn
      exact like_conditional hR _ hn
    · intro request q w w' _ hs
      rw [hs]
    · exact like_toM (like_sudn (like_liftUp hc.up))
  have hblock : LikeR c.sudn R CacheAlike (Chain.block c up) :=
    like_blocking _ _ (like_caching _ hc.packs _ hcond)
  have hlocal : LikeR c.sudn R CacheAlike (Chain.local c up) := by
    apply like_ofM
    apply like_newRewriter
    · intro n hn
      exact like_toM (like_customDns hR _ _ _ _ (like_ofM hn))
    · exact same_custom _ _ _ _ _
    · exact like_toM (like_hosts _ _ _ _ _ hblock)
  have hobs : LikeR c.sudn R (fun x y => CacheAlike x.2 y.2) (Chain.observed c up) :=
    like_ede _ (like_queryLog _ _ _ _ (like_metrics _ hlocal))
  refine like_filtering _ (like_fqdnOnly _ (like_ecs _ (like_clientNames _ _ ?_ hobs)))
  intro l hl
  cases hn : c.namesLookup with
  | none => rw [hn] at hl; cases hl
  | some l0 =>
    rw [hn] at hl
    cases hl
    intro ip w w' hs
    exact hc.names l0 hn ip w.2 w'.2 hs

end Verif.Props
