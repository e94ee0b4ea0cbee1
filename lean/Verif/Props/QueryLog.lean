/-
C36: query logging. C37: database writer.
-/
import Verif.Model.QueryLog
import Verif.Props.QueryLogFile

namespace Verif.Props
open Dns QueryLog QueryLogFile

variable {W : Type}

/-! ### C36 -/

theorem fillFields_some (env : Env) (request : Request) (req : Msg) (response : Response) (ms : Int) (fs : List Field)
    (e : LogEntry) (h : req.question ≠ [] ∨ Field.question ∉ fs) : ∃ e', fillFields env request req response ms fs e = some e' := by
  induction fs generalizing e with
  | nil => exact ⟨e, rfl⟩
  | cons f fs ih =>
    have h' : req.question ≠ [] ∨ Field.question ∉ fs := h.imp id (fun h hm => h (List.mem_cons_of_mem _ hm))
    have : ∃ e1, fillField env request req response ms e f = some e1 := by
      cases f
      case question =>
        rcases h with h | h
        · unfold fillField
          cases hq : req.question with
          | nil => exact absurd hq h
          | cons q qs => exact ⟨_, rfl⟩
        · exact absurd (List.mem_cons_self ..) h
      all_goals exact ⟨_, rfl⟩
    obtain ⟨e1, h1⟩ := this
    simp only [fillFields, h1]
    exact ih _ h'

/-- C36: logging changes nothing of the outcome, the request or the world of the resolvers behind, whatever
the state of the queue - also if it is full or the writer hangs -, provided the query has a question or
questions are not logged. Missing: queries without question, see `C36_no_question_panics`. -/
theorem C36_transparent_partial (cfg : Cfg) (env : Env) (start ms : Int) (next : Cond.MResolver W) (request : Request) (q : Queue) (w : W)
    (hq : (next request w).2.1.question ≠ [] ∨ Field.question ∉ cfg.fields) (hn : (next request w).1 ≠ .noResponse) :
    (resolve cfg env start ms next request (q, w)).1 = (next request w).1 ∧
    (resolve cfg env start ms next request (q, w)).2.1 = (next request w).2.1 ∧
    (resolve cfg env start ms next request (q, w)).2.2.2 = (next request w).2.2 := by
  unfold resolve
  simp only
  rcases hx : next request w with ⟨o, m, w'⟩
  rw [hx] at hq hn
  cases o with
  | err e => exact ⟨rfl, rfl, rfl⟩
  | panic => exact ⟨rfl, rfl, rfl⟩
  | noResponse => exact absurd rfl hn
  | ok response =>
    obtain ⟨e', he⟩ := fillFields_some env request m response ms cfg.fields (emptyEntry env start) hq
    simp only [createLogEntry, he]
    split <;> exact ⟨rfl, rfl, rfl⟩

/-- C36 is false for a query without question: with the default configuration (all fields) the resolver
panics although the query was answered; the client gets SERVFAIL instead. -/
theorem C36_no_question_panics (env : Env) :
    let cfg : Cfg := ⟨[.clientIP, .clientName, .responseReason, .responseAnswer, .question, .duration], false⟩
    let next : Cond.MResolver Unit := fun r w => (.ok { res := { ({} : Msg).setReply r.req with rcode := rcodeFormErr } }, r.req, w)
    (next { req := { id := 7 } } ()).1 ≠ .panic ∧
    (resolve cfg env 0 0 next { req := { id := 7 } } ({}, ())).1 = .panic := by
  refine ⟨by simp, rfl⟩

/-- The history of the queue. -/
inductive QEvent where
  | offer (e : LogEntry)
  | take
  | finish

/-- One event. -/
def qStep (q : Queue) : QEvent → Queue
  | .offer e => offer q e
  | .take => take q
  | .finish => finish q

/-- A history. -/
def qRun (q : Queue) (es : List QEvent) : Queue := es.foldl qStep q

/-- The entries a history accepts, in order: an offered entry is accepted unless 1000 entries are
waiting. Written independently of `offer`. -/
def acceptedBy : Queue → List QEvent → List LogEntry
  | _, [] => []
  | q, ev :: es =>
    match ev with
    | .offer e => if q.waiting.length = 1000 then acceptedBy (qStep q ev) es else e :: acceptedBy (qStep q ev) es
    | _ => acceptedBy (qStep q ev) es

theorem qStep_waiting_le (q : Queue) (h : q.waiting.length ≤ 1000) (ev : QEvent) : (qStep q ev).waiting.length ≤ 1000 := by
  cases ev with
  | offer e =>
    have hcap : logChanCap = 1000 := rfl
    simp only [qStep, offer]
    by_cases hl : q.waiting.length < logChanCap
    · rw [if_pos hl]
      simp only [List.length_append, List.length_cons, List.length_nil]; omega
    · rw [if_neg hl]
      exact h
  | take =>
    simp only [qStep, take]
    split
    · rename_i heq; rw [heq] at h; simp only [List.length_cons] at h; simp only; omega
    · exact h
  | finish => simp only [qStep, finish]; split <;> exact h

/-- C36: whatever the interleaving of queries and writer, entries are written in the order they were
accepted, each exactly once, none is lost after acceptance, and never are more than 1000 waiting. Entries
are refused only while exactly 1000 are waiting (`acceptedBy`). -/
theorem C36_queue (es : List QEvent) :
    (qRun {} es).written ++ (qRun {} es).writing.toList ++ (qRun {} es).waiting = acceptedBy {} es ∧
    (qRun {} es).waiting.length ≤ 1000 := by
  have key : ∀ (es : List QEvent) (q : Queue), q.waiting.length ≤ 1000 →
      (qRun q es).written ++ (qRun q es).writing.toList ++ (qRun q es).waiting =
        q.written ++ q.writing.toList ++ q.waiting ++ acceptedBy q es ∧ (qRun q es).waiting.length ≤ 1000 := by
    intro es
    induction es with
    | nil => intro q h; simp [qRun, acceptedBy, h]
    | cons ev es ih =>
      intro q h
      have ih := ih (qStep q ev) (qStep_waiting_le q h ev)
      refine ⟨?_, ih.2⟩
      show (qRun (qStep q ev) es).written ++ (qRun (qStep q ev) es).writing.toList ++ (qRun (qStep q ev) es).waiting = _
      rw [ih.1]
      cases ev with
      | offer e =>
        simp only [acceptedBy]
        by_cases hf : q.waiting.length = 1000
        · have : qStep q (.offer e) = q := by simp [qStep, offer, logChanCap, hf]
          rw [if_pos hf, this]
        · have : qStep q (.offer e) = { q with waiting := q.waiting ++ [e] } := by
            have hcap : logChanCap = 1000 := rfl
            simp only [qStep, offer]
            rw [if_pos (by omega)]
          rw [if_neg hf, this]
          simp
      | take =>
        simp only [acceptedBy]
        cases hw : q.writing with
        | some e => simp [qStep, take, hw]
        | none =>
          cases hl : q.waiting with
          | nil => simp [qStep, take, hw, hl]
          | cons e l => simp [qStep, take, hw, hl]
      | finish =>
        simp only [acceptedBy]
        cases hw : q.writing with
        | none => simp [qStep, finish, hw]
        | some e => simp [qStep, finish, hw]
  have := key es {} (by simp)
  simpa using this

theorem drain_run (k : Nat) : ∀ q : Queue, q.writing = none → q.waiting.length ≤ k →
    (qRun q (List.replicate k [QEvent.take, .finish]).flatten).written = q.written ++ q.waiting ∧
    (qRun q (List.replicate k [QEvent.take, .finish]).flatten).writing = none ∧
    (qRun q (List.replicate k [QEvent.take, .finish]).flatten).waiting = [] := by
  induction k with
  | zero =>
    intro q hw hl
    have : q.waiting = [] := List.length_eq_zero_iff.1 (by omega)
    simp [qRun, this, hw]
  | succ k ih =>
    intro q hw hl
    rw [List.replicate_succ, List.flatten_cons]
    have hrun : ∀ es, qRun q ([QEvent.take, .finish] ++ es) = qRun (finish (take q)) es := fun es => rfl
    rw [hrun]
    cases hq : q.waiting with
    | nil =>
      have : finish (take q) = q := by simp [take, finish, hw, hq]
      rw [this]
      have := ih q hw (by rw [hq]; simp)
      rw [hq] at this
      exact this
    | cons e l =>
      have : finish (take q) = { q with waiting := l, written := q.written ++ [e] } := by
        simp [take, finish, hw, hq]
      rw [this]
      rw [hq] at hl
      obtain ⟨h1, h2, h3⟩ := ih { q with waiting := l, written := q.written ++ [e] } hw
        (by simp only [List.length_cons] at hl; show l.length ≤ k; omega)
      exact ⟨by rw [h1]; simp, h2, h3⟩

/-- C36: a writer whose writes return gets everything written: after the entry it is at and 1000 more, all
entries accepted before are in the log, in order. -/
theorem C36_written (es : List QEvent) :
    (qRun {} (es ++ .finish :: (List.replicate 1000 [QEvent.take, .finish]).flatten)).written = acceptedBy {} es := by
  obtain ⟨h1, h2⟩ := C36_queue es
  have hrun : qRun {} (es ++ .finish :: (List.replicate 1000 [QEvent.take, .finish]).flatten) =
      qRun (finish (qRun {} es)) (List.replicate 1000 [QEvent.take, .finish]).flatten := by
    generalize (List.replicate 1000 [QEvent.take, .finish]).flatten = rest
    simp [qRun, List.foldl_append, qStep]
  rw [hrun, ← h1]
  generalize qRun {} es = q at h2 ⊢
  cases hw : q.writing with
  | none =>
    have : finish q = q := by simp [finish, hw]
    rw [this, (drain_run 1000 q hw h2).1]
    simp
  | some e =>
    have : finish q = { q with writing := none, written := q.written ++ [e] } := by simp [finish, hw]
    rw [this, (drain_run 1000 { q with writing := none, written := q.written ++ [e] } rfl h2).1]
    simp

/-- C36: a resolved query offers exactly one entry to the queue, or none if it is ignored; failed queries
are not logged. -/
theorem C36_one_entry (cfg : Cfg) (env : Env) (start ms : Int) (next : Cond.MResolver W) (request : Request) (q : Queue) (w : W) :
    (∀ response, (next request w).1 = .ok response →
      ((next request w).2.1.question ≠ [] ∨ Field.question ∉ cfg.fields) →
      (cfg.ignoreSUDN = true ∧ response.rtype = .special → (resolve cfg env start ms next request (q, w)).2.2.1 = q) ∧
      (¬ (cfg.ignoreSUDN = true ∧ response.rtype = .special) →
        ∃ e, createLogEntry cfg env request (next request w).2.1 response start ms = some e ∧
          (resolve cfg env start ms next request (q, w)).2.2.1 = qStep q (.offer e))) ∧
    (∀ e, (next request w).1 = .err e → (resolve cfg env start ms next request (q, w)).2.2.1 = q) := by
  rcases hx : next request w with ⟨o, m, w'⟩
  refine ⟨?_, ?_⟩
  · rintro response rfl hq
    obtain ⟨e', he⟩ := fillFields_some env request m response ms cfg.fields (emptyEntry env start) hq
    have hig : ignore cfg response = true ↔ (cfg.ignoreSUDN = true ∧ response.rtype = .special) := by
      simp [ignore]
    unfold resolve
    simp only [hx, createLogEntry, he]
    by_cases hi : ignore cfg response = true
    · simp only [if_pos hi]
      exact ⟨fun _ => trivial, fun hn => absurd (hig.1 hi) hn⟩
    · simp only [if_neg hi]
      refine ⟨fun hs => absurd (hig.2 hs) hi, fun _ => ⟨e', ?_, ?_⟩⟩
      · simp only
      · simp only [qStep]
  · rintro e rfl
    unfold resolve
    simp only [hx]

/-- What an entry must contain according to the documentation: the configured fields have the query's
values, the others their placeholders. -/
structure EntryFor (cfg : Cfg) (env : Env) (request : Request) (req : Msg) (response : Response) (start ms : Int) (e : LogEntry) : Prop where
  start : e.start = start
  instanceID : e.instanceID = env.instanceID
  ip : e.clientIP = if .clientIP ∈ cfg.fields then env.ipString request.clientIP else str! "0.0.0.0"
  names : e.clientNames = if .clientName ∈ cfg.fields then request.clientNames else [str! "none"]
  reason : e.responseReason = if .responseReason ∈ cfg.fields then response.reason else []
  rtype : e.responseType = if .responseReason ∈ cfg.fields then env.rtypeString response.rtype else []
  rcode : e.responseCode = if .responseReason ∈ cfg.fields then env.rcodeString response.res.rcode else []
  answer : e.answer = if .responseAnswer ∈ cfg.fields then obfuscate env.privacy (env.answerString response.res.answer) else []
  qname : e.questionName = if .question ∈ cfg.fields then (req.question.head?.map (fun q => obfuscate env.privacy q.name)).getD [] else []
  qtype : e.questionType = if .question ∈ cfg.fields then (req.question.head?.map (fun q => env.typeString q.qtype)).getD [] else []
  duration : e.durationMs = if .duration ∈ cfg.fields then ms else 0

theorem fillField_idem (env : Env) (request : Request) (req : Msg) (response : Response) (ms : Int) (fs : List Field) (e e' : LogEntry)
    (h : fillFields env request req response ms fs e = some e') :
    e'.start = e.start ∧ e'.instanceID = e.instanceID ∧
    e'.clientIP = (if .clientIP ∈ fs then env.ipString request.clientIP else e.clientIP) ∧
    e'.clientNames = (if .clientName ∈ fs then request.clientNames else e.clientNames) ∧
    e'.responseReason = (if .responseReason ∈ fs then response.reason else e.responseReason) ∧
    e'.responseType = (if .responseReason ∈ fs then env.rtypeString response.rtype else e.responseType) ∧
    e'.responseCode = (if .responseReason ∈ fs then env.rcodeString response.res.rcode else e.responseCode) ∧
    e'.answer = (if .responseAnswer ∈ fs then obfuscate env.privacy (env.answerString response.res.answer) else e.answer) ∧
    e'.questionName = (if .question ∈ fs then (req.question.head?.map (fun q => obfuscate env.privacy q.name)).getD [] else e.questionName) ∧
    e'.questionType = (if .question ∈ fs then (req.question.head?.map (fun q => env.typeString q.qtype)).getD [] else e.questionType) ∧
    e'.durationMs = (if .duration ∈ fs then ms else e.durationMs) := by
  induction fs generalizing e with
  | nil =>
    simp only [fillFields, Option.some.injEq] at h
    subst h
    simp
  | cons f fs ih =>
    unfold fillFields at h
    cases f
    case question =>
      cases hq : req.question with
      | nil => simp [fillField, hq] at h
      | cons q qs =>
        simp only [fillField, hq] at h
        have := ih _ h
        rw [hq] at this
        obtain ⟨h1, h2, h3, h4, h5, h6, h7, h8, h9, h10, h11⟩ := this
        refine ⟨h1, h2, ?_, ?_, ?_, ?_, ?_, ?_, ?_, ?_, ?_⟩
        all_goals simp only [List.mem_cons, reduceCtorEq, false_or, true_or, if_true]
        all_goals first | assumption | (first | rw [h9] | rw [h10]) <;> split <;> rfl
    all_goals
      simp only [fillField] at h
      obtain ⟨h1, h2, h3, h4, h5, h6, h7, h8, h9, h10, h11⟩ := ih _ h
      refine ⟨h1, h2, ?_, ?_, ?_, ?_, ?_, ?_, ?_, ?_, ?_⟩
      all_goals simp only [List.mem_cons, reduceCtorEq, false_or, true_or, if_true]
      all_goals first | assumption | (first | rw [h3] | rw [h4] | rw [h5] | rw [h6] | rw [h7] | rw [h8] | rw [h11]) <;> split <;> rfl

/-- C36: an entry contains exactly the configured fields. -/
theorem C36_fields (cfg : Cfg) (env : Env) (request : Request) (req : Msg) (response : Response) (start ms : Int) (e : LogEntry)
    (h : createLogEntry cfg env request req response start ms = some e) :
    EntryFor cfg env request req response start ms e := by
  obtain ⟨h1, h2, h3, h4, h5, h6, h7, h8, h9, h10, h11⟩ := fillField_idem env request req response ms cfg.fields _ e h
  exact ⟨h1, h2, h3, h4, h5, h6, h7, h8, h9, h10, h11⟩

/-- C36/C50: with privacy on, the logged question and answer contain no letter or digit. -/
theorem C36_privacy (cfg : Cfg) (env : Env) (hp : env.privacy = true) (request : Request) (req : Msg) (response : Response) (start ms : Int)
    (e : LogEntry) (h : createLogEntry cfg env request req response start ms = some e) :
    (∀ c ∈ e.questionName, ¬ LetterOrDigit c) ∧ (∀ c ∈ e.answer, ¬ LetterOrDigit c) := by
  have hf := C36_fields cfg env request req response start ms e h
  refine ⟨?_, ?_⟩
  · intro c hc
    rw [hf.qname] at hc
    split at hc
    · cases hq : req.question with
      | nil => rw [hq] at hc; cases hc
      | cons q qs =>
        rw [hq, hp] at hc
        exact (C50_obfuscate q.name).2.1 c hc
    · cases hc
  · intro c hc
    rw [hf.answer] at hc
    split at hc
    · rw [hp] at hc
      exact (C50_obfuscate _).2.1 c hc
    · cases hc

/-- A printing environment for examples. -/
def sampleEnv : Env where
  instanceID := str! "host"
  privacy := true
  ipString _ := str! "10.0.0.1"
  rtypeString _ := str! "RESOLVED"
  rcodeString _ := str! "NOERROR"
  typeString _ := str! "A"
  answerString _ := str! "A (1.2.3.4)"

/-- An entry with two of the fields. -/
example : (createLogEntry ⟨[.question, .responseAnswer], false⟩ sampleEnv { req := {} }
    { question := [{ name := str! "example.com.", qtype := 1 }] } { res := {} } 5 7).map (fun e => (e.clientIP, e.questionName, e.answer, e.durationMs)) =
    some (str! "0.0.0.0", str! "*******.***.", str! "* (*.*.*.*)", 0) := by decide

/-- Two entries, of which one is being written. -/
example : acceptedBy {} [.offer (emptyEntry sampleEnv 1), .offer (emptyEntry sampleEnv 2), .take, .finish, .take] =
    [emptyEntry sampleEnv 1, emptyEntry sampleEnv 2] := by
  rfl

example : (qRun {} [.offer (emptyEntry sampleEnv 1), .offer (emptyEntry sampleEnv 2), .take, .finish, .take]).written =
    [emptyEntry sampleEnv 1] := by
  rfl

/-! ### C37 -/

variable {A E D : Type}

theorem bulks_spec (fuel : Nat) (es : List E) (h : es.length ≤ fuel) :
    (bulks fuel es).flatten = es ∧ (∀ b ∈ bulks fuel es, b ≠ [] ∧ b.length ≤ 100) := by
  induction fuel generalizing es with
  | zero =>
    have : es = [] := List.length_eq_zero_iff.1 (by omega)
    subst this
    exact ⟨rfl, fun b hb => by cases hb⟩
  | succ n ih =>
    cases es with
    | nil => exact ⟨rfl, fun b hb => by cases hb⟩
    | cons e es =>
      have hd : ((e :: es).drop bulkSize).length ≤ n := by
        simp only [List.length_drop, List.length_cons, bulkSize] at h ⊢; omega
      obtain ⟨h1, h2⟩ := ih _ hd
      simp only [bulks, List.flatten_cons, h1, List.take_append_drop, true_and]
      intro b hb
      rcases List.mem_cons.1 hb with rfl | hb
      · refine ⟨by simp [bulkSize], ?_⟩
        simp only [List.length_take, bulkSize]; omega
      · exact h2 b hb

/-- C37: a flush hands the pending entries to the database in bulks that are not empty, have at most 100
entries and are together exactly the pending entries in order; afterwards nothing is pending. -/
theorem C37_batches (es : List E) :
    (bulks es.length es).flatten = es ∧ ∀ b ∈ bulks es.length es, b ≠ [] ∧ b.length ≤ 100 :=
  bulks_spec es.length es (Nat.le_refl _)

/-- A database table for which each `Create` adds the rows or fails as `fails` says (by the number of the
call); the calls made are counted. -/
def tableCreate (fails : Nat → Bool) : Create E (Nat × List E) := fun b d =>
  if fails d.1 then (false, (d.1 + 1, d.2)) else (true, (d.1 + 1, d.2 ++ b))

theorem writeBulks_ok (fails : Nat → Bool) (bs : List (List E)) (d : Nat × List E) (h : ∀ n, fails n = false) :
    writeBulks (tableCreate fails) bs d = (true, (d.1 + bs.length, d.2 ++ bs.flatten)) := by
  induction bs generalizing d with
  | nil => simp [writeBulks]
  | cons b bs ih =>
    simp only [writeBulks, tableCreate, h d.1, Bool.false_eq_true, if_false]
    have := ih (d.1 + 1, d.2 ++ b)
    simp only at this
    rw [this]
    simp [Nat.add_comm, Nat.add_left_comm]

/-- The history of the writer. -/
inductive DbEvent (A : Type) where
  | write (e : A)
  | flush

/-- One event. -/
def dbStep (create : Create E D) (row : A → E) (w : Writer E D) : DbEvent A → Writer E D
  | .write e => dbWrite row w e
  | .flush => (doDBWrite create w).2

/-- A history. -/
def dbRun (create : Create E D) (row : A → E) (w : Writer E D) (es : List (DbEvent A)) : Writer E D :=
  es.foldl (dbStep create row) w

/-- The entries written in a history. -/
def dbWritten : List (DbEvent A) → List A
  | [] => []
  | .write e :: es => e :: dbWritten es
  | .flush :: es => dbWritten es

/-- C37 as long as the database accepts every bulk: in every interleaving of writes and flushes, the rows in
the table followed by the pending ones are exactly the entries written, in order, each once. Missing:
failures, see `C37_failed_bulk_lost`. -/
theorem C37_no_loss_partial (row : A → E) (es : List (DbEvent A)) :
    (dbRun (tableCreate (fun _ => false)) row ⟨[], (0, [])⟩ es).db.2 ++ (dbRun (tableCreate (fun _ => false)) row ⟨[], (0, [])⟩ es).pending =
      (dbWritten es).map row ∧
    (∀ es', es = es' ++ [.flush] → (dbRun (tableCreate (fun _ => false)) row ⟨[], (0, [])⟩ es).db.2 = (dbWritten es).map row) := by
  have flushEq : ∀ w : Writer E (Nat × List E), (doDBWrite (tableCreate (fun _ => false)) w).2.db.2 = w.db.2 ++ w.pending ∧
      (doDBWrite (tableCreate (fun _ => false)) w).2.pending = [] := by
    intro w
    unfold doDBWrite
    split
    · rw [writeBulks_ok _ _ _ (fun _ => rfl)]
      simp only [(C37_batches w.pending).1, and_self]
    · rename_i h
      have : w.pending = [] := List.length_eq_zero_iff.1 (by omega)
      simp [this]
  have key : ∀ (es : List (DbEvent A)) (w : Writer E (Nat × List E)),
      (dbRun (tableCreate (fun _ => false)) row w es).db.2 ++ (dbRun (tableCreate (fun _ => false)) row w es).pending =
        w.db.2 ++ w.pending ++ (dbWritten es).map row := by
    intro es
    induction es with
    | nil => intro w; simp [dbRun, dbWritten]
    | cons ev es ih =>
      intro w
      show (dbRun _ row (dbStep _ row w ev) es).db.2 ++ (dbRun _ row (dbStep _ row w ev) es).pending = _
      rw [ih]
      cases ev with
      | write e => simp [dbStep, dbWrite, dbWritten]
      | flush =>
        simp only [dbStep, dbWritten, (flushEq w).1, (flushEq w).2, List.append_nil]
  refine ⟨by simpa using key es ⟨[], (0, [])⟩, ?_⟩
  rintro es' rfl
  have h := key (es' ++ [.flush]) ⟨[], (0, [])⟩
  have hp : (dbRun (tableCreate (fun _ => false)) row ⟨[], (0, [])⟩ (es' ++ [.flush])).pending = [] := by
    simp only [dbRun, List.foldl_append, List.foldl_cons, List.foldl_nil]
    exact (flushEq _).2
  rw [hp] at h
  simpa using h

/-- C37: with failures, nothing is ever stored twice or out of order: the stored rows, in order, are a part
of the written ones. -/
theorem C37_never_twice (fails : Nat → Bool) (row : A → E) (es : List (DbEvent A)) :
    ((dbRun (tableCreate fails) row ⟨[], (0, [])⟩ es).db.2 ++ (dbRun (tableCreate fails) row ⟨[], (0, [])⟩ es).pending).Sublist
      ((dbWritten es).map row) := by
  have hb : ∀ (bs : List (List E)) (d : Nat × List E),
      ∃ l, (writeBulks (tableCreate fails) bs d).2.2 = d.2 ++ l ∧ l.Sublist bs.flatten := by
    intro bs
    induction bs with
    | nil => intro d; exact ⟨[], by simp [writeBulks], List.Sublist.refl _⟩
    | cons b bs ih =>
      intro d
      simp only [writeBulks, tableCreate]
      split
      · obtain ⟨l, h1, h2⟩ := ih (d.1 + 1, d.2)
        refine ⟨l, h1, ?_⟩
        rw [List.flatten_cons]
        exact h2.trans (List.sublist_append_right _ _)
      · obtain ⟨l, h1, h2⟩ := ih (d.1 + 1, d.2 ++ b)
        refine ⟨b ++ l, ?_, ?_⟩
        · have h1' : (writeBulks (tableCreate fails) bs (d.1 + 1, d.2 ++ b)).2.2 = d.2 ++ b ++ l := h1
          rw [List.append_assoc] at h1'
          exact h1'
        · rw [List.flatten_cons]
          exact List.Sublist.append (List.Sublist.refl _) h2
  have key : ∀ (es : List (DbEvent A)) (w : Writer E (Nat × List E)) (pre : List E), (w.db.2 ++ w.pending).Sublist pre →
      ((dbRun (tableCreate fails) row w es).db.2 ++ (dbRun (tableCreate fails) row w es).pending).Sublist
        (pre ++ (dbWritten es).map row) := by
    intro es
    induction es with
    | nil => intro w pre h; simpa [dbRun, dbWritten] using h
    | cons ev es ih =>
      intro w pre h
      show ((dbRun _ row (dbStep _ row w ev) es).db.2 ++ (dbRun _ row (dbStep _ row w ev) es).pending).Sublist _
      cases ev with
      | write e =>
        have := ih (dbStep (tableCreate fails) row w (.write e)) (pre ++ [row e]) (by
          simp only [dbStep, dbWrite]
          rw [← List.append_assoc]
          exact List.Sublist.append h (List.Sublist.refl _))
        simpa [dbWritten] using this
      | flush =>
        apply ih
        refine List.Sublist.trans ?_ h
        simp only [dbStep, doDBWrite]
        split
        · obtain ⟨l, h1, h2⟩ := hb (bulks w.pending.length w.pending) w.db
          simp only [h1, List.append_nil]
          rw [(C37_batches w.pending).1] at h2
          exact List.Sublist.append (List.Sublist.refl _) h2
        · exact List.Sublist.refl _
  simpa using key es ⟨[], (0, [])⟩ [] (by simp)

/-- C37: a flush reports an error exactly if one of its calls of the database failed, whichever. -/
theorem C37_errors_reported (fails : Nat → Bool) (w : Writer E (Nat × List E)) :
    (doDBWrite (tableCreate fails) w).1 = true ↔
      ∀ n, w.db.1 ≤ n → n < (doDBWrite (tableCreate fails) w).2.db.1 → fails n = false := by
  have key : ∀ (bs : List (List E)) (d : Nat × List E), d.1 ≤ (writeBulks (tableCreate fails) bs d).2.1 ∧
      ((writeBulks (tableCreate fails) bs d).1 = true ↔
        ∀ n, d.1 ≤ n → n < (writeBulks (tableCreate fails) bs d).2.1 → fails n = false) := by
    intro bs
    induction bs with
    | nil => intro d; simp [writeBulks]; intro n h1 h2; omega
    | cons b bs ih =>
      intro d
      have step : ∀ x : Bool × (Nat × List E), x.2.1 = d.1 + 1 → (x.1 = !fails d.1) →
          d.1 ≤ (writeBulks (tableCreate fails) bs x.2).2.1 ∧
          ((x.1 && (writeBulks (tableCreate fails) bs x.2).1) = true ↔
            ∀ n, d.1 ≤ n → n < (writeBulks (tableCreate fails) bs x.2).2.1 → fails n = false) := by
        intro x h1 h2
        obtain ⟨g1, g2⟩ := ih x.2
        refine ⟨by omega, ?_⟩
        rw [Bool.and_eq_true, g2, h2, Bool.not_eq_true']
        constructor
        · rintro ⟨h, h'⟩ n hn hl
          by_cases hd : n = d.1
          · rw [hd]; exact h
          · exact h' n (by omega) hl
        · intro h
          exact ⟨h d.1 (Nat.le_refl _) (by omega), fun n hn hl => h n (by omega) hl⟩
      have hx := step (tableCreate fails b d) (by unfold tableCreate; split <;> rfl) (by unfold tableCreate; split <;> simp_all)
      have heq : writeBulks (tableCreate fails) (b :: bs) d =
          ((tableCreate fails b d).1 && (writeBulks (tableCreate fails) bs (tableCreate fails b d).2).1,
            (writeBulks (tableCreate fails) bs (tableCreate fails b d).2).2) := rfl
      rw [heq]
      exact hx
  unfold doDBWrite
  split
  · exact (key _ w.db).2
  · simp only [true_iff]
    intro n h1 h2
    omega

example : (doDBWrite (tableCreate (fun n => n == 0)) (⟨List.range 150, (0, [])⟩ : Writer Nat _)).1 = false := by decide +kernel

/-- C37 is false: if the database fails once, the entries of that bulk are dropped: they are neither
stored nor kept for the next flush. -/
theorem C37_failed_bulk_lost :
    let w := dbRun (tableCreate (fun n => n == 0)) (fun (n : Nat) => n) ⟨[], (0, [])⟩ [.write 1, .write 2, .flush, .write 3, .flush]
    w.db.2 = [3] ∧ w.pending = [] := by decide

/-- 250 entries make bulks of 100, 100 and 50. -/
example : (bulks 250 (List.range 250)).map List.length = [100, 100, 50] := by decide +kernel

end Verif.Props
