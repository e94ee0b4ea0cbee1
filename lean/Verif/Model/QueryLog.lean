/-
Model of the query logging resolver, /repo/resolver/query_logging_resolver.go, and of the database writer,
/repo/querylog/database_writer.go.
-/
import Verif.Model.Conditional
import Verif.Model.QueryLogFile

namespace Verif.QueryLog
open Dns QueryLogFile

/-- config/query_log_enum.go `QueryLogField`. -/
inductive Field where
  | clientIP | clientName | responseReason | responseAnswer | question | duration
  deriving DecidableEq, Repr

/-- config/query_log.go, as far as used by the resolver. -/
structure Cfg where
  fields : List Field
  ignoreSUDN : Bool

/-- What the resolver gets from elsewhere: its instance id, the privacy switch, and the printing of
addresses, response types, response codes, record types and answers (`util.AnswerToString` without its
obfuscation). -/
structure Env where
  instanceID : Str
  privacy : Bool
  ipString : Option IP → Str
  rtypeString : RType → Str
  rcodeString : Nat → Str
  typeString : Nat → Str
  answerString : List RR → Str

/-- query_logging_resolver.go 183-188: the entry before any field is filled in. -/
def emptyEntry (env : Env) (start : Int) : LogEntry :=
  { start := start, clientIP := str! "0.0.0.0", clientNames := [str! "none"], durationMs := 0, responseReason := [],
    responseType := [], responseCode := [], questionType := [], questionName := [], answer := [],
    instanceID := env.instanceID }

/-- query_logging_resolver.go 190-214: filling in one field. `req` is the content of the request's message
after the query was resolved; `none` is a panic (no question). -/
def fillField (env : Env) (request : Request) (req : Msg) (response : Response) (durationMs : Int) (entry : LogEntry) :
    Field → Option LogEntry
  | .clientIP => some { entry with clientIP := env.ipString request.clientIP }
  | .clientName => some { entry with clientNames := request.clientNames }
  | .responseReason => some { entry with
      responseReason := response.reason
      responseType := env.rtypeString response.rtype
      responseCode := env.rcodeString response.res.rcode }
  | .responseAnswer => some { entry with answer := obfuscate env.privacy (env.answerString response.res.answer) }
  | .question =>
    match req.question with
    | [] => none
    | q :: _ => some { entry with
        questionName := obfuscate env.privacy q.name
        questionType := env.typeString q.qtype }
  | .duration => some { entry with durationMs := durationMs }

/-- query_logging_resolver.go 190-214, the loop over the configured fields. -/
def fillFields (env : Env) (request : Request) (req : Msg) (response : Response) (durationMs : Int) :
    List Field → LogEntry → Option LogEntry
  | [], entry => some entry
  | f :: fs, entry =>
    match fillField env request req response durationMs entry f with
    | none => none
    | some entry => fillFields env request req response durationMs fs entry

/-- query_logging_resolver.go 180-217 `createLogEntry`. -/
def createLogEntry (cfg : Cfg) (env : Env) (request : Request) (req : Msg) (response : Response) (start durationMs : Int) :
    Option LogEntry :=
  fillFields env request req response durationMs cfg.fields (emptyEntry env start)

/-- query_logging_resolver.go 167-178 `ignore`. -/
def ignore (cfg : Cfg) (response : Response) : Bool := cfg.ignoreSUDN && response.rtype == .special

/-- The queue and its consumer: entries waiting, the entry in `writer.Write`, and the entries written. -/
structure Queue where
  waiting : List LogEntry := []
  writing : Option LogEntry := none
  written : List LogEntry := []

/-- query_logging_resolver.go 22 `logChanCap`. -/
def logChanCap : Nat := 1000

/-- query_logging_resolver.go 157-161: the sending `select` with a default case. (A send to a waiting receiver is an enqueue followed by a dequeue.) -/
def offer (q : Queue) (e : LogEntry) : Queue :=
  if q.waiting.length < logChanCap then { q with waiting := q.waiting ++ [e] } else q

/-- query_logging_resolver.go 226: the consumer takes an entry - it waits if there is none, and while it is
writing. -/
def take (q : Queue) : Queue :=
  match q.writing, q.waiting with
  | none, e :: es => { q with writing := some e, waiting := es }
  | _, _ => q

/-- query_logging_resolver.go 229: `writer.Write` returns. -/
def finish (q : Queue) : Queue :=
  match q.writing with
  | some e => { q with writing := none, written := q.written ++ [e] }
  | none => q

/-- query_logging_resolver.go 137-165 `Resolve`; `start` and `durationMs` are the readings of the clock. A
response without message (only the no-op resolver gives one) makes `createLogEntry` dereference `nil` if
reason or answer are logged; it never gets here and is modelled as panic. -/
def resolve {W : Type} (cfg : Cfg) (env : Env) (start durationMs : Int) (next : Cond.MResolver W) :
    Cond.MResolver (Queue × W) := fun request w =>
  match next request w.2 with
  | (.err e, msg, w') => (.err e, msg, (w.1, w'))
  | (.panic, msg, w') => (.panic, msg, (w.1, w'))
  | (.noResponse, msg, w') => (.panic, msg, (w.1, w'))
  | (.ok response, msg, w') =>
    match createLogEntry cfg env request msg response start durationMs with
    | none => (.panic, msg, (w.1, w'))
    | some entry =>
      if ignore cfg response then (.ok response, msg, (w.1, w'))
      else (.ok response, msg, (offer w.1 entry, w'))

/-! ### Database writer -/

/-- database_writer.go 200 `bulkSize`. -/
def bulkSize : Nat := 100

/-- database_writer.go 202-206: the bulks `pendingEntries[i:min(i+100,len)]`, from `i` on. `fuel` bounds the
number of passes. -/
def bulks {E : Type} : Nat → List E → List (List E)
  | 0, _ => []
  | _, [] => []
  | fuel + 1, es => es.take bulkSize :: bulks fuel (es.drop bulkSize)

/-- `db.Create` of a bulk: one SQL statement, all rows or (on error) none; the database may depend on
anything (`D`). -/
abbrev Create (E D : Type) := List E → D → Bool × D

/-- database_writer.go 202-211: every bulk is written, errors are collected. -/
def writeBulks {E D : Type} (create : Create E D) : List (List E) → D → Bool × D
  | [], d => (true, d)
  | b :: bs, d =>
    match create b d with
    | (ok, d) =>
      match writeBulks create bs d with
      | (ok', d) => (ok && ok', d)

/-- database_writer.go 37-43 `DatabaseWriter` with its database. -/
structure Writer (E D : Type) where
  pending : List E
  db : D

/-- database_writer.go 163-185 `Write`; `row` makes the table row (165-178). Runs under the lock. -/
def dbWrite {A E D : Type} (row : A → E) (w : Writer E D) (e : A) : Writer E D :=
  { w with pending := w.pending ++ [row e] }

/-- database_writer.go 194-223 `doDBWrite`; the result says whether there was no error. Runs under the
lock. -/
def doDBWrite {E D : Type} (create : Create E D) (w : Writer E D) : Bool × Writer E D :=
  if w.pending.length > 0 then
    match writeBulks create (bulks w.pending.length w.pending) w.db with
    | (ok, d) => (ok, ⟨[], d⟩)
  else (true, w)

end Verif.QueryLog
