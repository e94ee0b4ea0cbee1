/-
Model of the creation of the query log writer, /repo/resolver/query_logging_resolver.go 37-116 and 241-256, of the
preparation and clean-up of the database, /repo/querylog/database_writer.go 45-143 and 187-192, and of the console
writer, /repo/querylog/logger_writer.go.
-/
import Verif.Model.QueryLogFile
import Verif.Model.Url

namespace Verif.LogSetup
open QueryLogFile

/-- config/query_log_enum.go `QueryLogType`. -/
inductive LogType where
  | console | none | mysql | postgresql | csv | csvClient | timescale
  deriving DecidableEq, Repr

/-- config/query_log.go 12-21, what the creation of the writer uses; durations in ns. `retention` is a `uint64`,
`attempts` an `int`. -/
structure Cfg where
  target : Str
  type : LogType
  retention : Nat
  attempts : Int
  cooldown : Int
  flushInterval : Int

/-- The statements that prepare the database (database_writer.go 93-140). -/
inductive Stmt where
  /-- `db.AutoMigrate`: creates the table or adds its columns -/
  | autoMigrate
  /-- mysql: adds the column `id` -/
  | addIdMysql
  /-- PostgreSQL: adds the column `id` if it does not exist -/
  | addIdPostgres
  | createHypertable
  /-- adds a policy that drops rows after this number of days, if there is no policy -/
  | addRetention (days : Nat)
  deriving DecidableEq, Repr

/-- What `os.Stat` says about a path: it exists, it does not exist, or another error. -/
inductive Stat where
  | found | missing | otherError
  deriving DecidableEq, Repr

/-- The surroundings with state `W`: the file system, database servers (`openDb` is `gorm.Open` with the driver for
mysql or PostgreSQL; `exec` executes a statement, its result is the text of the error), the passing of time, the content
of `/etc/hostname`, and `os.Hostname`. -/
structure Env (W : Type) where
  stat : Str → W → Stat
  openDb : Bool → Str → W → Bool × W
  exec : Stmt → W → Option Str × W
  pause : Int → W → W
  hostnameFile : Option Str
  osHostname : Option Str

/-- The writers. -/
inductive Writer where
  | console
  | none
  | file (target : Str) (perClient : Bool) (retention : Nat)
  | database (retention : Nat) (flushInterval : Int)
  deriving DecidableEq, Repr

/-- querylog/file_writer.go 31-41 `NewCSVWriter`. -/
def newCSVWriter {W : Type} (env : Env W) (target : Str) (perClient : Bool) (retention : Nat) (w : W) : Option Writer :=
  if target ≠ [] ∧ env.stat target w = .missing then Option.none else some (.file target perClient retention)

/-- database_writer.go 93-143 `databaseMigration`; the result says whether there was no error. -/
def databaseMigration {W : Type} (env : Env W) (dbType : Str) (retention : Nat) (w : W) : Bool × W :=
  match env.exec .autoMigrate w with
  | (some _, w) => (false, w)
  | (Option.none, w) =>
    if dbType = str! "mysql" then
      match env.exec .addIdMysql w with
      | (some e, w) => (Url.contains (str! "1060") e, w)
      | (Option.none, w) => (true, w)
    else if dbType = str! "postgres" then
      match env.exec .addIdPostgres w with
      | (e, w) => (e.isNone, w)
    else if dbType = str! "timescale" then
      match env.exec .createHypertable w with
      | (some _, w) => (false, w)
      | (Option.none, w) =>
        match env.exec (.addRetention retention) w with
        | (e, w) => (e.isNone, w)
    else (true, w)

/-- database_writer.go 60-91 `newDatabaseWriter`. -/
def openDatabase {W : Type} (env : Env W) (isMysql : Bool) (target : Str) (retention : Nat) (flushInterval : Int)
    (dbType : Str) (w : W) : Option Writer × W :=
  match env.openDb isMysql target w with
  | (false, w) => (Option.none, w)
  | (true, w) =>
    match databaseMigration env dbType retention w with
    | (false, w) => (Option.none, w)
    | (true, w) => (some (.database retention flushInterval), w)

/-- database_writer.go 45-58 `NewDatabaseWriter`. -/
def newDatabaseWriter {W : Type} (env : Env W) (dbType target : Str) (retention : Nat) (flushInterval : Int) (w : W) :
    Option Writer × W :=
  if dbType = str! "mysql" then openDatabase env true target retention flushInterval dbType w
  else if dbType = str! "postgresql" ∨ dbType = str! "timescale" then
    openDatabase env false target retention flushInterval dbType w
  else (Option.none, w)

/-- query_logging_resolver.go 37-63 `GetQueryLoggingWriter`. -/
def getWriter {W : Type} (env : Env W) (cfg : Cfg) (w : W) : Option Writer × W :=
  match cfg.type with
  | .csv => (newCSVWriter env cfg.target false cfg.retention w, w)
  | .csvClient => (newCSVWriter env cfg.target true cfg.retention w, w)
  | .mysql => newDatabaseWriter env (str! "mysql") cfg.target cfg.retention cfg.flushInterval w
  | .postgresql => newDatabaseWriter env (str! "postgresql") cfg.target cfg.retention cfg.flushInterval w
  | .timescale => newDatabaseWriter env (str! "timescale") cfg.target cfg.retention cfg.flushInterval w
  | .console => (some .console, w)
  | .none => (some .none, w)

/-- Go's conversion `uint(n)` with 64 bits. -/
def toUint (n : Int) : Nat := (n % 2 ^ 64).toNat

/-- `retry.Do` of retry-go v4 (contract): the function is called until it succeeds, at most `limit` times, 0 meaning
without limit, with a pause after every failure but the last. `n` calls were made so far; `fuel` bounds the number of
further calls (`none`: still trying). The result has the number of calls. -/
def retryDo {W R : Type} (create : W → Option R × W) (pause : W → W) (limit : Nat) :
    Nat → Nat → W → Option (Option R × Nat × W)
  | 0, _, _ => none
  | fuel + 1, n, w =>
    match create w with
    | (some r, w) => some (some r, n + 1, w)
    | (none, w) => if n + 1 = limit then some (none, n + 1, w) else retryDo create pause limit fuel (n + 1) (pause w)

/-- query_logging_resolver.go 241-256 `readInstanceID`. -/
def readInstanceID (file os : Option Str) : Option Str :=
  match file with
  | some name => some (trimSpace name)
  | none => os

/-- What a created resolver works with: the writer, the type in its configuration, the instance id, and whether the
periodic clean-up runs. -/
structure Setup where
  writer : Writer
  type : LogType
  instanceID : Str
  cleanUp : Bool
  deriving DecidableEq

/-- How the creation ends: still trying, with an error, with the death of the process (a panic in the goroutine of
database_writer.go 88), or with a resolver. -/
inductive Result (W : Type) where
  | trying
  | failed (w : W)
  | crashed (w : W)
  | created (s : Setup) (attempts : Nat) (w : W)

/-- database_writer.go 145-147: `time.NewTicker` panics for a period that is not positive. -/
def tickerPanics : Writer → Bool
  | .database _ flushInterval => decide (flushInterval ≤ 0)
  | _ => false

/-- query_logging_resolver.go 88-116: what follows the attempts to create a writer. -/
def finishSetup {W : Type} (env : Env W) (cfg : Cfg) (writer : Option Writer) (attempts : Nat) (w : W) : Result W :=
  let chosen := writer.getD .console
  let type := if writer.isSome then cfg.type else .console
  if tickerPanics chosen then .crashed w else
  match readInstanceID env.hostnameFile env.osHostname with
  | none => .failed w
  | some id => .created ⟨chosen, type, id, decide (cfg.retention > 0 ∧ type ≠ .timescale)⟩ attempts w

/-- query_logging_resolver.go 66-116 `NewQueryLoggingResolver`; `fuel` bounds the number of attempts. -/
def newResolver {W : Type} (env : Env W) (cfg : Cfg) (fuel : Nat) (w : W) : Result W :=
  match retryDo (getWriter env cfg) (env.pause cfg.cooldown) (toUint cfg.attempts) fuel 0 w with
  | none => .trying
  | some (writer, attempts, w) => finishSetup env cfg writer attempts w

/-! ### The database's content -/

/-- A row of the table: when the query was asked, and the rest. -/
structure Row where
  ts : Int
  text : Str
  deriving DecidableEq, Repr

/-- The log's table: rows, whether it has the column `id`, whether it is a hypertable, and the days of its retention
policy. -/
structure Db where
  rows : List Row := []
  hasId : Bool := false
  hyper : Bool := false
  policy : Option Nat := none
  deriving DecidableEq, Repr

/-- What the statements do (contracts of mysql, PostgreSQL and Timescale): adding an existing column is error 1060 in
mysql; `if_not_exists => TRUE` leaves an existing policy as it is. -/
def execStmt : Stmt → Db → Option Str × Db
  | .autoMigrate, db => (none, db)
  | .addIdMysql, db =>
    if db.hasId then (some (str! "Error 1060 (42S21): Duplicate column name 'id'"), db)
    else (none, { db with hasId := true })
  | .addIdPostgres, db => (none, { db with hasId := true })
  | .createHypertable, db => (none, { db with hyper := true })
  | .addRetention days, db => (none, if db.policy.isSome then db else { db with policy := some days })

/-- A database server that is reachable from the given time on; the world is the time and the table. -/
def sqlEnv (from_ : Int) (host : Option Str) : Env (Int × Db) where
  stat _ _ := .missing
  openDb _ _ w := (decide (from_ ≤ w.1), w)
  exec s w := match execStmt s w.2 with | (e, db) => (e, w.1, db)
  pause d w := (w.1 + max d 0, w.2)
  hostnameFile := host
  osHostname := none

/-- database_writer.go 188: `int(-d.logRetentionDays)`, the negation in `uint64`, the conversion to 64 bits with sign. -/
def daysBack (retention : Nat) : Int :=
  let u : Int := (2 ^ 64 - (retention : Int)) % 2 ^ 64
  if u < 2 ^ 63 then u else u - 2 ^ 64

/-- database_writer.go 187-192 `CleanUp`; `addDays` is `time.AddDate(0, 0, days)`. -/
def dbCleanUp (addDays : Int → Int → Int) (retention : Nat) (now : Int) (db : Db) : Db :=
  { db with rows := db.rows.filter (fun r => !decide (r.ts < addDays now (daysBack retention))) }

/-- What can happen to the table while blocky runs: a row is stored, the 12 hours of the periodic clean-up are over, or
the database applies its retention policy, sparing the rows of `spare` (it drops whole chunks). -/
inductive DbEvent where
  | store (r : Row)
  | tick (now : Int)
  | policyJob (now : Int) (spare : Row → Bool)

/-- One event. query_logging_resolver.go 112-114, 119-131: the periodic clean-up calls the writer's, if it runs. -/
def dbStep (addDays : Int → Int → Int) (s : Setup) (db : Db) : DbEvent → Db
  | .store r => { db with rows := db.rows ++ [r] }
  | .tick now =>
    match s.cleanUp, s.writer with
    | true, .database retention _ => dbCleanUp addDays retention now db
    | _, _ => db
  | .policyJob now spare =>
    match db.policy with
    | none => db
    | some days => { db with rows := db.rows.filter (fun r => spare r || !decide (r.ts < now - days * dayNs)) }

/-- A run. -/
def dbRun (addDays : Int → Int → Int) (s : Setup) (db : Db) (es : List DbEvent) : Db :=
  es.foldl (dbStep addDays s) db

/-! ### The console writer -/

/-- The values of log fields. -/
inductive Value where
  | text (s : Str)
  | number (n : Int)
  deriving DecidableEq, Repr

/-- `reflect.Value.IsZero`. -/
def Value.isZero : Value → Bool
  | .text s => s.isEmpty
  | .number n => n == 0

/-- logger_writer.go 47-55 `withoutZeroes`. -/
def withoutZeroes (fields : AMap Str Value) : AMap Str Value := fields.filter (fun kv => !kv.2.isZero)

/-- logger_writer.go 32-45 `LogEntryFields`. -/
def logEntryFields (e : LogEntry) : AMap Str Value :=
  withoutZeroes [
    (str! "client_ip", .text e.clientIP),
    (str! "client_names", .text (joinStr (str! "; ") e.clientNames)),
    (str! "response_reason", .text e.responseReason),
    (str! "response_type", .text e.responseType),
    (str! "response_code", .text e.responseCode),
    (str! "question_name", .text e.questionName),
    (str! "question_type", .text e.questionType),
    (str! "answer", .text e.answer),
    (str! "duration_ms", .number e.durationMs),
    (str! "instance", .text e.instanceID)]

end Verif.LogSetup
