/-
Model of the query log files, /repo/querylog/file_writer.go, with the parts of Go's `time` and
`encoding/csv` it uses, and of `util.Obfuscate`.
-/
import Verif.Base.AMap
import Verif.Base.Num
import Verif.Model.Dns

namespace Verif.QueryLogFile

/-! ### Obfuscation -/

/-- util/common.go 30: the characters matched by `alphanumeric`, `[a-zA-Z0-9]`. -/
def isAlnum (c : Char) : Bool :=
  ('a'.toNat ≤ c.toNat && c.toNat ≤ 'z'.toNat) || ('A'.toNat ≤ c.toNat && c.toNat ≤ 'Z'.toNat) ||
  ('0'.toNat ≤ c.toNat && c.toNat ≤ '9'.toNat)

/-- util/common.go 34-40 `Obfuscate`. -/
def obfuscate (privacy : Bool) (s : Str) : Str :=
  if privacy then s.map (fun c => if isAlnum c then '*' else c) else s

/-! ### Dates -/

/-- A calendar date. -/
structure Date where
  year : Nat
  month : Nat
  day : Nat
  deriving DecidableEq, Repr

/-- Go `time.isLeap`. -/
def isLeap (y : Nat) : Bool := y % 4 == 0 && (y % 100 != 0 || y % 400 == 0)

/-- Go `time.daysIn`. -/
def daysIn (m y : Nat) : Nat :=
  if m = 2 then (if isLeap y then 29 else 28)
  else if m = 4 ∨ m = 6 ∨ m = 9 ∨ m = 11 then 30 else 31

/-- A decimal digit as character. -/
def digit (n : Nat) : Char := Char.ofNat (48 + n)

/-- Go `t.Format("2006-01-02")` for years 0 to 9999. -/
def formatDate (d : Date) : Str :=
  [digit (d.year / 1000), digit (d.year / 100 % 10), digit (d.year / 10 % 10), digit (d.year % 10), '-',
   digit (d.month / 10), digit (d.month % 10), '-', digit (d.day / 10), digit (d.day % 10)]

/-- The value of a decimal digit. -/
def decDigit (c : Char) : Option Nat :=
  if '0'.toNat ≤ c.toNat ∧ c.toNat ≤ '9'.toNat then some (c.toNat - '0'.toNat) else none

/-- Go `time.ParseInLocation("2006-01-02", s, _)`: four digits, `-`, two digits, `-`, two digits, and a date
that exists. -/
def parseDate (s : Str) : Option Date :=
  match s with
  | [a, b, c, d, h1, e, f, h2, g, h] =>
    if h1 = '-' ∧ h2 = '-' then
      match decDigit a, decDigit b, decDigit c, decDigit d, decDigit e, decDigit f, decDigit g, decDigit h with
      | some a, some b, some c, some d, some e, some f, some g, some h =>
        let y := 1000 * a + 100 * b + 10 * c + d
        let m := 10 * e + f
        let dd := 10 * g + h
        if 1 ≤ m ∧ m ≤ 12 ∧ 1 ≤ dd ∧ dd ≤ daysIn m y then some ⟨y, m, dd⟩ else none
      | _, _, _, _, _, _, _, _ => none
    else none
  | _ => none

/-! ### File names -/

/-- file_writer.go 23 `validFilePattern`: the characters that are kept. -/
def isFileChar (c : Char) : Bool := isAlnum c || c == '-' || c == '_'

/-- file_writer.go 127-129 `escape`: every run of other characters becomes one `_`. `inRun` says that the
previous character was replaced. -/
def escapeFrom (inRun : Bool) : Str → Str
  | [] => []
  | c :: cs =>
    if isFileChar c then c :: escapeFrom false cs
    else if inRun then escapeFrom true cs else '_' :: escapeFrom true cs

/-- file_writer.go 127-129 `escape`. -/
def escape (s : Str) : Str := escapeFrom false s

/-- Go `strings.Join` with a separator of any length. -/
def joinStr (sep : Str) : List Str → Str
  | [] => []
  | [p] => p
  | p :: q :: ps => p ++ sep ++ joinStr sep (q :: ps)

/-- file_writer.go 43-54: the file of an entry. -/
def fileName (perClient : Bool) (date : Date) (clientNames : List Str) : Str :=
  let clientPrefix := if perClient then joinStr (str! "-") clientNames else str! "ALL"
  formatDate date ++ str! "_" ++ escape clientPrefix ++ str! ".log"

/-! ### Clean-up -/

/-- 24 hours in nanoseconds. -/
def dayNs : Int := 86400000000000

/-- The surroundings: the local midnight of a date (in ns), the local date of an instant, and the value
of converting a negative number to `uint64` (not defined by Go: on amd64 it is about 2^64 minus the number,
on arm64 it is 0). -/
structure Clock where
  dayStart : Date → Int
  dateOf : Int → Date
  negToUint64 : Int → Nat

/-- file_writer.go 88: `uint64(time.Since(t).Hours() / 24)`. Simplification: exact instead of floating-point
numbers, and `time.Since` does not saturate (at 292 years). -/
def ageInDays (clk : Clock) (now : Int) (d : Date) : Nat :=
  let age := now - clk.dayStart d
  if age ≤ -dayNs then clk.negToUint64 (age.tdiv dayNs) else (age.tdiv dayNs).toNat

/-- file_writer.go 84-102, the test of one directory entry. -/
def isExpired (clk : Clock) (retention : Nat) (now : Int) (name : Str) : Bool :=
  (str! ".log").isSuffixOf name && decide (name.length > 10) &&
  match parseDate (name.take 10) with
  | some d => decide (retention > 0) && decide (ageInDays clk now d > retention)
  | none => false

/-- A directory: the rows of every file, by name. -/
abbrev Dir := AMap Str (List (List Str))

/-- file_writer.go 73-105 `CleanUp` (every removal succeeds). -/
def cleanUp (clk : Clock) (retention : Nat) (now : Int) (dir : Dir) : Dir :=
  dir.filter (fun e => !isExpired clk retention now e.1)

/-! ### Rows -/

/-- querylog/writer.go `LogEntry`; times are instants in ns, printed forms are strings. -/
structure LogEntry where
  start : Int
  clientIP : Str
  clientNames : List Str
  durationMs : Int
  responseReason : Str
  responseType : Str
  responseCode : Str
  questionType : Str
  questionName : Str
  answer : Str
  instanceID : Str

/-- file_writer.go 107-121 `createQueryLogRow`; `formatTime` and `formatInt` are the printing functions of
Go. -/
def createQueryLogRow (formatTime formatInt : Int → Str) (e : LogEntry) : List Str :=
  [formatTime e.start, e.clientIP, joinStr (str! "; ") e.clientNames, formatInt e.durationMs, e.responseReason,
   e.questionName, e.answer, e.responseCode, e.responseType, e.questionType, e.instanceID]

/-- file_writer.go 43-70 `Write` (opening and writing succeed). -/
def write (clk : Clock) (formatTime formatInt : Int → Str) (perClient : Bool) (dir : Dir) (e : LogEntry) : Dir :=
  let name := fileName perClient (clk.dateOf e.start) e.clientNames
  dir.put name ((dir.get name).getD [] ++ [createQueryLogRow formatTime formatInt e])

/-! ### CSV -/

/-- Go `encoding/csv` `fieldNeedsQuotes` with a tab as separator. `startsWithSpace` is Go's
`unicode.IsSpace` of the first character. -/
def needsQuotes (startsWithSpace : Str → Bool) (field : Str) : Bool :=
  if field = [] then false
  else if field = str! "\\." then true
  else field.any (fun c => c == '\n' || c == '\r' || c == '"' || c == '\t') || startsWithSpace field

/-- Go `csv.Writer.Write`, one field (file_writer.go 123-128: separator tab, no CRLF). -/
def writeField (startsWithSpace : Str → Bool) (field : Str) : Str :=
  if needsQuotes startsWithSpace field then
    '"' :: field.flatMap (fun c => if c == '"' then ['"', '"'] else [c]) ++ ['"']
  else field

/-- Go `csv.Writer.Write`, one record. -/
def writeRow (startsWithSpace : Str → Bool) (row : List Str) : Str :=
  joinStr (str! "\t") (row.map (writeField startsWithSpace)) ++ ['\n']

end Verif.QueryLogFile
