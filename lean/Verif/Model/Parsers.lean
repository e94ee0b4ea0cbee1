/-
Model of /repo/lists/parsers: line splitting, comment stripping, entry parsing, error budget.
Positions and log messages are left out; context cancellation is left out here (it only stops a
parse early; see Model/ListCache.lean where early stops are explicit).
-/
import Verif.Base.Str

namespace Verif.Parsers

/-- `bufio.ScanWords`: the maximal runs of non-space bytes (ASCII white space only). -/
def fields : Str → List Str
  | [] => []
  | c :: cs =>
    if isSpace c then fields cs
    else match cs, fields cs with
      | [], _ => [[c]]
      | d :: _, ws => if isSpace d then [c] :: ws else match ws with
        | [] => [[c]]
        | w :: ws' => (c :: w) :: ws'

/-- `bufio.dropCR`: removes one trailing carriage return. -/
def dropCR (s : Str) : Str :=
  match s.getLast? with
  | some '\r' => s.dropLast
  | _ => s

/-- What reading a source delivers: the bytes before the end or before a read error. -/
structure Source where
  content : Str
  readError : Bool := false

/-- Why a scan ended. -/
inductive ScanEnd where
  | eof
  /-- the reader failed -/
  | readError
  /-- `bufio.ErrTooLong`: a line does not fit in the scanner's 64 KiB buffer -/
  | tooLong
  deriving DecidableEq, Repr

/-- `bufio.MaxScanTokenSize`. -/
def maxToken : Nat := 65536

/-- Lines of `bufio.ScanLines` in the pieces between newlines: an empty final piece is no line, a
non-empty one is (also when the reader failed: `Scanner.Scan` flushes it); a piece of 64 KiB or
more stops the scan. -/
def scanPieces (err : ScanEnd) : List Str → List Str × ScanEnd
  | [] => ([], err)
  | [p] =>
    if p = [] then ([], err)
    else if p.length ≥ maxToken then ([], .tooLong)
    else ([dropCR p], err)
  | p :: q :: ps =>
    if p.length ≥ maxToken then ([], .tooLong)
    else
      let r := scanPieces err (q :: ps)
      (dropCR p :: r.1, r.2)

/-- lines.go 44-49 `newLines`: the tokens the scanner yields and how it ends. -/
def scanLines (s : Source) : List Str × ScanEnd :=
  scanPieces (if s.readError then .readError else .eof) (splitChar '\n' s.content)

/-- `strings.TrimRightFunc(s, unicode.IsSpace)` (ASCII). -/
def trimRightSpace (s : Str) : Str := (s.reverse.dropWhile isSpace).reverse

/-- lines.go 55-93 `Next`: the next non-empty line with comments stripped, and the remaining
tokens; `none` at the end of the tokens. -/
def linesNext : List Str → Option (Str × List Str)
  | [] => none
  | tok :: rest =>
    let text := trimSpace tok
    if text = [] then linesNext rest
    else if text.head? = some '#' then linesNext rest
    else if '#' ∈ text then some (trimRightSpace (text.takeWhile (· ≠ '#')), rest)
    else some (text, rest)

/-- Everything from outside this package that parsing depends on: `idna.Punycode.ToASCII`,
`net.ParseIP` (and the printed form of the result), `regexp.Compile` succeeding. -/
structure Env where
  toASCII : Str → Option Str
  /-- `net.ParseIP(s)`, then `ip.String()`; `none` if `s` is no address -/
  parseIP : Str → Option Str
  compiles : Str → Bool

/-- hosts.go 20 `dnsLabelPattern` character class. -/
def isLabelChar (c : Char) : Bool :=
  ('a' ≤ c && c ≤ 'z') || ('A' ≤ c && c ≤ 'Z') || ('0' ≤ c && c ≤ '9') || c == '_' || c == '-'

/-- hosts.go 20: `[a-zA-Z0-9_-]{1,63}`. -/
def isLabel (l : Str) : Bool := l.all isLabelChar && decide (1 ≤ l.length ∧ l.length ≤ 63)

/-- hosts.go 27: label(.label)*. -/
def isLabelSeq (s : Str) : Bool := (splitChar '.' s).all isLabel

/-- hosts.go 261-271 `validateDomainName`: at most 255 bytes, labels, then optionally one dot or
underscore. -/
def validDomainName (host : Str) : Bool :=
  decide (host.length ≤ 255) &&
  (isLabelSeq host ||
   ((host.getLast? == some '.' || host.getLast? == some '_') && isLabelSeq host.dropLast))

/-- hosts.go 273-275 `isRegex`. -/
def isRegex (host : Str) : Bool := host.head? == some '/' && host.getLast? == some '/'

/-- hosts.go 277-289 `validateHostsListEntry`. -/
def validHostsListEntry (env : Env) (host : Str) : Bool :=
  if (env.parseIP host).isSome then true
  else if isRegex host then env.compiles host
  else validDomainName host

/-- `strings.TrimPrefix(s, "||")`. -/
def trimPrefixBars : Str → Str
  | '|' :: '|' :: s => s
  | s => s

/-- `strings.TrimSuffix(s, "^")`. -/
def trimSuffixCaret (s : Str) : Str :=
  match s.getLast? with
  | some '^' => s.dropLast
  | _ => s

/-- hosts.go 246-254: markers off, then validation. -/
def finishEntry (env : Env) (host : Str) : Option Str :=
  let host := trimSuffixCaret (trimPrefixBars host)
  if validHostsListEntry env host then some host else none

/-- hosts.go 235-259 `normalizeHostsListEntry`: `none` is an error. -/
def normalizeHostsListEntry (env : Env) (host : Str) : Option Str :=
  if isRegex host then finishEntry env host
  else match env.toASCII host with
    | none => none
    | some h => finishEntry env h

/-- hosts.go 96-112 `HostListEntry.UnmarshalText`. -/
def hostListEntry (env : Env) (data : Str) : Option Str :=
  match fields data with
  | [] => none
  | host :: rest =>
    match normalizeHostsListEntry env host with
    | none => none
    | some h => if rest = [] then some h else none

/-- hosts.go 127-133 `HostsFileEntry`; the address is kept in its printed form. -/
structure HostsFileEntry where
  ip : Str
  interface : Str
  name : Str
  aliases : List Str
  deriving DecidableEq, Repr

/-- hosts.go 138-186 `HostsFileEntry.UnmarshalText`. -/
def hostsFileEntry (env : Env) (data : Str) : Option HostsFileEntry :=
  match fields data with
  | [] => none
  | ipStr :: hosts =>
    match env.parseIP (ipStr.takeWhile (· ≠ '%')) with
    | none => none
    | some ip =>
      if hosts.all validDomainName then
        match hosts with
        | [] => none
        | h :: hs => some ⟨ip, (ipStr.dropWhile (· ≠ '%')).drop 1, h, hs⟩
      else none

/-- hosts.go 214-229 `WildcardEntry.UnmarshalText`: only the first word is looked at. -/
def wildcardEntry (data : Str) : Option Str :=
  match fields data with
  | [] => none
  | entry :: _ =>
    if ¬ (['*', '.'] <+: entry) ∨ entry.count '*' > 1 then none else some entry

/-- hosts.go 54-77 `HostsIterator.UnmarshalText` and 50-52, 114-116, 188-203, 231-233 `forEachHost`:
the hosts of a line, from the first format that accepts it; `none` if none does. -/
def unmarshalHosts (env : Env) (data : Str) : Option (List Str) :=
  match hostListEntry env data with
  | some h => some [h]
  | none => match hostsFileEntry env data with
    | some e => some (e.name :: e.aliases)
    | none => match wildcardEntry data with
      | some w => some [w]
      | none => none

theorem linesNext_length {ls : List Str} {t : Str} {rest : List Str}
    (h : linesNext ls = some (t, rest)) : rest.length < ls.length := by
  induction ls with
  | nil => simp [linesNext] at h
  | cons tok ls ih =>
    unfold linesNext at h
    simp only at h
    split at h
    · have := ih h; simp; omega
    · split at h
      · have := ih h; simp; omega
      · split at h <;>
        · simp only [Option.some.injEq, Prod.mk.injEq] at h
          rw [← h.2]
          simp

/-- How a parse ended. -/
inductive ParseErr where
  | scan (e : ScanEnd)
  | tooManyErrors
  deriving DecidableEq, Repr

/-- filtererrors.go 31, 40: is the budget exceeded? (`none` is `NoErrorLimit`) -/
def overBudget : Option Nat → Nat → Bool
  | none, _ => false
  | some n, count => decide (count > n)

/-- filtererrors.go 30-46, 71-92 `AllowErrors(...).Next` over adapt.go 45-62 and lines.go: skips
lines that do not parse while the error budget lasts (`limit = none` is `NoErrorLimit`).
Returns the value, the remaining tokens and the error count, or the error. -/
def filterNext {T : Type} (unmarshal : Str → Option T) (limit : Option Nat) (fin : ScanEnd)
    (count : Nat) (ls : List Str) : Except ParseErr (T × List Str × Nat) :=
  match h : linesNext ls with
  | none => .error (.scan fin)
  | some (text, rest) =>
    match unmarshal text with
    | some v => .ok (v, rest, count)
    | none =>
      if overBudget limit (count + 1) then
        .error .tooManyErrors
      else
        have := linesNext_length h
        filterNext unmarshal limit fin (count + 1) rest
termination_by ls.length

theorem filterNext_length {T : Type} {unmarshal : Str → Option T} {limit : Option Nat}
    {fin : ScanEnd} {count : Nat} {ls : List Str} {v : T} {rest : List Str} {c : Nat}
    (h : filterNext unmarshal limit fin count ls = .ok (v, rest, c)) :
    rest.length < ls.length := by
  induction hn : ls.length using Nat.strongRecOn generalizing ls count with
  | ind n ih =>
    rw [filterNext.eq_def] at h
    split at h
    · cases h
    · next text rest' hl =>
      have hlen := linesNext_length hl
      split at h
      · cases h; omega
      · simp only at h
        split at h
        · cases h
        · have := ih rest'.length (by omega) h rfl
          omega

/-- parser.go 35-59 `ForEach` over the filtered parser, with a callback that never fails: the values
handed to the callback in order, and the error (`none` at the end of the file). -/
def forEach {T : Type} (unmarshal : Str → Option T) (limit : Option Nat) (fin : ScanEnd)
    (count : Nat) (ls : List Str) : List T × Option ParseErr :=
  match h : filterNext unmarshal limit fin count ls with
  | .error (.scan .eof) => ([], none)
  | .error e => ([], some e)
  | .ok (v, rest, c) =>
    have := filterNext_length h
    let r := forEach unmarshal limit fin c rest
    (v :: r.1, r.2)
termination_by ls.length

/-- list_cache.go 236-262: all lines of a source parsed with an error budget; `limit = none` is
`MaxErrorsPerSource = -1`. -/
def parseSource {T : Type} (unmarshal : Str → Option T) (limit : Option Nat) (s : Source) :
    List T × Option ParseErr :=
  forEach unmarshal limit (scanLines s).2 0 (scanLines s).1

end Verif.Parsers
