/-
Model of /repo/config/upstream.go: printing and parsing of upstream definitions, with Go's
`net.SplitHostPort`.
-/
import Verif.Base.Num
import Verif.Model.QueryLogFile

namespace Verif.UpstreamUrl
open QueryLogFile (isAlnum)

/-- config/config.go 30-37 `NetProtocol`. -/
inductive Net where
  | tcpUdp | tcpTls | https
  deriving DecidableEq, Repr

/-- config_enum.go `NetProtocol.String`. -/
def Net.string : Net → Str
  | .tcpUdp => str! "tcp+udp"
  | .tcpTls => str! "tcp-tls"
  | .https => str! "https"

/-- config.go 112-118 `netDefaultPort`. -/
def Net.defaultPort : Net → Nat
  | .tcpUdp => 53
  | .tcpTls => 853
  | .https => 443

/-- config/upstream.go 14-20 `Upstream`. -/
structure Upstream where
  net : Net := .tcpUdp
  host : Str := []
  port : Nat := 0
  path : Str := []
  commonName : Str := []
  deriving DecidableEq, Repr

/-- upstream.go 23-25 `IsDefault`. -/
def Upstream.isDefault (u : Upstream) : Bool := u == {}

/-- upstream.go 28-60 `String`. -/
def print (u : Upstream) : Str :=
  if u.isDefault then str! "no upstream"
  else
    u.net.string ++ str! ":" ++ (if u.net = .https then str! "//" else []) ++
    (if ':' ∈ u.host then str! "[" ++ u.host ++ str! "]" else u.host) ++
    (if u.port ≠ u.net.defaultPort then str! ":" ++ Nat.toDigits 10 u.port else []) ++
    u.path

/-- The text before and after the first occurrence of a byte (Go `strings.Cut`); `none` if absent. -/
def cutFirst (sep : Char) : Str → Option (Str × Str)
  | [] => none
  | c :: cs =>
    if c = sep then some ([], cs)
    else match cutFirst sep cs with
      | some (a, b) => some (c :: a, b)
      | none => none

/-- The text before and after the last occurrence of a byte. -/
def cutLast (sep : Char) (s : Str) : Option (Str × Str) :=
  match cutFirst sep s.reverse with
  | some (a, b) => some (b.reverse, a.reverse)
  | none => none

/-- Go `net.SplitHostPort`; `none` is an error. -/
def splitHostPort (s : Str) : Option (Str × Str) :=
  match cutLast ':' s with
  | none => none
  | some (before, port) =>
    match s with
    | '[' :: rest =>
      match cutFirst ']' rest with
      | none => none
      | some (host, after) =>
        -- the first `]` must be just before the last `:`
        if after = ':' :: port then
          if '[' ∈ rest then none else if ']' ∈ after then none else some (host, port)
        else none
    | _ =>
      if ':' ∈ before then none
      else if '[' ∈ s then none
      else if ']' ∈ s then none
      else some (before, port)

/-- config.go 608-620 `ConvertPort`. -/
def convertPort (s : Str) : Option Nat := parseUint 10 16 (trimSpace s)

/-- upstream.go 9-10 `validDomain`: labels of letters, digits and inner hyphens, separated by dots. -/
def validLabel (l : Str) : Bool :=
  l.all (fun c => isAlnum c || c == '-') && l.head?.any isAlnum && l.getLast?.any isAlnum

/-- upstream.go 9-10 `validDomain`. -/
def validDomain (s : Str) : Bool := (splitChar '.' s).all validLabel

/-- Go `strings.TrimPrefix`. -/
def trimPrefix (s pre : Str) : Str := if pre.isPrefixOf s then s.drop pre.length else s

/-- Go `strings.TrimSuffix` for one byte. -/
def trimSuffixChar (s : Str) (c : Char) : Str := if s.getLast? = some c then s.dropLast else s

/-- upstream.go 155-172 `extractNet`. -/
def extractNet (s : Str) : Net × Str :=
  if (str! "tcp+udp:").isPrefixOf s then (.tcpUdp, s.drop 8)
  else if (str! "tcp-tls:").isPrefixOf s then (.tcpTls, s.drop 8)
  else if (str! "https:").isPrefixOf s then (.https, trimPrefix (s.drop 6) (str! "//"))
  else (.tcpUdp, s)

/-- upstream.go 142-153 `extractPath`: path (with the slash) and the rest. -/
def extractPath (s : Str) : Str × Str :=
  match cutFirst '/' s with
  | some (a, b) => ('/' :: b, a)
  | none => ([], s)

/-- upstream.go 129-140 `extractCommonName`: the text before the first `#` and the one after it. -/
def extractCommonName (s : Str) : Str × Str :=
  match cutFirst '#' s with
  | some (a, b) => (a, b)
  | none => (s, [])

/-- upstream.go 78-126 `ParseUpstream`; `isIP` is `net.ParseIP(host) != nil`; `none` is an error. -/
def parse (isIP : Str → Bool) (s : Str) : Option Upstream :=
  let (s, commonName) := extractCommonName s
  let (n, s) := extractNet s
  let (path, s) := extractPath s
  match splitHostPort s with
  | some (host, portString) =>
    match convertPort portString with
    | none => none
    | some port =>
      if isIP host || validDomain host then some ⟨n, host, port, path, commonName⟩ else none
  | none =>
    let host := trimSuffixChar (trimPrefix s (str! "[")) ']'
    if isIP host || validDomain host then some ⟨n, host, n.defaultPort, path, commonName⟩ else none

end Verif.UpstreamUrl
