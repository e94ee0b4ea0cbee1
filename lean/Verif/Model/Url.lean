/-
Model of the part of Go's `net/url` that /repo/config/query_log.go uses: `url.Parse` up to the user
name and password (library code, not part of /repo; Go 1.24 `net/url/url.go`).

The host, path, query and fragment are only looked at for errors.  Zones of IPv6 addresses (`%25` inside
brackets) are left out: the model treats them like other text of the host.
-/
import Verif.Model.UpstreamUrl

namespace Verif.Url
open UpstreamUrl (cutFirst cutLast)

/-- ASCII letters. -/
def isLetter (c : Char) : Bool :=
  ('a'.toNat ≤ c.toNat && c.toNat ≤ 'z'.toNat) || ('A'.toNat ≤ c.toNat && c.toNat ≤ 'Z'.toNat)

/-- ASCII digits. -/
def isDigit (c : Char) : Bool := '0'.toNat ≤ c.toNat && c.toNat ≤ '9'.toNat

/-- `ishex`. -/
def isHex (c : Char) : Bool :=
  isDigit c || ('a'.toNat ≤ c.toNat && c.toNat ≤ 'f'.toNat) || ('A'.toNat ≤ c.toNat && c.toNat ≤ 'F'.toNat)

/-- `unhex`. -/
def unhex (c : Char) : Nat := (digitVal c).getD 0

/-- `stringContainsCTLByte`, for one byte. -/
def isCtl (c : Char) : Bool := c.toNat < 32 || c.toNat == 127

/-- `getScheme`, after the bytes `pre` (reversed) of `raw`; `none` is the error "missing protocol scheme". -/
def getSchemeLoop (raw : Str) : Str → Str → Option (Str × Str)
  | _, [] => some ([], raw)
  | pre, c :: cs =>
    if isLetter c then getSchemeLoop raw (c :: pre) cs
    else if isDigit c || c == '+' || c == '-' || c == '.' then
      if pre = [] then some ([], raw) else getSchemeLoop raw (c :: pre) cs
    else if c = ':' then if pre = [] then none else some (pre.reverse, cs)
    else some ([], raw)

/-- `getScheme`: the scheme and what follows its colon. -/
def getScheme (raw : Str) : Option (Str × Str) := getSchemeLoop raw [] raw

/-- Bytes that may stand in a host as they are (`shouldEscape` in mode `encodeHost`; bytes from 128 are let
through by `unescape`). -/
def isHostChar (c : Char) : Bool :=
  isLetter c || isDigit c || (str! "-_.~!$&'()*+,;=:[]<>\"").contains c || decide (128 ≤ c.toNat)

/-- `unescape` in the modes without host rules (`encodePath`, `encodeUserPassword`, `encodeFragment`);
`none` is an `EscapeError`. -/
def unescape : Str → Option Str
  | [] => some []
  | '%' :: h :: l :: cs =>
    if isHex h && isHex l then
      match unescape cs with
      | some r => some (Char.ofNat (unhex h * 16 + unhex l) :: r)
      | none => none
    else none
  | c :: cs =>
    if c = '%' then none
    else match unescape cs with
      | some r => some (c :: r)
      | none => none

/-- `unescape` in mode `encodeHost`: does it succeed? -/
def hostOK : Str → Bool
  | [] => true
  | '%' :: h :: l :: cs =>
    isHex h && isHex l && (decide (8 ≤ unhex h) || (h == '2' && l == '5')) && hostOK cs
  | c :: cs => c != '%' && isHostChar c && hostOK cs

/-- `validOptionalPort`. -/
def validOptionalPort : Str → Bool
  | [] => true
  | c :: cs => c == ':' && cs.all isDigit

/-- `parseHost`: does it succeed? -/
def parseHost (host : Str) : Bool :=
  match host with
  | '[' :: _ =>
    match cutLast ']' host with
    | none => false
    | some (_, colonPort) => validOptionalPort colonPort && hostOK host
  | _ =>
    match cutLast ':' host with
    | some (_, port) => validOptionalPort (':' :: port) && hostOK host
    | none => hostOK host

/-- `validUserinfo`, for one byte. -/
def isUserinfoChar (c : Char) : Bool :=
  isLetter c || isDigit c || (str! "-._:~!$&'()*+,;=%@").contains c

/-- `Userinfo`: the user name and, if there is one, the password. -/
abbrev User := Str × Option Str

/-- `parseAuthority`: `none` is an error, `some none` no user. -/
def parseAuthority (authority : Str) : Option (Option User) :=
  match cutLast '@' authority with
  | none => if parseHost authority then some none else none
  | some (userinfo, host) =>
    if !parseHost host then none
    else if !userinfo.all isUserinfoChar then none
    else match cutFirst ':' userinfo with
      | none =>
        match unescape userinfo with
        | some u => some (some (u, none))
        | none => none
      | some (u, p) =>
        match unescape u, unescape p with
        | some u, some p => some (some (u, some p))
        | _, _ => none

/-- `parse`, the part after the scheme and the query: authority and path. -/
def parseRest (scheme rest : Str) : Option (Option User) :=
  match rest with
  | '/' :: '/' :: more =>
    if scheme ≠ [] ∨ ¬ ['/'].isPrefixOf more then
      match cutFirst '/' more with
      | some (authority, path) =>
        match parseAuthority authority with
        | none => none
        | some u => if (unescape ('/' :: path)).isSome then some u else none
      | none => parseAuthority more
    else if (unescape rest).isSome then some none else none
  | '/' :: _ => if (unescape rest).isSome then some none else none
  | _ =>
    if scheme ≠ [] then some none
    else if (match cutFirst '/' rest with | some (segment, _) => segment | none => rest).contains ':' then none
    else if (unescape rest).isSome then some none else none

/-- `parse`: the query is everything after the first question mark. -/
def dropQuery (s : Str) : Str := match cutFirst '?' s with | some (a, _) => a | none => s

/-- `parse` -/
def parseNoFragment (raw : Str) : Option (Option User) :=
  if raw.any isCtl then none
  else if raw = ['*'] then some none
  else match getScheme raw with
    | none => none
    | some (scheme, rest) =>
      parseRest scheme (dropQuery rest)

/-- `url.Parse`: `none` is an error, otherwise the user of the URL. -/
def parse (raw : Str) : Option (Option User) :=
  match cutFirst '#' raw with
  | none => parseNoFragment raw
  | some (u, fragment) =>
    match parseNoFragment u with
    | none => none
    | some user => if (unescape fragment).isSome then some user else none

/-- Go `strings.Contains`. -/
def contains (p : Str) : Str → Bool
  | [] => p.isPrefixOf []
  | c :: cs => p.isPrefixOf (c :: cs) || contains p cs

/-- Go `strings.ReplaceAll` for a non-empty `old`, after a match of which `skip` bytes are left. -/
def replaceFrom (old new : Str) : Nat → Str → Str
  | _, [] => []
  | skip + 1, _ :: cs => replaceFrom old new skip cs
  | 0, c :: cs =>
    if old.isPrefixOf (c :: cs) then new ++ replaceFrom old new (old.length - 1) cs
    else c :: replaceFrom old new 0 cs

/-- Go `strings.ReplaceAll`; an empty `old` matches before every character and at the end. -/
def replaceAll (s old new : Str) : Str :=
  if old = [] then new ++ s.flatMap (fun c => c :: new) else replaceFrom old new 0 s

end Verif.Url
