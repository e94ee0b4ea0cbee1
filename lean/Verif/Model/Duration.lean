/-
Durations: how they are written, read and sent.

* Go `time.ParseDuration` and `time.Duration.String` (standard library, `time/format.go` and
  `time/time.go`), used by the API, by the command line and by the configuration.
* The configuration's own duration type (/repo/config/duration.go).
* The `blocking disable` command of the command line and the API call that receives it
  (/repo/cmd/blocking.go, /repo/api/api_interface_impl.go).

A duration is a number of nanoseconds in a signed 64 bit integer: an `Int`, with explicit wrapping
where Go wraps. Text is a list of bytes.
-/
import Verif.Base.Num

namespace Verif.Duration

/-- Is the byte a decimal digit? (Go `'0' <= c && c <= '9'`.) -/
def isDigit (c : Char) : Bool := decide ('0'.toNat ≤ c.toNat ∧ c.toNat ≤ '9'.toNat)

/-- The value of a decimal digit (Go `uint64(c) - '0'`). -/
def digit (c : Char) : Nat := c.toNat - '0'.toNat

/-- Go `time.leadingInt` (time/format.go), continuing from `x`: consumes the leading digits; `none` is
the overflow error. -/
def leadingInt : Nat → Str → Option (Nat × Str)
  | x, [] => some (x, [])
  | x, c :: cs =>
    if isDigit c then
      if x > 2 ^ 63 / 10 then none
      else if x * 10 + digit c > 2 ^ 63 then none
      else leadingInt (x * 10 + digit c) cs
    else some (x, c :: cs)

/-- Go `time.leadingFraction` (time/format.go), continuing from `x` and `scale`: consumes the leading
digits; once a further digit would not fit (`overflow`), the remaining digits are skipped. -/
def leadingFraction : Bool → Nat → Nat → Str → Nat × Nat × Str
  | _, x, scale, [] => (x, scale, [])
  | overflow, x, scale, c :: cs =>
    if isDigit c then
      if overflow then leadingFraction true x scale cs
      else if x > (2 ^ 63 - 1) / 10 then leadingFraction true x scale cs
      else if x * 10 + digit c > 2 ^ 63 then leadingFraction true x scale cs
      else leadingFraction false (x * 10 + digit c) (scale * 10) cs
    else (x, scale, c :: cs)

/-- The two bytes of the micro sign U+00B5. -/
def microSign : Str := [Char.ofNat 0xC2, Char.ofNat 0xB5]

/-- The two bytes of the Greek letter mu U+03BC. -/
def greekMu : Str := [Char.ofNat 0xCE, Char.ofNat 0xBC]

/-- Go `time.unitMap` (time/format.go): nanoseconds per unit. -/
def unitOf (u : Str) : Option Nat :=
  if u = str! "ns" then some 1
  else if u = str! "us" then some 1000
  else if u = microSign ++ str! "s" then some 1000
  else if u = greekMu ++ str! "s" then some 1000
  else if u = str! "ms" then some 1000000
  else if u = str! "s" then some 1000000000
  else if u = str! "m" then some 60000000000
  else if u = str! "h" then some 3600000000000
  else none

/-- Does the byte belong to a unit? The unit ends at the next `.` or digit. -/
def isUnitChar (c : Char) : Bool := !(decide (c = '.') || isDigit c)

/-- The fraction after the digits of the integer part: value, scale, whether any digit was there, and
the rest (`time.ParseDuration`, the part `Consume (\.[0-9]*)?`). -/
def fraction : Str → Nat × Nat × Bool × Str
  | '.' :: cs =>
    let r := leadingFraction false 0 1 cs
    (r.1, r.2.1, decide (r.2.2.length ≠ cs.length), r.2.2)
  | s => (0, 1, false, s)

/-- One round of the loop of `time.ParseDuration`: a number with a unit, in nanoseconds. Go computes
the part after the decimal point in floating point (`float64(f) * (float64(unit) / scale)`), the model
exactly; the two agree whenever `unit / scale` and the product are exact in a `float64`, in particular for
everything `Duration.String` prints. -/
def component (s : Str) : Option (Nat × Str) :=
  match s with
  | [] => none
  | c :: _ =>
    if c = '.' || isDigit c then
      match leadingInt 0 s with
      | none => none
      | some (v, s1) =>
        let pre := decide (s1.length ≠ s.length)
        let (f, scale, post, s2) := fraction s1
        if !pre && !post then none
        else
          let u := s2.takeWhile isUnitChar
          if u = [] then none
          else match unitOf u with
            | none => none
            | some unit =>
              if v > 2 ^ 63 / unit then none
              else
                let w := v * unit + (if f > 0 then f * unit / scale else 0)
                if w > 2 ^ 63 then none else some (w, s2.dropWhile isUnitChar)
    else none

/-- The loop of `time.ParseDuration`, with the sum so far (an unsigned 64 bit integer). The first
argument bounds the rounds: every round consumes at least one byte, so that the length is enough. -/
def components : Nat → Nat → Str → Option Nat
  | _, d, [] => some d
  | 0, _, _ :: _ => none
  | n + 1, d, s@(_ :: _) =>
    match component s with
    | none => none
    | some (v, rest) =>
      if (d + v) % 2 ^ 64 > 2 ^ 63 then none else components n ((d + v) % 2 ^ 64) rest

/-- The part of `time.ParseDuration` after the sign. -/
def parseUnsigned (neg : Bool) (s : Str) : Option Int :=
  if s = str! "0" then some 0
  else if s = [] then none
  else match components s.length 0 s with
    | none => none
    | some d =>
      if neg then some (-(d : Int))
      else if d > 2 ^ 63 - 1 then none else some d

/-- Go `time.ParseDuration` (time/format.go); `none` is an error. -/
def parse : Str → Option Int
  | '-' :: s => parseUnsigned true s
  | '+' :: s => parseUnsigned false s
  | s => parseUnsigned false s

/-- The byte of a decimal digit. -/
def digitChar (d : Nat) : Char := Char.ofNat ('0'.toNat + d)

/-- Go `time.fmtInt` (time/time.go): a number in decimal, in front of `acc`. -/
def fmtIntLoop : Nat → Nat → Str → Str
  | 0, _, acc => acc
  | n + 1, v, acc => if v = 0 then acc else fmtIntLoop n (v / 10) (digitChar (v % 10) :: acc)

/-- Go `time.fmtInt` (time/time.go). -/
def fmtInt (v : Nat) (acc : Str) : Str :=
  if v = 0 then '0' :: acc else fmtIntLoop (v + 1) v acc

/-- The loop of Go `time.fmtFrac` (time/time.go): the last `prec` digits of `v`, without trailing zeros
(`print` is set once a digit other than zero was seen). -/
def fmtFracLoop : Nat → Nat → Bool → Str → Bool × Str × Nat
  | 0, v, print, acc => (print, acc, v)
  | n + 1, v, print, acc =>
    let print' := print || decide (v % 10 ≠ 0)
    fmtFracLoop n (v / 10) print' (if print' then digitChar (v % 10) :: acc else acc)

/-- Go `time.fmtFrac` (time/time.go): the text and `v / 10^prec`. -/
def fmtFrac (v prec : Nat) (acc : Str) : Str × Nat :=
  let r := fmtFracLoop prec v false acc
  (if r.1 then '.' :: r.2.1 else r.2.1, r.2.2)

/-- The part of Go `time.Duration.format` (time/time.go) without the sign. -/
def showUnsigned (u : Nat) : Str :=
  if u < 1000000000 then
    if u = 0 then str! "0s"
    else if u < 1000 then
      let r := fmtFrac u 0 (str! "ns")
      fmtInt r.2 r.1
    else if u < 1000000 then
      let r := fmtFrac u 3 (microSign ++ str! "s")
      fmtInt r.2 r.1
    else
      let r := fmtFrac u 6 (str! "ms")
      fmtInt r.2 r.1
  else
    let r := fmtFrac u 9 (str! "s")
    let secs := fmtInt (r.2 % 60) r.1
    let m := r.2 / 60
    if m > 0 then
      let mins := fmtInt (m % 60) ('m' :: secs)
      let h := m / 60
      if h > 0 then fmtInt h ('h' :: mins) else mins
    else secs

/-- Go `time.Duration.String` (time/time.go). -/
def «show» (d : Int) : Str :=
  if d < 0 then '-' :: showUnsigned d.natAbs else showUnsigned d.natAbs

/-- A value in a signed 64 bit integer. -/
def wrap64 (v : Int) : Int := (v + 2 ^ 63) % 2 ^ 64 - 2 ^ 63

/-- The part of Go `strconv.Atoi` after the sign: the value of a string of digits. -/
def atoiDigits (s : Str) : Option Nat :=
  if s ≠ [] ∧ s.all isDigit then some (s.foldl (fun a c => a * 10 + digit c) 0) else none

/-- Go `strconv.Atoi` with a 64 bit `int`: `none` is an error (syntax or range). -/
def atoi : Str → Option Int
  | '-' :: s => match atoiDigits s with
    | some v => if v ≤ 2 ^ 63 then some (-(v : Int)) else none
    | none => none
  | '+' :: s => match atoiDigits s with
    | some v => if v < 2 ^ 63 then some v else none
    | none => none
  | s => match atoiDigits s with
    | some v => if v < 2 ^ 63 then some v else none
    | none => none

/-- `Duration.UnmarshalText` (/repo/config/duration.go 45-65): a number without a unit is minutes, the
product in a 64 bit integer; everything else goes to `time.ParseDuration`. -/
def unmarshal (input : Str) : Option Int :=
  match atoi input with
  | some minutes => some (wrap64 (minutes * 60000000000))
  | none => parse input

/-- The replacement that the deprecation warning recommends for a number without a unit
(/repo/config/duration.go 52: `Please use '%s min' instead.`). -/
def recommended (input : Str) : Str := input ++ str! " min"

/-- What `blocky blocking disable` sends (/repo/cmd/blocking.go 68-83): the texts of the parameters
`duration` and `groups`. (The HTTP client escapes them and the server undoes it; not modelled.) -/
def cliDisable (duration : Int) (groups : List Str) : Str × Str :=
  («show» duration, joinChar ',' groups)

/-- What the API makes of a call to disable blocking. -/
inductive ApiDisable where
  /-- status 400, blocking is not touched -/
  | badRequest
  /-- `BlockingControl.DisableBlocking` is called with this duration and these groups (none: all) -/
  | disable (duration : Int) (groups : List Str)
  deriving DecidableEq, Repr

/-- The duration of a call to disable blocking (/repo/api/api_interface_impl.go 99-104): missing means
zero; `none` is an error. -/
def apiDuration : Option Str → Option Int
  | none => some 0
  | some s => parse s

/-- `OpenAPIInterfaceImpl.DisableBlocking` (/repo/api/api_interface_impl.go 90-118) up to the call of the
blocking control; a parameter that is missing is `none`. -/
def apiDisable (duration groups : Option Str) : ApiDisable :=
  match apiDuration duration with
  | none => .badRequest
  | some d =>
    match groups with
    | some g => if g.length > 0 then .disable d (splitChar ',' g) else .disable d []
    | none => .disable d []

end Verif.Duration
