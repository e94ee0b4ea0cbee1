/-
Model of the time a download may take (/repo/lists/downloader.go 46-112 with Go's HTTP client): the timeout counts from the
start of an attempt and covers the body too, which is read after `DownloadFile` has returned
(/repo/lists/list_cache.go 231-262).

Times are nanoseconds. Redirects are part of an attempt.
-/
import Verif.Model.Loading
import Verif.Model.ListCache

namespace Verif.Download

/-- config/config.go 407-414 `Downloader`; durations may be negative. -/
structure Downloader where
  timeout : Int := 5000000000
  readTimeout : Int := 20000000000
  readHeaderTimeout : Int := 20000000000
  writeTimeout : Int := 20000000000
  attempts : Nat := 3
  cooldown : Int := 500000000
  deriving DecidableEq, Repr

/-- net/http: a deadline exists if the timeout is positive (`Client.deadline`, `conn.readRequest`). -/
def expired (timeout : Int) (elapsed : Nat) : Bool := decide (0 < timeout) && decide (timeout ≤ (elapsed : Int))

/-- What a web server sends for one request: status and header after a time, then the body in pieces, each after a time (all
times since the start of the attempt), and whether the end of the body comes, and when. -/
structure Transfer where
  status : Nat
  header : Nat
  pieces : List (Nat × Str)
  over : Nat
  deriving DecidableEq, Repr

/-- What the client reads of the body before the deadline (http.Client.Timeout: "the timer remains running after Get, Do
return and will interrupt reading of the body"). -/
def body (timeout : Int) (t : Transfer) : Parsers.Source where
  content := (t.pieces.takeWhile (fun p => !expired timeout p.1)).flatMap (·.2)
  readError := t.pieces.any (fun p => expired timeout p.1) || expired timeout t.over

/-- What an attempt gives to the function that is retried (downloader.go 60-86). -/
def attempt (timeout : Int) (t : Transfer) : Loading.Attempt :=
  if expired timeout t.header then .timeout else .response t.status (t.pieces.flatMap (·.2))

/-- sourcereader.go 51-54 with downloader.go 46-112: opening a source that is downloaded, where attempt `i` is served as
`ts i`; `none`: not over after `k` rounds. -/
def openSource (d : Downloader) (ts : Nat → Transfer) (k : Nat) : Option Lists.SourceState :=
  let r := Loading.Download.run d.attempts d.cooldown (fun i => attempt d.timeout (ts i)) k
  match r.result with
  | none => none
  | some (.ok _) => some (.opened (body d.timeout (ts r.n)))
  | some (.error .transient) => some (.openFails .transient)
  | some (.error _) => some (.openFails .other)

end Verif.Download
