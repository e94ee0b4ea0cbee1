/-
Model of the HTTP server around the handlers (/repo/server/http.go): the headers that its middleware sets, requests from
web pages of other origins, and the timeouts.

Of the libraries the model contains: `cors.Handler` of github.com/go-chi/cors v1.2.1 (cors.go `Handler`,
`handlePreflight`, `handleActualRequest`), the deadlines of Go's net/http (server.go `conn.readRequest`,
`conn.serve`), and the part of the Fetch standard (sections 3.2, 4.8, 4.10) by which a browser decides what it sends for a
page and what it lets the page see. Times are nanoseconds. Replies are small enough for the buffers of net/http, so that
they are written when the handler has ended. When the read deadline passes while a handler runs, net/http cancels the
context of the request; the handlers of the model do not look at the context. A body that comes too late makes the
handlers that read it answer 400.
-/
import Verif.Model.Cli
import Verif.Model.Download

namespace Verif.Web
open Download (Downloader expired)

/-! ### Headers -/

/-- The headers of a reply, with canonical names. -/
abbrev Headers := List (Str × Str)

/-- Go `http.Header.Get`: the first value of that name, empty if there is none. -/
def header (h : Headers) (name : Str) : Str := ((h.find? (fun e => e.1 == name)).map (·.2)).getD []

/-- Go `http.Header.Set`. -/
def setHeader (h : Headers) (name value : Str) : Headers := h.filter (fun e => e.1 != name) ++ [(name, value)]

/-- Go `http.Header.Add`. -/
def addHeader (h : Headers) (name value : Str) : Headers := h ++ [(name, value)]

/-- What the middleware looks at of a request: whether it came over TLS, the method, and the headers `Origin`,
`Access-Control-Request-Method` (empty: missing) and `Access-Control-Request-Headers` (the names in it in canonical
form). -/
structure Envelope where
  tls : Bool
  method : Str
  origin : Str := []
  askedMethod : Str := []
  askedHeaders : List Str := []
  deriving DecidableEq, Repr

/-- server/http.go 73-84 `secureHeadersMiddleware`. -/
def secureHeaders (e : Envelope) (h : Headers) : Headers :=
  if e.tls then
    setHeader (setHeader (setHeader (setHeader h (str! "Strict-Transport-Security") (str! "max-age=63072000"))
      (str! "X-Frame-Options") (str! "DENY"))
      (str! "X-Content-Type-Options") (str! "nosniff"))
      (str! "X-Xss-Protection") (str! "1; mode=block")
  else h

/-- The options (server/http.go 89-96), as far as the code below looks at them. -/
structure CorsOptions where
  allowCredentials : Bool := true
  allowedHeaders : List Str := [str! "Accept", str! "Authorization", str! "Content-Type", str! "X-Csrf-Token"]
  allowedMethods : List Str := [str! "GET", str! "POST"]
  allowedOrigins : List Str := [str! "*"]
  exposedHeaders : List Str := [str! "Link"]
  maxAge : Nat := 300

/-- cors.go `isOriginAllowed`, for a list without other wildcards; `New` notes whether it contains `*`. Origins are
compared in lower case. -/
def originAllowed (o : CorsOptions) (origin : Str) : Bool :=
  decide (str! "*" ∈ o.allowedOrigins) || o.allowedOrigins.any (fun x => lower x == lower origin)

/-- ASCII upper case (`strings.ToUpper`). -/
def upper (s : Str) : Str := s.map Char.toUpper

/-- cors.go `isMethodAllowed`. -/
def methodAllowed (o : CorsOptions) (method : Str) : Bool :=
  upper method == str! "OPTIONS" || o.allowedMethods.any (fun m => upper m == upper method)

/-- cors.go `areHeadersAllowed`; `New` adds `Origin` to the list. -/
def headersAllowed (o : CorsOptions) (names : List Str) : Bool :=
  names.all (fun n => decide (n ∈ o.allowedHeaders ++ [str! "Origin"]))

/-- Go `strings.Join(…, ", ")`. -/
def commaList : List Str → Str
  | [] => []
  | [s] => s
  | s :: t :: ss => s ++ str! ", " ++ commaList (t :: ss)

/-- The value of `Access-Control-Allow-Origin` (cors.go `allowedOriginsAll`). -/
def originValue (o : CorsOptions) (origin : Str) : Str :=
  if str! "*" ∈ o.allowedOrigins then str! "*" else origin

/-- cors.go `handlePreflight`. -/
def preflightHeaders (o : CorsOptions) (e : Envelope) (h : Headers) : Headers :=
  let h := addHeader (addHeader (addHeader h (str! "Vary") (str! "Origin")) (str! "Vary") (str! "Access-Control-Request-Method"))
    (str! "Vary") (str! "Access-Control-Request-Headers")
  if e.origin = [] ∨ originAllowed o e.origin = false ∨ methodAllowed o e.askedMethod = false ∨
      headersAllowed o e.askedHeaders = false then h
  else
    let h := setHeader h (str! "Access-Control-Allow-Origin") (originValue o e.origin)
    let h := setHeader h (str! "Access-Control-Allow-Methods") (upper e.askedMethod)
    let h := if e.askedHeaders = [] then h else setHeader h (str! "Access-Control-Allow-Headers") (commaList e.askedHeaders)
    let h := if o.allowCredentials then setHeader h (str! "Access-Control-Allow-Credentials") (str! "true") else h
    if 0 < o.maxAge then setHeader h (str! "Access-Control-Max-Age") (Nat.toDigits 10 o.maxAge) else h

/-- cors.go `handleActualRequest`. -/
def actualHeaders (o : CorsOptions) (e : Envelope) (h : Headers) : Headers :=
  let h := addHeader h (str! "Vary") (str! "Origin")
  if e.origin = [] ∨ originAllowed o e.origin = false ∨ methodAllowed o e.method = false then h
  else
    let h := setHeader h (str! "Access-Control-Allow-Origin") (originValue o e.origin)
    let h := if o.exposedHeaders = [] then h else setHeader h (str! "Access-Control-Expose-Headers") (commaList o.exposedHeaders)
    if o.allowCredentials then setHeader h (str! "Access-Control-Allow-Credentials") (str! "true") else h

/-- What comes back: an answer of the middleware itself (status 200, no body), or that of the handler. -/
inductive Served (R : Type) where
  | preflight
  | handled (r : R)
  deriving DecidableEq, Repr

/-- server/http.go 55-69 `withCommonMiddleware` with 86-99 `newCORSMiddleware` around a handler, for a request with the content
`p`. The headers are those set before the handler runs; the handlers set only content type and cache control (DoH) besides
them. -/
def serve {P R W : Type} (handler : P → W → R × W) (e : Envelope) (p : P) (w : W) : Headers × Served R × W :=
  let h := secureHeaders e []
  if e.method = str! "OPTIONS" ∧ e.askedMethod ≠ [] then (preflightHeaders {} e h, .preflight, w)
  else
    let r := handler p w
    (actualHeaders {} e h, .handled r.1, r.2)

/-! ### Browsers -/

/-- What a web page asks the browser to send: the method, the content type of the body, further headers (canonical names),
whether the user's credentials go with it. -/
structure Fetch where
  method : Str
  contentType : Option Str := none
  headers : List Str := []
  credentials : Bool := false
  deriving DecidableEq, Repr

/-- Fetch standard, 2.2.2: content types that need no preflight request. -/
def safelistedType (t : Str) : Bool :=
  decide (t ∈ [str! "application/x-www-form-urlencoded", str! "multipart/form-data", str! "text/plain"])

/-- Fetch standard, 2.2.2: headers that need no preflight request (`Range` and the size limits are left out). -/
def safelistedHeaders : List Str := [str! "Accept", str! "Accept-Language", str! "Content-Language"]

/-- Fetch standard, 2.2.1: methods that need no preflight request. -/
def safelistedMethods : List Str := [str! "GET", str! "HEAD", str! "POST"]

/-- Fetch standard, 4.8: the headers that the preflight request asks for. -/
def unsafeHeaders (f : Fetch) : List Str :=
  (match f.contentType with
    | some t => if safelistedType t then [] else [str! "Content-Type"]
    | none => []) ++ f.headers.filter (fun n => decide (n ∉ safelistedHeaders))

/-- Fetch standard, 4.3: whether a preflight request is made. -/
def needsPreflight (f : Fetch) : Bool := decide (f.method ∉ safelistedMethods) || !(unsafeHeaders f).isEmpty

/-- Fetch standard, 4.10: the CORS check of a reply. -/
def corsCheck (origin : Str) (credentials : Bool) (h : Headers) : Bool :=
  let allowed := header h (str! "Access-Control-Allow-Origin")
  if credentials then
    decide (allowed = origin ∧ allowed ≠ []) && header h (str! "Access-Control-Allow-Credentials") == str! "true"
  else decide (allowed ≠ [] ∧ (allowed = str! "*" ∨ allowed = origin))

/-- The names of a header value with commas. -/
def namesOf (value : Str) : List Str :=
  (splitChar ',' value).map (fun s => s.dropWhile (· == ' '))

/-- Fetch standard, 4.8: whether the reply (status 200) to the preflight request permits the request. -/
def preflightPasses (origin : Str) (f : Fetch) (h : Headers) : Bool :=
  corsCheck origin f.credentials h &&
  (decide (f.method ∈ safelistedMethods) ||
    decide (f.method ∈ namesOf (header h (str! "Access-Control-Allow-Methods")))) &&
  (unsafeHeaders f).all (fun n => decide (n ∈ namesOf (header h (str! "Access-Control-Allow-Headers"))))

/-- Fetch standard, 4.8: the preflight request. -/
def permission (tls : Bool) (origin : Str) (f : Fetch) : Envelope where
  tls := tls
  method := str! "OPTIONS"
  origin := origin
  askedMethod := f.method
  askedHeaders := unsafeHeaders f

/-- Fetch standard, 4.6: the request itself. -/
def sent (tls : Bool) (origin : Str) (f : Fetch) : Envelope where
  tls := tls
  method := f.method
  origin := origin

/-- A page of another origin has the browser send a request: what the page sees of it (`none`: an error), and the server
afterwards. -/
def browse {P R W : Type} (handler : P → W → R × W) (tls : Bool) (origin : Str) (f : Fetch) (p : P) (w : W) :
    Option R × W :=
  let ready :=
    if needsPreflight f then
      let r := serve handler (permission tls origin f) p w
      (preflightPasses origin f r.1, r.2.2)
    else (true, w)
  if ready.1 then
    match serve handler (sent tls origin f) p ready.2 with
    | (h, .handled r, w) => (if corsCheck origin f.credentials h then some r else none, w)
    | (_, .preflight, w) => (none, w)
  else (none, ready.2)

/-! ### Timeouts -/

/-- The two places of the configuration with downloads: `blocking.loading.downloads`, `hostsFile.loading.downloads`. -/
structure Config where
  blocking : Downloader := {}
  hostsFile : Downloader := {}
  deriving DecidableEq, Repr

/-- The timeouts of an `http.Server`. -/
structure Timeouts where
  read : Int
  readHeader : Int
  write : Int
  deriving DecidableEq, Repr

/-- server/http.go 20-38 `newHTTPServer`. -/
def timeouts (c : Config) : Timeouts where
  read := c.blocking.readTimeout
  readHeader := c.blocking.readHeaderTimeout
  write := c.blocking.writeTimeout

/-- net/http `Server.readHeaderTimeout`. -/
def Timeouts.header (t : Timeouts) : Int := if t.readHeader = 0 then t.read else t.readHeader

/-- How a request comes in, and how long its handler takes: since the server started to wait for it, its headers are
complete after `headers`, its body after `body` more; the handler then takes `handler`. -/
structure Pace where
  headers : Nat
  body : Nat
  handler : Nat
  deriving DecidableEq, Repr

/-- What becomes of a request. -/
inductive Fate where
  /-- the connection is closed before the handler runs -/
  | closed
  /-- the handler ran (`complete`: it could read the whole body), and the reply got through (`delivered`) -/
  | handled (complete delivered : Bool)
  deriving DecidableEq, Repr

/-- net/http `conn.serve`, `conn.readRequest`: the read deadlines count from the start of reading; the write deadline is
set when the headers are read. A handler that waits for a body gets an error at the read deadline. -/
def fate (t : Timeouts) (p : Pace) : Fate :=
  if expired t.header p.headers then .closed
  else if expired t.read (p.headers + p.body) then
    .handled false (!expired t.write (t.read.toNat - p.headers))
  else .handled true (!expired t.write (p.body + p.handler))

/-- The API server at the end of a connection (cmd: `Cli.Peer`): the effect of a request that is handled stays, whether or
not its reply gets through. Only queries have a body that is read. -/
def peer {W : Type} (t : Timeouts) (pace : Cli.Call → Cli.World W → Pace) (c : Blocking.BCfg) (h : Cli.Controls W)
    (call : Cli.Call) (w : Cli.World W) : Option Cli.Reply × Cli.World W :=
  match fate t (pace call w) with
  | .closed => (none, w)
  | .handled complete delivered =>
    let r := Cli.serve c h (if complete then call else { call with body := none }) w
    (if delivered then some r.1 else none, r.2)

end Verif.Web
