/-
Model of the command line (/repo/cmd/root.go, blocking.go, lists.go, cache.go, query.go, healthcheck.go,
serve.go, validate.go, version.go) together with the HTTP client and the HTTP server of the API that lie
between a command and the server (/repo/api/api_client.gen.go, api_server.gen.go, api_interface_impl.go).

Of cobra the model contains the search for the command, the hooks that run before it and the check of the
arguments (`Command.Find`, `legacyArgs`, `execute`, `ExecuteC`). Flags are taken out of the words before and given
as values. The escaping of parameters in URLs and JSON are undone by the receiver and not modelled.
-/
import Verif.Model.BlockingStatus
import Verif.Model.ConfigFiles
import Verif.Model.Duration

namespace Verif.Cli
open ConfigFiles

/-! ### The tree of commands -/

/-- What a command runs. -/
inductive Action where
  | serve | refresh | query | version | enable | disable | status | healthcheck | flush | validate
  deriving DecidableEq, Repr

/-- How many arguments a command takes. -/
inductive Args where
  | none | exactly (n : Nat) | any
  deriving DecidableEq, Repr

/-- Does the command take this number of arguments? -/
def Args.ok : Args → Nat → Bool
  | .none, n => decide (n = 0)
  | .exactly k, n => decide (n = k)
  | .any, _ => true

/-- A command below another one. -/
structure Sub where
  names : List Str
  args : Args
  action : Action

/-- A command below `blocky`. `hook`: its `PersistentPreRunE` is `initConfigPreRun`; `action`: its `RunE`, if it has
one. -/
structure Top where
  names : List Str
  hook : Bool
  args : Args
  action : Option Action
  subs : List Sub

/-- lists.go 24-30 `newRefreshCommand`, below `lists`. -/
def refreshSub : Sub := ⟨[str! "refresh"], .any, .refresh⟩

/-- root.go 51-59: the commands. refresh (lists.go 24-30), query.go 15-27, version.go, serve.go 27-36,
blocking.go 14-47, lists.go 12-22, healthcheck.go 16-27, cache.go 11-26, validate.go 13-20. -/
def tops : List Top :=
  [⟨[str! "refresh"], false, .any, some .refresh, []⟩,
   ⟨[str! "query"], true, .exactly 1, some .query, []⟩,
   ⟨[str! "version"], false, .none, some .version, []⟩,
   ⟨[str! "serve"], true, .none, some .serve, []⟩,
   ⟨[str! "blocking", str! "block"], true, .any, none,
    [⟨[str! "enable", str! "on"], .none, .enable⟩,
     ⟨[str! "disable", str! "off"], .none, .disable⟩,
     ⟨[str! "status"], .none, .status⟩]⟩,
   ⟨[str! "lists"], true, .any, none, [refreshSub]⟩,
   ⟨[str! "healthcheck"], false, .any, some .healthcheck, []⟩,
   ⟨[str! "cache"], true, .any, none, [⟨[str! "flush", str! "clear"], .none, .flush⟩]⟩,
   ⟨[str! "validate"], false, .none, some .validate, []⟩]

/-- What cobra makes of the words on the command line. -/
inductive Found where
  /-- an error before anything runs -/
  | wrong
  /-- a command without `RunE`: the help is printed -/
  | help
  /-- the command; `hook`: `initConfigPreRun` runs before it -/
  | run (action : Action) (hook : Bool) (args : List Str)
  deriving DecidableEq, Repr

/-- A command that runs, after the check of its arguments. cobra runs the `PersistentPreRunE` of the nearest command
on the way to the root (`execute`); the root has a `PreRunE` (root.go 40), which is run for itself only. -/
def runnable (action : Action) (hook : Bool) (args : Args) (rest : List Str) : Found :=
  if args.ok rest.length then .run action hook rest else .wrong

/-- The command for the words (cobra `Find`, `legacyArgs` and `execute`). Only the root refuses words it does not
know; a command with subcommands takes them for arguments and, without a `RunE`, prints its help. -/
def find : List Str → Found
  | [] => .run .serve true []
  | word :: words =>
    match tops.find? (fun t => t.names.contains word) with
    | none => .wrong
    | some top =>
      match words with
      | [] =>
        match top.action with
        | some a => runnable a top.hook top.args []
        | none => .help
      | sub :: rest =>
        match top.subs.find? (fun s => s.names.contains sub) with
        | some s => runnable s.action top.hook s.args rest
        | none =>
          match top.action with
          | some a => runnable a top.hook top.args (sub :: rest)
          | none => .help

/-! ### HTTP -/

/-- The request a command makes: method, path, the parameters `duration` and `groups`, and the body (query and type)
of a query. -/
structure Call where
  method : Str
  path : Str
  duration : Option Str := none
  groups : Option Str := none
  body : Option (Str × Str) := none
  deriving DecidableEq, Repr

/-- api_types.gen.go `ApiBlockingStatus`: what is left out of the JSON text is `none`. -/
structure ApiStatus where
  autoEnableInSec : Option Int
  disabledGroups : Option (List Str)
  enabled : Bool
  deriving DecidableEq, Repr

/-- api_types.gen.go `ApiQueryResult`. -/
structure ApiResult where
  reason : Str
  response : Str
  responseType : Str
  returnCode : Str
  deriving DecidableEq, Repr

/-- The body of an HTTP reply: a JSON object that can be read as a status or as a result, or other text. -/
inductive Body where
  | status (s : ApiStatus)
  | result (r : ApiResult)
  | text (t : Str)
  deriving DecidableEq, Repr

/-- An HTTP reply: the status, whether the content type contains `json`, the body. -/
structure Reply where
  code : Nat
  json : Bool
  body : Body
  deriving DecidableEq, Repr

/-- api_client.gen.go 197-413: method and path. `NewClient` (81-99) makes the server URL end in a slash and the
paths of the operations are relative to it. -/
def clientCall (op : Str) (method : Str) : Call := { method := method, path := str! "/api/" ++ op }

/-! ### The server -/

/-- The answer of the handler of a query (api_interface_impl.go 155-183). -/
inductive QueryReply where
  | badRequest (text : Str)
  | serverError (text : Str)
  | ok (r : ApiResult)

/-- What the API controls besides blocking (api_interface_impl.go 48-58): `RefreshLists` (with the text of its error),
`FlushCaches`, `Query`. -/
structure Controls (W : Type) where
  refresh : W → Option Str × W
  flush : W → W
  query : Str → Str → W → QueryReply × W

/-- The server: the state of blocking and everything else. -/
structure World (W : Type) where
  blocking : Blocking.TState
  rest : W

/-- api_server.gen.go 307-322 with the base URL `/api` (api_interface_impl.go 63). -/
inductive Route where
  | disable | enable | status | flush | refresh | query
  deriving DecidableEq, Repr

/-- api_server.gen.go 307-322. `none`: another path, or another method. -/
def route (call : Call) : Option Route :=
  if call.method = str! "GET" ∧ call.path = str! "/api/blocking/disable" then some .disable
  else if call.method = str! "GET" ∧ call.path = str! "/api/blocking/enable" then some .enable
  else if call.method = str! "GET" ∧ call.path = str! "/api/blocking/status" then some .status
  else if call.method = str! "POST" ∧ call.path = str! "/api/cache/flush" then some .flush
  else if call.method = str! "POST" ∧ call.path = str! "/api/lists/refresh" then some .refresh
  else if call.method = str! "POST" ∧ call.path = str! "/api/query" then some .query
  else none

/-- A reply without JSON. -/
def plain (code : Nat) (text : Str) : Reply := ⟨code, false, .text text⟩

/-- api_interface_impl.go 127-146 `BlockingStatus`. -/
def apiStatus (r : Blocking.Report) : ApiStatus where
  enabled := r.enabled
  autoEnableInSec := if r.autoEnableInSec > 0 then some r.autoEnableInSec else none
  disabledGroups := if r.disabledGroups.length > 0 then some r.disabledGroups else none

/-- The HTTP server with the handlers of api_interface_impl.go 90-192. The texts of the errors of `DisableBlocking` are
left out. An unknown path or method gets 404 here (chi answers 405 for a known path with another method). -/
def serve {W : Type} (c : Blocking.BCfg) (h : Controls W) (call : Call) (w : World W) : Reply × World W :=
  match route call with
  | none => (plain 404 [], w)
  | some .disable =>
    match Duration.apiDisable call.duration call.groups with
    | .badRequest => (plain 400 [], w)
    | .disable d gs =>
      let r := Blocking.internalDisable c w.blocking d gs
      (if r.2 then plain 200 [] else plain 400 [], { w with blocking := r.1 })
  | some .enable => (plain 200 [], { w with blocking := Blocking.internalEnable w.blocking })
  | some .status => (⟨200, true, .status (apiStatus (Blocking.blockingStatus w.blocking))⟩, w)
  | some .flush => (plain 200 [], { w with rest := h.flush w.rest })
  | some .refresh =>
    let r := h.refresh w.rest
    (match r.1 with
      | some text => plain 500 text
      | none => plain 200 [], { w with rest := r.2 })
  | some .query =>
    match call.body with
    | none => (plain 400 [], w)
    | some (q, t) =>
      let r := h.query q t w.rest
      (match r.1 with
        | .badRequest text => plain 400 text
        | .serverError text => plain 500 text
        | .ok x => ⟨200, true, .result x⟩, { w with rest := r.2 })

/-! ### The commands -/

/-- How a command ends: the exit code and what it printed. A panic ends the process with code 2. -/
structure End where
  exit : Nat
  printed : List Str
  deriving DecidableEq, Repr

/-- `main` for a command that returns an error (root.go 111-115). -/
def failed : End := ⟨1, []⟩

/-- A nil pointer. -/
def crashed : End := ⟨2, []⟩

/-- root.go 122-130 `printOkOrError`; no reply: the error of the HTTP client. -/
def printOkOrError : Option Reply → End
  | none => failed
  | some r => if r.code = 200 then ⟨0, [str! "OK"]⟩ else failed

/-- Go `strings.Join(…, "; ")`. -/
def joinSemicolon : List Str → Str
  | [] => []
  | [s] => s
  | s :: t :: ss => s ++ str! "; " ++ joinSemicolon (t :: ss)

/-- Go's `%d`. -/
def decimal (n : Int) : Str := if n < 0 then '-' :: Nat.toDigits 10 n.natAbs else Nat.toDigits 10 n.natAbs

/-- blocking.go 107-119: the line for a status. -/
def statusLine (s : ApiStatus) : Str :=
  if s.enabled then str! "blocking enabled"
  else
    let groupNames := match s.disabledGroups with
      | some gs => joinSemicolon gs
      | none => []
    match s.autoEnableInSec with
    | none => str! "blocking disabled for groups: " ++ groupNames
    | some n =>
      if n = 0 then str! "blocking disabled for groups: " ++ groupNames
      else str! "blocking disabled for groups: '" ++ groupNames ++ str! "', for " ++ decimal n ++ str! " seconds"

/-- blocking.go 87-123 `statusBlocking`, from the reply. `JSON200` is set by api_client.gen.go 700-720 for status 200
with a JSON content type; a body that cannot be read is an error. -/
def statusEnd : Option Reply → End
  | none => failed
  | some r =>
    if r.code = 200 then
      if r.json then
        match r.body with
        | .status s => ⟨0, [statusLine s]⟩
        | _ => failed
      else crashed
    else failed

/-- Go's `%20s`. -/
def pad20 (s : Str) : Str := List.replicate (20 - s.length) ' ' ++ s

/-- query.go 43-61, from the reply: see `statusEnd` (the first line is printed before the crash). -/
def queryEnd (query type : Str) : Option Reply → End
  | none => failed
  | some r =>
    if r.code = 200 then
      if r.json then
        match r.body with
        | .result x =>
          ⟨0, [str! "Query result for '" ++ query ++ str! "' (" ++ type ++ str! "):",
               str! "\treason:        " ++ pad20 x.reason,
               str! "\tresponse type: " ++ pad20 x.responseType,
               str! "\tresponse:      " ++ pad20 x.response,
               str! "\treturn code:   " ++ pad20 x.returnCode]⟩
        | _ => failed
      else { crashed with printed := [str! "Query result for '" ++ query ++ str! "' (" ++ type ++ str! "):"] }
    else failed

/-- The flags: where the API is (root.go 48-49), duration and groups (blocking.go 34-35), type (query.go 23). -/
structure Flags where
  config : Str := defaultConfigPath
  api : ApiAddr := ⟨str! "localhost", 4000⟩
  duration : Int := 0
  groups : List Str := []
  type : Str := str! "A"

/-- The rest of the world as seen by a command: what is behind an authority (`host:port`), and how it changes; `none` is
an error of the HTTP client (nobody listens, …). -/
abbrev Peer (S : Type) := Str → Call → S → Option Reply × S

/-- The commands that talk to the API: the request and what is made of the reply. blocking.go 50-123, lists.go 32-44,
cache.go 28-40, query.go 29-61. `typeOf` is miekg/dns `StringToType`, 0 for names it lacks. `none`: the command
does not talk to the API. -/
def apiCommand (typeOf : Str → Nat) (f : Flags) (args : List Str) : Action → Option (Option (Call × (Option Reply → End)))
  | .enable => some (some (clientCall (str! "blocking/enable") (str! "GET"), printOkOrError))
  | .disable =>
    let texts := Duration.cliDisable f.duration f.groups
    some (some ({ clientCall (str! "blocking/disable") (str! "GET") with
      duration := some texts.1, groups := some texts.2 }, printOkOrError))
  | .status => some (some (clientCall (str! "blocking/status") (str! "GET"), statusEnd))
  | .refresh => some (some (clientCall (str! "lists/refresh") (str! "POST"), printOkOrError))
  | .flush => some (some (clientCall (str! "cache/flush") (str! "POST"), printOkOrError))
  | .query =>
    if typeOf f.type = 0 then some none
    else some (some ({ clientCall (str! "query") (str! "POST") with body := some (args.headD [], f.type) },
      queryEnd (args.headD []) f.type))
  | _ => none

/-- The address of the API a command uses: after `initConfigPreRun` (root.go 68-108) that of the configuration,
otherwise that of the flags; `none` is an error. -/
def addressOf {C : Type} (d : Decoder C) (fs : Str → Root) (env : Env) (hook : Bool) (f : Flags) : Option ApiAddr :=
  if hook then (initConfig d fs env f.config f.api).map (·.2) else some f.api

/-- A run of `blocky` with these words and flags, for the commands that talk to the API. `none`: another command. -/
def blocky {C S : Type} (d : Decoder C) (fs : Str → Root) (env : Env) (typeOf : Str → Nat) (peer : Peer S)
    (words : List Str) (f : Flags) (s : S) : Option (End × S) :=
  match find words with
  | .wrong => some (failed, s)
  | .help => some (⟨0, [str! "Usage:"]⟩, s)
  | .run action hook args =>
    match apiCommand typeOf f args action with
    | none => none
    | some request =>
      match addressOf d fs env hook f with
      | none => some (failed, s)
      | some a =>
        match request with
        | none => some (failed, s)
        | some (call, finish) =>
          let r := peer (apiAuthority a) call s
          some (finish r.1, r.2)

/-- healthcheck.go 29-48: the question it sends over TCP; `id` is the random message id. -/
def healthQuestion (id : Nat) : Dns.Msg := Dns.newMsgWithQuestion id (str! "healthcheck.blocky.") 1

/-- healthcheck.go 29-48, from the reply; the DNS client refuses a message with another id, and that is all. -/
def healthcheck (id : Nat) : Option Dns.Msg → End
  | some r => if r.id = id then ⟨0, [str! "OK"]⟩ else ⟨1, [str! "NOT OK"]⟩
  | none => ⟨1, [str! "NOT OK"]⟩

end Verif.Cli
