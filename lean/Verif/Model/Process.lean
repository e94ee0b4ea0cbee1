/-
Model of the life of the server process: /repo/server/server.go 66-180 (NewServer), 186-260 (servers and listeners),
388-432 (Start, Stop), /repo/server/http.go 43-51, /repo/cmd/serve.go 37-79 and /repo/cmd/root.go 110-115.

Goroutines (one per listener, the one waiting for a signal or an error, the main one) are interleaved as a sequence of
events. The parts of miekg/dns used: `ListenAndServe` fails if the address cannot be bound; `ShutdownContext` fails if the
server has not been started, otherwise it stops accepting queries and waits until those being handled are done; a serve
loop that breaks also waits for them. `http.Server.Close` (called when the context ends, just before the process does)
waits for nothing. Left out: the log, the trigger for printing the configuration, the event bus.
-/
import Verif.Base.Str

namespace Verif.Process

/-- The kinds of listeners. -/
inductive Net where
  | udp | tcp | tcpTls | http | https
  deriving DecidableEq, Repr

/-- A socket listened on. -/
structure Sock where
  net : Net
  addr : Str
  deriving DecidableEq, Repr

/-- config.go 266-271 `Ports`. -/
structure Ports where
  dns : List Str := []
  http : List Str := []
  https : List Str := []
  tls : List Str := []

/-- server.go 186-214 `createServers`. -/
def dnsSocks (p : Ports) : List Sock :=
  p.dns.map (fun a => ⟨.udp, a⟩) ++ p.dns.map (fun a => ⟨.tcp, a⟩) ++ p.tls.map (fun a => ⟨.tcpTls, a⟩)

/-- server.go 216-260 `createHTTPListeners`, and 159-177. -/
def httpSocks (p : Ports) : List Sock :=
  p.http.map (fun a => ⟨.http, a⟩) ++ p.https.map (fun a => ⟨.https, a⟩)

/-- What creating the server depends on: the certificate files, addresses that can be bound, and the rest (bootstrap,
redis, resolvers, API). -/
structure Outside where
  loadCert : Str → Str → Bool
  generateCert : Bool
  binds : Sock → Bool
  rest : Bool

/-- server.go 66-83 `retrieveCertificate`: success. -/
def certificate (o : Outside) (certFile keyFile : Str) : Bool :=
  if certFile = [] && keyFile = [] then o.generateCert else o.loadCert certFile keyFile

/-- A listener: not yet bound, failed to bind, handling queries, told to stop, its loop over. -/
inductive Phase where
  | starting | failed | serving | stopping | ended
  deriving DecidableEq, Repr

structure Srv where
  sock : Sock
  phase : Phase
  /-- queries taken and not yet answered -/
  inflight : Nat := 0
  deriving DecidableEq, Repr

/-- serve.go 63-75: the goroutine that waits for a signal or an error; server.go 421-432 `Stop`. -/
inductive Sup where
  | waiting
  /-- about to shut down the server with this index -/
  | stop (i : Nat)
  /-- in `ShutdownContext` of this server -/
  | drain (i : Nat)
  /-- `done` has been sent; the flag tells whether `Stop` was complete -/
  | finished (stopped : Bool)
  deriving DecidableEq, Repr

structure St where
  dns : List Srv
  http : List Srv
  /-- content of `errChan` -/
  errs : List Sock := []
  /-- content of `signals` -/
  signal : Bool := false
  sup : Sup := .waiting
  /-- serve.go 61 `terminationErr` -/
  terminationErr : Option Sock := none
  /-- exit code of the process -/
  exited : Option Nat := none
  deriving DecidableEq, Repr

/-- server.go 105-180 `NewServer` followed by serve.go 59 `Start`; `none` is an error, the process ends with code 1
(serve.go 54, root.go 112). HTTP addresses are bound here, the DNS addresses later. -/
def start (o : Outside) (certFile keyFile : Str) (p : Ports) : Option St :=
  if (p.https ≠ [] || p.tls ≠ []) && !certificate o certFile keyFile then none
  else if !(httpSocks p).all o.binds then none
  else if !o.rest then none
  else some { dns := (dnsSocks p).map (fun s => ⟨s, .starting, 0⟩), http := (httpSocks p).map (fun s => ⟨s, .serving, 0⟩) }

/-- What can happen. -/
inductive Ev where
  /-- a DNS server has bound its address, or cannot -/
  | bound (i : Nat) | bindFails (i : Nat)
  /-- the loop of a listener ends with an error -/
  | breaks (i : Nat) | httpBreaks (i : Nat)
  /-- a query arrives, or is answered -/
  | query (i : Nat) | answer (i : Nat) | httpQuery (i : Nat) | httpAnswer (i : Nat)
  /-- SIGINT or SIGTERM -/
  | sig
  /-- steps of the supervising goroutine and of the main one -/
  | takeSignal | takeError | shutdown | drained | exit
  deriving DecidableEq, Repr

/-- Change the DNS server with an index, if it satisfies a condition. -/
def onSrv (l : List Srv) (i : Nat) (cond : Srv → Bool) (f : Srv → Srv) : Option (List Srv) :=
  match l[i]? with
  | some s => if cond s then some (l.set i (f s)) else none
  | none => none

/-- One event; an event that cannot happen changes nothing. -/
def step (s : St) (e : Ev) : St :=
  if s.exited.isSome then s
  else match e with
  | .bound i =>
    match onSrv s.dns i (fun x => x.phase == .starting) (fun x => { x with phase := .serving }) with
    | some l => { s with dns := l }
    | none => s
  | .bindFails i =>
    match s.dns[i]?, onSrv s.dns i (fun x => x.phase == .starting) (fun x => { x with phase := .failed }) with
    | some x, some l => { s with dns := l, errs := s.errs ++ [x.sock] }
    | _, _ => s
  | .breaks i =>
    match s.dns[i]?, onSrv s.dns i (fun x => x.phase == .serving && x.inflight == 0) (fun x => { x with phase := .ended }) with
    | some x, some l => { s with dns := l, errs := s.errs ++ [x.sock] }
    | _, _ => s
  | .httpBreaks i =>
    match s.http[i]?, onSrv s.http i (fun x => x.phase == .serving) (fun x => { x with phase := .ended }) with
    | some x, some l => { s with http := l, errs := s.errs ++ [x.sock] }
    | _, _ => s
  | .query i =>
    match onSrv s.dns i (fun x => x.phase == .serving) (fun x => { x with inflight := x.inflight + 1 }) with
    | some l => { s with dns := l }
    | none => s
  | .answer i =>
    match onSrv s.dns i (fun x => decide (x.inflight > 0)) (fun x => { x with inflight := x.inflight - 1 }) with
    | some l => { s with dns := l }
    | none => s
  | .httpQuery i =>
    match onSrv s.http i (fun x => x.phase == .serving) (fun x => { x with inflight := x.inflight + 1 }) with
    | some l => { s with http := l }
    | none => s
  | .httpAnswer i =>
    match onSrv s.http i (fun x => decide (x.inflight > 0)) (fun x => { x with inflight := x.inflight - 1 }) with
    | some l => { s with http := l }
    | none => s
  | .sig => { s with signal := true }
  | .takeSignal => if s.sup = .waiting ∧ s.signal = true then { s with sup := .stop 0, signal := false } else s
  | .takeError =>
    match s.sup, s.errs with
    | .waiting, e :: rest => { s with sup := .finished false, terminationErr := some e, errs := rest }
    | _, _ => s
  | .shutdown =>
    match s.sup with
    | .stop i =>
      match s.dns[i]? with
      | none => { s with sup := .finished true }
      | some x =>
        match x.phase with
        | .serving => { s with dns := s.dns.set i { x with phase := .stopping }, sup := .drain i }
        | .ended => { s with sup := .drain i }
        | _ => { s with sup := .finished false }
    | _ => s
  | .drained =>
    match s.sup with
    | .drain i =>
      match s.dns[i]? with
      | some x => if x.inflight = 0 then { s with dns := s.dns.set i { x with phase := .ended }, sup := .stop (i + 1) } else s
      | none => s
    | _ => s
  | .exit =>
    match s.sup with
    | .finished _ => { s with exited := some (if s.terminationErr.isSome then 1 else 0) }
    | _ => s

/-- A sequence of events. -/
def run (s : St) (es : List Ev) : St := es.foldl step s

end Verif.Process
