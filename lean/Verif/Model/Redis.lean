/-
Model of the synchronisation of several instances through redis: /repo/redis/redis.go and the subscribers
in /repo/resolver/blocking_resolver.go and /repo/resolver/caching_resolver.go.

Not modelled: connection handling, and JSON itself: what is published is what subscribers decode, except
that Go's JSON encoder changes strings that are not valid UTF-8 (`jsonString`). Redis hands the messages of
a channel to every subscriber - the publisher included - in the order of publication. The two channels to
the subscribers (capacity 1000) are part of the inbox.
-/
import Verif.Model.BlockingStatus
import Verif.Model.Caching

namespace Verif.Redis
open Dns Blocking

/-- redis.go 51-55 `EnabledMessage`. -/
structure EnabledMessage where
  state : Bool
  duration : Int := 0
  groups : List Str := []
  deriving DecidableEq

/-- redis.go 38-43 `redisMessage` after decoding: a cached answer (type 0), a state (type 1), or something
else (other type or not decodable). Every message has its sender's id. -/
inductive Payload where
  | cache (key : Str) (msg : Msg)
  | enable (m : EnabledMessage)
  | other
  deriving DecidableEq

/-- A published message. -/
structure Wire where
  client : Str
  payload : Payload
  deriving DecidableEq

/-- redis.go 239-274 `processReceivedMessage`: the message for the subscribers, if any. -/
def processReceivedMessage (id : Str) (m : Wire) : Option Payload :=
  if m.client ≠ id then
    match m.payload with
    | .other => none
    | p => some p
  else none

/-! ### Blocking state -/

/-- blocking_resolver.go 175-197 `redisSubscriber`, one message. -/
def onEnabledMessage (c : BCfg) (s : TState) (m : EnabledMessage) : TState :=
  if m.state then internalEnable s else (internalDisable c s m.duration m.groups).1

/-- blocking_resolver.go 220-226 `EnableBlocking`: new state and what is published. -/
def enableBlocking (s : TState) : TState × List EnabledMessage := (internalEnable s, [{ state := true }])

/-- blocking_resolver.go 240-251 `DisableBlocking`: new state and what is published. -/
def disableBlocking (c : BCfg) (s : TState) (duration : Int) (groups : List Str) : TState × List EnabledMessage :=
  match internalDisable c s duration groups with
  | (s, true) => (s, [{ state := false, duration := duration, groups := groups }])
  | (s, false) => (s, [])

/-- One instance. -/
structure Node where
  id : Str
  cfg : BCfg
  st : TState
  inbox : List Wire := []

/-- What happens at an instance: commands of the API, the timer, time, a message. -/
inductive NodeEv where
  | enable
  | disable (duration : Int) (groups : List Str)
  | tick (ns : Nat)
  | fire
  | runFired
  | deliver

/-- Effect on the instance and what it publishes. The goroutine of a timer calls `EnableBlocking`
(blocking_resolver.go 287-290), which publishes. -/
def nodeStep (n : Node) : NodeEv → Node × List EnabledMessage
  | .enable => let (s, out) := enableBlocking n.st; ({ n with st := s }, out)
  | .disable d gs => let (s, out) := disableBlocking n.cfg n.st d gs; ({ n with st := s }, out)
  | .tick k => ({ n with st := tstep n.cfg n.st (.tick k) }, [])
  | .fire => ({ n with st := tstep n.cfg n.st .fire }, [])
  | .runFired =>
    if n.st.fired > 0 then ({ n with st := tstep n.cfg n.st .runFired }, [{ state := true }]) else (n, [])
  | .deliver =>
    match n.inbox with
    | [] => (n, [])
    | m :: ms =>
      match processReceivedMessage n.id m with
      | some (.enable e) => ({ n with st := onEnabledMessage n.cfg n.st e, inbox := ms }, [])
      | _ => ({ n with inbox := ms }, [])

/-- redis.go 134-149 `PublishEnabled`: every subscriber gets the message. -/
def publish (net : List Node) (id : Str) (out : List EnabledMessage) : List Node :=
  net.map (fun n => { n with inbox := n.inbox ++ out.map (fun e => ⟨id, .enable e⟩) })

/-- An event at instance `i` of a network. -/
def netStep (net : List Node) (ev : Nat × NodeEv) : List Node :=
  match net[ev.1]? with
  | none => net
  | some n => publish (net.set ev.1 (nodeStep n ev.2).1) n.id (nodeStep n ev.2).2

/-- A history. -/
def netRun (net : List Node) (evs : List (Nat × NodeEv)) : List Node := evs.foldl netStep net

/-! ### Cached answers -/

/-- Go's JSON encoder replaces bytes that are not valid UTF-8; ASCII strings are kept. Here: every byte from
128 on is replaced (the keys are ASCII but for the two bytes of the type). -/
def jsonString (s : Str) : Str :=
  s.flatMap (fun c => if c.toNat < 128 then [c] else [Char.ofNat 0xEF, Char.ofNat 0xBF, Char.ofNat 0xBD])

/-- caching_resolver.go 295-298 and redis.go 124-131, 211-231 `publishMessageFromBuffer`: what other
instances receive for a response stored under a key. (Published for every response, also those not
cached.) -/
def publishCache (env : Caching.Env) (key : Str) (res : Msg) : Option Payload :=
  if key.length > 0 ∧ env.packs (removeEdns0Record res) then some (.cache (jsonString key) (removeEdns0Record res)) else none

/-- redis.go 302-326 `convertMessage` (of a message that can be unpacked); `ttl` in ns. -/
def convertMessage (msg : Msg) (ttl : Int) : Response :=
  { res := if ttl > 0 then
      { msg with answer := msg.answer.map (fun r => { r with ttl := UInt32.ofNat (ttl / 1000000000).toNat }) } else msg
    rtype := .cached
    reason := str! "EXTERNAL_CACHE" }

/-- caching_resolver.go 153-169 `redisSubscriber`, one message. -/
def onCacheMessage (env : Caching.Env) (c : Caching.Cfg) (s : Caching.CState) (key : Str) (r : Response) : Caching.CState :=
  Caching.store env c s key r

/-- redis.go 329-340 `getTTL`: the lifetime in redis, in ns. -/
def getTTL (msg : Msg) : Int :=
  let ttl := Caching.minTTL msg.answer
  if ttl = 0 then 1000000000 else (ttl.toNat : Int) * 1000000000

end Verif.Redis
