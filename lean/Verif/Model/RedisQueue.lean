/-
Model of the connection to redis (/repo/redis/redis.go 67-131, 180-237) and of its use at the start of the
server (/repo/server/server.go 131-137): which client the resolvers get, with which credentials it connects, and
the buffer through which the resolvers publish answers.
-/
import Verif.Base.Str

namespace Verif.RedisQueue

/-- config/redis.go 8-19. -/
structure Cfg where
  address : Str := []
  username : Str := []
  password : Str := []
  database : Nat := 0
  required : Bool := false
  sentinelUsername : Str := []
  sentinelPassword : Str := []
  sentinelAddresses : List Str := []

/-- config/redis.go 22-24 `IsEnabled`. -/
def Cfg.isEnabled (c : Cfg) : Bool := c.address ≠ []

/-- The options of the redis library that say where to connect and with which credentials. -/
inductive Options where
  | direct (addr username password : Str) (db : Nat)
  | failover (master : Str) (sentinels : List Str) (sentinelUsername sentinelPassword username password : Str) (db : Nat)
  deriving DecidableEq

/-- redis.go 73-96. (The failover options are built with `SentinelUsername: cfg.Username`.) -/
def options (c : Cfg) : Options :=
  if c.sentinelAddresses.length > 0 then
    .failover c.address c.sentinelAddresses c.username c.sentinelPassword c.username c.password c.database
  else .direct c.address c.username c.password c.database

/-- What redis answers when the connection is made. -/
structure Answers where
  ping : Bool
  subscribe : Bool

/-- A client: is the goroutine that empties the buffer running? -/
structure Client where
  running : Bool
  deriving DecidableEq

/-- redis.go 67-125 `New`: client and error (an error is `true`). Making the id (107) does not fail. -/
def new (c : Cfg) (a : Answers) : Option Client × Bool :=
  if c.address = [] then (none, false)
  else if a.ping then (some ⟨a.subscribe⟩, !a.subscribe)
  else (none, true)

/-- server.go 131-142: the client the resolvers are made with; `none` means that the server does not start. -/
def serverClient (c : Cfg) (a : Answers) : Option (Option Client) :=
  if c.isEnabled then
    match new c a with
    | (client, err) => if err && c.required then none else some client
  else some none

/-- redis.go 25 `chanCap`. -/
def chanCap : Nat := 1000

/-- The buffer: what is in the channel, who waits to put something in, what has been published, and which
queries have got past `PublishCache`. -/
structure Buffer (M : Type) where
  queue : List M := []
  waiting : List (Nat × M) := []
  published : List M := []
  done : List Nat := []

/-- What happens: query `i` publishes its answer; the goroutine takes a message. -/
inductive Ev (M : Type) where
  | publish (i : Nat) (m : M)
  | take

/-- redis.go 128-135 `PublishCache` (the send blocks while the channel is full, without regard for the query's
context) and 201-203 (the goroutine takes the oldest message and publishes it; a waiting sender then gets its
message in). -/
def step {M : Type} (c : Client) (b : Buffer M) : Ev M → Buffer M
  | .publish i m =>
    if b.queue.length < chanCap ∧ b.waiting = [] then { b with queue := b.queue ++ [m], done := b.done ++ [i] }
    else { b with waiting := b.waiting ++ [(i, m)] }
  | .take =>
    if c.running then
      match b.queue with
      | [] => b
      | m :: rest =>
        match b.waiting with
        | [] => { b with queue := rest, published := b.published ++ [m] }
        | (i, m') :: ws =>
          { queue := rest ++ [m'], waiting := ws, published := b.published ++ [m], done := b.done ++ [i] }
    else b

def run {M : Type} (c : Client) (b : Buffer M) (evs : List (Ev M)) : Buffer M := evs.foldl (step c) b

end Verif.RedisQueue
