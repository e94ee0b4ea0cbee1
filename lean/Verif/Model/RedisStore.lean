/-
Model of the answers blocky keeps in redis and loads when it starts: /repo/redis/redis.go 155-179, 211-231,
278-300, 343-351 and /repo/resolver/caching_resolver.go 64-85, 153-169.

Of redis the model contains strings with expiry times: `SET key value EX seconds` (go-redis `Set` with a duration of
whole seconds), `GET`, and `TTL`, which replies with the remaining time rounded to whole seconds (redis expire.c
`ttlGenericCommand`: `(ttl+500)/1000`), -1 for a string without expiry time and -2 for no string; go-redis makes
seconds of the former and nanoseconds of the latter two. A string exists up to its expiry time (db.c `keyIsExpired`).
Times are milliseconds, of a clock that redis and the servers share. `SCAN` gives keys in any order, also
repeatedly; `GET` and `TTL` are separate commands and may be answered at different times.
-/
import Verif.Model.Redis

namespace Verif.RedisStore
open Dns

/-- A string: here always a packed message, and its expiry time, if any. -/
structure Entry where
  msg : Msg
  expires : Option Nat
  deriving DecidableEq

/-- The content of redis. -/
abbrev Store := AMap Str Entry

/-- redis.go 24 `CacheStorePrefix`. -/
def storePrefix : Str := str! "blocky:cache:"

/-- redis.go 344-346. -/
def prefixKey (key : Str) : Str := storePrefix ++ key

/-- redis.go 349-351 (`strings.TrimPrefix`). -/
def cleanKey (key : Str) : Str := if storePrefix.isPrefixOf key then key.drop storePrefix.length else key

/-- Is the string there at time `now`? -/
def Entry.live (e : Entry) (now : Nat) : Bool :=
  match e.expires with
  | some t => decide (now ≤ t)
  | none => true

/-- redis `GET`. -/
def fetch (s : Store) (now : Nat) (k : Str) : Option Entry :=
  match s.get k with
  | some e => if e.live now then some e else none
  | none => none

/-- redis `TTL`, as go-redis returns it (ns). -/
def ttl (s : Store) (now : Nat) (k : Str) : Int :=
  match fetch s now k with
  | some e =>
    match e.expires with
    | some t => ((((t - now) + 500) / 1000 : Nat) : Int) * 1000000000
    | none => -1
  | none => -2

/-- redis.go 124-131, 211-231 `PublishCache`, `publishMessageFromBuffer`: what is kept (the part for other instances is
`Redis.publishCache`). -/
def keep (env : Caching.Env) (now : Nat) (key : Str) (res : Msg) (s : Store) : Store :=
  if key.length > 0 ∧ env.packs (removeEdns0Record res) then
    s.put (prefixKey key) ⟨removeEdns0Record res, some (now + (Redis.getTTL (removeEdns0Record res) / 1000000).toNat)⟩
  else s

/-- redis.go 278-300 `getResponse`, with `GET` at time `now` and `TTL` at time `later`: the key and response handed to the cache.
`none`: an error, which is logged. -/
def getResponse (s : Store) (now later : Nat) (k : Str) : Option (Str × Response) :=
  match fetch s now k with
  | none => none
  | some e => some (cleanKey k, Redis.convertMessage e.msg (ttl s later k))

/-- redis.go 166-176 and caching_resolver.go 153-169: one key found by `SCAN blocky:cache:*`, on its way into the cache. -/
def loadKey (env : Caching.Env) (c : Caching.Cfg) (s : Store) (now later : Nat) (k : Str) (cs : Caching.CState) : Caching.CState :=
  if storePrefix.isPrefixOf k then
    match getResponse s now later k with
    | some (key, r) => Redis.onCacheMessage env c cs key r
    | none => cs
  else cs

/-- What happens to redis and to a server that starts: an instance keeps an answer, time passes, a key is loaded (the `TTL`
command is answered `wait` later than `GET`, when the entry goes into the cache). -/
inductive Ev where
  | keep (key : Str) (res : Msg)
  | pass (ms : Nat)
  | load (k : Str) (wait : Nat)

/-- Redis, the time, and the cache of the server that starts. -/
structure World where
  store : Store
  now : Nat
  cache : Caching.CState

/-- Time passes at the server. -/
def tick (cs : Caching.CState) (ms : Nat) : Caching.CState := { cs with main := ExpCache.step cs.main (.tick ms) }

/-- The effect of an event. -/
def step (env : Caching.Env) (c : Caching.Cfg) (w : World) : Ev → World
  | .keep key res => { w with store := keep env w.now key res w.store }
  | .pass ms => { w with now := w.now + ms, cache := tick w.cache ms }
  | .load k wait =>
    { w with now := w.now + wait, cache := loadKey env c w.store w.now (w.now + wait) k (tick w.cache wait) }

/-- A history. -/
def run (env : Caching.Env) (c : Caching.Cfg) (w : World) (evs : List Ev) : World := evs.foldl (step env c) w

end Verif.RedisStore
