/-
C10 – C13: where the cache does not do what is claimed; C12, provable part; concrete instances.
-/
import Verif.Props.CacheHistory

namespace Verif.Props
open Caching Dns ExpCache Spec

/-- An environment in which every message can be packed. -/
def okEnv : Env := ⟨fun _ => true, 4711⟩

/-- An empty cache at second 1. -/
def emptyCache : CState := ⟨freshCache 0 1000, newCache 0⟩

/-- A question for an A record. -/
def qA (n : Str) : Question := { name := n, qtype := 1 }

/-- A request with the questions and an id. -/
def mkReq (id : Nat) (qs : List Question) (extra : List RR := []) : Request :=
  { req := { id := id, recursionDesired := true, question := qs, extra := extra } }

/-- An A record. -/
def recA (n : Str) (ttl : UInt32) (ip : BitVec 32) : RR :=
  { name := n, rtype := 1, ttl := ttl, data := .a (.v4 ip) }

/-- Let some milliseconds pass. -/
def wait (s : CState) (ms : Nat) : CState := { s with main := step s.main (.tick ms) }

/-- What a request gets in a state, given the next resolver. -/
def ask (c : Cfg) (next : Resolver Unit) (req : Request) (s : CState) : Outcome × CState :=
  ((resolve okEnv c next req s ()).1, (resolve okEnv c next req s ()).2.1)

/-- The answer section of a successful outcome. -/
def answerOf : Outcome → Option (List RR)
  | .ok r => some r.res.answer
  | _ => none

/-- The response type of a successful outcome. -/
def rtypeOf : Outcome → Option RType
  | .ok r => some r.rtype
  | _ => none

/-! ### C13 -/

/-- An upstream that looks only at the first question of a message, and answers with an address that
belongs to that name. -/
def firstQuestionOnly : Resolver Unit := fun req _ =>
  match req.req.question with
  | [] => (.err (str! "no question"), ())
  | q :: _ => (.ok { res := { ({} : Msg).setReply req.req with
      answer := [recA q.name 300 (if q.name = str! "evil." then 666 else 1)] } }, ())

/-- **C13 is false for messages with several questions.** After one message that asks for "evil" and
for "bank", everybody who asks for "bank" gets the address of "evil" from the cache. -/
theorem C13_two_questions_poison :
    answerOf (ask {} firstQuestionOnly (mkReq 2 [qA (str! "bank.")])
        (ask {} firstQuestionOnly (mkReq 1 [qA (str! "evil."), qA (str! "bank.")]) emptyCache).2).1
      = some [recA (str! "evil.") 300 666] ∧
    answerOf (ask {} firstQuestionOnly (mkReq 2 [qA (str! "bank.")]) emptyCache).1
      = some [recA (str! "bank.") 300 1] := by
  decide

/-- Instance of the hypotheses of the C13 theorems: a query for "Bank." is answered from the cache
after one for "bank.". -/
example : rtypeOf (ask {} firstQuestionOnly (mkReq 9 [qA (str! "Bank.")])
    (wait (ask {} firstQuestionOnly (mkReq 2 [qA (str! "bank.")]) emptyCache).2 5000)).1
      = some .cached ∧
    answerOf (ask {} firstQuestionOnly (mkReq 9 [qA (str! "Bank.")])
    (wait (ask {} firstQuestionOnly (mkReq 2 [qA (str! "bank.")]) emptyCache).2 5000)).1
      = some [recA (str! "bank.") 295 1] := by
  decide

example : WellFormedName (str! "bank.") := ⟨str! "bank", rfl, by decide⟩

/-! ### C12 -/

/-- The client-subnet option of a request. -/
def subnetOf (m : Msg) : Option EOption := getEdns0Option m 8

/-- **C12, provable part.** A query that carries a client subnet with a prefix shorter than a full
address is never answered from the cache, and its answer is not stored: it is passed on and the
cache is left as it was. Missing: full-length prefixes (`C12_full_prefix_shared`) and address
families other than IPv4 and IPv6. -/
theorem C12_partial_prefix_bypasses_partial {W : Type} (env : Env) (c : Cfg) (next : Resolver W)
    (req : Request) (s : CState) (w : W) (family netmask scope : Nat) (addr : Option IP)
    (h : subnetOf req.req = some (.subnet family netmask scope addr))
    (hp : (family = 1 ∧ netmask ≠ 32) ∨ (family = 2 ∧ netmask ≠ 128)) :
    resolve env c next req s w = ((next req w).1, s, (next req w).2) := by
  have hc : isRequestCacheable req.req = false := by
    have h' : getEdns0Option req.req 8 = some (.subnet family netmask scope addr) := h
    simp only [isRequestCacheable, h']
    rcases hp with ⟨h1, h2⟩ | ⟨h1, h2⟩
    · simp [h1, h2]
    · simp [h1, h2]
  simp [resolve, hc]

/-- An upstream that tailors its answer to the client subnet, if there is one. -/
def tailored : Resolver Unit := fun req _ =>
  match subnetOf req.req with
  | some (.subnet _ _ _ (some (.v4 a))) => (.ok { res := { ({} : Msg).setReply req.req with
      answer := [recA (str! "cdn.") 300 a] } }, ())
  | _ => (.ok { res := { ({} : Msg).setReply req.req with answer := [recA (str! "cdn.") 300 0] } }, ())

/-- A request for "cdn." with a client subnet. -/
def ecsReq (id : Nat) (a : BitVec 32) (mask : Nat) : Request :=
  mkReq id [qA (str! "cdn.")] [freshOpt [.subnet 1 mask 0 (some (.v4 a))]]

/-- **C12 is false.** An answer tailored to the client 7 (prefix length 32) is served to client 8 and
to a client that sent no subnet. -/
theorem C12_full_prefix_shared :
    let s := (ask {} tailored (ecsReq 1 7 32) emptyCache).2
    answerOf (ask {} tailored (ecsReq 2 8 32) s).1 = some [recA (str! "cdn.") 300 7] ∧
    answerOf (ask {} tailored (mkReq 3 [qA (str! "cdn.")]) s).1 = some [recA (str! "cdn.") 300 7] ∧
    answerOf (ask {} tailored (ecsReq 2 8 32) emptyCache).1 = some [recA (str! "cdn.") 300 8] := by
  decide

example : subnetOf (ecsReq 1 7 24).req = some (.subnet 1 24 0 (some (.v4 7))) := by decide

/-! ### C11 -/

/-- An upstream that answers NXDOMAIN, truncated. -/
def truncatedNX : Resolver Unit := fun req _ =>
  (.ok { res := { ({} : Msg).setReply req.req with rcode := rcodeNXDomain, truncated := true } }, ())

/-- **C11 is false.** A truncated NXDOMAIN answer is stored and served to others. -/
theorem C11_truncated_nxdomain_cached :
    ∃ r, (ask {} truncatedNX (mkReq 2 [qA (str! "a.")])
        (ask {} truncatedNX (mkReq 1 [qA (str! "a.")]) emptyCache).2).1 = .ok r ∧
      r.rtype = .cached ∧ r.res.truncated = true :=
  ⟨_, rfl, by decide, by decide⟩

/-- An upstream whose first answer (world `false`) is complete, all later ones are truncated. -/
def laterTruncated : Resolver Bool := fun req later =>
  (.ok { res := { ({} : Msg).setReply req.req with
      truncated := later, answer := if later then [] else [recA (str! "a.") 10 1] } }, true)

/-- Configuration with prefetching of every name. -/
def prefetchCfg : Cfg := { prefetching := true, prefetchThreshold := 0 }

/-- **C11 is false for background reloads as well.** A complete answer is stored, expires, and is
replaced by a truncated one, which is served to clients. -/
theorem C11_prefetch_stores_truncated :
    ∃ s s' r, resolve okEnv prefetchCfg laterTruncated (mkReq 1 [qA (str! "a.")]) emptyCache false
        = (.ok r, s, true) ∧ r.res.truncated = false ∧
      cleanUpCache okEnv prefetchCfg laterTruncated (wait s 11000) true = (some s', true) ∧
      ∃ r', (resolve okEnv prefetchCfg laterTruncated (mkReq 2 [qA (str! "a.")]) s' true).1 = .ok r' ∧
        r'.rtype = .cached ∧ r'.res.truncated = true :=
  ⟨_, _, _, rfl, by decide, rfl, _, rfl, by decide, by decide⟩

/-! ### C10 -/

/-- An upstream that answers with an alias (TTL 60 s) that does not exist. -/
def danglingAlias : Resolver Unit := fun req _ =>
  (.ok { res := { ({} : Msg).setReply req.req with 
      rcode := rcodeNXDomain
      answer := [{ name := str! "a.", rtype := 5, ttl := 60, data := .cname (str! "b.") }] } }, ())

/-- **C10 is false for negative answers with records.** The alias was obtained with TTL 60 and is
served from the cache, immediately afterwards, with TTL 1800. -/
theorem C10_negative_answer_ttl_grows :
    let first := ask {} danglingAlias (mkReq 1 [qA (str! "a.")]) emptyCache
    (answerOf first.1).map (·.map (·.ttl)) = some [60] ∧
    (answerOf (ask {} danglingAlias (mkReq 2 [qA (str! "a.")]) first.2).1).map (·.map (·.ttl))
      = some [1800] := by
  decide

/-- C10, the other sections: what is served of them is what was stored, with the TTLs as they were then. -/
theorem C10_other_sections (req m : Msg) (remainMs : Int) :
    (hitResponse req m remainMs).res.ns = m.ns ∧ (hitResponse req m remainMs).res.extra = m.extra := ⟨rfl, rfl⟩

/-- An upstream that has no such records; the zone's SOA record says that this may be kept for a minute. -/
def noSuchRecords : Resolver Nat := fun req n =>
  (.ok { res := { ({} : Msg).setReply req.req with
      ns := [{ name := str! "a.", rtype := 6, ttl := 60, data := .other (str! "ns.a. hostmaster.a. 1 7200 3600 86400 60") }] } }, n + 1)

/-- **C10 is false for the authority section**: an answer without records, to be kept for a minute according to the zone, is served
from the cache 29 minutes later, and still with a TTL of a minute - so that others may keep it for another minute. -/
theorem C10_authority_false :
    let first := resolve okEnv {} noSuchRecords (mkReq 1 [qA (str! "a.")]) emptyCache 0
    let later := resolve okEnv {} noSuchRecords (mkReq 2 [qA (str! "a.")]) (wait first.2.1 1740000) first.2.2
    (∃ r, first.1 = .ok r ∧ r.res.ns.map RR.ttl = [60]) ∧
    (∃ r, later.1 = .ok r ∧ r.rtype = .cached ∧ r.res.ns.map RR.ttl = [60]) ∧ later.2.2 = 1 :=
  ⟨⟨_, rfl, by decide⟩, ⟨_, rfl, by decide, by decide⟩, by decide⟩

/-! ### Instances for C09 / C10 -/

/-- An upstream with three records of different TTLs. -/
def threeRecords : Resolver Unit := fun req _ =>
  (.ok { res := { ({} : Msg).setReply req.req with
      answer := [recA (str! "a.") 5 1, recA (str! "a.") 120 2, recA (str! "a.") 90000 3] } }, ())

example : (answerOf (ask { minTime := 60000000000, maxTime := 3600000000000 } threeRecords
      (mkReq 1 [qA (str! "a.")]) emptyCache).1).map (·.map (·.ttl)) = some [60, 120, 3600] := by
  decide

example : let c : Cfg := { minTime := 60000000000, maxTime := 3600000000000 }
    (answerOf (ask c threeRecords (mkReq 2 [qA (str! "a.")])
      (wait (ask c threeRecords (mkReq 1 [qA (str! "a.")]) emptyCache).2 2500)).1).map
        (·.map (·.ttl)) = some [57, 117, 3597] := by
  decide

end Verif.Props
