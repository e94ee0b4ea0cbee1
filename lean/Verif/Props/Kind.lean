/-
C104: An answer is of the kind asked for: class, signatures (DNSSEC), EDNS.
-/
import Verif.Props.Case
import Verif.Props.CacheHistory
import Verif.Props.Forwarding

namespace Verif.Props
open Dns Spec ExpCache StringCache

variable {E : RegexEngine} {W : Type}

/-- The message asks for signatures: the DO bit (RFC 3225: the highest of the lower 16 bits of the OPT record's TTL field). -/
def wantsSignatures (m : Msg) : Bool := m.extra.any (fun r => r.isOpt && (r.ttl.toNat / 32768 % 2 == 1))

/-- The message has EDNS data. -/
def hasEdns (m : Msg) : Bool := m.extra.any RR.isOpt

/-- What, besides names and types, a query asks for: opcode, recursion, checking, classes, signatures. -/
structure SameKind (m m' : Msg) : Prop where
  opcode : m.opcode = m'.opcode
  recursion : m.recursionDesired = m'.recursionDesired
  checking : m.checkingDisabled = m'.checkingDisabled
  authentic : m.authenticatedData = m'.authenticatedData
  question : m.question = m'.question
  signatures : wantsSignatures m = wantsSignatures m'

/-! ### Requests that are passed on -/

/-- The OPT record of the message, if any, does not consist of a client subnet alone. -/
def MoreThanSubnet (m : Msg) : Prop := ∀ os, m.edns0 = some os → ∃ o ∈ os, o.code ≠ 8

theorem wants_update (f : List EOption → List EOption) (rs : List RR) :
    (updateLastOpt f rs).any (fun r => r.isOpt && (r.ttl.toNat / 32768 % 2 == 1)) =
      rs.any (fun r => r.isOpt && (r.ttl.toNat / 32768 % 2 == 1)) := by
  induction rs with
  | nil => rfl
  | cons r rs ih =>
    unfold updateLastOpt
    split
    · simp only [List.any_cons, ih]
    · split
      · rename_i o ho
        simp only [List.any_cons, RR.isOpt, ho]
      · rfl

theorem wants_set (m : Msg) (o : EOption) : wantsSignatures (setEdns0Option m o) = wantsSignatures m := by
  unfold setEdns0Option
  split
  · unfold wantsSignatures
    simp [List.any_append, freshOpt, RR.isOpt]
  · exact wants_update _ _

theorem dropFirstCode_nonempty {os : List EOption} {o : EOption} (ho : o ∈ os) (hc : o.code ≠ 8) :
    (dropFirstCode 8 os).isEmpty = false := by
  induction os with
  | nil => cases ho
  | cons x xs ih =>
    unfold dropFirstCode
    split
    · rename_i hx
      rcases List.mem_cons.1 ho with rfl | ho
      · exact absurd hx hc
      · cases xs with
        | nil => cases ho
        | cons => rfl
    · rfl

theorem wants_remove (m : Msg) (hm : MoreThanSubnet m) : wantsSignatures (removeEdns0Option m 8) = wantsSignatures m := by
  unfold removeEdns0Option
  split
  · rfl
  · rename_i os hos
    obtain ⟨o, ho, hc⟩ := hm os hos
    simp only [dropFirstCode_nonempty ho hc, Bool.false_eq_true, if_false]
    exact wants_update _ _

theorem wants_transform (cfg : Ecs.Cfg) (request r : Request) (hm : MoreThanSubnet request.req)
    (h : Ecs.transform cfg request = some r) : wantsSignatures r.req = wantsSignatures request.req := by
  unfold Ecs.transform at h
  split at h
  · simp only at h
    split at h
    · split at h
      · cases h
      · cases h; rfl
      · cases h; exact wants_set _ _
    · split at h
      · cases h; exact wants_remove _ hm
      · cases h; rfl
  · cases h; rfl

/-- What upstreams are asked is of the kind the client asks for - whatever the client-subnet resolver does -, provided
that the EDNS data of the query are not a client subnet alone. -/
theorem C104_passed_on (cfg : Ecs.Cfg) (names : ClientNames.Cfg) (l : Option (ClientNames.Lookup W)) (request r1 : Request)
    (hm : MoreThanSubnet request.req) (h1 : Ecs.transform cfg request = some r1) (cn : St (List Str)) (w : W) :
    SameKind (ClientNames.withNames names l r1 cn w).1.req request.req := by
  rw [withNames_req]
  have hs := (C28_rest_unchanged cfg request r1 h1).1
  unfold SameOutsideExtra at hs
  have e1 := congrArg Msg.opcode hs
  have e2 := congrArg Msg.recursionDesired hs
  have e3 := congrArg Msg.checkingDisabled hs
  have e4 := congrArg Msg.authenticatedData hs
  have e5 := congrArg Msg.question hs
  exact ⟨e1, e2, e3, e4, e5, wants_transform cfg request r1 hm h1⟩

/-- **C104, provable part.** A name without any configuration that is not in the cache: the upstream gets a query of the
kind the client has sent, and the client gets the upstream's answer with all records and flags. -/
theorem C104_uncached_partial (s : Setup E) (c : Chain.Config E W)
    (hmin : c.cache.minTime / 1000000000 < 4294967296) (hmax : c.cache.maxTime / 1000000000 < 4294967296)
    (up : Resolver W) (request r1 r2 : Request) (hint : request.internal = false) (q : Question) (hq : request.req.question = [q])
    (hm : MoreThanSubnet request.req)
    (h1 : Ecs.transform c.ecs request = some r1) (cn cn' : St (List Str)) (v : Caching.CState × W) (cache : Caching.CState) (w w' : W)
    (h2 : ClientNames.withNames c.names c.namesLookup r1 cn v = (r2, cn', (cache, w))) (hu : Unconfigured s c r2 q)
    (hmiss : AMap.get cache.main.cache.items (Caching.questionKey q) = none) (m : Msg) (queue : QueryLog.Queue)
    (u : Response) (hup : up r2 w = (.ok u, w')) (hb : ¬ s.AnswerBlocked r2 u.res.answer) :
    SameKind r2.req request.req ∧
    ∃ y world, Chain.whole c up request (m, (cn, queue, v)) = (.ok y, world) ∧
      Pointwise SameButTTL u.res.answer y.res.answer ∧ y.res.ns = u.res.ns ∧
      y.res.authenticatedData = u.res.authenticatedData ∧ y.res.checkingDisabled = u.res.checkingDisabled ∧
      y.res.authoritative = u.res.authoritative ∧ y.res.rcode = u.res.rcode := by
  have hk := C104_passed_on c.ecs c.names c.namesLookup request r1 hm h1 cn v
  rw [h2] at hk
  refine ⟨hk, ?_⟩
  obtain ⟨y, m', queue', cache', hy, _, _, hd, _⟩ :=
    (C82_forwarded s c hmin hmax up request r1 r2 hint q hq h1 cn cn' v cache w w' h2 hu hmiss m queue).1 u hup hb
  refine ⟨y, _, hy, ?_, ?_⟩
  · have := hd.2
    generalize u.res.answer = a at this
    generalize y.res.answer = b at this
    induction this with
    | nil => exact .nil
    | cons h _ ih => exact .cons h.1 ih
  · have hs := hd.1
    unfold SameOutsideExtra at hs
    have e1 := congrArg Msg.ns hs
    have e2 := congrArg Msg.authenticatedData hs
    have e3 := congrArg Msg.checkingDisabled hs
    have e4 := congrArg Msg.authoritative hs
    have e5 := congrArg Msg.rcode hs
    exact ⟨e1, e2, e3, e4, e5⟩

/-- **C104, provable part for the cache.** If all queries whose answers got into the cache were of a kind - had some
property `P` in common: the class, the DO bit, … -, what is served from the cache has been obtained for such a query.
Holds for all histories of cache operations. -/
theorem C104_cached_partial (P : Request → Prop) (env : Caching.Env) (c : Caching.Cfg) (log : List Obtained)
    (ops : List (Op Msg)) (maxSize : Nat) (t0 : Int) (hadm : Admissible env c log ops)
    (hsingle : ∀ e ∈ log, ∃ q, e.req.req.question = [q] ∧ q.qtype < 65536 ∧ WellFormedName q.name)
    (hP : ∀ e ∈ log, P e.req)
    (req : Msg) (q : Question) (hreq : req.question = [q]) (hqt : q.qtype < 65536)
    (hqn : WellFormedName q.name) (m : Msg) (r : Int)
    (h : lookup (run (freshCache maxSize t0) ops) (Caching.questionKey q) = some (m, r)) :
    ∃ e ∈ log, P e.req ∧ Repeats req q e.resp.res (Caching.hitResponse req m r).res := by
  obtain ⟨e, he, q', _, _, _, hr⟩ := C13_served_was_obtained_partial env c log ops maxSize t0 hadm hsingle req q hreq hqt hqn m r h
  exact ⟨e, he, hP e he, hr⟩

/-- An answer obtained for a query without the DO bit. -/
def plainObtained : Obtained :=
  ⟨{ req := query (str! "www.org.") },
   { res := { ({} : Msg).setReply (query (str! "www.org.")) with
      answer := [{ name := str! "www.org.", rtype := 1, ttl := 60, data := .a (.v4 1#32) }] } }⟩

/-- The cache operations when it arrives. -/
def plainOps : List (Op Msg) :=
  Caching.putOps ⟨fun _ => true, 0⟩ {} (Caching.questionKey ⟨str! "www.org.", 1, 1⟩) (Caching.adjusted {} plainObtained.resp).res
    (Caching.adjustTTLs {} plainObtained.resp.res.answer).2

-- the hypotheses of `C104_cached_partial`
example : Admissible ⟨fun _ => true, 0⟩ {} [plainObtained] plainOps ∧ (∀ e ∈ [plainObtained], wantsSignatures e.req.req = false) ∧
    (lookup (run (freshCache 10 0) plainOps) (Caching.questionKey ⟨str! "WWW.org.", 1, 1⟩)).isSome = true := by
  refine ⟨?_, by simp [plainObtained, query, wantsSignatures], by decide +kernel⟩
  intro k m ttl h
  have hk : k = Caching.questionKey ⟨str! "www.org.", 1, 1⟩ := by
    have : plainOps = [.put (Caching.questionKey ⟨str! "www.org.", 1, 1⟩) (removeEdns0Record (Caching.adjusted {} plainObtained.resp).res)
      (Caching.adjustTTLs {} plainObtained.resp.res.answer).2] := rfl
    rw [this, List.mem_singleton] at h
    injection h
  subst hk
  exact .inl ⟨plainObtained, List.mem_singleton.2 rfl, rfl, ⟨str! "www.org.", 1, 1⟩, List.mem_singleton.2 rfl, rfl, h⟩

/-! ### A server whose upstream tells kinds apart -/

/-- An upstream with signed data: a name has an address in class IN (1) and a text in class CH (3), with a signature
for those who ask for it; it sends EDNS data to those who sent some. -/
def signedUp : Resolver Nat := fun request n =>
  match request.req.question with
  | [] => (.err (str! "no question"), n + 1)
  | q :: _ =>
    (.ok { res := { ({} : Msg).setReply request.req with
        authenticatedData := wantsSignatures request.req
        answer := { name := q.name, rtype := q.qtype, cls := q.qclass, ttl := 60,
                    data := if q.qclass = 1 then .a (.v4 0x01020304#32) else .other (str! "chaos") } ::
          (if wantsSignatures request.req then [{ name := q.name, rtype := 46, cls := q.qclass, ttl := 60, data := .other (str! "signature") }]
           else [])
        extra := if hasEdns request.req then [{ name := str! ".", rtype := 41, cls := 1232, ttl := 0, data := .opt [] }] else [] } }, n + 1)

/-- The sample server with that upstream: without client subnets and extended errors. -/
def signedConfig : Chain.Config prefixEngine Nat :=
  { sampleConfig with ecs := {}, ede := false, condMapping := [], condRewrite := ⟨[], false⟩
                      customMapping := [(str! "alias.lan", [{ name := [], rtype := typeCNAME, ttl := 60, data := .cname (str! "www.org.") }])] }

/-- A query, with EDNS data and the DO bit. -/
def signedQuery (name : Str) : Msg :=
  { query name with extra := [{ name := str! ".", rtype := 41, cls := 1232, ttl := 0x8000, data := .opt [] }] }

/-- A query in class CH. -/
def chaosQuery (name : Str) : Msg := { id := 5, recursionDesired := true, question := [⟨name, 1, 3⟩] }

/-- What is seen of the last of some queries: per answer the types and classes of the records, whether there are EDNS data;
and the number of queries to upstreams. -/
def lastSeen (c : Chain.Config prefixEngine Nat) : List Msg → Chain.World Nat → List (List (Nat × Nat) × Bool) × Nat
  | [], w => ([], w.2.2.2)
  | [m], w =>
    let x := Chain.serve sampleServer c signedUp (.udp (some (.v4 1#32))) none m w
    (x.1.map (fun a => (a.answer.map (fun r => (r.rtype, r.cls)), hasEdns a)), x.2.2.2.2)
  | m :: ms, w => lastSeen c ms (Chain.serve sampleServer c signedUp (.udp (some (.v4 1#32))) none m w).2

-- queries that are passed on get what they ask for
example : lastSeen signedConfig [query (str! "www.org.")] sampleWorld = ([([(1, 1)], false)], 1) := by decide +kernel
example : lastSeen signedConfig [signedQuery (str! "www.org.")] sampleWorld = ([([(1, 1), (46, 1)], true)], 1) := by decide +kernel
example : lastSeen signedConfig [chaosQuery (str! "www.org.")] sampleWorld = ([([(1, 3)], false)], 1) := by decide +kernel

-- the hypothesis of `C104_passed_on`
example : MoreThanSubnet (query (str! "www.org.")) := fun _ h => nomatch h

/-- **C104 is false for cached answers.** Once somebody has asked for a name without the DO bit, nobody gets signatures for
it until the answer expires: for a validating client the (signed) name is bogus. EDNS data are missing as well. -/
theorem C104_signatures_lost_false :
    lastSeen signedConfig [query (str! "www.org."), signedQuery (str! "www.org.")] sampleWorld = ([([(1, 1)], false)], 1) := by
  decide +kernel

/-- The other way round, clients that do not know about signatures get them, from the cache. -/
theorem C104_signatures_unasked_false :
    lastSeen signedConfig [signedQuery (str! "www.org."), query (str! "www.org.")] sampleWorld =
      ([([(1, 1), (46, 1)], false)], 1) := by
  decide +kernel

/-- **C104 is false for classes.** The class is no part of the cache key: after a query in class CH, queries for the same name
and type in class IN get the records of class CH. -/
theorem C104_class_false :
    lastSeen signedConfig [chaosQuery (str! "www.org."), query (str! "www.org.")] sampleWorld = ([([(1, 3)], false)], 1) := by
  decide +kernel

/-- **C104 is false for custom aliases**: the target is asked for without EDNS data, in class IN. -/
theorem C104_alias_false :
    lastSeen signedConfig [signedQuery (str! "alias.lan.")] sampleWorld = ([([(5, 1), (1, 1)], false)], 1) := by
  decide +kernel

/-- **C104 is false for queries whose only EDNS option is a client subnet**: when it is not to be forwarded, the whole OPT
record is removed, and with it the DO bit. -/
theorem C104_subnet_false :
    lastSeen { signedConfig with ecs := { useAsClient := true } }
      [{ query (str! "www.org.") with
          extra := [{ name := str! ".", rtype := 41, cls := 1232, ttl := 0x8000, data := .opt [.subnet 1 32 0 (some (.v4 7#32))] }] }]
      sampleWorld = ([([(1, 1)], false)], 1) := by
  decide +kernel

/-- The world after a query with the DO bit, two minutes, and cleaning up. -/
def afterCleaning (c : Chain.Config prefixEngine Nat) : Chain.World Nat :=
  match happen sampleServer c signedUp
      (((happen sampleServer c signedUp (Chain.serve sampleServer c signedUp (.udp (some (.v4 1#32))) none
        (signedQuery (str! "www.org.")) sampleWorld).2 (.pass 120000)).2).getD sampleWorld) .cleanUp with
  | (_, some w) => w
  | (_, none) => sampleWorld

/-- **C104 is false with prefetching**: prefetched answers are obtained without the DO bit. All clients have asked for
signatures; after prefetching they get none. -/
theorem C104_prefetch_false :
    lastSeen { signedConfig with cache := { prefetching := true, prefetchThreshold := 0 } } [signedQuery (str! "www.org.")]
      ((afterCleaning { signedConfig with cache := { prefetching := true, prefetchThreshold := 0 } })) = ([([(1, 1)], false)], 2) := by
  decide +kernel

/-- Clients without EDNS get EDNS data (RFC 6891, 7: "Lack of presence of an OPT record in a request MUST be taken as an
indication that the requestor does not implement any part of this specification and that the responder MUST NOT include
an OPT record in its response"), if extended errors are switched on: here for a blocked name. -/
theorem C104_edns_unasked_false :
    lastSeen { signedConfig with ede := true } [query (str! "ads.org.")] sampleWorld = ([([(1, 1)], true)], 0) := by
  decide +kernel

/-- Clients with EDNS get none back for names answered by blocky itself. -/
theorem C104_edns_missing_false :
    lastSeen signedConfig [signedQuery (str! "ads.org.")] sampleWorld = ([([(1, 1)], false)], 0) := by
  decide +kernel

end Verif.Props
