/-
C39-C41, C55: the server's responses.
-/
import Verif.Model.Server
import Verif.Model.Small
import Verif.Model.CustomDns
import Verif.Spec.Server
import Verif.Spec.Lines

namespace Verif.Props
open Dns Cond Server Spec

variable {W : Type}

/-- Header, question and OPT records of a message. -/
def skeleton (m : Msg) : Msg := { m with answer := [], ns := [], extra := m.extra.filter RR.isOpt }

/-- A message with the given RA bit. -/
def withRA (m : Msg) (b : Bool) : Msg := { m with recursionAvailable := b }

/-- What is assumed of miekg/dns `Msg.Truncate` and the length of a packed message. `len` is
`Msg.Len`. Messages signed with TSIG are left out (blocky has none); the last condition is that
header, question and OPT records fit in 512 bytes. -/
structure TruncContract (len : Msg → Nat) (trunc : Nat → Msg → Msg) : Prop where
  header : ∀ n m, ∃ tc a ns e, trunc n m = { m with truncated := tc, answer := a, ns := ns, extra := e }
  unchanged : ∀ n m, len m ≤ max 512 n → trunc n m = m
  sections : ∀ n m, (trunc n m).answer <+: m.answer ∧ (trunc n m).ns <+: m.ns
  flagged : ∀ n m, (trunc n m).answer ≠ m.answer → (trunc n m).truncated = true
  fits : ∀ n m, len (skeleton m) ≤ 512 →
    len (trunc n m) ≤ max 512 n

/-- A length and a truncation meeting the contract: records have 100 bytes, and a message that does not
fit loses all its records. -/
def sampleLen (m : Msg) : Nat := 12 + 100 * (m.answer.length + m.ns.length + (m.extra.filter (fun r => !r.isOpt)).length)
def sampleTrunc (n : Nat) (m : Msg) : Msg :=
  if sampleLen m ≤ max 512 n then m
  else { m with truncated := true, answer := [], ns := [], extra := m.extra.filter RR.isOpt }

theorem sample_contract : TruncContract sampleLen sampleTrunc where
  header n m := by
    unfold sampleTrunc; split
    · exact ⟨m.truncated, m.answer, m.ns, m.extra, rfl⟩
    · exact ⟨true, [], [], m.extra.filter RR.isOpt, rfl⟩
  unchanged n m h := by unfold sampleTrunc; rw [if_pos h]
  sections n m := by
    unfold sampleTrunc; split
    · exact ⟨List.prefix_refl _, List.prefix_refl _⟩
    · exact ⟨List.nil_prefix, List.nil_prefix⟩
  flagged n m h := by
    unfold sampleTrunc at h ⊢; split
    · rename_i hc; rw [if_pos hc] at h; exact absurd rfl h
    · rfl
  fits n m h := by
    unfold sampleTrunc; split
    · rename_i hc; exact hc
    · have : sampleLen { m with truncated := true, answer := [], ns := [], extra := m.extra.filter RR.isOpt } = 12 := by
        have he : List.filter (fun r => !r.isOpt) (List.filter RR.isOpt m.extra) = [] := by
          rw [List.filter_filter]
          apply List.filter_eq_nil_iff.2
          intro a _
          cases a.isOpt <;> simp
        simp [sampleLen, he]
      rw [this]; omega

/-! ### C39 -/

theorem finish_header (env : Server.Env) {len : Msg → Nat} (ht : TruncContract len env.trunc) (req : Msg) (p : Proto)
    (m : Msg) : (finish env req p m).id = m.id ∧ (finish env req p m).response = m.response ∧
      (finish env req p m).question = m.question ∧ (finish env req p m).rcode = m.rcode := by
  unfold finish
  obtain ⟨_, _, _, _, this⟩ := ht.header (getMaxResponseSize req p) { m with recursionAvailable := req.recursionDesired }
  refine ⟨?_, ?_, ?_, ?_⟩ <;> rw [this]

theorem replies_setRcode (req : Msg) (rc : Nat) : Replies req (({} : Msg).setRcode req rc) := by
  refine ⟨rfl, rfl, ?_⟩
  unfold Msg.setRcode Msg.setReply
  cases h : req.question <;> simp

/-- C39: whatever the query and whatever the chain of resolvers does - answer, fail, panic, write into
the request -, exactly one message is sent. -/
theorem C39_exactly_one (env : Server.Env) (chain : MResolver W) (remote : Addr) (sni : Option Str) (msg : Msg) (w : W) :
    ((onRequest env chain remote sni msg w).1).length = 1 := by
  unfold onRequest handleReq
  generalize Server.resolve env chain _ w = x
  obtain ⟨o, m, w'⟩ := x
  cases o <;> rfl

/-- C39: a query without question gets FORMERR with its id, and the resolvers are not asked (even if
they would panic). -/
theorem C39_no_question (env : Server.Env) {len : Msg → Nat} (ht : TruncContract len env.trunc)
    (chain : MResolver W) (remote : Addr) (sni : Option Str) (msg : Msg) (h : msg.question = []) (w : W) :
    ∃ m, onRequest env chain remote sni msg w = ([m], w) ∧ Replies msg m ∧ m.rcode = rcodeFormErr := by
  unfold onRequest handleReq Server.resolve
  simp only [newRequestFromDNS, h]
  refine ⟨_, rfl, ?_, ?_⟩
  · have hf := finish_header env ht msg (resolveClientIPAndProtocol remote).2 (({} : Msg).setRcode msg rcodeFormErr)
    have hr := replies_setRcode msg rcodeFormErr
    exact ⟨hf.1.trans hr.1, hf.2.1.trans hr.2.1, hf.2.2.1.trans hr.2.2⟩
  · exact (finish_header env ht msg _ _).2.2.2

example : (onRequest (W := Unit) ⟨fun _ => none, sampleTrunc⟩ (fun r w => (.panic, r.req, w)) (.udp none) none
    { id := 7 } ()).1 = [{ id := 7, response := true, rcode := 1 }] := by decide

/-- The chain fails: an error that does not carry an upstream's message, a panic, or no response. -/
def Fails (env : Server.Env) : Outcome → Prop
  | .ok _ => False
  | .err e => env.asUpstream e = none
  | .noResponse => True
  | .panic => True

/-- C39: a failing or panicking chain yields one SERVFAIL, with the query's id and question provided
the resolvers did not change these in the request. -/
theorem C39_failure (env : Server.Env) (chain : MResolver W) (remote : Addr) (sni : Option Str) (msg : Msg)
    (hq : msg.question ≠ []) (w : W) (hfail : Fails env (chain (newRequestFromDNS remote sni msg) w).1) :
    ∃ m, onRequest env chain remote sni msg w = ([m], (chain (newRequestFromDNS remote sni msg) w).2.2) ∧
      m.rcode = rcodeServFail ∧
      ((chain (newRequestFromDNS remote sni msg) w).2.1.id = msg.id →
       (chain (newRequestFromDNS remote sni msg) w).2.1.question = msg.question → Replies msg m) := by
  unfold onRequest handleReq Server.resolve
  obtain ⟨q, qs, hqs⟩ : ∃ q qs, msg.question = q :: qs := by
    cases h : msg.question with
    | nil => exact absurd h hq
    | cons q qs => exact ⟨q, qs, rfl⟩
  have hreq : (newRequestFromDNS remote sni msg).req.question = q :: qs := hqs
  simp only [hreq]
  generalize hc : chain (newRequestFromDNS remote sni msg) w = x at hfail
  obtain ⟨o, m, w'⟩ := x
  have key : ∀ m : Msg, m.id = msg.id → m.question = q :: qs → Replies msg (({} : Msg).setRcode m rcodeServFail) := by
    intro m h1 h2
    have hr := replies_setRcode m rcodeServFail
    exact ⟨hr.1.trans h1, hr.2.1, by rw [hr.2.2, h2, hqs]⟩
  cases o with
  | ok r => exact absurd hfail id
  | err e =>
    simp only [Fails] at hfail
    simp only [hfail]
    exact ⟨_, rfl, rfl, fun h1 h2 => key _ h1 (h2.trans hqs)⟩
  | noResponse => exact ⟨_, rfl, rfl, fun h1 h2 => key _ h1 (h2.trans hqs)⟩
  | panic => exact ⟨_, rfl, rfl, fun h1 h2 => key _ h1 (h2.trans hqs)⟩

example : (onRequest (W := Unit) ⟨fun _ => none, sampleTrunc⟩ (fun r w => (.panic, r.req, w)) (.udp none) none
    { id := 7, question := [⟨str! "a.", 1, 1⟩] } ()).1 =
      [{ id := 7, response := true, rcode := 2, question := [⟨str! "a.", 1, 1⟩] }] := by decide

/-- C39: what a chain answers is sent; so if that replies to the query, the client gets a reply to its
query, with the same code. -/
theorem C39_answer (env : Server.Env) {len : Msg → Nat} (ht : TruncContract len env.trunc) (chain : MResolver W)
    (remote : Addr) (sni : Option Str) (msg : Msg) (hq : msg.question ≠ []) (w : W) (r : Response)
    (hok : (chain (newRequestFromDNS remote sni msg) w).1 = .ok r) (hr : Replies msg r.res) :
    ∃ m, onRequest env chain remote sni msg w = ([m], (chain (newRequestFromDNS remote sni msg) w).2.2) ∧
      Replies msg m ∧ m.rcode = r.res.rcode ∧ m.answer <+: r.res.answer ∧
      (m.answer = r.res.answer ∨ m.truncated = true) := by
  unfold onRequest handleReq Server.resolve
  obtain ⟨q, qs, hqs⟩ : ∃ q qs, msg.question = q :: qs := by
    cases h : msg.question with
    | nil => exact absurd h hq
    | cons q qs => exact ⟨q, qs, rfl⟩
  have hreq : (newRequestFromDNS remote sni msg).req.question = q :: qs := hqs
  simp only [hreq]
  generalize hc : chain (newRequestFromDNS remote sni msg) w = x at hok
  obtain ⟨o, m, w'⟩ := x
  simp only at hok
  subst hok
  refine ⟨_, rfl, ?_, (finish_header env ht m _ r.res).2.2.2, ?_, ?_⟩
  · have hf := finish_header env ht m (newRequestFromDNS remote sni msg).protocol r.res
    exact ⟨hf.1.trans hr.1, hf.2.1.trans hr.2.1, hf.2.2.1.trans hr.2.2⟩
  · exact (ht.sections _ { r.res with recursionAvailable := m.recursionDesired }).1
  · by_cases h : (finish env m (newRequestFromDNS remote sni msg).protocol r.res).answer = r.res.answer
    · exact Or.inl h
    · exact Or.inr (ht.flagged _ { r.res with recursionAvailable := m.recursionDesired } h)

/-- C39: an upstream's own error message (SERVFAIL with whatever it says) is passed on. -/
theorem C39_upstream_error (env : Server.Env) {len : Msg → Nat} (ht : TruncContract len env.trunc) (chain : MResolver W)
    (remote : Addr) (sni : Option Str) (msg : Msg) (hq : msg.question ≠ []) (w : W) (e : Str) (um : Msg)
    (herr : (chain (newRequestFromDNS remote sni msg) w).1 = .err e) (hum : env.asUpstream e = some um) :
    ∃ m, onRequest env chain remote sni msg w = ([m], (chain (newRequestFromDNS remote sni msg) w).2.2) ∧
      (Replies msg um → Replies msg m) ∧ m.rcode = um.rcode := by
  unfold onRequest handleReq Server.resolve
  obtain ⟨q, qs, hqs⟩ : ∃ q qs, msg.question = q :: qs := by
    cases h : msg.question with
    | nil => exact absurd h hq
    | cons q qs => exact ⟨q, qs, rfl⟩
  have hreq : (newRequestFromDNS remote sni msg).req.question = q :: qs := hqs
  simp only [hreq]
  generalize hc : chain (newRequestFromDNS remote sni msg) w = x at herr
  obtain ⟨o, m, w'⟩ := x
  simp only at herr
  subst herr
  simp only [hum]
  refine ⟨_, rfl, ?_, (finish_header env ht m _ um).2.2.2⟩
  intro hr
  have hf := finish_header env ht m (newRequestFromDNS remote sni msg).protocol um
  exact ⟨hf.1.trans hr.1, hf.2.1.trans hr.2.1, hf.2.2.1.trans hr.2.2⟩

/-- C39 is false: with `fqdnOnly` enabled, a query for a name without dot gets a message with id 0,
without question and without the reply bit - for every query id, transport and upstream. -/
theorem C39_fqdn_only_false (env : Server.Env) {len : Msg → Nat} (ht : TruncContract len env.trunc) (next : Resolver W)
    (remote : Addr) (sni : Option Str) (msg : Msg) (q : Question) (qs : List Question) (hq : msg.question = q :: qs)
    (hdot : (extractDomain q.name).contains '.' = false) (w : W) :
    ∃ m, onRequest env (Cond.pure (Small.fqdnOnly true next)) remote sni msg w = ([m], w) ∧
      m.id = 0 ∧ m.question = [] ∧ m.response = false ∧ ¬ Replies msg m := by
  unfold onRequest handleReq Server.resolve
  have hreq : (newRequestFromDNS remote sni msg).req.question = q :: qs := hq
  have hres : Small.fqdnOnly true next (newRequestFromDNS remote sni msg) w =
      (.ok { res := { rcode := rcodeNXDomain }, reason := str! "NOTFQDN", rtype := .notfqdn }, w) := by
    unfold Small.fqdnOnly
    simp only [if_true, hreq, hdot, Bool.not_false]
  simp only [hreq, Cond.pure, hres]
  have hf := finish_header env ht (newRequestFromDNS remote sni msg).req (newRequestFromDNS remote sni msg).protocol
    { rcode := rcodeNXDomain }
  refine ⟨_, rfl, hf.1, hf.2.2.1, hf.2.1, ?_⟩
  intro hr
  have := hr.2.1
  rw [hf.2.1] at this
  exact absurd this (by decide)

example : (extractDomain (str! "printer.")).contains '.' = false := by decide

/-- A resolver of custom DNS with the record `alias.home CNAME www.example.org`. -/
def aliasCustom (next : Resolver Unit) : Resolver Unit := fun request w =>
  match CustomDns.resolve
      { reverseAddr := fun _ => [], newId := fun _ => 1, customTTL := 60, filterUnmappedTypes := false }
      [(str! "alias.home", [{ name := str! "alias.home.", rtype := typeCNAME, ttl := 60,
                              data := .cname (str! "www.example.org") }])] [] next 2 request w with
  | some r => r
  | none => (.panic, w)

/-- The chain of that resolver with a rewrite rule "lan → home". -/
def rewrittenAlias : MResolver Unit :=
  newRewriter ⟨[(str! "lan", str! "home")], false⟩ (fun _ => [(str! "lan", str! "home")])
    (fun next => Cond.pure (aliasCustom (fun r w => ((next r w).1, (next r w).2.2))))
    (fun r w => (.ok { res := ({} : Msg).setReply r.req }, r.req, w))

/-- C39 is false for panics during rewriting: the SERVFAIL for `alias.lan` carries the question
`alias.home`, which the client did not ask. -/
theorem C39_rewrite_panic_false (env : Server.Env) (id : Nat) :
    (onRequest env rewrittenAlias (.udp none) none
      { id := id, question := [⟨str! "alias.lan.", typeA, 1⟩] } ()).1 =
    [{ id := id, response := true, rcode := rcodeServFail, question := [⟨str! "alias.home.", typeA, 1⟩] }] := by
  have h : rewrittenAlias (newRequestFromDNS (.udp none) none { id := id, question := [⟨str! "alias.lan.", typeA, 1⟩] }) () =
      (.panic, { id := id, question := [⟨str! "alias.home.", typeA, 1⟩] }, ()) := by rfl
  unfold onRequest handleReq Server.resolve
  simp only [h]
  rfl

/-- The health check's answer. -/
theorem C39_health_check (msg : Msg) :
    ∃ m, onHealthCheck msg = [m] ∧ Replies msg m ∧ m.rcode = rcodeSuccess ∧ m.answer = [] :=
  ⟨_, rfl, replies_setRcode msg rcodeSuccess, rfl, rfl⟩

/-! ### C40 -/

/-- The advertised EDNS0 size: the class of the last OPT record. -/
theorem lastOptSize_none {l : List RR} : lastOptSize l = none ↔ ∀ r ∈ l, r.isOpt = false := by
  induction l with
  | nil => simp [lastOptSize]
  | cons r rs ih =>
    unfold lastOptSize
    cases h : lastOptSize rs with
    | some n =>
      simp only [reduceCtorEq, false_iff]
      intro hall
      have := ih.2 (fun x hx => hall x (List.mem_cons_of_mem _ hx))
      rw [h] at this; cases this
    | none =>
      have := ih.1 h
      cases hr : r.isOpt with
      | true =>
        simp only [if_true, reduceCtorEq, false_iff]
        intro hall
        have := hall r (List.mem_cons_self ..)
        rw [hr] at this; cases this
      | false =>
        simp only [Bool.false_eq_true, if_false, true_iff]
        intro x hx
        rcases List.mem_cons.1 hx with rfl | hx
        · exact hr
        · exact this x hx

/-- With one OPT record, the size is that record's. -/
theorem lastOptSize_some {l : List RR} {n : Nat} (h : lastOptSize l = some n) : ∃ x ∈ l, x.isOpt = true ∧ x.cls = n := by
  induction l with
  | nil => cases h
  | cons a l ih =>
    unfold lastOptSize at h
    cases hl : lastOptSize l with
    | some k =>
      rw [hl] at h
      cases h
      obtain ⟨x, hx, h2⟩ := ih hl
      exact ⟨x, List.mem_cons_of_mem _ hx, h2⟩
    | none =>
      rw [hl] at h
      simp only at h
      split at h
      · rename_i ho
        cases h
        exact ⟨a, List.mem_cons_self .., ho, rfl⟩
      · cases h

theorem lastOptSize_one {pre post : List RR} {o : RR} (ho : o.isOpt = true)
    (hpost : ∀ r ∈ post, r.isOpt = false) : lastOptSize (pre ++ o :: post) = some o.cls := by
  induction pre with
  | nil =>
    simp only [List.nil_append, lastOptSize]
    rw [lastOptSize_none.2 hpost]
    simp [ho]
  | cons r rs ih => simp only [List.cons_append, lastOptSize, ih]

/-- Every message sent in answer to a chain's response is the truncation of that response to the size
computed from the request. -/
theorem sent_eq (env : Server.Env) (chain : MResolver W) (remote : Addr) (sni : Option Str) (msg : Msg)
    (hq : msg.question ≠ []) (w w' : W) (r : Response) (req : Msg)
    (hok : chain (newRequestFromDNS remote sni msg) w = (.ok r, req, w')) :
    (onRequest env chain remote sni msg w).1 = [finish env req (resolveClientIPAndProtocol remote).2 r.res] := by
  unfold onRequest handleReq Server.resolve
  obtain ⟨q, qs, hqs⟩ : ∃ q qs, msg.question = q :: qs := by
    cases h : msg.question with
    | nil => exact absurd h hq
    | cons q qs => exact ⟨q, qs, rfl⟩
  have hreq : (newRequestFromDNS remote sni msg).req.question = q :: qs := hqs
  simp only [hreq, hok]
  rfl

/-- C40, for chains that leave the additional section of the query alone: the response to a UDP query
without EDNS0 has at most 512 bytes (`RR.isOpt` false for all records), the one to a query advertising
`n` bytes at most `n` (but 512 if `n` is less); a response within the limit is sent as it is. Missing for C40: over TCP the
advertised size is also applied (`C40_tcp_edns_false`), and the chain may delete the client's OPT
record (`C40_ecs_drops_size`). -/
theorem C40_udp_partial (env : Server.Env) {len : Msg → Nat} (ht : TruncContract len env.trunc) (chain : MResolver W)
    (ip : Option IP) (sni : Option Str) (msg : Msg) (hq : msg.question ≠ []) (w w' : W) (r : Response) (req : Msg)
    (hok : chain (newRequestFromDNS (.udp ip) sni msg) w = (.ok r, req, w')) (hreq : req.extra = msg.extra)
    (hsmall : len (skeleton (withRA r.res req.recursionDesired)) ≤ 512) :
    ∃ m, (onRequest env chain (.udp ip) sni msg w).1 = [m] ∧
      ((∀ x ∈ msg.extra, x.isOpt = false) → len m ≤ 512) ∧
      (∀ pre o post, msg.extra = pre ++ o :: post → o.isOpt = true → (∀ x ∈ post, x.isOpt = false) →
        len m ≤ max 512 o.cls ∧
          (len (withRA r.res req.recursionDesired) ≤ max 512 o.cls →
            m = (withRA r.res req.recursionDesired))) := by
  refine ⟨_, sent_eq env chain (.udp ip) sni msg hq w w' r req hok, ?_, ?_⟩
  · intro h
    have hl : getMaxResponseSize req .udp = 512 := by
      unfold getMaxResponseSize
      rw [hreq, lastOptSize_none.2 h]
    have := ht.fits (getMaxResponseSize req .udp) (withRA r.res req.recursionDesired) hsmall
    rw [hl] at this
    simp only [finish, resolveClientIPAndProtocol, hl]; exact this
  · intro pre o post he ho hpost
    have hl : max 512 (getMaxResponseSize req .udp) = max 512 o.cls := by
      unfold getMaxResponseSize
      rw [hreq, he, lastOptSize_one ho hpost]
      simp only
      split
      · rfl
      · omega
    constructor
    · have := ht.fits (getMaxResponseSize req .udp) (withRA r.res req.recursionDesired) hsmall
      rw [hl] at this
      simp only [finish, resolveClientIPAndProtocol]
      exact this
    · intro hlen
      have := ht.unchanged (getMaxResponseSize req .udp) (withRA r.res req.recursionDesired) (by rw [hl]; exact hlen)
      simp only [finish, resolveClientIPAndProtocol]; exact this

/-- C40 over TCP without EDNS0 (or with a size of 0): the response has at most 65535 bytes, and one that has is
sent unshortened. -/
theorem C40_tcp_partial (env : Server.Env) {len : Msg → Nat} (ht : TruncContract len env.trunc) (chain : MResolver W)
    (ip : Option IP) (sni : Option Str) (msg : Msg) (hq : msg.question ≠ []) (w w' : W) (r : Response) (req : Msg)
    (hok : chain (newRequestFromDNS (.tcp ip) sni msg) w = (.ok r, req, w')) (hreq : req.extra = msg.extra)
    (hopt : ∀ x ∈ msg.extra, x.isOpt = true → x.cls = 0) :
    (len (withRA r.res req.recursionDesired) ≤ 65535 →
      (onRequest env chain (.tcp ip) sni msg w).1 = [withRA r.res req.recursionDesired]) ∧
    (len (skeleton (withRA r.res req.recursionDesired)) ≤ 512 →
      ∃ m, (onRequest env chain (.tcp ip) sni msg w).1 = [m] ∧ len m ≤ 65535) := by
  rw [sent_eq env chain (.tcp ip) sni msg hq w w' r req hok]
  have hl : getMaxResponseSize req .tcp = 65535 := by
    unfold getMaxResponseSize
    rw [hreq]
    cases hs : lastOptSize msg.extra with
    | none => rfl
    | some n =>
      obtain ⟨x, hx, ho, hn⟩ := lastOptSize_some hs
      rw [hopt x hx ho] at hn
      simp [← hn]
  simp only [finish, resolveClientIPAndProtocol, hl]
  constructor
  · intro hlen
    have := ht.unchanged 65535 (withRA r.res req.recursionDesired) (by omega)
    exact congrArg (fun x => [x]) this
  · intro hsmall
    exact ⟨_, rfl, ht.fits 65535 (withRA r.res req.recursionDesired) hsmall⟩

/-- C40 over TCP with EDNS0, as it is: any size but 0 that the query advertises is applied (512 if it is less). -/
theorem C40_tcp_advertised (env : Server.Env) {len : Msg → Nat} (ht : TruncContract len env.trunc) (chain : MResolver W)
    (ip : Option IP) (sni : Option Str) (msg : Msg) (hq : msg.question ≠ []) (w w' : W) (r : Response) (req : Msg)
    (hok : chain (newRequestFromDNS (.tcp ip) sni msg) w = (.ok r, req, w')) (hreq : req.extra = msg.extra)
    (hsmall : len (skeleton (withRA r.res req.recursionDesired)) ≤ 512) (pre post : List RR) (o : RR)
    (he : msg.extra = pre ++ o :: post) (ho : o.isOpt = true) (hpost : ∀ x ∈ post, x.isOpt = false) (hpos : 0 < o.cls) :
    ∃ m, (onRequest env chain (.tcp ip) sni msg w).1 = [m] ∧ len m ≤ max 512 o.cls ∧
      (len (withRA r.res req.recursionDesired) ≤ max 512 o.cls → m = withRA r.res req.recursionDesired) := by
  have hl : getMaxResponseSize req .tcp = o.cls := by
    unfold getMaxResponseSize
    rw [hreq, he, lastOptSize_one ho hpost]
    exact if_pos hpos
  refine ⟨_, sent_eq env chain (.tcp ip) sni msg hq w w' r req hok, ?_, ?_⟩
  · have := ht.fits (getMaxResponseSize req .tcp) (withRA r.res req.recursionDesired) hsmall
    rw [hl] at this
    simp only [finish, resolveClientIPAndProtocol, hl]
    exact this
  · intro hlen
    have := ht.unchanged (getMaxResponseSize req .tcp) (withRA r.res req.recursionDesired) (by rw [hl]; exact hlen)
    simp only [finish, resolveClientIPAndProtocol]; exact this

/-- A response of twenty records. -/
def bigResponse : Response :=
  { res := { id := 1, response := true, question := [⟨str! "a.", 1, 1⟩]
             answer := List.replicate 20 { name := str! "a.", rtype := 1, ttl := 60, data := .a (.v4 1#32) } } }

/-- An OPT record advertising `n` bytes. -/
def optOf (n : Nat) (os : List EOption) : RR := { name := str! ".", rtype := 41, cls := n, ttl := 0, data := .opt os }

/-- C40 is false over TCP: a client that advertises 1232 bytes gets a truncated response over TCP, which
has no such limit, so it cannot ever get the whole. -/
theorem C40_tcp_edns_false :
    (onRequest ⟨fun _ => none, sampleTrunc⟩ (fun r w => (.ok bigResponse, r.req, w)) (.tcp none) none
      { id := 1, question := [⟨str! "a.", 1, 1⟩], extra := [optOf 1232 []] } ()).1 =
    [{ id := 1, response := true, truncated := true, question := [⟨str! "a.", 1, 1⟩] }] ∧
    sampleLen bigResponse.res ≤ 65535 := by decide

/-- The client-subnet resolver as part of a chain: what it makes of the request's message stays. -/
def ecsChain (cfg : Ecs.Cfg) (next : Resolver W) : MResolver W := fun request w =>
  match Ecs.transform cfg request with
  | some r => ((next r w).1, r.req, (next r w).2)
  | none => (.panic, request.req, w)

/-- C40 is false with the client-subnet resolver: a client that advertises 4096 bytes and sends a client
subnet gets its answers truncated to 512 bytes when subnets are used but not forwarded, because the
OPT record is deleted from the request before the size is read from it. -/
theorem C40_ecs_drops_size :
    (onRequest ⟨fun _ => none, sampleTrunc⟩ (ecsChain { useAsClient := true } (fun _ w => (.ok bigResponse, w)))
      (.udp none) none
      { id := 1, question := [⟨str! "a.", 1, 1⟩], extra := [optOf 4096 [.subnet 1 24 0 (some (.v4 7#32))]] } ()).1 =
    [{ id := 1, response := true, truncated := true, question := [⟨str! "a.", 1, 1⟩] }] ∧
    sampleLen bigResponse.res ≤ 4096 := by decide

/-! ### C41 -/

theorem smallest_le_of_ne_zero (l : List RR) : ∀ ttl : UInt32, ttl ≠ 0 → (∀ a ∈ l, a.ttl ≠ 0) →
    IsSmallest (ttl :: l.map RR.ttl) (l.foldl smallestStep ttl) := by
  induction l with
  | nil => intro ttl _ _; exact ⟨by simp, by simp⟩
  | cons a l ih =>
    intro ttl hne hall
    have ha := hall a (List.mem_cons_self ..)
    have hl : ∀ x ∈ l, x.ttl ≠ 0 := fun x hx => hall x (List.mem_cons_of_mem _ hx)
    simp only [List.foldl_cons]
    have hz : (ttl == 0) = false := by simpa using hne
    by_cases hlt : a.ttl < ttl
    · have hs : smallestStep ttl a = a.ttl := by simp [smallestStep, hlt]
      rw [hs]
      obtain ⟨h1, h2⟩ := ih a.ttl ha hl
      refine ⟨?_, ?_⟩
      · simp only [List.map_cons, List.mem_cons] at h1 ⊢; exact Or.inr h1
      · intro x hx
        simp only [List.map_cons, List.mem_cons] at hx
        rcases hx with rfl | rfl | hx
        · exact UInt32.le_trans (h2 a.ttl (List.mem_cons_self ..)) (UInt32.le_of_lt hlt)
        · exact h2 _ (List.mem_cons_self ..)
        · exact h2 x (List.mem_cons_of_mem _ hx)
    · have hs : smallestStep ttl a = ttl := by simp [smallestStep, hlt, hz]
      rw [hs]
      obtain ⟨h1, h2⟩ := ih ttl hne hl
      refine ⟨?_, ?_⟩
      · simp only [List.map_cons, List.mem_cons] at h1 ⊢
        rcases h1 with h | h
        · exact Or.inl h
        · exact Or.inr (Or.inr h)
      · intro x hx
        simp only [List.map_cons, List.mem_cons] at hx
        rcases hx with rfl | rfl | hx
        · exact h2 _ (List.mem_cons_self ..)
        · exact UInt32.le_trans (h2 ttl (List.mem_cons_self ..)) (UInt32.not_lt.1 hlt)
        · exact h2 x (List.mem_cons_of_mem _ hx)

/-- C41 for answers without zero TTLs: the max-age of a DoH response is the smallest TTL of its answer.
Missing: zero TTLs, where it is false (`C41_zero_false`). -/
theorem C41_max_age_partial (d : DohEnv) (m : Msg) (age : UInt32) (m' : Msg)
    (hw : dohWrite d m = .message age m') (hne : m'.answer ≠ []) (hpos : ∀ a ∈ m'.answer, a.ttl ≠ 0) :
    IsSmallest (m'.answer.map RR.ttl) age := by
  unfold dohWrite at hw
  split at hw
  · injection hw with h1 h2
    subst h2
    subst h1
    unfold getSmallestTTL
    cases ha : m.answer with
    | nil => exact absurd ha hne
    | cons a l =>
      rw [ha] at hpos
      have h0 := hpos a (List.mem_cons_self ..)
      have := smallest_le_of_ne_zero l a.ttl h0 (fun x hx => hpos x (List.mem_cons_of_mem _ hx))
      have hs : smallestStep 0 a = a.ttl := by simp [smallestStep]
      simp only [List.foldl_cons, hs, List.map_cons]
      exact this
  · cases hw

/-- An answer with no record may not be cached at all. -/
theorem C41_empty (m : Msg) (h : m.answer = []) : getSmallestTTL m = 0 := by simp [getSmallestTTL, h]

/-- A record of the given TTL. -/
def ttlRecord (t : UInt32) : RR := { name := str! "a.", rtype := 1, ttl := t, data := .a (.v4 1#32) }

example : getSmallestTTL { answer := [ttlRecord 300, ttlRecord 20, ttlRecord 600] } = 20 := by decide

/-- C41 is false: a record with TTL 0 (not to be cached) followed by one with TTL 300 makes the HTTP
response cacheable for 300 seconds. -/
theorem C41_zero_false (d : DohEnv) (hp : d.packs { answer := [ttlRecord 0, ttlRecord 300] } = true) :
    dohWrite d { answer := [ttlRecord 0, ttlRecord 300] } =
      .message 300 { answer := [ttlRecord 0, ttlRecord 300] } ∧
    ¬ IsSmallest [0, 300] (300 : UInt32) := by
  refine ⟨?_, ?_⟩
  · unfold dohWrite
    rw [if_pos hp]
    rfl
  · intro h
    exact absurd (h.2 0 (by simp)) (by decide)

/-! ### C55 -/

/-- C55: a DoH request that is malformed - no message, not base64, wrong content type, undecodable - is
answered with one HTTP error of the 400 range and nothing is resolved. -/
theorem C55_malformed (d : DohEnv) (env : Server.Env) (chain : MResolver W) (ip : Option IP) (id : Str) (r : DohRequest)
    (hbad : match r with
      | .get (some (p :: _)) => p = [] ∨ ∀ raw, d.base64 p = some raw → d.unpack raw = none
      | .get _ => True
      | .post ct fails body => ct ≠ str! "application/dns-message" ∨ fails = true ∨ d.unpack body = none) (w : W) :
    ∃ status, doh d env chain ip id r w = ([.error status], w) ∧ 400 ≤ status ∧ status < 500 := by
  cases r with
  | get p =>
    match p with
    | none => exact ⟨400, rfl, by decide, by decide⟩
    | some [] => exact ⟨400, rfl, by decide, by decide⟩
    | some (p :: ps) =>
      simp only at hbad
      unfold doh
      by_cases hp : p = []
      · subst hp; exact ⟨400, rfl, by decide, by decide⟩
      · have hlen : ¬ p.length < 1 := by
          have := List.length_pos_iff.2 hp
          omega
        simp only [if_neg hlen]
        cases hb : d.base64 p with
        | none => exact ⟨400, rfl, by decide, by decide⟩
        | some raw =>
          simp only
          split
          · exact ⟨414, rfl, by decide, by decide⟩
          · have := (hbad.resolve_left hp) raw hb
            unfold processDoh
            rw [this]
            exact ⟨400, rfl, by decide, by decide⟩
  | post ct fails body =>
    simp only at hbad
    unfold doh
    by_cases hct : ct ≠ str! "application/dns-message"
    · simp only [if_pos hct]; exact ⟨415, rfl, by decide, by decide⟩
    · simp only [if_neg hct]
      cases fails with
      | true => exact ⟨400, rfl, by decide, by decide⟩
      | false =>
        simp only [Bool.false_eq_true, if_false]
        split
        · exact ⟨413, rfl, by decide, by decide⟩
        · have : d.unpack body = none := by
            rcases hbad with h | h | h
            · exact absurd h hct
            · cases h
            · exact h
          unfold processDoh
          rw [this]
          exact ⟨400, rfl, by decide, by decide⟩

/-- The raw message a DoH request carries. -/
def dohRaw (d : DohEnv) : DohRequest → Option Str
  | .get (some (p :: _)) => if p = [] then none else d.base64 p
  | .get _ => none
  | .post ct fails body => if ct = str! "application/dns-message" ∧ fails = false then some body else none

/-- C55: a DoH request carrying a DNS message of at most 512 bytes is answered with exactly one HTTP
response: the DNS response the same query would get over TCP, whichever of GET and POST is used.
Missing: larger queries are refused (`C55_large_false`), although DoH allows them. -/
theorem C55_same_as_tcp_partial (d : DohEnv) (env : Server.Env) (chain : MResolver W) (ip : Option IP) (sni : Option Str)
    (id : Str) (hid : id = match sni with | some h => extractClientIDFromHost h | none => [])
    (r : DohRequest) (raw : Str) (hraw : dohRaw d r = some raw) (hlen : raw.length ≤ 512) (msg : Msg)
    (hmsg : d.unpack raw = some msg) (w : W) :
    doh d env chain ip id r w =
      ((onRequest env chain (.tcp ip) sni msg w).1.map (dohWrite d), (onRequest env chain (.tcp ip) sni msg w).2) := by
  have hreq : ({ clientIP := ip, requestClientID := id, protocol := .tcp, req := msg } : Request) =
      newRequestFromDNS (.tcp ip) sni msg := by
    subst hid
    rfl
  have hproc : processDoh d env chain ip id raw w =
      ((onRequest env chain (.tcp ip) sni msg w).1.map (dohWrite d), (onRequest env chain (.tcp ip) sni msg w).2) := by
    unfold processDoh onRequest
    rw [hmsg]
    simp only [hreq]
  have hl : ¬ raw.length > dohMessageLimit := by unfold dohMessageLimit; omega
  cases r with
  | get p =>
    match p with
    | none => cases hraw
    | some [] => cases hraw
    | some (p :: ps) =>
      simp only [dohRaw] at hraw
      split at hraw
      · cases hraw
      · rename_i hp
        have hlen : ¬ p.length < 1 := by
          have := List.length_pos_iff.2 hp
          omega
        unfold doh
        simp only [if_neg hlen, hraw, if_neg hl, hproc]
  | post ct fails body =>
    simp only [dohRaw] at hraw
    split at hraw
    · rename_i hc
      injection hraw with hraw
      subst hraw
      unfold doh
      simp only [hc.1, hc.2, ne_eq, not_true_eq_false, if_false, Bool.false_eq_true, if_neg hl, hproc]
    · cases hraw

example : dohRaw ⟨fun _ => some (str! "raw"), fun _ => some {}, fun _ => true⟩ (.get (some [str! "cmF3"])) =
    some (str! "raw") := by decide

/-- C55 for larger queries is false: a query of 513 bytes (for example padded as RFC 8467 recommends) is
refused without being resolved. -/
theorem C55_large_false (d : DohEnv) (env : Server.Env) (chain : MResolver W) (ip : Option IP) (id : Str) (r : DohRequest)
    (raw : Str) (hraw : dohRaw d r = some raw) (hlen : raw.length = 513) (w : W) :
    doh d env chain ip id r w = ([.error 414], w) ∨ doh d env chain ip id r w = ([.error 413], w) := by
  have hl : raw.length > dohMessageLimit := by unfold dohMessageLimit; omega
  cases r with
  | get p =>
    match p with
    | none => cases hraw
    | some [] => cases hraw
    | some (p :: ps) =>
      simp only [dohRaw] at hraw
      split at hraw
      · cases hraw
      · rename_i hp
        have hlen : ¬ p.length < 1 := by
          have := List.length_pos_iff.2 hp
          omega
        unfold doh
        left
        simp only [if_neg hlen, hraw, if_pos hl]
  | post ct fails body =>
    simp only [dohRaw] at hraw
    split at hraw
    · rename_i hc
      injection hraw with hraw
      subst hraw
      unfold doh
      right
      simp only [hc.1, hc.2, ne_eq, not_true_eq_false, if_false, Bool.false_eq_true, if_pos hl]
    · cases hraw

/-- C55: the client id taken from a host name is what stands between "id-" and the first dot; other
hosts give none. -/
theorem C55_client_id (host : Str) :
    (∀ id rest, host = str! "id-" ++ id ++ '.' :: rest → '.' ∉ id → extractClientIDFromHost host = id) ∧
    ((∀ id rest, host ≠ str! "id-" ++ id ++ '.' :: rest) → extractClientIDFromHost host = []) := by
  have htake : ∀ (id rest : Str), '.' ∉ id → (id ++ '.' :: rest).takeWhile (fun c => decide (c ≠ '.')) = id := by
    intro id
    induction id with
    | nil => intro rest _; simp
    | cons c cs ih =>
      intro rest h
      simp only [List.mem_cons, not_or] at h
      have hc : decide (c ≠ '.') = true := by simpa using Ne.symm h.1
      rw [List.cons_append, List.takeWhile_cons, hc, if_pos rfl, ih rest h.2]
  constructor
  · intro id rest hh hid
    subst hh
    unfold extractClientIDFromHost
    have h1 : (str! "id-").isPrefixOf (str! "id-" ++ id ++ '.' :: rest) = true := by
      rw [List.isPrefixOf_iff_prefix, List.append_assoc]
      exact List.prefix_append _ _
    have h2 : (str! "id-" ++ id ++ '.' :: rest).contains '.' = true := by simp
    rw [h1, h2]
    simp only [Bool.and_self, if_true]
    rw [htake (str! "id-" ++ id) rest (by simp [hid])]
    rfl
  · intro hno
    unfold extractClientIDFromHost
    split
    · rename_i h
      simp only [Bool.and_eq_true, List.isPrefixOf_iff_prefix] at h
      obtain ⟨t, ht⟩ := h.1
      have hdot : '.' ∈ t := by
        have : '.' ∈ host := by simpa using h.2
        rw [← ht] at this
        simpa using this
      obtain ⟨a, b, hab⟩ := List.append_of_mem hdot
      exact absurd (by rw [← ht, hab, List.append_assoc]) (hno a b)
    · rfl

example : extractClientIDFromHost (str! "id-laptop.dns.example.org") = str! "laptop" := by decide

/-- C55, whose query it is: an id in the path counts, whatever the host name; without one the host name
counts. -/
theorem C55_doh_client_id (pathID host : Str) :
    (pathID ≠ [] → dohClientID pathID host = pathID) ∧
    (∀ id rest, pathID = [] → host = str! "id-" ++ id ++ '.' :: rest → '.' ∉ id → dohClientID pathID host = id) ∧
    (pathID = [] → (∀ id rest, host ≠ str! "id-" ++ id ++ '.' :: rest) → dohClientID pathID host = []) := by
  unfold dohClientID
  refine ⟨fun h => by rw [if_neg h], fun id rest h h1 h2 => ?_, fun h h1 => ?_⟩
  · rw [if_pos h]; exact (C55_client_id host).1 id rest h1 h2
  · rw [if_pos h]; exact (C55_client_id host).2 h1

example : dohClientID (str! "tv") (str! "id-laptop.dns.example.org") = str! "tv" ∧
    dohClientID [] (str! "id-laptop.dns.example.org") = str! "laptop" := by decide

end Verif.Props
