/-
C129: which messages are taken for the reply of an upstream.
-/
import Verif.Model.Exchange
import Verif.Props.Chain
import Verif.Props.Transport
import Verif.Props.Upstream

namespace Verif.Props
open Verif.Dns Verif.Upstream Verif.Transport Verif.Exchange Verif.StringCache Verif.Spec

variable {W : Type} {E : RegexEngine}

/-! ### What is said of the network -/

/-- The arrivals that count for a query: everything but messages with another id. -/
def counting (id : Nat) (arrivals : List Reply) : List Reply :=
  arrivals.filter (fun r => match r with | .msg m => m.id == id | .err _ => true)

/-- Two networks that differ only in UDP messages whose id is not that of the query. -/
structure DifferInForeign (n n' : Network W) : Prop where
  tls : n.tls = n'.tls
  codec : n.codec = n'.codec
  web : n.web = n'.web
  text : n.ipText = n'.ipText
  tcp : ∀ ip req w, (n.both ip req w).1 = (n'.both ip req w).1
  order : ∀ ip req w, (n.both ip req w).2.2 = (n'.both ip req w).2.2
  udp : ∀ ip req w, counting req.id (n.both ip req w).2.1 = counting req.id (n'.both ip req w).2.1

/-- Every message that arrives with the id of the query sent is a response with the query's question. -/
structure Honest (n : Network W) : Prop where
  tls : ∀ ip req w m, (n.tls ip req w).1 = .msg m → m.id = req.id → m.response = true ∧ m.question = req.question
  tcp : ∀ ip req w m, (n.both ip req w).1 = .msg m → m.id = req.id → m.response = true ∧ m.question = req.question
  udp : ∀ ip req w m, .msg m ∈ (n.both ip req w).2.1 → m.id = req.id → m.response = true ∧ m.question = req.question

/-- Errors of the network are not messages of a server. -/
structure PlainErrors (n : Network W) : Prop where
  tls : ∀ ip req w e, (n.tls ip req w).1 = .err e → e.upstream = none
  tcp : ∀ ip req w e, (n.both ip req w).1 = .err e → e.upstream = none
  udp : ∀ ip req w e, .err e ∈ (n.both ip req w).2.1 → e.upstream = none

/-! ### Reading -/

theorem readUdp_counting (id : Nat) (l : List Reply) : readUdp id (counting id l) = readUdp id l := by
  induction l with
  | nil => rfl
  | cons r l ih =>
    cases r with
    | err e => rfl
    | msg m =>
      by_cases h : m.id = id
      · have : counting id (.msg m :: l) = .msg m :: counting id l := by simp [counting, h]
        rw [this, readUdp, readUdp, if_pos h, if_pos h]
      · have : counting id (.msg m :: l) = counting id l := by simp [counting, h]
        rw [this, ih, readUdp, if_neg h]

theorem readUdp_msg {id : Nat} {l : List Reply} {m : Msg} (h : readUdp id l = .msg m) : m.id = id ∧ .msg m ∈ l := by
  induction l with
  | nil => cases h
  | cons r l ih =>
    cases r with
    | err e => cases h
    | msg m' =>
      rw [readUdp] at h
      split at h
      · cases h; exact ⟨by assumption, List.mem_cons_self⟩
      · exact ⟨(ih h).1, List.mem_cons_of_mem _ (ih h).2⟩

theorem readUdp_err {id : Nat} {l : List Reply} {e : UErr} (h : readUdp id l = .err e) :
    e.upstream = none ∨ .err e ∈ l := by
  induction l with
  | nil => cases h; exact .inl rfl
  | cons r l ih =>
    cases r with
    | err e' => cases h; exact .inr List.mem_cons_self
    | msg m' =>
      rw [readUdp] at h
      split at h
      · cases h
      · exact (ih h).imp_right (List.mem_cons_of_mem _)

theorem readTcp_msg {id : Nat} {r : Reply} {m : Msg} (h : readTcp id r = .msg m) : m.id = id ∧ r = .msg m := by
  cases r with
  | err e => cases h
  | msg m' =>
    rw [readTcp] at h
    split at h
    · cases h; exact ⟨by assumption, rfl⟩
    · cases h

theorem readTcp_err {id : Nat} {r : Reply} {e : UErr} (h : readTcp id r = .err e) : e.upstream = none ∨ r = .err e := by
  cases r with
  | err e' => cases h; exact .inr rfl
  | msg m' =>
    rw [readTcp] at h
    split at h
    · cases h
    · cases h; exact .inl rfl

/-! ### From the reply of a call to the result -/

/-- What holds for the message of a reply: `P` as answer, `Q` inside an error. -/
def MsgOf (P Q : Msg → Prop) : Reply → Prop
  | .msg m => P m
  | .err e => ∀ m, e.upstream = some m → Q m

theorem race_either (protocol : Proto) (a b : ExchangeResult) : race protocol a b = a.reply ∨ race protocol a b = b.reply := by
  unfold race
  repeat' split
  all_goals first | exact .inl rfl | exact .inr rfl

theorem msgOf_exchange {P Q : Msg → Prop} (hPQ : ∀ m, P m → Q m) {r : Reply} (p : Proto) (h : MsgOf P Q r) :
    MsgOf P Q (exchange p r).reply := by
  cases r with
  | err e => exact h
  | msg m =>
    simp only [exchange]
    split
    · intro m' hm'; cases hm'; exact hPQ _ h
    · exact h

theorem msgOf_raceClients {P Q : Msg → Prop} (hPQ : ∀ m, P m → Q m) {tcp udp : Reply} (protocol : Proto) (first : Bool)
    (h1 : MsgOf P Q tcp) (h2 : MsgOf P Q udp) : MsgOf P Q (raceClients protocol tcp udp first) := by
  unfold raceClients
  split
  · rcases race_either protocol (exchange .tcp tcp) (exchange .udp udp) with h | h <;> rw [h]
    · exact msgOf_exchange hPQ _ h1
    · exact msgOf_exchange hPQ _ h2
  · rcases race_either protocol (exchange .udp udp) (exchange .tcp tcp) with h | h <;> rw [h]
    · exact msgOf_exchange hPQ _ h2
    · exact msgOf_exchange hPQ _ h1

/-- What holds for the message of a result: `P` as answer, `Q` inside an error. -/
def MsgIn (P Q : Msg → Prop) : UResult → Prop
  | .ok m => P m
  | .err e => ∀ m, e.upstream = some m → Q m
  | .panic => True

theorem retryDo_msg {P Q : Msg → Prop} {call : IP → W → Reply × W} {ctxErr : W → Option UErr}
    (hcall : ∀ ip w, MsgOf P Q (call ip w).1) (hctx : ∀ w e, ctxErr w = some e → ∀ m, e.upstream = some m → Q m)
    (left : Nat) (ips : IPSet)
    (w : W) : MsgIn P Q (retryDo call ctxErr left ips w).1 := by
  induction left generalizing ips w with
  | zero => exact trivial
  | succ left ih =>
    rw [retryDo]
    cases ips.current with
    | none => exact trivial
    | some ip =>
      have h := hcall ip w
      simp only
      generalize call ip w = x at h
      obtain ⟨r, w1⟩ := x
      cases r with
      | msg m => exact h
      | err e =>
        simp only
        split
        · exact h
        · cases ips.next with
          | none => exact trivial
          | some ips' =>
            simp only
            split
            · exact h
            · cases hc : ctxErr w1 with
              | some ce => exact hctx w1 ce hc
              | none => exact ih _ _

/-- What holds for what a call of one of the DNS clients gives. -/
theorem call_msg {n : Network W} {net : Net} (hnet : net ≠ .https) (u : UpstreamUrl.Upstream) (c : TlsConfig) {P Q : Msg → Prop}
    (hPQ : ∀ m, P m → Q m) {req : Msg} (htls : ∀ ip w, MsgOf P Q (readTcp req.id (n.tls ip req w).1))
    (htcp : ∀ ip w, MsgOf P Q (readTcp req.id (n.both ip req w).1))
    (hudp : ∀ ip w, MsgOf P Q (readUdp req.id (n.both ip req w).2.1)) (protocol : Proto) (ip : IP) (w : W) :
    MsgOf P Q (callExternal (exchanges n net u c) net ip req protocol w).1 := by
  cases net with
  | https => exact absurd rfl hnet
  | tcpTls => exact htls ip w
  | tcpUdp => exact msgOf_raceClients hPQ protocol _ (htcp ip w) (hudp ip w)

theorem call_same {n n' : Network W} (h : DifferInForeign n n') (net : Net) (u : UpstreamUrl.Upstream) (c : TlsConfig) :
    exchanges n net u c = exchanges n' net u c := by
  unfold exchanges
  have hb : ∀ ip req w, (fun (x : Reply × List Reply × Bool × W) => (readTcp req.id x.1, readUdp req.id x.2.1, x.2.2.1, x.2.2.2))
      (n.both ip req w) = (fun x => (readTcp req.id x.1, readUdp req.id x.2.1, x.2.2.1, x.2.2.2)) (n'.both ip req w) := by
    intro ip req w
    have h1 := h.tcp ip req w
    have h2 := h.order ip req w
    have h3 := h.udp ip req w
    simp only
    rw [h1, h2, ← readUdp_counting, h3, readUdp_counting]
  congr 1
  · funext ip req w
    cases net with
    | https => simp only [h.codec, h.web, h.text]
    | tcpTls => simp only [h.tls]
    | tcpUdp => simp only [h.tls]
  · funext ip req w
    exact hb ip req w

theorem resolve_msg {n : Network W} {net : Net} (hnet : net ≠ .https) (u : UpstreamUrl.Upstream) (c : TlsConfig) {P Q : Msg → Prop}
    (hPQ : ∀ m, P m → Q m) {lookup : W → (List IP ⊕ UErr) × W} {ctxErr : W → Option UErr} {request : Request}
    (htls : ∀ ip w, MsgOf P Q (readTcp request.req.id (n.tls ip request.req w).1))
    (htcp : ∀ ip w, MsgOf P Q (readTcp request.req.id (n.both ip request.req w).1))
    (hudp : ∀ ip w, MsgOf P Q (readUdp request.req.id (n.both ip request.req w).2.1))
    (hctx : ∀ w e, ctxErr w = some e → ∀ m, e.upstream = some m → Q m)
    (hlook : ∀ w e, (lookup w).1 = .inr e → ∀ m, e.upstream = some m → Q m) (w : W) :
    MsgIn P Q (Upstream.resolve (exchanges n net u c) net lookup ctxErr request w).1 := by
  unfold Upstream.resolve
  have hl := hlook w
  generalize lookup w = x at hl
  obtain ⟨r, w1⟩ := x
  cases r with
  | inr e => exact hl e rfl
  | inl ips => exact retryDo_msg (fun ip w => call_msg hnet u c hPQ htls htcp hudp request.protocol ip w) hctx _ _ _

theorem msgOf_tcp {P Q : Msg → Prop} {id : Nat} {r : Reply} (hm : ∀ m, r = .msg m → m.id = id → P m)
    (he : ∀ e, r = .err e → ∀ m, e.upstream = some m → Q m) : MsgOf P Q (readTcp id r) := by
  cases h : readTcp id r with
  | msg m => exact hm m (readTcp_msg h).2 (readTcp_msg h).1
  | err e =>
    rcases readTcp_err h with h | h
    · intro m hm'; rw [h] at hm'; cases hm'
    · exact he e h

theorem msgOf_udp {P Q : Msg → Prop} {id : Nat} {l : List Reply} (hm : ∀ m, .msg m ∈ l → m.id = id → P m)
    (he : ∀ e, .err e ∈ l → ∀ m, e.upstream = some m → Q m) : MsgOf P Q (readUdp id l) := by
  cases h : readUdp id l with
  | msg m => exact hm m (readUdp_msg h).2 (readUdp_msg h).1
  | err e =>
    rcases readUdp_err h with h | h
    · intro m hm'; rw [h] at hm'; cases hm'
    · exact he e h

/-! ### C129 -/

/-- **C129.** With an upstream that is not asked over HTTPS: whatever arrives from the network, the answer has the id of
the query that was sent. Missing: HTTPS (`C129_https_false`), and the question (`C129_question_false`). -/
theorem C129_id_partial (n : Network W) (net : Net) (hnet : net ≠ .https) (u : UpstreamUrl.Upstream) (c : TlsConfig)
    (lookup : W → (List IP ⊕ UErr) × W) (ctxErr : W → Option UErr) (request : Request) (w w' : W) (m : Msg)
    (h : Upstream.resolve (exchanges n net u c) net lookup ctxErr request w = (.ok m, w')) : m.id = request.req.id := by
  have := resolve_msg (n := n) hnet u c (P := fun m => m.id = request.req.id) (Q := fun _ => True) (fun _ _ => trivial)
    (lookup := lookup) (ctxErr := ctxErr) (request := request)
    (fun _ _ => msgOf_tcp (fun _ _ h => h) (fun _ _ _ _ => trivial)) (fun _ _ => msgOf_tcp (fun _ _ h => h) (fun _ _ _ _ => trivial))
    (fun _ _ => msgOf_udp (fun _ _ h => h) (fun _ _ _ _ => trivial)) (fun _ _ _ _ _ => trivial) (fun _ _ _ _ _ => trivial) w
  rw [h] at this
  exact this

/-- **C129.** So has a SERVFAIL that is handed on inside an error, if errors of the network, of the lookup of the
address and of the context are what they should be: no messages of upstreams. -/
theorem C129_servfail_id_partial (n : Network W) (hn : PlainErrors n) (net : Net) (hnet : net ≠ .https)
    (u : UpstreamUrl.Upstream) (c : TlsConfig) (lookup : W → (List IP ⊕ UErr) × W)
    (hlook : ∀ w e, (lookup w).1 = .inr e → e.upstream = none) (ctxErr : W → Option UErr)
    (hctx : ∀ w e, ctxErr w = some e → e.upstream = none) (request : Request) (w w' : W) (e : UErr) (m : Msg)
    (h : Upstream.resolve (exchanges n net u c) net lookup ctxErr request w = (.err e, w')) (hm : e.upstream = some m) :
    m.id = request.req.id := by
  have none_ : ∀ {e : UErr}, e.upstream = none → ∀ m : Msg, e.upstream = some m → m.id = request.req.id := by
    intro e he m hm; rw [he] at hm; cases hm
  have := resolve_msg (n := n) hnet u c (P := fun m => m.id = request.req.id) (Q := fun m => m.id = request.req.id) (fun _ h => h)
    (lookup := lookup) (ctxErr := ctxErr) (request := request)
    (fun _ _ => msgOf_tcp (fun _ _ h => h) (fun e he => none_ (hn.tls _ _ _ e he)))
    (fun _ _ => msgOf_tcp (fun _ _ h => h) (fun e he => none_ (hn.tcp _ _ _ e he)))
    (fun _ _ => msgOf_udp (fun _ _ h => h) (fun e he => none_ (hn.udp _ _ _ e he)))
    (fun w e he => none_ (hctx w e he)) (fun w e he => none_ (hlook w e he)) w
  rw [h] at this
  exact this m hm

/-- **C129.** UDP messages with ids other than the query's - late replies to other queries, or forged ones - change
nothing: neither the answer or error nor what is asked afterwards. -/
theorem C129_foreign_ignored (n n' : Network W) (h : DifferInForeign n n') (net : Net) (u : UpstreamUrl.Upstream) (c : TlsConfig)
    (lookup : W → (List IP ⊕ UErr) × W) (ctxErr : W → Option UErr) (request : Request) (w : W) :
    Upstream.resolve (exchanges n net u c) net lookup ctxErr request w =
      Upstream.resolve (exchanges n' net u c) net lookup ctxErr request w := by
  rw [call_same h]

theorem upstream_ok {n : Network W} (hn : Honest n) {net : Net} (hnet : net ≠ .https) (u : UpstreamUrl.Upstream) (c : TlsConfig)
    {ips : List IP} (hips : 0 < ips.length ∧ ips.length < 4294967296) {Er : Nat → Question → Str → Prop} (hEr : ∀ id q e, Er id q e) :
    UpOk Er (Exchange.upstream n net u c ips) where
  echo := by
    intro request w q y hq h
    have := resolve_msg (n := n) hnet u c
      (P := fun m => m.id = request.req.id ∧ m.response = true ∧ m.question = request.req.question) (Q := fun _ => True)
      (fun _ _ => trivial) (lookup := fun w => (.inl ips, w)) (ctxErr := fun _ => none) (request := request)
      (fun _ _ => msgOf_tcp (fun m h h' => ⟨h', hn.tls _ _ _ m h h'⟩) (fun _ _ _ _ => trivial))
      (fun _ _ => msgOf_tcp (fun m h h' => ⟨h', hn.tcp _ _ _ m h h'⟩) (fun _ _ _ _ => trivial))
      (fun _ _ => msgOf_udp (fun m h h' => ⟨h', hn.udp _ _ _ m h h'⟩) (fun _ _ _ _ => trivial))
      (fun _ _ _ _ _ => trivial) (fun _ _ _ _ _ => trivial) w
    unfold Exchange.upstream at h
    generalize Upstream.resolve _ _ _ _ _ _ = x at this h
    obtain ⟨r, w1⟩ := x
    cases r with
    | ok m => cases h; exact ⟨this.1, this.2.1, this.2.2.trans hq⟩
    | err e => cases h
    | panic => cases h
  noPanic := by
    intro request w h
    have hp := C45_no_panic (exchanges n net u c) net (fun w => (.inl ips, w)) (fun _ => none) request w
      (fun ips' w' hl => by cases hl; exact hips)
    unfold Exchange.upstream at h
    generalize Upstream.resolve _ _ _ _ _ _ = x at h hp
    obtain ⟨r, w1⟩ := x
    cases r with
    | ok m => cases h
    | err e => cases h
    | panic => exact hp rfl
  some := by
    intro request w h
    unfold Exchange.upstream at h
    generalize Upstream.resolve _ _ _ _ _ _ = x at h
    obtain ⟨r, w1⟩ := x
    cases r <;> cases h
  err := fun request _ q e _ _ => hEr request.req.id q e

/-- **C129.** What this means for clients: if the messages that come with the id of a query are responses with its
question, every query of a client gets one response with its id and (up to case) its question, whatever else arrives
from the network. Conditional upstreams are such upstreams as well. -/
theorem C129_client_partial (senv : Server.Env) (hs : ∀ e, senv.asUpstream e = none) {len : Msg → Nat}
    (ht : TruncContract len senv.trunc) (n : Network W) (hn : Honest n) (net : Net) (hnet : net ≠ .https)
    (u : UpstreamUrl.Upstream) (t : TlsConfig) (ips : List IP) (hips : 0 < ips.length ∧ ips.length < 4294967296)
    (c : Chain.Config E W) (hcond : ∀ d r, c.condMapping.get d = some r →
      ∃ (n : Network W) (net : Net) (v : UpstreamUrl.Upstream) (t : TlsConfig) (ips : List IP), Honest n ∧ net ≠ .https ∧
        0 < ips.length ∧ ips.length < 4294967296 ∧ r = Exchange.upstream n net v t ips) (msg : Msg) (q : Question) (hq : msg.question = [q])
    (hname : WireName q.name) (hc : ConfigOk c senv q) (remote : Server.Addr) (sni : Option Str) (w : Chain.World W) :
    ∃ m w', Chain.serve senv c (Exchange.upstream n net u t ips) remote sni msg w = ([m], w') ∧ RepliesFold msg m := by
  have he : ∀ id q e, ErrorReplies senv id q e := by
    intro id q e um hum
    rw [hs e] at hum
    cases hum
  refine C60_reply_partial senv ht c _ msg q hq hname hc (upstream_ok hn hnet u t hips he) ?_ remote sni w
  intro d r h
  obtain ⟨n', net', v, t', ips', h1, h2, h3, h4, rfl⟩ := hcond d r h
  exact upstream_ok h1 h2 v t' ⟨h3, h4⟩ he

/-! ### Examples -/

/-- A record of another name. -/
def strayRecord : RR := { name := str! "bank.example.", rtype := typeA, ttl := 600, data := .a (.v4 0x06060606#32) }

/-- A message for another question. -/
def strayMsg (id : Nat) : Msg :=
  { id := id, response := true, question := [⟨str! "bank.example.", typeA, 1⟩], answer := [strayRecord] }

/-- The reply a server should give. -/
def dueMsg (req : Msg) : Msg := { ({} : Msg).setReply req with question := req.question, answer :=
  [{ name := (req.question.map Question.name).flatten, rtype := typeA, ttl := 60, data := .a (.v4 0x01020304#32) }] }

/-- A network in which UDP messages `early` arrive before the due one, and in which a web server answers everything with
the same message. -/
def meddled (early : Msg → List Reply) (web : Msg) : Network Nat where
  tls _ req w := (.msg (dueMsg req), w + 1)
  both _ req w := (.err { text := str! "refused" }, early req ++ [.msg (dueMsg req)], false, w + 1)
  codec := ⟨fun _ => some (str! "q"), fun _ => some web⟩
  web _ w := (.reply 200 none (str! "application/dns-message") (str! "a"), w + 1)
  ipText _ := str! "9.9.9.9"

/-- An upstream in this network. -/
def meddledUp (net : Net) (early : Msg → List Reply) : Resolver Nat :=
  Exchange.upstream (meddled early (strayMsg 99)) net { host := str! "9.9.9.9", port := 53 } ⟨str! "9.9.9.9", tls12⟩ [.v4 9#32]

/-- What comes back for a query. -/
def reply (up : Resolver Nat) : Option (Nat × List Question × List RR) :=
  match (up { req := query (str! "www.org.") } 0).1 with
  | .ok y => some (y.res.id, y.res.question, y.res.answer)
  | _ => none

-- messages with other ids are passed over, with TLS there is only one
example : reply (meddledUp .tcpUdp (fun _ => [.msg (strayMsg 4), .msg (strayMsg 6)])) = reply (meddledUp .tcpTls (fun _ => [])) := by
  decide +kernel

/-- The networks with and without messages of another id. -/
example : DifferInForeign (meddled (fun req => [.msg (strayMsg (req.id + 1))]) {}) (meddled (fun _ => []) {}) where
  tls := rfl
  codec := rfl
  web := rfl
  text := rfl
  tcp _ _ _ := rfl
  order _ _ _ := rfl
  udp ip req w := by simp [counting, meddled, strayMsg]

theorem meddled_honest (web : Msg) : Honest (meddled (fun req => [.msg (strayMsg (req.id + 1))]) web) where
  tls ip req w m h hid := by cases h; exact ⟨rfl, rfl⟩
  tcp ip req w m h hid := by cases h
  udp ip req w m h hid := by
    simp only [meddled, List.cons_append, List.nil_append, List.mem_cons, Reply.msg.injEq, List.not_mem_nil, or_false] at h
    rcases h with rfl | rfl
    · simp [strayMsg] at hid
    · exact ⟨rfl, rfl⟩

example : PlainErrors (meddled (fun req => [.msg (strayMsg (req.id + 1))]) {}) where
  tls ip req w e h := by cases h
  tcp ip req w e h := by cases h; rfl
  udp ip req w e h := by simp [meddled] at h

/-- A client of the sample server, with this network behind the default upstream and the conditional one. -/
example : ∃ m w', Chain.serve ⟨fun _ => none, sampleTrunc⟩
    { sampleConfig with condMapping := [(str! "broken", meddledUp .tcpTls (fun req => [.msg (strayMsg (req.id + 1))]))] }
    (meddledUp .tcpUdp (fun req => [.msg (strayMsg (req.id + 1))])) (.udp none) none
    (query (str! "host.old.")) sampleWorld = ([m], w') ∧ RepliesFold (query (str! "host.old.")) m := by
  refine C129_client_partial _ (fun _ => rfl) sample_contract _ (meddled_honest _) .tcpUdp (by decide) _ _ _ ⟨by decide, by decide⟩ _ ?_ _
    ⟨str! "host.old.", typeA, 1⟩ rfl ⟨str! "host.old", rfl, by decide⟩ ?_ _ _ _
  · intro d r h
    have hm := AMap.get_eq_some_mem h
    simp only [List.mem_cons, Prod.mk.injEq, List.not_mem_nil, or_false] at hm
    rw [hm.2]
    exact ⟨_, .tcpTls, _, _, _, meddled_honest _, by decide, by decide, by decide, rfl⟩
  · have h := sampleConfig_ok ⟨str! "host.old.", typeA, 1⟩
    exact ⟨h.fqdn, h.mask4, h.mask6, h.mask46, h.depth, h.targets, h.customRules, h.condRules, h.alias, h.own, h.servfail⟩

/-- **C129 is false for the question.** A UDP message with the query's id is taken for the reply although it is about
another name (RFC 5452, section 9.1, wants the question compared too). -/
theorem C129_question_false :
    reply (meddledUp .tcpUdp (fun req => [.msg (strayMsg req.id)])) =
      some (5, [⟨str! "bank.example.", typeA, 1⟩], [strayRecord]) := by decide +kernel

/-- **C129 is false for HTTPS.** With DNS over HTTPS nothing is compared, not even the id. -/
theorem C129_https_false :
    reply (meddledUp .https (fun _ => [])) = some (99, [⟨str! "bank.example.", typeA, 1⟩], [strayRecord]) := by decide +kernel

/-- What two clients, one after the other, get for "www.org.": id, question and answer; and the number of queries to the
upstream. -/
def twoClients (up : Resolver Nat) : List (Nat × List Question × List RR) × Nat :=
  let a := Chain.serve sampleServer { sampleConfig with ecs := {} } up (.udp (some (.v4 1#32))) none (query (str! "www.org.")) sampleWorld
  let b := Chain.serve sampleServer { sampleConfig with ecs := {} } up (.udp (some (.v4 2#32))) none { query (str! "www.org.") with id := 8 } a.2
  ((a.1 ++ b.1).map (fun m => (m.id, m.question, m.answer.map (fun r => { r with ttl := 0 }))), b.2.2.2.2)

/-- **C129: what becomes of such a message.** The client that asked gets it as it came, with the wrong question (and over
HTTPS the wrong id), and clients that ask later get its records from the cache, now under the name they asked for. -/
theorem C129_cached_false :
    twoClients (meddledUp .tcpUdp (fun req => [.msg (strayMsg req.id)])) =
      ([(5, [⟨str! "bank.example.", typeA, 1⟩], [{ strayRecord with ttl := 0 }]),
        (8, [⟨str! "www.org.", typeA, 1⟩], [{ strayRecord with ttl := 0 }])], 1) ∧
    twoClients (meddledUp .https (fun _ => [])) =
      ([(99, [⟨str! "bank.example.", typeA, 1⟩], [{ strayRecord with ttl := 0 }]),
        (8, [⟨str! "www.org.", typeA, 1⟩], [{ strayRecord with ttl := 0 }])], 1) := by decide +kernel

end Verif.Props
