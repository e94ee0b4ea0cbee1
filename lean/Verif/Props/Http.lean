/-
C75, C76: whom the server takes an HTTP client for, and the query endpoint of the API.
-/
import Verif.Base.ListLemmas
import Verif.Model.Http
import Verif.Props.Server
import Verif.Props.UpstreamUrl

namespace Verif.Props
open Verif.Dns Verif.Cond Verif.Http Verif.Server

/-! ### Who the client is (C75) -/

/-- A byte that occurs in the text of an IP address. -/
def addressChar (c : Char) : Bool :=
  ('0'.toNat ≤ c.toNat && c.toNat ≤ '9'.toNat) || ('a'.toNat ≤ c.toNat && c.toNat ≤ 'f'.toNat) ||
  ('A'.toNat ≤ c.toNat && c.toNat ≤ 'F'.toNat) || c == '.' || c == ':'

/-- What is known about `net.ParseIP`: the texts it accepts consist of hexadecimal digits, dots and colons
(no brackets, spaces, commas, zones), and a text with a colon has at least two. -/
structure AddressParser (parseIP : Str → Option IP) : Prop where
  chars : ∀ s ip, parseIP s = some ip → ∀ c ∈ s, addressChar c = true
  colons : ∀ s ip, parseIP s = some ip → ':' ∈ s → ∃ a b c : Str, s = a ++ ':' :: (b ++ ':' :: c)
  empty : parseIP [] = none

/-- Go `net.JoinHostPort`, which `net/http` writes the peer's address with. -/
def peerText (address port : Str) : Str :=
  if ':' ∈ address then '[' :: (address ++ ']' :: ':' :: port) else address ++ ':' :: port

theorem not_addressChar {parseIP : Str → Option IP} (h : AddressParser parseIP) {s : Str} {ip : IP}
    (hs : parseIP s = some ip) (c : Char) (hc : addressChar c = false) : c ∉ s := fun hm => by
  have := h.chars s ip hs c hm
  rw [hc] at this
  cases this

theorem splitHostPort_peerText {s port : Str} (h1 : '[' ∉ s) (h2 : ']' ∉ s) (hp1 : ':' ∉ port) (hp2 : '[' ∉ port)
    (hp3 : ']' ∉ port) : UpstreamUrl.splitHostPort (peerText s port) = some (s, port) := by
  unfold peerText
  by_cases hc : ':' ∈ s
  · rw [if_pos hc]
    unfold UpstreamUrl.splitHostPort
    have e : '[' :: (s ++ ']' :: ':' :: port) = ('[' :: (s ++ [']'])) ++ ':' :: port := by simp
    have hcut : UpstreamUrl.cutLast ':' ('[' :: (s ++ ']' :: ':' :: port)) = some ('[' :: (s ++ [']']), port) := by
      rw [e]
      exact cutLast_append _ _ hp1
    rw [hcut]
    simp only []
    rw [cutFirst_append s (':' :: port) h2]
    simp [h1, hp2, hp3]
  · rw [if_neg hc]
    unfold UpstreamUrl.splitHostPort
    rw [cutLast_append s port hp1]
    simp only []
    split
    · rename_i rest heq
      cases s with
      | nil => cases heq
      | cons x xs =>
        injection heq with e1 e2
        subst e1
        exact absurd (List.mem_cons_self) h1
    · rw [if_neg hc, if_neg (by simp [h1, hp2]), if_neg (by simp [h2, hp3])]

theorem splitHostPort_bare {s : Str} (h1 : '[' ∉ s)
    (hc : ':' ∈ s → ∃ a b c : Str, s = a ++ ':' :: (b ++ ':' :: c)) : UpstreamUrl.splitHostPort s = none := by
  unfold UpstreamUrl.splitHostPort
  cases hl : UpstreamUrl.cutLast ':' s with
  | none => rfl
  | some ab =>
    obtain ⟨before, port⟩ := ab
    simp only []
    have hmem : ':' ∈ s := by
      apply Classical.byContradiction
      intro hn
      rw [cutLast_none.2 hn] at hl
      cases hl
    obtain ⟨a, b, c, hs⟩ := hc hmem
    have hb : ':' ∈ before := by
      by_cases hcc : ':' ∈ c
      · obtain ⟨c1, c2, hc12, hn⟩ : ∃ c1 c2 : Str, c = c1 ++ ':' :: c2 ∧ ':' ∉ c2 := by
          cases hx : UpstreamUrl.cutFirst ':' c.reverse with
          | none => exact absurd hcc (by simpa using cutFirst_none.1 hx)
          | some p =>
            obtain ⟨x, y⟩ := p
            have := cutFirst_some hx
            refine ⟨y.reverse, x.reverse, ?_, by simpa using this.2⟩
            have h := congrArg List.reverse this.1
            simpa using h
        have e : s = (a ++ ':' :: (b ++ ':' :: c1)) ++ ':' :: c2 := by rw [hs, hc12]; simp
        rw [e, cutLast_append _ _ hn] at hl
        injection hl with hl
        injection hl with hl _
        rw [← hl]
        simp
      · have e : s = (a ++ ':' :: b) ++ ':' :: c := by rw [hs]; simp
        rw [e, cutLast_append _ _ hcc] at hl
        injection hl with hl
        injection hl with hl _
        rw [← hl]
        simp
    split
    · exact absurd List.mem_cons_self h1
    · rw [if_pos hb]

/-- C75: without a forwarding header the client is the host at the other end of the connection (IPv4 or
IPv6, whatever its port). -/
theorem C75_peer (parseIP : Str → Option IP) (hP : AddressParser parseIP) (r : HttpRequest) (hf : r.forwardedFor = [])
    (address port : Str) (ip : IP) (hip : parseIP address = some ip)
    (hport : ∀ c ∈ port, c.isDigit = true) (hr : r.remoteAddr = peerText address port) :
    clientIP parseIP r = some ip := by
  have hd : ∀ c : Char, c.isDigit = false → c ∉ port := fun c hc hm => by
    have := hport c hm
    rw [hc] at this
    cases this
  unfold clientIP
  dsimp only
  rw [if_pos hf, hr, splitHostPort_peerText (not_addressChar hP hip _ (by decide)) (not_addressChar hP hip _ (by decide))
    (hd _ (by decide)) (hd _ (by decide)) (hd _ (by decide))]
  exact hip

/-- C75: behind a proxy that names one address (with or without port) the client is the host at that
address, whoever the peer is. -/
theorem C75_forwarded (parseIP : Str → Option IP) (hP : AddressParser parseIP) (r : HttpRequest)
    (address : Str) (ip : IP) (hip : parseIP address = some ip)
    (hf : r.forwardedFor = address ∨ ∃ port, (∀ c ∈ port, c.isDigit = true) ∧ r.forwardedFor = peerText address port) :
    clientIP parseIP r = some ip := by
  have hne : address ≠ [] := fun e => by
    rw [e, hP.empty] at hip
    cases hip
  unfold clientIP
  dsimp only
  rcases hf with hf | ⟨port, hport, hf⟩
  · rw [if_neg (by rw [hf]; exact hne), hf,
      splitHostPort_bare (not_addressChar hP hip _ (by decide)) (hP.colons address ip hip)]
    exact hip
  · have hd : ∀ c : Char, c.isDigit = false → c ∉ port := fun c hc hm => by
      have := hport c hm
      rw [hc] at this
      cases this
    have hne2 : peerText address port ≠ [] := by
      unfold peerText
      split <;> simp
    rw [if_neg (by rw [hf]; exact hne2), hf,
      splitHostPort_peerText (not_addressChar hP hip _ (by decide)) (not_addressChar hP hip _ (by decide))
        (hd _ (by decide)) (hd _ (by decide)) (hd _ (by decide))]
    exact hip

/-- C75 is false as a statement about who is connected: any peer can pick the client it is taken for. With
the header set, its DNS-over-HTTPS query is treated exactly as a query over TCP from the host it names; its
own address plays no role. -/
theorem C75_identity_false {W : Type} (parseIP : Str → Option IP) (hP : AddressParser parseIP) (d : DohEnv)
    (env : Server.Env) (chain : MResolver W) (peer : Str) (address : Str) (ip : IP) (hip : parseIP address = some ip)
    (body : DohRequest) (raw : Str) (hraw : dohRaw d body = some raw) (hlen : raw.length ≤ 512) (msg : Msg)
    (hmsg : d.unpack raw = some msg) (w : W) :
    Http.doh parseIP d env chain { forwardedFor := address, remoteAddr := peer } body w =
      ((onRequest env chain (.tcp (some ip)) none msg w).1.map (dohWrite d),
        (onRequest env chain (.tcp (some ip)) none msg w).2) := by
  unfold Http.doh
  rw [C75_forwarded parseIP hP _ address ip hip (.inl rfl)]
  exact C55_same_as_tcp_partial d env chain (some ip) none [] rfl body raw hraw hlen msg hmsg w

/-- C75, the name a client gives itself: in the path, or else in the host name; it is the id of its DNS-over-HTTPS query, as a
server name of TLS is for DNS over TLS. -/
theorem C75_named {W : Type} (parseIP : Str → Option IP) (d : DohEnv) (env : Server.Env) (chain : MResolver W) (r : HttpRequest)
    (id : Str) (hid : (r.pathID = id ∧ id ≠ []) ∨
      (r.pathID = [] ∧ '.' ∉ id ∧ ∃ rest, r.host = str! "id-" ++ id ++ '.' :: rest))
    (body : DohRequest) (raw : Str) (hraw : dohRaw d body = some raw) (hlen : raw.length ≤ 512) (msg : Msg)
    (hmsg : d.unpack raw = some msg) (w : W) (rest : Str) (hdot : '.' ∉ id) :
    Http.doh parseIP d env chain r body w =
      ((onRequest env chain (.tcp (clientIP parseIP r)) (some (str! "id-" ++ id ++ '.' :: rest)) msg w).1.map (dohWrite d),
        (onRequest env chain (.tcp (clientIP parseIP r)) (some (str! "id-" ++ id ++ '.' :: rest)) msg w).2) := by
  unfold Http.doh
  have h := C55_doh_client_id r.pathID r.host
  have e : dohClientID r.pathID r.host = id := by
    rcases hid with ⟨h1, h2⟩ | ⟨h1, h2, rest, h3⟩
    · rw [← h1]; exact h.1 (by rw [h1]; exact h2)
    · exact h.2.1 id rest h1 h3 h2
  rw [e]
  exact C55_same_as_tcp_partial d env chain _ (some (str! "id-" ++ id ++ '.' :: rest)) id
    (((C55_client_id _).1 id rest rfl hdot).symm) body raw hraw hlen msg hmsg w

/-- C75 is false behind two proxies: a header with a list of addresses (without ports) names nobody, so the
client has no address, although each of them alone would be accepted. -/
theorem C75_list_false (parseIP : Str → Option IP) (hP : AddressParser parseIP) (r : HttpRequest) (a b : Str)
    (ha : ':' ∉ a) (hb : ':' ∉ b) (hf : r.forwardedFor = a ++ str! ", " ++ b) : clientIP parseIP r = none := by
  have hne : r.forwardedFor ≠ [] := by rw [hf]; simp
  have hcolon : ':' ∉ r.forwardedFor := by rw [hf]; simp [ha, hb]
  unfold clientIP
  dsimp only
  rw [if_neg hne]
  have : UpstreamUrl.splitHostPort r.forwardedFor = none := by
    unfold UpstreamUrl.splitHostPort
    rw [cutLast_none.2 hcolon]
  rw [this]
  cases hp : parseIP r.forwardedFor with
  | none => rfl
  | some ip => exact absurd (by rw [hf]; simp) (not_addressChar hP hp ',' (by decide))

/-- C75 is false for link-local peers: their address is written with its zone, which `net.ParseIP` refuses;
such a client has no address. -/
theorem C75_zone_false (parseIP : Str → Option IP) (hP : AddressParser parseIP) (r : HttpRequest)
    (hf : r.forwardedFor = []) (address zone port : Str) (ha : '[' ∉ address ∧ ']' ∉ address) (hz : '[' ∉ zone ∧ ']' ∉ zone)
    (hport : ∀ c ∈ port, c.isDigit = true) (hr : r.remoteAddr = peerText (address ++ '%' :: zone) port) :
    clientIP parseIP r = none := by
  have hd : ∀ c : Char, c.isDigit = false → c ∉ port := fun c hc hm => by
    have := hport c hm
    rw [hc] at this
    cases this
  unfold clientIP
  dsimp only
  rw [if_pos hf, hr, splitHostPort_peerText (by simp [ha.1, hz.1]) (by simp [ha.2, hz.2])
    (hd _ (by decide)) (hd _ (by decide)) (hd _ (by decide))]
  dsimp only
  cases hp : parseIP (address ++ '%' :: zone) with
  | none => rfl
  | some ip => exact absurd (by simp) (not_addressChar hP hp '%' (by decide))

/-- A parser that knows two addresses. -/
def twoAddresses (s : Str) : Option IP :=
  if s = str! "10.0.0.1" then some (.v4 0x0a000001) else if s = str! "fe80::1" then some (.v6 1) else none

theorem twoAddresses_parser : AddressParser twoAddresses where
  chars s ip h := by
    unfold twoAddresses at h
    split at h
    · rename_i hs; rw [hs]; decide
    · split at h
      · rename_i hs; rw [hs]; decide
      · cases h
  colons s ip h hc := by
    unfold twoAddresses at h
    split at h
    · rename_i hs; rw [hs] at hc; exact absurd hc (by decide)
    · split at h
      · rename_i hs; exact ⟨str! "fe80", [], str! "1", hs⟩
      · cases h
  empty := by decide

example : clientIP twoAddresses { remoteAddr := str! "[fe80::1]:443" } = some (.v6 1) :=
  C75_peer twoAddresses twoAddresses_parser _ rfl (str! "fe80::1") (str! "443") _ (by decide) (by decide) (by decide)

example : clientIP twoAddresses { forwardedFor := str! "fe80::1", remoteAddr := str! "10.0.0.1:443" } = some (.v6 1) :=
  C75_forwarded twoAddresses twoAddresses_parser _ (str! "fe80::1") _ (by decide) (.inl rfl)

example : clientIP twoAddresses { forwardedFor := str! "10.0.0.1:55", remoteAddr := str! "[fe80::1]:443" } =
    some (.v4 0x0a000001) :=
  C75_forwarded twoAddresses twoAddresses_parser _ (str! "10.0.0.1") _ (by decide)
    (.inr ⟨str! "55", by decide, by decide⟩)

example : clientIP twoAddresses { forwardedFor := str! "10.0.0.1, 10.0.0.1", remoteAddr := str! "10.0.0.1:443" } = none :=
  C75_list_false twoAddresses twoAddresses_parser _ (str! "10.0.0.1") (str! "10.0.0.1") (by decide) (by decide) rfl

example : clientIP twoAddresses { remoteAddr := str! "[fe80::1%eth0]:443" } = none :=
  C75_zone_false twoAddresses twoAddresses_parser _ rfl (str! "fe80::1") (str! "eth0") (str! "443") (by decide) (by decide)
    (by decide) (by decide)

/-- A message that comes packed as one byte, for the examples. -/
def oneQueryEnv : DohEnv where
  base64 s := some s
  unpack s := if s = str! "q" then some (newMsgWithQuestion 7 (str! "h.example") typeA) else none
  packs _ := true

/-- A chain that answers with the client's address, for the examples. -/
def echoClient : MResolver Unit := fun request w =>
  match request.clientIP with
  | some ip =>
    (.ok { res := { ({} : Msg).setReply request.req with
      answer := [{ name := str! "h.example.", rtype := typeA, ttl := 1, data := .a ip }] }, rtype := .resolved, reason := [] },
      request.req, w)
  | none => (.err (str! "unknown"), request.req, w)

example : Http.doh twoAddresses oneQueryEnv ⟨fun _ => none, fun _ m => m⟩ echoClient
    { forwardedFor := str! "10.0.0.1", remoteAddr := str! "[fe80::1]:443" } (.get (some [str! "q"])) () =
    ((onRequest ⟨fun _ => none, fun _ m => m⟩ echoClient (.tcp (some (.v4 0x0a000001))) none
      (newMsgWithQuestion 7 (str! "h.example") typeA) ()).1.map (dohWrite oneQueryEnv), ()) :=
  C75_identity_false twoAddresses twoAddresses_parser oneQueryEnv _ echoClient (str! "[fe80::1]:443") (str! "10.0.0.1") _
    (by decide) (.get (some [str! "q"])) (str! "q") rfl (by decide) _ rfl ()

/-- A chain that only answers the client called tv. -/
def answerTv : MResolver Unit := fun request w =>
  if request.requestClientID = str! "tv" then echoClient request w else (.err (str! "unknown"), request.req, w)

example : ∃ m, (Http.doh twoAddresses oneQueryEnv ⟨fun _ => none, fun _ m => m⟩ answerTv
    { remoteAddr := str! "10.0.0.1:5000", pathID := str! "tv", host := str! "id-laptop.example" } (.get (some [str! "q"])) ()).1 =
      [dohWrite oneQueryEnv m] ∧ m.answer.length = 1 := ⟨_, rfl, by decide⟩

/-! ### The query endpoint (C76) -/

/-- How a record is to be shown: by its type and what it says, in the library's notation for types blocky
does not know. -/
inductive ShownRecord (p : Printer) : RR → Str → Prop
  | a (r : RR) (ip : IP) (h : r.data = .a ip) : ShownRecord p r (['A', ' ', '('] ++ p.ip ip ++ [')'])
  | aaaa (r : RR) (ip : IP) (h : r.data = .aaaa ip) : ShownRecord p r (['A', 'A', 'A', 'A', ' ', '('] ++ p.ip ip ++ [')'])
  | cname (r : RR) (t : Str) (h : r.data = .cname t) : ShownRecord p r (['C', 'N', 'A', 'M', 'E', ' ', '('] ++ t ++ [')'])
  | ptr (r : RR) (t : Str) (h : r.data = .ptr t) : ShownRecord p r (['P', 'T', 'R', ' ', '('] ++ t ++ [')'])
  | other (r : RR) (h : ∀ x, r.data ≠ .a x ∧ r.data ≠ .aaaa x) (h' : ∀ t, r.data ≠ .cname t ∧ r.data ≠ .ptr t) :
      ShownRecord p r (p.rr r)

/-- The text of an answer: all its records, in order, separated by commas. -/
def AnswerText (p : Printer) (answer : List RR) (text : Str) : Prop :=
  ∃ parts, Pointwise (ShownRecord p) answer parts ∧ text = List.intercalate [',', ' '] parts

theorem recordText_shown (p : Printer) (r : RR) : ShownRecord p r (recordText p r) := by
  unfold recordText
  split
  · rename_i ip h; exact .a r ip h
  · rename_i ip h; exact .aaaa r ip h
  · rename_i t h; exact .cname r t h
  · rename_i t h; exact .ptr r t h
  · rename_i o h; exact .other r (by simp [h]) (by simp [h])
  · rename_i raw h; exact .other r (by simp [h]) (by simp [h])

theorem joinComma_intercalate : ∀ l : List Str, joinComma l = List.intercalate [',', ' '] l
  | [] => rfl
  | [s] => by simp [joinComma, List.intercalate]
  | s :: t :: ss => by
    rw [joinComma, joinComma_intercalate (t :: ss)]
    simp [List.intercalate]

theorem answerText (p : Printer) (answer : List RR) : AnswerText p answer (answerToString false p answer) := by
  refine ⟨answer.map (recordText p), ?_, ?_⟩
  · induction answer with
    | nil => exact .nil
    | cons r l ih => exact .cons (recordText_shown p r) ih
  · exact joinComma_intercalate _

/-- The reason and the type of response that belong to what the chain returned: those of its response, or
the text of the upstream's error. -/
inductive Explained (p : Printer) : Outcome → Str → RType → Prop
  | answer (r : Response) : Explained p (.ok r) r.reason r.rtype
  | error (e : Str) : Explained p (.err e) (p.err e) .resolved

/-- C76: a query through the API is answered as the same query over an (encrypted, if the host names a
client) TCP connection from the client the HTTP request is taken to come from: the same code, the text of
the same answer, the reason and type of this response, the same effect on the server's state. Where a DNS client
gets `SERVFAIL` because the chain failed, the API reports an error. Missing: with log privacy the text is
masked (`C76_privacy_false`). -/
theorem C76_same_as_dns_partial {W : Type} (parseIP : Str → Option IP) (typeOf : Str → Nat) (p : Printer)
    (env : Server.Env) (chain : MResolver W) (id : Nat) (r : HttpRequest) (query type : Str) (ht : typeOf type ≠ 0) (w : W) :
    ∃ m w', onRequest env chain (.tcp (clientIP parseIP r)) (some r.host) (newMsgWithQuestion id query (typeOf type)) w =
        ([m], w') ∧
      ((∃ text reason rtype, apiQuery parseIP typeOf false p env chain id r query type w = (.result m.rcode text reason rtype, w') ∧
          AnswerText p m.answer text ∧
          Explained p (chain (newRequestFromDNS (.tcp (clientIP parseIP r)) (some r.host)
            (newMsgWithQuestion id query (typeOf type))) w).1 reason rtype) ∨
       apiQuery parseIP typeOf false p env chain id r query type w = (.serverError, w') ∧ m.rcode = rcodeServFail ∧
          m.answer = []) := by
  have hq : newMsgWithQuestion id (fqdn query) (typeOf type) = newMsgWithQuestion id query (typeOf type) := by
    unfold newMsgWithQuestion
    have : fqdn (fqdn query) = fqdn query := by
      unfold fqdn
      by_cases h : query.getLast? = some '.'
      · simp [h]
      · simp [h]
    rw [this]
  have hreq : queryRequest id r.host (clientIP parseIP r) (fqdn query) (typeOf type) =
      newRequestFromDNS (.tcp (clientIP parseIP r)) (some r.host) (newMsgWithQuestion id query (typeOf type)) := by
    unfold queryRequest
    rw [hq]
    rfl
  unfold onRequest handleReq apiQuery
  dsimp only
  rw [if_neg ht, hreq]
  cases hres : Server.resolve env chain
      (newRequestFromDNS (.tcp (clientIP parseIP r)) (some r.host) (newMsgWithQuestion id query (typeOf type))) w with
  | mk mo rest =>
    obtain ⟨req, w'⟩ := rest
    cases mo with
    | some m =>
      refine ⟨m, w', rfl, .inl ⟨_, _, _, rfl, answerText p m.answer, ?_⟩⟩
      unfold Server.resolve at hres
      cases hc : chain (newRequestFromDNS (.tcp (clientIP parseIP r)) (some r.host) (newMsgWithQuestion id query (typeOf type))) w with
      | mk o rest' =>
        rw [hc] at hres
        cases o with
        | ok r => exact .answer r
        | err e => exact .error e
        | noResponse => cases hres
        | panic => cases hres
    | none => exact ⟨_, w', rfl, .inr ⟨rfl, rfl, rfl⟩⟩

/-- C76: a record type the server does not know by that name is refused, and nothing is resolved. -/
theorem C76_unknown_type {W : Type} (parseIP : Str → Option IP) (typeOf : Str → Nat) (privacy : Bool) (p : Printer)
    (env : Server.Env) (chain : MResolver W) (id : Nat) (r : HttpRequest) (query type : Str) (ht : typeOf type = 0) (w : W) :
    apiQuery parseIP typeOf privacy p env chain id r query type w = (.badRequest, w) := by
  unfold apiQuery
  rw [if_pos ht]

/-- A chain that answers any query with one address. -/
def answerWith (ip : IP) : MResolver Unit := fun request w =>
  (.ok { res := { ({} : Msg).setReply request.req with
      answer := [{ name := str! "h.example.", rtype := typeA, ttl := 1, data := .a ip }] }, rtype := .resolved, reason := [] },
      request.req, w)

/-- Addresses written with their last number only, for the examples. -/
def shortPrinter : Printer where
  ip ip := match ip with
    | .v4 a => str! "10.0.0." ++ Nat.toDigits 10 (a.toNat % 256)
    | .v6 _ => str! "fe80::1"
  rr _ := []

/-- Record types by name, for the examples. -/
def someTypes (s : Str) : Nat := if s = str! "A" then typeA else if s = str! "AAAA" then typeAAAA else 0

/-- C76 is false with log privacy: the option meant for logs also masks the API's answers; different answers
become the same text. -/
theorem C76_privacy_false :
    apiQuery twoAddresses someTypes true shortPrinter ⟨fun _ => none, fun _ m => m⟩ (answerWith (.v4 0x0a000001)) 7
        { remoteAddr := str! "10.0.0.1:443" } (str! "h.example") (str! "A") () =
      (.result 0 (str! "* (**.*.*.*)") [] .resolved, ()) ∧
    apiQuery twoAddresses someTypes true shortPrinter ⟨fun _ => none, fun _ m => m⟩ (answerWith (.v4 0x0a000002)) 7
        { remoteAddr := str! "10.0.0.1:443" } (str! "h.example") (str! "A") () =
      (.result 0 (str! "* (**.*.*.*)") [] .resolved, ()) := by
  decide +kernel

example : apiQuery twoAddresses someTypes false shortPrinter ⟨fun _ => none, fun _ m => m⟩ (answerWith (.v4 0x0a000001)) 7
    { remoteAddr := str! "10.0.0.1:443" } (str! "h.example") (str! "A") () =
      (.result 0 (str! "A (10.0.0.1)") [] .resolved, ()) := by decide +kernel

example : apiQuery twoAddresses someTypes false shortPrinter ⟨fun _ => none, fun _ m => m⟩ echoClient 7
    { remoteAddr := str! "nobody" } (str! "h.example") (str! "A") () = (.serverError, ()) := by decide +kernel

example : ∃ m w', onRequest ⟨fun _ => none, fun _ m => m⟩ echoClient (.tcp (clientIP twoAddresses { remoteAddr := str! "10.0.0.1:443" }))
      (some []) (newMsgWithQuestion 7 (str! "h.example") (someTypes (str! "A"))) () = ([m], w') :=
  have ⟨m, w', h, _⟩ := C76_same_as_dns_partial twoAddresses someTypes shortPrinter ⟨fun _ => none, fun _ m => m⟩ echoClient 7
    { remoteAddr := str! "10.0.0.1:443" } (str! "h.example") (str! "A") (by decide) ()
  ⟨m, w', h⟩

example : apiQuery twoAddresses someTypes false shortPrinter ⟨fun _ => none, fun _ m => m⟩ echoClient 7
    { remoteAddr := str! "10.0.0.1:443" } (str! "h.example") (str! "aaaa") () = (.badRequest, ()) :=
  C76_unknown_type twoAddresses someTypes false shortPrinter _ echoClient 7 _ _ _ (by decide) ()

end Verif.Props
