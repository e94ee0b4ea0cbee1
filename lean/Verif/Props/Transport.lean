/-
C86: encrypted upstreams are talked to over TLS only, with the certificate checked for the configured name.
-/
import Verif.Model.Transport

namespace Verif.Props
open Dns Upstream Transport

variable {W : Type}

/-- Bytes sent over TLS 1.2 or later, to a server that must prove to be the one configured: the name after `#`, or else
the upstream's host. -/
def Protected (u : UpstreamUrl.Upstream) (s : Sent) : Prop :=
  ∃ c, s.wire = .tls c ∧ 771 ≤ c.minVersion ∧ (u.commonName = [] → c.serverName = u.host) ∧
    (u.commonName ≠ [] → c.serverName = u.commonName)

/-- C86, DNS over TLS: one message, protected, to the upstream's address and port. -/
theorem C86_dot (k : Codec) (ipText : IP → Str) (web : HttpRequest → W → HttpResult × W) (u : UpstreamUrl.Upstream)
    (hu : u.net = .tcpTls) (ip : IP) (req : Msg) (w : W) :
    (sends k ipText web u ip req w).length ≤ 1 ∧
    ∀ s ∈ sends k ipText web u ip req w, Protected u s ∧ s.authority = authority ipText ip u.port ∧ k.pack req = some s.bytes := by
  unfold sends createUpstreamClient
  simp only [hu]
  cases hk : k.pack req with
  | none => simp
  | some raw =>
    simp only [List.length_singleton, Nat.le_refl, true_and, List.mem_singleton]
    rintro s rfl
    refine ⟨⟨_, rfl, Nat.le_refl _, ?_, ?_⟩, rfl, rfl⟩
    · intro h; simp [h]
    · intro h; simp [h]

/-- C86, plain DNS: the message goes out by TCP and by UDP, unprotected, both to the upstream's address and port. -/
theorem C86_plain (k : Codec) (ipText : IP → Str) (web : HttpRequest → W → HttpResult × W) (u : UpstreamUrl.Upstream)
    (hu : u.net = .tcpUdp) (ip : IP) (req : Msg) (w : W) (raw : Str) (hp : k.pack req = some raw) :
    ∃ a, a = authority ipText ip u.port ∧ sends k ipText web u ip req w = [⟨.tcp, a, raw⟩, ⟨.udp, a, raw⟩] := by
  refine ⟨_, rfl, ?_⟩
  unfold sends createUpstreamClient
  simp only [hu, hp]

theorem httpDo_wire (web : HttpRequest → W → HttpResult × W) (c : TlsConfig)
    (hweb : ∀ r w status u ct body w', web r w = (.reply status (some u) ct body, w') → redirects status ≠ none → u.secure = true)
    (n : Nat) (r : HttpRequest) (w : W) (hr : r.wire = .tls c) : ∀ x ∈ (httpDo web c n r w).1, x.wire = .tls c := by
  induction n generalizing r w with
  | zero => intro x hx; cases hx
  | succ n ih =>
    unfold httpDo
    cases hw : web r w with
    | mk res w' =>
      cases res with
      | failed e => simp [hr]
      | reply status location ct body =>
        simp only
        cases hs : redirects status with
        | none => simp [hr]
        | some same =>
          cases location with
          | none => simp [hr]
          | some u =>
            simp only
            intro x hx
            rcases List.mem_cons.1 hx with rfl | hx
            · exact hr
            · refine ih _ _ ?_ x hx
              have := hweb r w status u ct body w' hw (by rw [hs]; simp)
              simp [wireOf, this]

/-- C86, DNS over HTTPS: everything sent is protected, if no server redirects to an unencrypted URL. (Missing for C86:
such redirections are followed, `C86_redirect_false`.) -/
theorem C86_doh_partial (k : Codec) (ipText : IP → Str) (web : HttpRequest → W → HttpResult × W) (u : UpstreamUrl.Upstream)
    (hu : u.net = .https)
    (hweb : ∀ r w status v ct body w', web r w = (.reply status (some v) ct body, w') → redirects status ≠ none → v.secure = true)
    (ip : IP) (req : Msg) (w : W) : ∀ s ∈ sends k ipText web u ip req w, Protected u s := by
  intro s hs
  unfold sends createUpstreamClient at hs
  simp only [hu, List.mem_map] at hs
  obtain ⟨r, hr, rfl⟩ := hs
  refine ⟨⟨if u.commonName ≠ [] then u.commonName else u.host, tls12⟩, ?_, Nat.le_refl _, ?_, ?_⟩
  · simp only
    unfold callHttps at hr
    cases hk : k.pack req with
    | none => rw [hk] at hr; cases hr
    | some raw =>
      rw [hk] at hr
      simp only at hr
      refine httpDo_wire web _ hweb 10 ?_ w ?_ r ?_
      · exact { wire := wireOf ⟨if u.commonName ≠ [] then u.commonName else u.host, tls12⟩ ⟨true, authority ipText ip u.port, u.path⟩
                url := ⟨true, authority ipText ip u.port, u.path⟩, hostHeader := u.host, post := true, body := raw }
      · rfl
      · revert hr
        generalize httpDo web _ 10 _ w = x
        obtain ⟨rs, res, w'⟩ := x
        intro hr
        cases res with
        | failed e => exact hr
        | reply status l ct body =>
          simp only at hr
          split at hr
          · exact hr
          · split at hr
            · exact hr
            · split at hr <;> exact hr
  · intro h; simp [h]
  · intro h; simp [h]

/-- Does a server answer without redirections? -/
def NoRedirect (web : HttpRequest → W → HttpResult × W) : Prop :=
  ∀ r w status l ct body w', web r w = (.reply status l ct body, w') → redirects status = none

theorem callHttps_once (k : Codec) (web : HttpRequest → W → HttpResult × W) (h : NoRedirect web) (c : TlsConfig) (host : Str)
    (url : Url) (req : Msg) (w : W) (raw : Str) (hp : k.pack req = some raw) :
    (callHttps k web c host url req w).1 = [⟨wireOf c url, url, host, true, raw⟩] ∧
    ∀ m, (callHttps k web c host url req w).2.1 = .msg m ↔
      ∃ l body w', web ⟨wireOf c url, url, host, true, raw⟩ w = (.reply 200 l (str! "application/dns-message") body, w') ∧ k.unpack body = some m := by
  have hd : httpDo web c 10 ⟨wireOf c url, url, host, true, raw⟩ w =
      ([⟨wireOf c url, url, host, true, raw⟩], web ⟨wireOf c url, url, host, true, raw⟩ w) := by
    unfold httpDo
    cases hw : web ⟨wireOf c url, url, host, true, raw⟩ w with
    | mk res w' =>
      cases res with
      | failed e => rfl
      | reply status l ct body => simp only [h _ _ _ _ _ _ _ hw]
  unfold callHttps
  simp only [hp, hd]
  cases hw : web ⟨wireOf c url, url, host, true, raw⟩ w with
  | mk res w' =>
    cases res with
    | failed e => simp
    | reply status l ct body =>
      simp only
      by_cases h1 : status = 200
      · rw [if_neg (by simp [h1])]
        by_cases h2 : ct = str! "application/dns-message"
        · rw [if_neg (by simp [h2])]
          cases hu : k.unpack body with
          | none =>
            refine ⟨rfl, fun m => ⟨(fun h => nomatch h), ?_⟩⟩
            rintro ⟨l', body', w'', h3, h4⟩
            cases h3
            rw [hu] at h4
            cases h4
          | some m' =>
            refine ⟨rfl, fun m => ⟨?_, ?_⟩⟩
            · intro h3
              cases h3
              exact ⟨l, body, w', by rw [h1, h2], hu⟩
            · rintro ⟨l', body', w'', h3, h4⟩
              cases h3
              rw [hu] at h4
              cases h4
              rfl
        · rw [if_pos h2]
          refine ⟨rfl, fun m => ⟨(fun h => nomatch h), ?_⟩⟩
          rintro ⟨l', body', w'', h3, h4⟩
          cases h3
          exact absurd rfl h2
      · rw [if_pos h1]
        refine ⟨rfl, fun m => ⟨(fun h => nomatch h), ?_⟩⟩
        rintro ⟨l', body', w'', h3, h4⟩
        cases h3
        exact absurd rfl h1

/-- C86, a server that does not redirect: one request, a POST of the packed query to the upstream's address, port and path. -/
theorem C86_doh_once (k : Codec) (ipText : IP → Str) (web : HttpRequest → W → HttpResult × W) (h : NoRedirect web)
    (u : UpstreamUrl.Upstream) (hu : u.net = .https) (ip : IP) (req : Msg) (w : W) (raw : Str) (hp : k.pack req = some raw) :
    ∃ s, sends k ipText web u ip req w = [s] ∧ Protected u s ∧ s.authority = authority ipText ip u.port ∧ s.bytes = raw := by
  unfold sends createUpstreamClient
  simp only [hu]
  rw [(callHttps_once k web h _ u.host ⟨true, authority ipText ip u.port, u.path⟩ req w raw hp).1]
  refine ⟨_, rfl, ⟨_, rfl, Nat.le_refl _, ?_, ?_⟩, rfl, rfl⟩
  · intro h; simp [h]
  · intro h; simp [h]

/-- C86: the answer of an HTTPS upstream is used if and only if it has status 200, exactly the content type of DNS
messages, and a body that is a DNS message. -/
theorem C86_doh_answer (k : Codec) (web : HttpRequest → W → HttpResult × W) (h : NoRedirect web) (c : TlsConfig) (host : Str)
    (url : Url) (req : Msg) (w : W) (raw : Str) (hp : k.pack req = some raw) (m : Msg) :
    (callHttps k web c host url req w).2.1 = .msg m ↔
      ∃ l body w', web ⟨wireOf c url, url, host, true, raw⟩ w = (.reply 200 l (str! "application/dns-message") body, w') ∧
        k.unpack body = some m :=
  (callHttps_once k web h c host url req w raw hp).2 m

theorem httpDo_length (web : HttpRequest → W → HttpResult × W) (c : TlsConfig) (n : Nat) (r : HttpRequest) (w : W) :
    (httpDo web c n r w).1.length ≤ n := by
  induction n generalizing r w with
  | zero => exact Nat.le_refl 0
  | succ n ih =>
    unfold httpDo
    split
    · simp
    · split
      · simp
      · split
        · simp
        · simp only [List.length_cons]
          exact Nat.succ_le_succ (ih _ _)

/-- C86: however servers redirect, at most ten requests are made for a query. -/
theorem C86_bounded (k : Codec) (web : HttpRequest → W → HttpResult × W) (c : TlsConfig) (host : Str) (url : Url) (req : Msg) (w : W) :
    (callHttps k web c host url req w).1.length ≤ 10 := by
  unfold callHttps
  split
  · simp
  · rename_i raw _
    have := httpDo_length web c 10 { wire := wireOf c url, url := url, hostHeader := host, post := true, body := raw } w
    revert this
    simp only
    generalize httpDo web c 10 _ w = x
    obtain ⟨rs, res, w'⟩ := x
    intro this
    cases res with
    | failed e => exact this
    | reply status l ct body =>
      simp only
      split
      · exact this
      · split
        · exact this
        · split <;> exact this

/-- Coding for the examples: the first question's name. -/
def sampleCodec : Codec where
  pack m := m.question.head?.map Question.name
  unpack b := if b = [] then none else some { response := true, question := [⟨b, 1, 1⟩] }

/-- A server that answers queries. -/
def sampleWeb : HttpRequest → Unit → HttpResult × Unit := fun r w =>
  (.reply 200 none (str! "application/dns-message") r.body, w)

/-- A server whose HTTPS port redirects to another host, unencrypted. -/
def redirectingWeb : HttpRequest → Unit → HttpResult × Unit := fun r w =>
  if r.url.secure then (.reply 307 (some ⟨false, str! "other.example", str! "/q"⟩) [] [], w)
  else (.reply 200 none (str! "application/dns-message") r.body, w)

/-- An HTTPS upstream. -/
def sampleDoh : UpstreamUrl.Upstream := ⟨.https, str! "dns.example", 443, str! "/dns-query", []⟩

/-- C86 is false: a redirection to an unencrypted URL is followed, and the query sent in the clear. -/
theorem C86_redirect_false :
    (⟨.tcp, str! "other.example", str! "private.example."⟩ : Sent) ∈
      sends sampleCodec (fun _ => str! "9.9.9.9") redirectingWeb sampleDoh (.v4 0x09090909#32)
        { question := [⟨str! "private.example.", 1, 1⟩] } () := by decide

example : NoRedirect sampleWeb := by
  intro r w status l ct body w' h
  cases h
  rfl

example : sends sampleCodec (fun _ => str! "9.9.9.9") sampleWeb sampleDoh (.v4 0x09090909#32)
    { question := [⟨str! "private.example.", 1, 1⟩] } () =
    [⟨.tls ⟨str! "dns.example", 771⟩, str! "9.9.9.9:443", str! "private.example."⟩] := by decide

example : sends sampleCodec (fun _ => str! "9.9.9.9") sampleWeb ⟨.tcpTls, str! "9.9.9.9", 853, [], str! "dns.quad9.net"⟩
    (.v4 0x09090909#32) { question := [⟨str! "private.example.", 1, 1⟩] } () =
    [⟨.tls ⟨str! "dns.quad9.net", 771⟩, str! "9.9.9.9:853", str! "private.example."⟩] := by decide

example : sends sampleCodec (fun _ => str! "9.9.9.9") sampleWeb ⟨.tcpUdp, str! "9.9.9.9", 53, [], []⟩
    (.v4 0x09090909#32) { question := [⟨str! "private.example.", 1, 1⟩] } () =
    [⟨.tcp, str! "9.9.9.9:53", str! "private.example."⟩, ⟨.udp, str! "9.9.9.9:53", str! "private.example."⟩] := by decide

/-- The `Host` header is the upstream's host, although the protocol wants the authority of the URL (RFC 9110, 7.2): a
port other than 443 is missing, and so are the brackets around an IPv6 address. -/
theorem C86_host_header_false :
    ((callHttps sampleCodec sampleWeb ⟨str! "dns.example", 771⟩ (str! "dns.example") ⟨true, str! "9.9.9.9:8443", str! "/q"⟩
      { question := [⟨str! "a.", 1, 1⟩] } ()).1.map HttpRequest.hostHeader = [str! "dns.example"]) ∧
    createUpstreamClient ⟨.https, str! "2001:db8::1", 443, str! "/q", []⟩ = .http ⟨str! "2001:db8::1", 771⟩ (str! "2001:db8::1") := by
  decide

/-- C86: listeners never speak TLS before 1.2, whatever is configured, and the configured version if it is not older; with
an older one, exactly 1.2. -/
theorem C86_listener_version (v : Nat) :
    771 ≤ serveVersion v ∧ (771 ≤ v → serveVersion v = v) ∧ (v ≤ 771 → serveVersion v = 771) := by
  unfold serveVersion tls12
  split <;> omega

/-- C86: a reply with status 301, 302 or 303 makes the client ask the other server without the query; with 307 or 308 it
gets the query too; with all other statuses nothing more is sent. -/
theorem C86_redirected (web : HttpRequest → W → HttpResult × W) (c : TlsConfig) (n : Nat) (r : HttpRequest) (w w' : W)
    (status : Nat) (u : Url) (ct body : Str) (h : web r w = (.reply status (some u) ct body, w')) :
    (httpDo web c (n + 1) r w).1 = r ::
      (if status = 301 ∨ status = 302 ∨ status = 303 then (httpDo web c n ⟨wireOf c u, u, u.authority, false, []⟩ w').1
       else if status = 307 ∨ status = 308 then (httpDo web c n ⟨wireOf c u, u, u.authority, r.post, r.body⟩ w').1
       else []) := by
  rw [httpDo, h]
  simp only
  by_cases h1 : status = 301 ∨ status = 302 ∨ status = 303
  · have : redirects status = some false := by rcases h1 with rfl | rfl | rfl <;> rfl
    simp [this, h1]
  · by_cases h2 : status = 307 ∨ status = 308
    · have : redirects status = some true := by rcases h2 with rfl | rfl <;> rfl
      simp [this, h1, h2]
    · have : redirects status = none := by
        unfold redirects
        split <;> simp_all
      simp [this, h1, h2]

end Verif.Props
