/-
Model of the connections to upstream servers (/repo/resolver/upstream_resolver.go: `createUpstreamClient`, `fmtURL`,
the `callExternal` of the two clients) and of the TLS settings of the server's own listeners
(/repo/server/server.go `newTLSConfig`, /repo/config/config.go `TLSVersion.validate`).

Go's net/http client is modelled as far as it decides which requests are made: redirections. Proxies from the
environment, retries over a fresh connection and cookies (there is no jar) are left out.
-/
import Verif.Model.Upstream
import Verif.Model.ConfigFiles

namespace Verif.Transport
open Dns Upstream

/-- crypto/tls version numbers (config_enum.go `TLSVersion`: 1.0 = 769, then consecutive). -/
def tls12 : Nat := 771

/-- The part of `tls.Config` the code sets for upstreams: the name the certificate must be valid for, the least
version. (`InsecureSkipVerify` is never set.) -/
structure TlsConfig where
  serverName : Str
  minVersion : Nat
  deriving DecidableEq, Repr

/-- How bytes travel. -/
inductive Wire where
  | udp
  | tcp
  | tls (c : TlsConfig)
  deriving DecidableEq, Repr

/-- The two clients (upstream_resolver.go 78-86). -/
inductive Client where
  | dns (tcp : Wire) (udp : Option Wire)
  | http (tls : TlsConfig) (host : Str)
  deriving DecidableEq

/-- upstream_resolver.go 88-132 `createUpstreamClient`. -/
def createUpstreamClient (u : UpstreamUrl.Upstream) : Client :=
  let tlsConfig : TlsConfig := ⟨if u.commonName ≠ [] then u.commonName else u.host, tls12⟩
  match u.net with
  | .https => .http tlsConfig u.host
  | .tcpTls => .dns (.tls tlsConfig) none
  | .tcpUdp => .dns .tcp (some .udp)

/-- An absolute URL: http or https, `host:port`, path. -/
structure Url where
  secure : Bool
  authority : Str
  path : Str
  deriving DecidableEq, Repr

/-- An HTTP request as sent: `wire` is how the connection is made. -/
structure HttpRequest where
  wire : Wire
  url : Url
  hostHeader : Str
  post : Bool
  body : Str
  deriving DecidableEq, Repr

/-- What becomes of an HTTP request; `location` is the `Location` header, made absolute. -/
inductive HttpResult where
  | reply (status : Nat) (location : Option Url) (contentType body : Str)
  | failed (e : UErr)

/-- upstream_resolver.go 134-136, 189-191 `fmtURL`, with Go's `IP.String` as parameter. -/
def authority (ipText : IP → Str) (ip : IP) (port : Nat) : Str := ConfigFiles.joinHostPort (ipText ip) (Nat.toDigits 10 port)

/-- net/http `redirectBehavior`: is the reply followed, and with the same method and body? (307 and 308 need a body
that can be repeated, which holds for the `bytes.Reader` used here.) -/
def redirects : Nat → Option Bool
  | 301 | 302 | 303 => some false
  | 307 | 308 => some true
  | _ => none

/-- The connection for a URL: net/http uses the client's TLS configuration for https and plain TCP for http. -/
def wireOf (c : TlsConfig) (u : Url) : Wire := if u.secure then .tls c else .tcp

/-- net/http `Client.do`: the requests made, in order, and the last result. At most ten requests are made
(`defaultCheckRedirect`). A missing `Location` is an error with 301-303 and returned as it is with 307 and 308. -/
def httpDo {W : Type} (web : HttpRequest → W → HttpResult × W) (c : TlsConfig) :
    Nat → HttpRequest → W → List HttpRequest × HttpResult × W
  | 0, _, w => ([], .failed { text := str! "stopped after 10 redirects" }, w)
  | n + 1, r, w =>
    match web r w with
    | (.failed e, w) => ([r], .failed e, w)
    | (.reply status location contentType body, w) =>
      match redirects status with
      | none => ([r], .reply status location contentType body, w)
      | some same =>
        match location with
        | none =>
          ([r], if same then .reply status none contentType body
                else .failed { text := str! "response missing Location header" }, w)
        | some u =>
          let next : HttpRequest :=
            { wire := wireOf c u, url := u, hostHeader := u.authority, post := r.post && same, body := if same then r.body else [] }
          let (rs, res, w) := httpDo web c n next w
          (r :: rs, res, w)

/-- Coding of messages (miekg/dns `Pack`, `Unpack`). -/
structure Codec where
  pack : Msg → Option Str
  unpack : Str → Option Msg

/-- upstream_resolver.go 138-187 `callExternal` of the HTTPS client: the requests made and the result. -/
def callHttps {W : Type} (k : Codec) (web : HttpRequest → W → HttpResult × W) (c : TlsConfig) (host : Str) (url : Url) (req : Msg) (w : W) :
    List HttpRequest × Reply × W :=
  match k.pack req with
  | none => ([], .err { text := str! "can't pack message" }, w)
  | some raw =>
    let first : HttpRequest := { wire := wireOf c url, url := url, hostHeader := host, post := true, body := raw }
    match httpDo web c 10 first w with
    | (rs, .failed e, w) => (rs, .err e, w)
    | (rs, .reply status _ contentType body, w) =>
      if status ≠ 200 then (rs, .err { text := str! "http return code" }, w)
      else if contentType ≠ str! "application/dns-message" then (rs, .err { text := str! "http return content type" }, w)
      else match k.unpack body with
        | none => (rs, .err { text := str! "can't unpack message" }, w)
        | some m => (rs, .msg m, w)

/-- What is put on the network: by which means, to which address, and the message's bytes. -/
structure Sent where
  wire : Wire
  authority : Str
  bytes : Str
  deriving DecidableEq, Repr

/-- upstream_resolver.go 138-187, 193-204, 218-231: everything sent for one call of the upstream at an address. The
exchange of a DNS client is one message to the address (`ExchangeContext`); with a UDP client both are used. -/
def sends {W : Type} (k : Codec) (ipText : IP → Str) (web : HttpRequest → W → HttpResult × W) (u : UpstreamUrl.Upstream) (ip : IP)
    (req : Msg) (w : W) : List Sent :=
  match createUpstreamClient u with
  | .dns tcp udp =>
    match k.pack req with
    | none => []
    | some raw =>
      ⟨tcp, authority ipText ip u.port, raw⟩ :: (match udp with | some x => [⟨x, authority ipText ip u.port, raw⟩] | none => [])
  | .http c host =>
    (callHttps k web c host ⟨true, authority ipText ip u.port, u.path⟩ req w).1.map
      (fun r => ⟨r.wire, r.url.authority, r.body⟩)

/-- config.go 92-103 `TLSVersion.validate`: the version listeners use for a configured one; 1.2 is the default
(237). server.go 92-96 `newTLSConfig` takes it as least version. -/
def serveVersion (configured : Nat) : Nat := if configured < tls12 then 771 else configured

end Verif.Transport
