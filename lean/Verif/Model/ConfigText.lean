/-
Model of texts of the configuration: the query log target as it is logged (/repo/config/query_log.go),
sources of lists (/repo/config/bytes_source.go, /repo/lists/sourcereader.go), listen addresses
(/repo/config/config.go), addresses of the custom DNS mapping (/repo/config/custom_dns.go), upstreams of
the conditional mapping (/repo/config/conditional_upstream.go), subnet masks (/repo/config/ecs.go) and
query types (/repo/config/qtype_set.go).

The YAML library is not modelled: the functions start from the text it hands over.
-/
import Verif.Base.AMap
import Verif.Model.Dns
import Verif.Model.Url

namespace Verif.ConfigText
open Dns

/-! ### Query log target -/

/-- config.go 104-113 `QueryLogType`. -/
inductive LogType where
  | console | none | mysql | postgresql | csv | csvClient | timescale
  deriving DecidableEq, Repr

/-- config_enum.go 396-444 `QueryLogType.String`. -/
def LogType.string : LogType → Str
  | .console => str! "console"
  | .none => str! "none"
  | .mysql => str! "mysql"
  | .postgresql => str! "postgresql"
  | .csv => str! "csv"
  | .csvClient => str! "csv-client"
  | .timescale => str! "timescale"

/-- config.go 31 `secretObfuscator`. -/
def secretObfuscator : Str := str! "********"

/-- query_log.go 60-64: a target without scheme gets one. -/
def withScheme (type : LogType) (target : Str) : Str :=
  if Url.contains (str! "://") target then target else type.string ++ str! "://" ++ target

/-- query_log.go 59-77 `censoredTarget`. -/
def censoredTarget (type : LogType) (target : Str) : Str :=
  match Url.parse (withScheme type target) with
  | .none => target
  | some .none => target
  | some (some (_, .none)) => target
  | some (some (_, some pass)) => Url.replaceAll target pass secretObfuscator

/-! ### Sources of lists -/

/-- bytes_source.go 13-23 `BytesSource`; the types there are the constructors here (the zero value, an
unknown type, cannot come from a configuration). -/
inductive Source where
  | text (text : Str)
  | http (link : Str)
  | file (path : Str)
  deriving DecidableEq, Repr

/-- bytes_source.go 61-79 `UnmarshalText`. -/
def parseSource (s : Str) : Source :=
  if s.contains '\n' then .text s
  else if (str! "http").isPrefixOf s then .http s
  else .file (UpstreamUrl.trimPrefix s (str! "file://"))

/-- bytes_source.go 9 `maxTextSourceDisplayLen`. -/
def maxTextSourceDisplayLen : Nat := 12

/-- bytes_source.go 43-46: the first line, and whether something counts as cut off. `len(text)` is taken
after cutting. -/
def firstLine (text : Str) : Str × Bool :=
  match UpstreamUrl.cutFirst '\n' text with
  | some (line, _) => (line, decide (line.length < line.length))
  | none => (text, false)

/-- bytes_source.go 40-57: the description of an inline text; `none` is a panic (slice out of range). -/
def showText (text : Str) : Option Str :=
  let (text, truncated) := firstLine text
  let (text, truncated) :=
    if text.length > maxTextSourceDisplayLen then (text.take maxTextSourceDisplayLen, true) else (text, truncated)
  if truncated then
    if text.length < maxTextSourceDisplayLen then none
    else some (text.take maxTextSourceDisplayLen ++ str! "...")
  else some text

/-- bytes_source.go 25-58 `String`; `none` is a panic. -/
def showSource : Source → Option Str
  | .text text => showText text
  | .http link => some link
  | .file path => some (str! "file://" ++ path)

/-- bytes_source.go 100-111 `TextBytesSource`, `inlineList`. -/
def textSource (lines : List Str) : Source := .text (joinChar '\n' lines ++ ['\n'])

/-- The files and the network: the content, or an error. -/
structure Outside where
  download : Str → Option Str
  readFile : Str → Option Str

/-- sourcereader.go 19-32 `NewSourceOpener`, 39, 52, 64 `Open`: the content read from a source, `none` is an
error. -/
def openSource (o : Outside) : Source → Option Str
  | .text text => some text
  | .http link => o.download link
  | .file path => o.readFile path

/-! ### Listen addresses -/

/-- config.go 169-182 `ListenConfig.UnmarshalText`. -/
def parseListen (s : Str) : List Str :=
  (splitChar ',' s).map (fun addr => if addr.contains ':' then addr else ':' :: addr)

/-! ### Custom DNS addresses -/

/-- custom_dns.go 108-125 `configToRR`: a record without name, class and TTL; `none` is an error.
`parseIP` is `net.ParseIP`: an IPv4 address for every text whose `To4` is not nil. -/
def configToRR (parseIP : Str → Option IP) (s : Str) : Option RR :=
  match parseIP s with
  | none => none
  | some (.v4 a) => some { name := [], rtype := 0, cls := 0, ttl := 0, data := .a (.v4 a) }
  | some (.v6 a) => some { name := [], rtype := 0, cls := 0, ttl := 0, data := .aaaa (.v6 a) }

/-- custom_dns.go 74-88: all parts, or an error. -/
def convertParts {α : Type} (convert : Str → Option α) : List Str → Option (List α)
  | [] => some []
  | p :: ps =>
    match convert (trimSpace p) with
    | none => none
    | some r =>
      match convertParts convert ps with
      | none => none
      | some rs => some (r :: rs)

/-- custom_dns.go 68-89 `CustomDNSEntries.UnmarshalYAML`. -/
def parseEntries (parseIP : Str → Option IP) (s : Str) : Option (List RR) :=
  convertParts (configToRR parseIP) (splitChar ',' s)

/-- custom_dns.go 42-61: the records of a zone grouped by the name as it is written, in the order of the
zone. The zone parser (miekg/dns) is not modelled. -/
def groupZone : List RR → AMap Str (List RR) → AMap Str (List RR)
  | [], m => m
  | rr :: rrs, m => groupZone rrs (m.put rr.name (((AMap.get m rr.name).getD []) ++ [rr]))

/-! ### Conditional mapping -/

/-- conditional_upstream.go 42-55: one entry of the mapping. -/
def parseUpstreams (isIP : Str → Bool) (s : Str) : Option (List UpstreamUrl.Upstream) :=
  convertParts (UpstreamUrl.parse isIP) (splitChar ',' s)

/-- conditional_upstream.go 34-60 `UnmarshalYAML`: the entries in the order Go iterates them. -/
def parseMapping (isIP : Str → Bool) : List (Str × Str) → Option (AMap Str (List UpstreamUrl.Upstream))
  | [] => some []
  | (k, v) :: rest =>
    match parseUpstreams isIP v with
    | none => none
    | some us =>
      match parseMapping isIP rest with
      | none => none
      | some m => some ((k, us) :: m)

/-! ### Subnet masks -/

/-- ecs.go 68-81 `unmarshalInternal`; `none` is an error. -/
def parseMask (max : Nat) (s : Str) : Option Nat :=
  match parseUint 10 8 s with
  | none => none
  | some v => if v > max then none else some v

/-- ecs.go 19-28 `ECSv4Mask.UnmarshalText`. -/
def parseMask4 (s : Str) : Option Nat := parseMask 32 s

/-- ecs.go 34-43 `ECSv6Mask.UnmarshalText`. -/
def parseMask6 (s : Str) : Option Nat := parseMask 128 s

/-! ### Bootstrap servers -/

/-- config/config.go 299-302 `BootstrappedUpstream`: an upstream and its addresses. -/
structure BootItem where
  upstream : UpstreamUrl.Upstream
  ips : List IP

/-- bootstrap.go 280-308: the errors, with the position of the item (from 1). -/
inductive BootErr where
  | notConfigured (i : Nat)
  | mustUseIP (i : Nat)
  | noIPs (i : Nat)
  deriving DecidableEq, Repr

/-- bootstrap.go 278-312: one item, the `i`-th. -/
def bootItem (parseIP : Str → Option IP) (i : Nat) (item : BootItem) : List IP ⊕ BootErr :=
  if item.upstream.isDefault then .inr (.notConfigured i)
  else
    match parseIP item.upstream.host with
    | some ip => .inl (ip :: item.ips)
    | none =>
      if item.upstream.net = .tcpUdp then .inr (.mustUseIP i)
      else if item.ips = [] then .inr (.noIPs i)
      else .inl item.ips

/-- bootstrap.go 275-313: the loop over the items, starting with number `i`; the upstreams with their
addresses (in Go a map with the new resolvers as keys) and the errors. -/
def bootItems (parseIP : Str → Option IP) : Nat → List BootItem → List (UpstreamUrl.Upstream × List IP) × List BootErr
  | _, [] => ([], [])
  | i, item :: items =>
    let (ok, errs) := bootItems parseIP (i + 1) items
    match bootItem parseIP i item with
    | .inr e => (ok, e :: errs)
    | .inl ips => ((item.upstream, ips) :: ok, errs)

/-- bootstrap.go 268-320 `newBootstrapedResolvers`. -/
def bootstraped (parseIP : Str → Option IP) (items : List BootItem) :
    List (UpstreamUrl.Upstream × List IP) ⊕ List BootErr :=
  match bootItems parseIP 1 items with
  | (ok, []) => .inl ok
  | (_, errs) => .inr errs

end Verif.ConfigText
