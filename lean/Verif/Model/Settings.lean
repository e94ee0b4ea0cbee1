/-
Model of reading the settings: config/config.go 224-246 `Config`, 422-430 `WithDefaults`, 448-499 `loadConfig`, 553-568
`unmarshalConfig`, 602-605 `validate`, and the structures of the sections with their `yaml` and `default` tags.

Libraries: gopkg.in/yaml.v2 2.4.0 `UnmarshalStrict` decodes into the structure that already has the defaults. Of a mapping only the fields
it mentions are touched; a key that is unknown or comes twice is an error (strict). A null node (nothing after the colon, `~`, `null`) sets
what it belongs to, a value or a whole structure, to Go's zero value (decode.go `scalar`: `out.Set(reflect.Zero(out.Type()))`). A file
without any node leaves everything as it is. github.com/creasty/defaults 1.8.0 sets fields from their tags as if the text were given.

Simplifications: a value is represented by the node (text, list, mapping) one would write to get it, and which nodes a setting takes is a
parameter; aliases and merge keys of YAML are left out; documents with deprecated options are outside the model (here: refused; see Migrate).
-/
import Verif.Base.Str

namespace Verif.Settings

mutual
/-- A node of a YAML document. The items of a sequence have no keys (here: empty ones). -/
inductive Yaml where
  | null
  | scalar (text : Str)
  | seq (items : Entries)
  | map (entries : Entries)
  deriving DecidableEq
/-- The entries of a mapping, in the order of the file. -/
inductive Entries where
  | nil
  | cons (key : Str) (value : Yaml) (rest : Entries)
  deriving DecidableEq
end

/-- The entries as a list. -/
def Entries.toList : Entries → List (Str × Yaml)
  | .nil => []
  | .cons k v rest => (k, v) :: rest.toList

/-- Entries from a list. -/
def entries : List (Str × Yaml) → Entries
  | [] => .nil
  | (k, v) :: rest => .cons k v (entries rest)

/-- A sequence of texts. -/
def texts (items : List Str) : Yaml := .seq (entries (items.map (fun t => ([], .scalar t))))

/-- The Go types of settings. -/
inductive Kind where
  | bool
  | text
  | int
  | duration
  | list
  | table
  | ipVersion
  | tlsVersion
  | strategy
  | init
  | level
  | format
  | logType
  | upstream
  deriving DecidableEq, Repr

/-- The zero value of a type, written as one would write it in a file. For enumerations it is the word with value 0
(config/config_enum.go, log/logger_enum.go; logrus: panic); TLS versions have none. -/
def zero : Kind → Yaml
  | .bool => .scalar (str! "false")
  | .text => .scalar []
  | .int => .scalar (str! "0")
  | .duration => .scalar (str! "0")
  | .list => .seq .nil
  | .table => .map .nil
  | .ipVersion => .scalar (str! "dual")
  | .tlsVersion => .scalar (str! "TLSVersion(0)")
  | .strategy => .scalar (str! "parallel_best")
  | .init => .scalar (str! "blocking")
  | .level => .scalar (str! "panic")
  | .format => .scalar (str! "text")
  | .logType => .scalar (str! "console")
  | .upstream => .scalar []

/-- Where a setting is: the keys from the top of the file. -/
abbrev Path := List Str

/-- A field: its type and its `default` tag. -/
structure Setting where
  path : Path
  kind : Kind
  tag : Option Yaml := none

/-- A field with a `default` tag. -/
def tagged (path : Path) (kind : Kind) (tag : Str) : Setting := ⟨path, kind, some (.scalar tag)⟩

/-- config.go 324-339, 407-414 `Init`, `SourceLoading`, `Downloader`, below a section. -/
def loadingSettings (sect : Str) : List Setting :=
  [tagged [sect, str! "loading", str! "strategy"] .init (str! "blocking"),
   tagged [sect, str! "loading", str! "concurrency"] .int (str! "4"),
   tagged [sect, str! "loading", str! "maxErrorsPerSource"] .int (str! "5"),
   tagged [sect, str! "loading", str! "refreshPeriod"] .duration (str! "4h"),
   tagged [sect, str! "loading", str! "downloads", str! "timeout"] .duration (str! "5s"),
   tagged [sect, str! "loading", str! "downloads", str! "readTimeout"] .duration (str! "20s"),
   tagged [sect, str! "loading", str! "downloads", str! "readHeaderTimeout"] .duration (str! "20s"),
   tagged [sect, str! "loading", str! "downloads", str! "writeTimeout"] .duration (str! "20s"),
   tagged [sect, str! "loading", str! "downloads", str! "attempts"] .int (str! "3"),
   tagged [sect, str! "loading", str! "downloads", str! "cooldown"] .duration (str! "500ms")]

/-- config/upstreams.go 11-17. -/
def upstreamsSettings : List Setting :=
  [tagged [str! "upstreams", str! "init", str! "strategy"] .init (str! "blocking"),
   tagged [str! "upstreams", str! "timeout"] .duration (str! "2s"),
   ⟨[str! "upstreams", str! "groups"], .table, none⟩,
   tagged [str! "upstreams", str! "strategy"] .strategy (str! "parallel_best"),
   ⟨[str! "upstreams", str! "userAgent"], .text, none⟩]

/-- config/custom_dns.go 13-19, config/conditional_upstream.go 10-13, config/rewriter.go 8-11. -/
def localSettings : List Setting :=
  [⟨[str! "customDNS", str! "rewrite"], .table, none⟩,
   tagged [str! "customDNS", str! "fallbackUpstream"] .bool (str! "false"),
   tagged [str! "customDNS", str! "customTTL"] .duration (str! "1h"),
   ⟨[str! "customDNS", str! "mapping"], .table, none⟩,
   ⟨[str! "customDNS", str! "zone"], .text, none⟩,
   tagged [str! "customDNS", str! "filterUnmappedTypes"] .bool (str! "true"),
   ⟨[str! "conditional", str! "rewrite"], .table, none⟩,
   tagged [str! "conditional", str! "fallbackUpstream"] .bool (str! "false"),
   ⟨[str! "conditional", str! "mapping"], .table, none⟩]

/-- config/blocking.go 10-16. -/
def blockingSettings : List Setting :=
  [⟨[str! "blocking", str! "denylists"], .table, none⟩,
   ⟨[str! "blocking", str! "allowlists"], .table, none⟩,
   ⟨[str! "blocking", str! "clientGroupsBlock"], .table, none⟩,
   tagged [str! "blocking", str! "blockType"] .text (str! "ZEROIP"),
   tagged [str! "blocking", str! "blockTTL"] .duration (str! "6h")] ++ loadingSettings (str! "blocking")

/-- config/caching.go 10-19, config/client_lookup.go 9-13. -/
def cachingSettings : List Setting :=
  [⟨[str! "clientLookup", str! "clients"], .table, none⟩,
   ⟨[str! "clientLookup", str! "upstream"], .upstream, none⟩,
   ⟨[str! "clientLookup", str! "singleNameOrder"], .list, none⟩,
   ⟨[str! "caching", str! "minTime"], .duration, none⟩,
   ⟨[str! "caching", str! "maxTime"], .duration, none⟩,
   tagged [str! "caching", str! "cacheTimeNegative"] .duration (str! "30m"),
   ⟨[str! "caching", str! "maxItemsCount"], .int, none⟩,
   ⟨[str! "caching", str! "prefetching"], .bool, none⟩,
   tagged [str! "caching", str! "prefetchExpires"] .duration (str! "2h"),
   tagged [str! "caching", str! "prefetchThreshold"] .int (str! "5"),
   ⟨[str! "caching", str! "prefetchMaxItemsCount"], .int, none⟩]

/-- config/query_log.go 12-33 (the fields' default is set by `SetDefaults`), config/metrics.go 6-9. -/
def loggingSettings : List Setting :=
  [⟨[str! "queryLog", str! "target"], .text, none⟩,
   ⟨[str! "queryLog", str! "type"], .logType, none⟩,
   ⟨[str! "queryLog", str! "logRetentionDays"], .int, none⟩,
   tagged [str! "queryLog", str! "creationAttempts"] .int (str! "3"),
   tagged [str! "queryLog", str! "creationCooldown"] .duration (str! "2s"),
   ⟨[str! "queryLog", str! "fields"], .list, some (texts [str! "clientIP", str! "clientName", str! "responseReason",
     str! "responseAnswer", str! "question", str! "duration"])⟩,
   tagged [str! "queryLog", str! "flushInterval"] .duration (str! "30s"),
   tagged [str! "queryLog", str! "ignore", str! "sudn"] .bool (str! "false"),
   tagged [str! "prometheus", str! "enable"] .bool (str! "false"),
   tagged [str! "prometheus", str! "path"] .text (str! "/metrics")]

/-- config/redis.go 8-19, log/logger.go 36-41. -/
def redisSettings : List Setting :=
  [⟨[str! "redis", str! "address"], .text, none⟩,
   tagged [str! "redis", str! "username"] .text [],
   tagged [str! "redis", str! "password"] .text [],
   tagged [str! "redis", str! "database"] .int (str! "0"),
   tagged [str! "redis", str! "required"] .bool (str! "false"),
   tagged [str! "redis", str! "connectionAttempts"] .int (str! "3"),
   tagged [str! "redis", str! "connectionCooldown"] .duration (str! "1s"),
   tagged [str! "redis", str! "sentinelUsername"] .text [],
   tagged [str! "redis", str! "sentinelPassword"] .text [],
   ⟨[str! "redis", str! "sentinelAddresses"], .list, none⟩,
   tagged [str! "log", str! "level"] .level (str! "info"),
   tagged [str! "log", str! "format"] .format (str! "text"),
   tagged [str! "log", str! "privacy"] .bool (str! "false"),
   tagged [str! "log", str! "timestamp"] .bool (str! "true")]

/-- config.go 224-246, 266-271, 305-312, config/hosts_file.go 9-13, config/filtering.go 7-9, config/ecs.go 46-51, config/sudn.go 7-15.
(`ListenConfig` reads "53" as the list with ":53": config.go 169-182.) -/
def otherSettings : List Setting :=
  [⟨[str! "connectIPVersion"], .ipVersion, none⟩,
   ⟨[str! "ports", str! "dns"], .list, some (texts [str! ":53"])⟩,
   ⟨[str! "ports", str! "http"], .list, none⟩,
   ⟨[str! "ports", str! "https"], .list, none⟩,
   ⟨[str! "ports", str! "tls"], .list, none⟩,
   tagged [str! "minTlsServeVersion"] .tlsVersion (str! "1.2"),
   ⟨[str! "certFile"], .text, none⟩,
   ⟨[str! "keyFile"], .text, none⟩,
   ⟨[str! "bootstrapDns"], .list, none⟩,
   ⟨[str! "hostsFile", str! "sources"], .list, none⟩,
   tagged [str! "hostsFile", str! "hostsTTL"] .duration (str! "1h"),
   ⟨[str! "hostsFile", str! "filterLoopback"], .bool, none⟩,
   tagged [str! "fqdnOnly", str! "enable"] .bool (str! "false"),
   ⟨[str! "filtering", str! "queryTypes"], .list, none⟩,
   tagged [str! "ede", str! "enable"] .bool (str! "false"),
   tagged [str! "ecs", str! "useAsClient"] .bool (str! "false"),
   tagged [str! "ecs", str! "forward"] .bool (str! "false"),
   tagged [str! "ecs", str! "ipv4Mask"] .int (str! "0"),
   tagged [str! "ecs", str! "ipv6Mask"] .int (str! "0"),
   tagged [str! "specialUseDomains", str! "rfc6762-appendixG"] .bool (str! "true"),
   tagged [str! "specialUseDomains", str! "enable"] .bool (str! "true")] ++ loadingSettings (str! "hostsFile")

/-- config.go 224-246 `Config`, without the deprecated options. -/
def settings : List Setting :=
  upstreamsSettings ++ localSettings ++ blockingSettings ++ cachingSettings ++ loggingSettings ++ redisSettings ++ otherSettings

/-- The field at a path. -/
def field (path : Path) : Option Setting := settings.find? (fun s => s.path == path)

/-- Is there a field or a section at the path? -/
def known (path : Path) : Bool := settings.any (fun s => path.isPrefixOf s.path)

/-- The values of all settings. -/
abbrev Values := Path → Yaml

/-- config.go 422-430 `WithDefaults`. -/
def defaults : Values := fun p =>
  match field p with
  | some s => s.tag.getD (zero s.kind)
  | none => .null

/-- Set one value. -/
def put (v : Values) (path : Path) (y : Yaml) : Values := fun p => if p = path then y else v p

/-- What a null node does: everything below becomes zero. -/
def clear (v : Values) (path : Path) : Values := fun p =>
  if path.isPrefixOf p then
    match field p with
    | some s => zero s.kind
    | none => v p
  else v p

/-- A node that is not null, for a field. For a section only a mapping will do. -/
def decodeField (accepts : Path → Yaml → Bool) (path : Path) (y : Yaml) (v : Values) : Option Values :=
  match field path with
  | some _ => if accepts path y then some (put v path y) else none
  | none => none

mutual
/-- yaml.v2 `unmarshal`; `none` is an error. -/
def decode (accepts : Path → Yaml → Bool) (path : Path) : Yaml → Values → Option Values
  | .null, v => some (clear v path)
  | .scalar t, v => decodeField accepts path (.scalar t) v
  | .seq items, v => decodeField accepts path (.seq items) v
  | .map es, v =>
    if (field path).isSome then decodeField accepts path (.map es) v
    else decodeSection accepts path es [] v
/-- yaml.v2 `mappingStruct`, strict. -/
def decodeSection (accepts : Path → Yaml → Bool) (path : Path) : Entries → List Str → Values → Option Values
  | .nil, _, v => some v
  | .cons k y rest, seen, v =>
    if seen.contains k || !known (path ++ [k]) then none
    else
      match decode accepts (path ++ [k]) y v with
      | none => none
      | some v => decodeSection accepts path rest (k :: seen) v
end

/-- config.go 602-605 `validate`: 92-101 and upstreams.go 21-28. `old`: the version is below 1.2; `low`: the timeout is not above zero. -/
def validate (old low : Yaml → Bool) (v : Values) : Values :=
  let v := if old (v [str! "minTlsServeVersion"]) then put v [str! "minTlsServeVersion"] (.scalar (str! "1.2")) else v
  if low (v [str! "upstreams", str! "timeout"]) then put v [str! "upstreams", str! "timeout"] (.scalar (str! "2s")) else v

/-- What is found where the configuration should be. -/
inductive Content where
  /-- Nothing, and the path was not asked for. -/
  | absent
  /-- Blank lines and comments only. -/
  | blank
  /-- A document. -/
  | document (y : Yaml)

/-- config.go 448-499, 553-568. -/
def load (accepts : Path → Yaml → Bool) (old low : Yaml → Bool) : Content → Option Values
  | .absent => some defaults
  | .blank => some (validate old low defaults)
  | .document y => (decode accepts [] y defaults).map (validate old low)

end Verif.Settings
