/-
Model of printing the configuration: server/server.go 347-380 `printConfiguration` (at the start, 152, and on SIGUSR1,
server/server_config_trigger.go 13-28; never two at a time, since the signal is waited for after the start only),
resolver/resolver.go 146-171, log/logger.go 145-190 `WithIndent`, and all `LogConfig` methods of the sections and resolvers.

Simplifications: numbers, durations, addresses and records are given as they are printed (`Str`); Go maps are given as the list of their
entries in the order in which they happen to be visited; the lines about memory (server.go 362-379) are left out: they print
nothing of the configuration.
-/
import Verif.Base.Str
import Verif.Model.ConfigText
import Verif.Model.UpstreamUrl

namespace Verif.Printing

/-- The levels that occur. -/
inductive Level where
  | warn
  | info
  | debug
  deriving DecidableEq, Repr

/-- What printing does to the one logger of the process: log a line, add a hook that puts a prefix before messages, remove it. -/
inductive Act where
  | log (level : Level) (text : Str)
  | push (pre : Str)
  | pop
  deriving DecidableEq, Repr

/-- log/logger.go 145-150 `WithIndent`. -/
def withIndent (pre : Str) (body : List Act) : List Act := .push pre :: body ++ [.pop]

/-- A line at level info. -/
def info (parts : List Str) : Act := .log .info parts.flatten

/-- A line at level debug. -/
def debug (parts : List Str) : Act := .log .debug parts.flatten

/-- Go's `%v` and `%s` of a slice. -/
def list (items : List Str) : Str := str! "[" ++ joinChar ' ' items ++ str! "]"

/-- Go's `%t`. -/
def bool (b : Bool) : Str := if b then str! "true" else str! "false"

/-- config.go 407-414 `Downloader` (what is printed of it). -/
structure Downloader where
  timeout : Str
  attempts : Str
  cooldown : Str

/-- config.go 416-420 `LogConfig`. -/
def Downloader.acts (c : Downloader) : List Act :=
  [info [str! "timeout = ", c.timeout], info [str! "attempts = ", c.attempts], debug [str! "cooldown = ", c.cooldown]]

/-- config.go 332-339 `SourceLoading`; `refresh`: the period, if it is above zero. -/
structure Loading where
  strategy : Str
  concurrency : Str
  maxErrors : Str
  refresh : Option Str
  downloads : Downloader

/-- config.go 341-354 `LogConfig`. -/
def Loading.acts (c : Loading) : List Act :=
  [debug [str! "strategy = ", c.strategy],
   info [str! "concurrency = ", c.concurrency],
   debug [str! "maxErrorsPerSource = ", c.maxErrors],
   match c.refresh with
   | some p => info [str! "refresh = every ", p]
   | none => debug [str! "refresh = disabled"],
   info [str! "downloads:"]] ++
  withIndent (str! "  ") c.downloads.acts

/-- A source as it is printed (bytes_source.go 25-58; it does not panic, see C71). -/
def source (s : ConfigText.Source) : Str := (ConfigText.showSource s).getD []

/-- config/redis.go 8-19. -/
structure Redis where
  address : Str
  username : Str
  password : Str
  database : Str
  required : Bool
  attempts : Str
  cooldown : Str
  sentinelUsername : Str
  sentinelPassword : Str
  sentinelAddresses : List Str

/-- config/redis.go 22-24. -/
def Redis.enabled (c : Redis) : Bool := !c.address.isEmpty

/-- config/redis.go 27-50. -/
def Redis.acts (c : Redis) : List Act :=
  (if c.sentinelAddresses.isEmpty then [info [str! "address: ", c.address]] else []) ++
  [info [str! "username: ", c.username],
   info [str! "password: ", ConfigText.secretObfuscator],
   info [str! "database: ", c.database],
   info [str! "required: ", bool c.required],
   info [str! "connectionAttempts: ", c.attempts],
   info [str! "connectionCooldown: ", c.cooldown]] ++
  (if c.sentinelAddresses.isEmpty then [] else
    [info [str! "sentinel:"],
     info [str! "  master: ", c.address],
     info [str! "  username: ", c.sentinelUsername],
     info [str! "  password: ", ConfigText.secretObfuscator],
     info [str! "  addresses:"]] ++ c.sentinelAddresses.map (fun a => info [str! "    - ", a]))

/-- config/query_log.go 12-26. -/
structure QueryLog where
  target : Str
  type : ConfigText.LogType
  retention : Str
  attempts : Str
  cooldown : Str
  fields : List Str
  flushInterval : Str
  ignoreSUDN : Bool

/-- config/query_log.go 40-57. -/
def QueryLog.acts (c : QueryLog) : List Act :=
  [info [str! "type: ", c.type.string]] ++
  (if c.target.isEmpty then [] else [info [str! "target: ", ConfigText.censoredTarget c.type c.target]]) ++
  [info [str! "logRetentionDays: ", c.retention],
   debug [str! "creationAttempts: ", c.attempts],
   debug [str! "creationCooldown: ", c.cooldown],
   info [str! "flushInterval: ", c.flushInterval],
   info [str! "fields: ", list c.fields],
   info [str! "ignore:"]] ++
  withIndent (str! "  ") [info [str! "sudn: ", bool c.ignoreSUDN]]

/-- config/ecs.go 45-52. -/
structure Ecs where
  useAsClient : Bool
  forward : Bool
  v4 : Nat
  v6 : Nat
  v4Text : Str
  v6Text : Str

/-- config/ecs.go 59-64. -/
def Ecs.acts (c : Ecs) : List Act :=
  [info [str! "Use as client = ", bool c.useAsClient], info [str! "Forward       = ", bool c.forward],
   info [str! "IPv4 netmask  = ", c.v4Text], info [str! "IPv6 netmask  = ", c.v6Text]]

/-- config/client_lookup.go 9-14; `upstream`: `none` is the default value. -/
structure ClientLookup where
  upstream : Option UpstreamUrl.Upstream
  nameOrder : List Str
  mapping : List (Str × Str)
  cacheEntries : Str

/-- config/client_lookup.go 22-36, resolver/client_names_resolver.go 55-59. -/
def ClientLookup.acts (c : ClientLookup) : List Act :=
  (match c.upstream with
   | some u => [info [str! "upstream = ", UpstreamUrl.print u]]
   | none => []) ++
  [info [str! "singleNameOrder = ", list c.nameOrder]] ++
  (if c.mapping.isEmpty then [] else
    info [str! "client IP mapping:"] :: c.mapping.map (fun e => info [str! "  ", e.1, str! " = ", e.2])) ++
  [info [str! "cache entries = ", c.cacheEntries]]

/-- config/rewriter.go 8-11. -/
structure Rewriter where
  fallback : Bool
  rules : List (Str × Str)

/-- config/rewriter.go 19-27. -/
def Rewriter.acts (c : Rewriter) : List Act :=
  [info [str! "fallbackUpstream = ", bool c.fallback], info [str! "rules:"]] ++
  c.rules.map (fun e => info [str! "  ", e.1, str! " = ", e.2])

/-- config/custom_dns.go 14-20. -/
structure CustomDNS where
  ttl : Str
  filterUnmapped : Bool
  mapping : List (Str × Str)
  rewriter : Rewriter

/-- config/custom_dns.go 97-106. -/
def CustomDNS.acts (c : CustomDNS) : List Act :=
  [debug [str! "TTL = ", c.ttl], debug [str! "filterUnmappedTypes = ", bool c.filterUnmapped], info [str! "mapping:"]] ++
  c.mapping.map (fun e => info [str! "  ", e.1, str! " = ", e.2])

/-- config/conditional_upstream.go 11-18. -/
structure Conditional where
  mapping : List (Str × List UpstreamUrl.Upstream)
  rewriter : Rewriter

/-- config/conditional_upstream.go 27-31. -/
def Conditional.acts (c : Conditional) : List Act :=
  c.mapping.map (fun e => info [e.1, str! " = ", list (e.2.map UpstreamUrl.print)])

/-- config/hosts_file.go 9-15. -/
structure HostsFile where
  ttl : Str
  filterLoopback : Bool
  loading : Loading
  sources : List ConfigText.Source
  cacheEntries : Str

/-- config/hosts_file.go 37-49, resolver/hosts_file_resolver.go 60-64. -/
def HostsFile.acts (c : HostsFile) : List Act :=
  [info [str! "TTL: ", c.ttl], info [str! "filter loopback addresses: ", bool c.filterLoopback], info [str! "loading:"]] ++
  withIndent (str! "  ") c.loading.acts ++
  [info [str! "sources:"]] ++ c.sources.map (fun s => info [str! "  - ", source s]) ++
  [info [str! "cache entries = ", c.cacheEntries]]

/-- What is printed of the lists of one kind: the number of entries and of regexes of each group (lists/list_cache.go 36-47). -/
structure Lists where
  groups : List (Str × Nat × Nat)

/-- lists/list_cache.go 50-72, 23 `regexWarningThreshold`. -/
def Lists.acts (decimal : Nat → Str) (l : Lists) : List Act :=
  l.groups.map (fun g => info [g.1, str! ": ", decimal g.2.1, str! " entries"]) ++
  (if (l.groups.map (fun g => g.2.2)).sum > 500 then
    [.log .warn (str! "REGEXES: " ++ decimal (l.groups.map (fun g => g.2.2)).sum ++
      str! " !! High use of regexes is not recommended: they use a lot of memory and are very slow to search")] else []) ++
  [info [str! "TOTAL: ", decimal (l.groups.map (fun g => g.2.1)).sum, str! " entries"]]

/-- config/blocking.go 12-21, with the lists that have been loaded. -/
structure Blocking where
  clientGroups : List (Str × List Str)
  blockType : Str
  blockTTL : Str
  loading : Loading
  denylists : List (Str × List ConfigText.Source)
  allowlists : List (Str × List ConfigText.Source)
  denyCache : Lists
  allowCache : Lists

/-- config/blocking.go 85-93. -/
def listGroups (gs : List (Str × List ConfigText.Source)) : List Act :=
  gs.flatMap (fun g => info [g.1, str! ":"] :: g.2.map (fun s => info [str! "   - ", source s]))

/-- config/blocking.go 58-83, resolver/blocking_resolver.go 344-352. -/
def Blocking.acts (decimal : Nat → Str) (c : Blocking) : List Act :=
  [info [str! "clientGroupsBlock:"]] ++
  c.clientGroups.map (fun e => info [str! "  ", e.1, str! " = ", list e.2]) ++
  [info [str! "blockType = ", c.blockType]] ++
  (if c.blockType = str! "NXDOMAIN" then [] else [info [str! "blockTTL = ", c.blockTTL]]) ++
  [info [str! "loading:"]] ++ withIndent (str! "  ") c.loading.acts ++
  [info [str! "denylists:"]] ++ withIndent (str! "  ") (listGroups c.denylists) ++
  [info [str! "allowlists:"]] ++ withIndent (str! "  ") (listGroups c.allowlists) ++
  [info [str! "denylist cache entries:"]] ++ withIndent (str! "  ") (c.denyCache.acts decimal) ++
  [info [str! "allowlist cache entries:"]] ++ withIndent (str! "  ") (c.allowCache.acts decimal)

/-- config/caching.go 9-19; `prefetch`: what is printed if prefetching is on. -/
structure Caching where
  minTime : Str
  maxTime : Str
  maxNegative : Bool
  negative : Str
  prefetch : Option (Str × Str × Str)
  cacheEntries : Str

/-- config/caching.go 27-40, resolver/caching_resolver.go 172-176. -/
def Caching.acts (c : Caching) : List Act :=
  [info [str! "minTime = ", c.minTime], info [str! "maxTime = ", c.maxTime], info [str! "cacheTimeNegative = ", c.negative]] ++
  (match c.prefetch with
   | some (expires, threshold, items) =>
     [info [str! "prefetching:"], info [str! "  expires   = ", expires], info [str! "  threshold = ", threshold],
      info [str! "  maxItems  = ", items]]
   | none => [debug [str! "prefetching: disabled"]]) ++
  [info [str! "cache entries = ", c.cacheEntries]]

/-- config/upstreams.go 11-19. -/
structure Upstreams where
  initStrategy : Str
  timeout : Str
  strategy : Str
  groups : List (Str × List UpstreamUrl.Upstream)

/-- config/upstreams.go 36-51. -/
def Upstreams.treeActs (c : Upstreams) : List Act :=
  [info [str! "init:"]] ++ withIndent (str! "  ") [debug [str! "strategy = ", c.initStrategy]] ++
  [info [str! "timeout: ", c.timeout], info [str! "strategy: ", c.strategy], info [str! "groups:"]] ++
  c.groups.flatMap (fun g =>
    info [str! "  ", g.1, str! ":"] :: g.2.map (fun u => info [str! "    - ", UpstreamUrl.print u]))

/-- config/upstreams.go 84-91. -/
def Upstreams.groupActs (g : Str × List UpstreamUrl.Upstream) : List Act :=
  [info [str! "group: ", g.1], info [str! "upstreams:"]] ++ g.2.map (fun u => info [str! "  - ", UpstreamUrl.print u])

/-- The part of the configuration that is printed. -/
structure Config where
  redis : Redis
  filtering : List Str
  fqdnOnly : Bool
  ecs : Ecs
  clientLookup : ClientLookup
  ede : Bool
  queryLog : QueryLog
  metricsEnabled : Bool
  metricsPath : Str
  customDNS : CustomDNS
  hostsFile : HostsFile
  blocking : Blocking
  caching : Caching
  conditional : Conditional
  sudnEnabled : Bool
  rfc6762 : Bool
  upstreams : Upstreams
  dns : List Str
  tls : List Str
  http : List Str
  https : List Str

/-- A resolver for printing: `Type`, `IsEnabled`, `LogConfig`. -/
structure Resolver where
  type : Str
  enabled : Bool
  acts : List Act

/-- resolver/resolver.go 159-171 `LogResolverConfig`. -/
def logResolverConfig (r : Resolver) : List Act :=
  if r.enabled then info [str! "-> ", r.type, str! ":"] :: withIndent (str! "     ") r.acts
  else [debug [str! "-> ", r.type, str! ": disabled"]]

/-- resolver/rewriter_resolver.go 28-57: without rules the inner resolver itself. -/
def rewriter (c : Rewriter) (inner : Resolver) : Resolver :=
  if c.rules.isEmpty then inner else ⟨str! "rewrite", true, logResolverConfig inner ++ c.acts⟩

/-- resolver/upstream_tree_resolver.go 26-53: with one group the resolver of this group. -/
def upstreamResolver (c : Upstreams) : Resolver :=
  match c.groups with
  | [g] => ⟨c.strategy, !g.2.isEmpty, Upstreams.groupActs g⟩
  | gs => ⟨str! "upstream_tree", !gs.isEmpty, c.treeActs⟩

/-- server.go 315-330: the chain. -/
def chain (decimal : Nat → Str) (c : Config) : List Resolver :=
  [⟨str! "filtering", !c.filtering.isEmpty, info [str! "query types:"] :: c.filtering.map (fun t => info [str! "  - ", t])⟩,
   ⟨str! "fqdn_only", c.fqdnOnly, [info [str! "enabled"]]⟩,
   ⟨str! "extended_client_subnet", c.ecs.useAsClient || c.ecs.forward || decide (c.ecs.v4 > 0) || decide (c.ecs.v6 > 0), c.ecs.acts⟩,
   ⟨str! "client_names", c.clientLookup.upstream.isSome || !c.clientLookup.mapping.isEmpty, c.clientLookup.acts⟩,
   ⟨str! "extended_error_code", c.ede, [info [str! "enabled"]]⟩,
   ⟨str! "query_logging", decide (c.queryLog.type ≠ .none), c.queryLog.acts⟩,
   ⟨str! "metrics", c.metricsEnabled, [info [str! "url path: ", c.metricsPath]]⟩,
   rewriter c.customDNS.rewriter ⟨str! "custom_dns", !c.customDNS.mapping.isEmpty, c.customDNS.acts⟩,
   ⟨str! "hosts_file", !c.hostsFile.sources.isEmpty, c.hostsFile.acts⟩,
   ⟨str! "blocking", !c.blocking.clientGroups.isEmpty, c.blocking.acts decimal⟩,
   ⟨str! "caching", !c.caching.maxNegative, c.caching.acts⟩,
   rewriter c.conditional.rewriter ⟨str! "conditional_upstream", !c.conditional.mapping.isEmpty, c.conditional.acts⟩,
   ⟨str! "special_use_domains", c.sudnEnabled, [debug [str! "rfc6762-appendixG = ", bool c.rfc6762]]⟩,
   upstreamResolver c.upstreams]

/-- config.go 273-278 `Ports.LogConfig`. -/
def portActs (c : Config) : List Act :=
  [info [str! "DNS   = ", list c.dns], info [str! "TLS   = ", list c.tls], info [str! "HTTP  = ", list c.http],
   info [str! "HTTPS = ", list c.https]]

/-- server.go 347-362 `printConfiguration`. -/
def printConfiguration (decimal : Nat → Str) (c : Config) : List Act :=
  [info [str! "current configuration:"]] ++
  (if c.redis.enabled then info [str! "Redis:"] :: withIndent (str! "  ") c.redis.acts else []) ++
  (chain decimal c).flatMap logResolverConfig ++
  [info [str! "listeners:"]] ++ withIndent (str! "  ") (portActs c) ++
  [info [str! "runtime information:"]]

/-- The logger: whether it writes plain text, the hooks in the order in which they were added, and what it has written. -/
structure Logger where
  text : Bool
  hooks : List Str
  out : List (Level × Str)

/-- logrus runs the hooks of an entry in the order in which they were added; log/logger.go 186-190 `Fire`. -/
def message (hooks : List Str) (msg : Str) : Str := hooks.foldl (fun m pre => pre ++ m) msg

/-- log/logger.go 155-174 `indentMessages` and `undo` (the hooks are put back as they were). -/
def act (l : Logger) : Act → Logger
  | .log level msg => { l with out := l.out ++ [(level, message l.hooks msg)] }
  | .push pre => if l.text then { l with hooks := l.hooks ++ [pre] } else l
  | .pop => if l.text then { l with hooks := l.hooks.dropLast } else l

/-- Printing while other goroutines log: `none` is the next step of the printing, `some` a line of another goroutine. The result is the
logger, what is left to print, and for each line that was written whether it is one of the printing. -/
def interleave (l : Logger) (own : List Bool) : List Act → List (Option (Level × Str)) → Logger × List Act × List Bool
  | acts, [] => (l, acts, own)
  | acts, some (level, msg) :: s => interleave (act l (.log level msg)) (own ++ [false]) acts s
  | [], none :: s => interleave l own [] s
  | .log level msg :: acts, none :: s => interleave (act l (.log level msg)) (own ++ [true]) acts s
  | a :: acts, none :: s => interleave (act l a) own acts s

/-- Nothing else is logged meanwhile. -/
def run (l : Logger) (acts : List Act) : Logger := acts.foldl act l

end Verif.Printing
