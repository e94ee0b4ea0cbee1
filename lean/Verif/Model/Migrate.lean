/-
Model of /repo/config/migration/migration.go and of the three tables of deprecated options:
config/config.go 249-263 and 569-604, config/blocking.go 21-32 and 35-53, config/hosts_file.go 17-31.
-/
import Verif.Base.Str

namespace Verif.Migrate

/-- config.go 117 `InitStrategy`. -/
inductive Strategy where
  | blocking | failOnError | fast
  deriving DecidableEq, Repr

/-- Option values. Durations and counts are `num`; the compound values (groups of upstreams or lists,
addresses to listen on, log settings, user agent, list sources, filtered types) are lists of strings. -/
inductive Val where
  | num (n : Int)
  | bool (b : Bool)
  | strategy (s : Strategy)
  | data (l : List Str)
  deriving DecidableEq, Repr

/-- The options that replace deprecated ones. -/
inductive New where
  | upstreamsGroups | upstreamsTimeout | filteringQueryTypes | portsDns | portsHttp | portsHttps | portsTls
  | logLevel | logFormat | logPrivacy | logTimestamp | upstreamsUserAgent | upstreamsInitStrategy
  | denylists | allowlists | downloadsTimeout | downloadsAttempts | downloadsCooldown | blockingRefreshPeriod
  | loadingStrategy | loadingConcurrency | maxErrorsPerSource
  | hostsRefreshPeriod | hostsSources
  deriving DecidableEq, Repr

/-- The deprecated options. -/
inductive Old where
  | upstream | upstreamTimeout | disableIPv6 | logLevel | logFormat | logPrivacy | logTimestamp
  | port | httpPort | httpsPort | tlsPort | startVerifyUpstream | dohUserAgent
  | blackLists | whiteLists | downloadTimeout | downloadAttempts | downloadCooldown | refreshPeriod
  | failStartOnListError | processingConcurrency | startStrategy | maxErrorsPerFile
  | hostsRefreshPeriod | filePath
  deriving DecidableEq, Repr

/-- The fields in the order in which `Migrate` visits them: config.go 249-263, then blocking.go 21-32, then
hosts_file.go 17-20 (config.go 600-601 call them in this order). -/
def order : List Old :=
  [.upstream, .upstreamTimeout, .disableIPv6, .logLevel, .logFormat, .logPrivacy, .logTimestamp,
   .port, .httpPort, .httpsPort, .tlsPort, .startVerifyUpstream, .dohUserAgent,
   .blackLists, .whiteLists, .downloadTimeout, .downloadAttempts, .downloadCooldown, .refreshPeriod,
   .failStartOnListError, .processingConcurrency, .startStrategy, .maxErrorsPerFile,
   .hostsRefreshPeriod, .filePath]

/-- The `To(…)` of each migration: config.go 571-597, blocking.go 36-52, hosts_file.go 25-28. -/
def dest : Old → New
  | .upstream => .upstreamsGroups
  | .upstreamTimeout => .upstreamsTimeout
  | .disableIPv6 => .filteringQueryTypes
  | .logLevel => .logLevel
  | .logFormat => .logFormat
  | .logPrivacy => .logPrivacy
  | .logTimestamp => .logTimestamp
  | .port => .portsDns
  | .httpPort => .portsHttp
  | .httpsPort => .portsHttps
  | .tlsPort => .portsTls
  | .startVerifyUpstream => .upstreamsInitStrategy
  | .dohUserAgent => .upstreamsUserAgent
  | .blackLists => .denylists
  | .whiteLists => .allowlists
  | .downloadTimeout => .downloadsTimeout
  | .downloadAttempts => .downloadsAttempts
  | .downloadCooldown => .downloadsCooldown
  | .refreshPeriod => .blockingRefreshPeriod
  | .failStartOnListError => .loadingStrategy
  | .processingConcurrency => .loadingConcurrency
  | .startStrategy => .loadingStrategy
  | .maxErrorsPerFile => .maxErrorsPerSource
  | .hostsRefreshPeriod => .hostsRefreshPeriod
  | .filePath => .hostsSources

/-- migration.go 88-108 `Move` and the functions given to `Apply`: the new value of the destination, from
the deprecated value and the present one. -/
def apply : Old → Val → Val → Val
  | .disableIPv6, .bool true, .data l => .data (if str! "AAAA" ∈ l then l else l ++ [str! "AAAA"])
  | .disableIPv6, _, cur => cur
  | .startVerifyUpstream, .bool true, _ => .strategy .failOnError
  | .startVerifyUpstream, _, _ => .strategy .fast
  | .failStartOnListError, .bool true, _ => .strategy .failOnError
  | .failStartOnListError, _, cur => cur
  | .filePath, .data v, .data l => .data (l ++ v)
  | .filePath, _, cur => cur
  | _, v, _ => v

/-- The values of the new options. -/
abbrev Cfg := New → Val

/-- migration.go 24-70: one turn of the loop of `Migrate`. -/
def step (default : Cfg) (cfg : Cfg) (old : Old) (v : Option Val) : Cfg :=
  match v with
  | none => cfg
  | some v =>
    if cfg (dest old) = default (dest old) then
      fun n => if n = dest old then apply old v (cfg n) else cfg n
    else cfg

/-- config.go 569-604, blocking.go 35-53, hosts_file.go 22-31 `migrate`, over the deprecated values in the
configuration file. -/
def migrate (default : Cfg) (old : Old → Option Val) (cfg : Cfg) : Cfg :=
  order.foldl (fun c o => step default c o (old o)) cfg

/-- config.go 461-497 `loadConfig`: the values that `yaml.Unmarshal` finds, over the defaults. -/
def load (default : Cfg) (written : New → Option Val) : Cfg := fun n => (written n).getD (default n)

end Verif.Migrate
