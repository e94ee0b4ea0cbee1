import Verif.Base.AMap
import Verif.Base.ListLemmas
import Verif.Base.Num
import Verif.Base.Search
import Verif.Base.Sort
import Verif.Base.Str
import Verif.Lemmas.Caching
import Verif.Lemmas.Case
import Verif.Lemmas.Chain
import Verif.Lemmas.Domain
import Verif.Lemmas.Duration
import Verif.Lemmas.Edns
import Verif.Lemmas.ExpCache
import Verif.Lemmas.GroupedCache
import Verif.Lemmas.Logic
import Verif.Lemmas.MapOrder
import Verif.Lemmas.Parsers
import Verif.Lemmas.Steps
import Verif.Lemmas.StringCache
import Verif.Lemmas.Trie
import Verif.Model.Arpa
import Verif.Model.Blocking
import Verif.Model.BlockingStatus
import Verif.Model.BootForms
import Verif.Model.CacheMetrics
import Verif.Model.CacheSize
import Verif.Model.Caching
import Verif.Model.Chain
import Verif.Model.Cleaner
import Verif.Model.Cli
import Verif.Model.ClientNames
import Verif.Model.Conditional
import Verif.Model.ConfigFiles
import Verif.Model.ConfigText
import Verif.Model.CustomDns
import Verif.Model.Dial
import Verif.Model.Dns
import Verif.Model.Download
import Verif.Model.Duration
import Verif.Model.Ecs
import Verif.Model.Edns
import Verif.Model.Exchange
import Verif.Model.ExpCache
import Verif.Model.Flights
import Verif.Model.FqdnClients
import Verif.Model.Groups
import Verif.Model.HostsFile
import Verif.Model.HostsText
import Verif.Model.Http
import Verif.Model.ListCache
import Verif.Model.Listener
import Verif.Model.Live
import Verif.Model.Loading
import Verif.Model.LogLines
import Verif.Model.LogSetup
import Verif.Model.Losers
import Verif.Model.Metrics
import Verif.Model.Migrate
import Verif.Model.Parsers
import Verif.Model.Printing
import Verif.Model.Process
import Verif.Model.QueryLog
import Verif.Model.QueryLogFile
import Verif.Model.Redis
import Verif.Model.RedisQueue
import Verif.Model.RedisStore
import Verif.Model.Refreshing
import Verif.Model.Routes
import Verif.Model.Server
import Verif.Model.Settings
import Verif.Model.Small
import Verif.Model.StatusLock
import Verif.Model.StringCache
import Verif.Model.Threads
import Verif.Model.Transport
import Verif.Model.Trie
import Verif.Model.Upstream
import Verif.Model.UpstreamUrl
import Verif.Model.Url
import Verif.Model.Waiting
import Verif.Model.Walk
import Verif.Model.Web
import Verif.Model.Wiring
import Verif.Model.Words
import Verif.Props.Alone
import Verif.Props.Amplify
import Verif.Props.Answered
import Verif.Props.Api
import Verif.Props.Arpa
import Verif.Props.Asked
import Verif.Props.Blind
import Verif.Props.BlockAnswer
import Verif.Props.Blocking
import Verif.Props.BlockingStatus
import Verif.Props.BootForms
import Verif.Props.CacheBugs
import Verif.Props.CacheHistory
import Verif.Props.CacheKey
import Verif.Props.CacheMetrics
import Verif.Props.CacheRight
import Verif.Props.CacheTTL
import Verif.Props.Case
import Verif.Props.Chain
import Verif.Props.Changes
import Verif.Props.Cleaner
import Verif.Props.Cli
import Verif.Props.ClientNames
import Verif.Props.Conditional
import Verif.Props.ConfigFiles
import Verif.Props.ConfigText
import Verif.Props.CustomDns
import Verif.Props.Dial
import Verif.Props.Download
import Verif.Props.Duration
import Verif.Props.Ecs
import Verif.Props.Edns
import Verif.Props.Elsewhere
import Verif.Props.EncodedSecrets
import Verif.Props.Exchange
import Verif.Props.ExpCache
import Verif.Props.Flights
import Verif.Props.Forwarding
import Verif.Props.FqdnClients
import Verif.Props.Groups
import Verif.Props.HostsFile
import Verif.Props.HostsText
import Verif.Props.Http
import Verif.Props.Inside
import Verif.Props.Kind
import Verif.Props.Lifetimes
import Verif.Props.ListCounts
import Verif.Props.ListDot
import Verif.Props.ListNames
import Verif.Props.ListRefresh
import Verif.Props.Listener
import Verif.Props.Lists
import Verif.Props.Live
import Verif.Props.Loading
import Verif.Props.LogLines
import Verif.Props.LogSecrets
import Verif.Props.LogSetup
import Verif.Props.Logged
import Verif.Props.Losers
import Verif.Props.MapOrder
import Verif.Props.Memory
import Verif.Props.Metrics
import Verif.Props.Migrate
import Verif.Props.Monotone
import Verif.Props.NewNames
import Verif.Props.Observers
import Verif.Props.Origin
import Verif.Props.Outside
import Verif.Props.OwnGroup
import Verif.Props.OwnLists
import Verif.Props.Prefetch
import Verif.Props.Printing
import Verif.Props.Privacy
import Verif.Props.Process
import Verif.Props.QueryLog
import Verif.Props.QueryLogFile
import Verif.Props.Reasons
import Verif.Props.Redis
import Verif.Props.RedisQueue
import Verif.Props.RedisStore
import Verif.Props.Refreshing
import Verif.Props.Repeat
import Verif.Props.Routes
import Verif.Props.Server
import Verif.Props.Settings
import Verif.Props.Small
import Verif.Props.Sourced
import Verif.Props.StatusLock
import Verif.Props.StringCache
import Verif.Props.Survival
import Verif.Props.Threads
import Verif.Props.Thrift
import Verif.Props.Transparent
import Verif.Props.Transport
import Verif.Props.Trie
import Verif.Props.Unnoticed
import Verif.Props.Upstream
import Verif.Props.UpstreamUrl
import Verif.Props.UrlSecrets
import Verif.Props.Utf8
import Verif.Props.Waiting
import Verif.Props.Web
import Verif.Props.Wiring
import Verif.Props.Words
import Verif.Props.Written
import Verif.Props.Zones
import Verif.Spec.Blocking
import Verif.Spec.Case
import Verif.Spec.Csv
import Verif.Spec.Domain
import Verif.Spec.Lines
import Verif.Spec.ListEntry
import Verif.Spec.Reverse
import Verif.Spec.Server
import Verif.Spec.SpecialUse
import Verif.Spec.TimedMap
import Verif.Spec.Zone
