/-
Model of the words of the configuration: the generated tables of enumerations (/repo/config/config_enum.go,
/repo/config/bytes_source_enum.go, /repo/log/logger_enum.go, /repo/lists/list_cache_enum.go,
/repo/model/models_enum.go), sets of query types (/repo/config/qtype_set.go), and what the words select:
the kinds of upstream groups (/repo/resolver/upstream_tree_resolver.go, parallel_best_resolver.go,
conditional_upstream_resolver.go, bootstrap.go), the network and types of a connection (/repo/config/config.go),
the fields and the writer of the query log (/repo/resolver/query_logging_resolver.go), the loading strategy and the
format of the log (/repo/log/logger.go).

The YAML library is not modelled: the functions start from the text it hands over to `UnmarshalText` (for the list of
query types from the list of texts).
-/
import Verif.Base.AMap
import Verif.Base.Str
import Verif.Model.LogSetup
import Verif.Model.Loading
import Verif.Model.QueryLog
import Verif.Model.Transport
import Verif.Model.Small

namespace Verif.Words
open Dns

/-! ### Generated tables -/

/-- Go `s[i:j]` for `i ≤ j ≤ len(s)` (the generated code has constants only, checked by the compiler). -/
def slice (s : Str) (c : Nat × Nat) : Str := (s.take c.2).drop c.1

/-- What go-enum generates for a type: its name (in the text of unknown values), the constant with all words, the words
in order (`_XNames`), the map of values to words (`_XMap`) and the map of words to values (`_XValue`). Words are written
as slices of the constant in each of the three. -/
structure Enum where
  typeName : Str
  text : Str
  names : List (Nat × Nat)
  map : AMap Nat (Nat × Nat)
  value : List ((Nat × Nat) × Nat)

/-- Decimal digits of a number (`%d`), as far as used for values unknown to the tables. -/
def decimal (n : Nat) : Str := (Nat.repr n).toList

/-- `XNames()`, e.g. config_enum.go 37-41. -/
def Enum.words (e : Enum) : List Str := e.names.map (slice e.text)

/-- `String`, e.g. config_enum.go 58-64. -/
def Enum.string (e : Enum) (x : Nat) : Str :=
  match AMap.get e.map x with
  | some c => slice e.text c
  | none => e.typeName ++ str! "(" ++ decimal x ++ str! ")"

/-- `IsValid`, e.g. config_enum.go 66-71. -/
def Enum.isValid (e : Enum) (x : Nat) : Bool := (AMap.get e.map x).isSome

/-- The map of words to values, e.g. config_enum.go 73-77. -/
def Enum.byWord (e : Enum) : AMap Str Nat := e.value.map (fun v => (slice e.text v.1, v.2))

/-- `ParseX`, e.g. config_enum.go 79-85. -/
def Enum.parse (e : Enum) (name : Str) : Option Nat := AMap.get e.byWord name

/-- `UnmarshalText`, e.g. config_enum.go 92-101: whether the text was taken, and the value afterwards. -/
def Enum.unmarshal (e : Enum) (old : Nat) (text : Str) : Bool × Nat :=
  match e.parse text with
  | none => (false, old)
  | some x => (true, x)

/-- config_enum.go 14-101 `IPVersion`. -/
def ipVersion : Enum where
  typeName := str! "IPVersion"
  text := str! "dualv4v6"
  names := [(0, 4), (4, 6), (6, 8)]
  map := [(0, (0, 4)), (1, (4, 6)), (2, (6, 8))]
  value := [((0, 4), 0), ((4, 6), 1), ((6, 8), 2)]

/-- config_enum.go 103-190 `InitStrategy`. -/
def initStrategy : Enum where
  typeName := str! "InitStrategy"
  text := str! "blockingfailOnErrorfast"
  names := [(0, 8), (8, 19), (19, 23)]
  map := [(0, (0, 8)), (1, (8, 19)), (2, (19, 23))]
  value := [((0, 8), 0), ((8, 19), 1), ((19, 23), 2)]

/-- config_enum.go 192-279 `NetProtocol`. -/
def netProtocol : Enum where
  typeName := str! "NetProtocol"
  text := str! "tcp+udptcp-tlshttps"
  names := [(0, 7), (7, 14), (14, 19)]
  map := [(0, (0, 7)), (1, (7, 14)), (2, (14, 19))]
  value := [((0, 7), 0), ((7, 14), 1), ((14, 19), 2)]

/-- config_enum.go 370-485 `QueryLogType`. -/
def queryLogType : Enum where
  typeName := str! "QueryLogType"
  text := str! "consolenonemysqlpostgresqlcsvcsv-clienttimescale"
  names := [(0, 7), (7, 11), (11, 16), (16, 26), (26, 29), (29, 39), (39, 48)]
  map := [(0, (0, 7)), (1, (7, 11)), (2, (11, 16)), (3, (16, 26)), (4, (26, 29)), (5, (29, 39)), (6, (39, 48))]
  value := [((0, 7), 0), ((7, 11), 1), ((11, 16), 2), ((16, 26), 3), ((26, 29), 4), ((29, 39), 5), ((39, 48), 6)]

/-- config_enum.go 487-577 `TLSVersion`: the numbers start with 769. -/
def tlsVersion : Enum where
  typeName := str! "TLSVersion"
  text := str! "1.01.11.21.3"
  names := [(0, 3), (3, 6), (6, 9), (9, 12)]
  map := [(769, (0, 3)), (770, (3, 6)), (771, (6, 9)), (772, (9, 12))]
  value := [((0, 3), 769), ((3, 6), 770), ((6, 9), 771), ((9, 12), 772)]

/-- config_enum.go 579-663 `UpstreamStrategy`. -/
def upstreamStrategy : Enum where
  typeName := str! "UpstreamStrategy"
  text := str! "parallel_beststrictrandom"
  names := [(0, 13), (13, 19), (19, 25)]
  map := [(0, (0, 13)), (1, (13, 19)), (2, (19, 25))]
  value := [((0, 13), 0), ((13, 19), 1), ((19, 25), 2)]

/-- bytes_source_enum.go 14-101 `BytesSourceType`: the numbers start with 1. -/
def bytesSourceType : Enum where
  typeName := str! "BytesSourceType"
  text := str! "texthttpfile"
  names := [(0, 4), (4, 8), (8, 12)]
  map := [(1, (0, 4)), (2, (4, 8)), (3, (8, 12))]
  value := [((0, 4), 1), ((4, 8), 2), ((8, 12), 3)]

/-- log/logger_enum.go 14-86 `FormatType`. -/
def formatType : Enum where
  typeName := str! "FormatType"
  text := str! "textjson"
  names := [(0, 4), (4, 8)]
  map := [(0, (0, 4)), (1, (4, 8))]
  value := [((0, 4), 0), ((4, 8), 1)]

/-- lists/list_cache_enum.go 14-86 `ListCacheType`. -/
def listCacheType : Enum where
  typeName := str! "ListCacheType"
  text := str! "denylistallowlist"
  names := [(0, 8), (8, 17)]
  map := [(0, (0, 8)), (1, (8, 17))]
  value := [((0, 8), 0), ((8, 17), 1)]

/-- models_enum.go 14-86 `RequestProtocol`. -/
def requestProtocol : Enum where
  typeName := str! "RequestProtocol"
  text := str! "TCPUDP"
  names := [(0, 3), (3, 6)]
  map := [(0, (0, 3)), (1, (3, 6))]
  value := [((0, 3), 0), ((3, 6), 1)]

/-- models_enum.go 88-202 `ResponseType`. -/
def responseType : Enum where
  typeName := str! "ResponseType"
  text := str! "RESOLVEDCACHEDBLOCKEDCONDITIONALCUSTOMDNSHOSTSFILEFILTEREDNOTFQDNSPECIAL"
  names := [(0, 8), (8, 14), (14, 21), (21, 32), (32, 41), (41, 50), (50, 58), (58, 65), (65, 72)]
  map := [(0, (0, 8)), (1, (8, 14)), (2, (14, 21)), (3, (21, 32)), (4, (32, 41)), (5, (41, 50)), (6, (50, 58)),
    (7, (58, 65)), (8, (65, 72))]
  value := [((0, 8), 0), ((8, 14), 1), ((14, 21), 2), ((21, 32), 3), ((32, 41), 4), ((41, 50), 5), ((50, 58), 6),
    ((58, 65), 7), ((65, 72), 8)]

/-- config_enum.go 339-346 `_QueryLogFieldValue`; the type is a string, its constants (281-293) are the words. -/
def fieldWords : AMap Str QueryLog.Field :=
  [(str! "clientIP", .clientIP), (str! "clientName", .clientName), (str! "responseReason", .responseReason),
   (str! "responseAnswer", .responseAnswer), (str! "question", .question), (str! "duration", .duration)]

/-- config_enum.go 317-326 `QueryLogFieldValues`. -/
def allFields : List QueryLog.Field :=
  [.clientIP, .clientName, .responseReason, .responseAnswer, .question, .duration]

/-- config_enum.go 348-368 `ParseQueryLogField`, `UnmarshalText` for each item of a list. The list of the configuration
starts as all fields (query_log.go 29-32 `SetDefaults`) and is replaced by the list of the file if there is one; a word
that is not known makes the configuration fail. -/
def fields : Option (List Str) → Option (List QueryLog.Field)
  | none => some allFields
  | some ws => ws.mapM (AMap.get fieldWords)

/-! ### Query types -/

/-- qtype_set.go 62-76 `QType.UnmarshalText`; `types` is miekg's `dns.StringToType`. -/
def qtype (types : AMap Str Nat) (text : Str) : Option Nat := AMap.get types text

/-- qtype_set.go 38-51 `QTypeSet.UnmarshalYAML`: the set afterwards; `none`: an error, the set is unchanged. -/
def qtypeSet (types : AMap Str Nat) (texts : List Str) : Option (List Nat) :=
  match texts.mapM (qtype types) with
  | none => none
  | some ts => some (ts.foldl (fun s t => if s.contains t then s else s ++ [t]) [])

/-- qtype_set.go 24-28 `Contains`. -/
def qtypeContains (s : List Nat) (t : Nat) : Bool := s.contains t

/-! ### What words select -/

/-- The kinds of upstream groups: a race of `count` drawn upstreams (parallel_best_resolver.go 107-130), asking another
one after a failure or not; or all in order. -/
inductive GroupKind where
  | race (count : Nat) (retry : Bool)
  | inOrder
  deriving DecidableEq, Repr

/-- parallel_best_resolver.go 107-130 `newParallelBestResolver` with `parallelBestResolverCount` (26). -/
def raceKind (strategy : Nat) : GroupKind := if strategy = 2 then .race 1 true else .race 2 false

/-- upstream_tree_resolver.go 66-77: the group made for `upstreams.groups`; `none`: no case of the switch applies and the
group is nil. -/
def treeKind (strategy : Nat) : Option GroupKind :=
  if strategy = 0 then some (raceKind strategy)
  else if strategy = 2 then some (raceKind strategy)
  else if strategy = 1 then some .inOrder
  else none

/-- conditional_upstream_resolver.go 31-35: the group made for `conditional.mapping`. -/
def conditionalKind (strategy : Nat) : GroupKind := raceKind strategy

/-- bootstrap.go 85-107: the group made for `bootstrapDns`. -/
def bootstrapKind (strategy : Nat) : GroupKind := raceKind strategy

/-- config.go 58-69 `IPVersion.Net`; `none` is the panic. -/
def net (x : Nat) : Option Str :=
  if x = 0 then some (str! "ip")
  else if x = 1 then some (str! "ip4")
  else if x = 2 then some (str! "ip6")
  else none

/-- config.go 71-82 `IPVersion.QTypes`; `none` is the panic. -/
def ipTypes (x : Nat) : Option (List Nat) :=
  if x = 0 then some [1, 28]
  else if x = 1 then some [1]
  else if x = 2 then some [28]
  else none

/-- query_logging_resolver.go 42-60: the case that applies. -/
def logType (x : Nat) : Option LogSetup.LogType :=
  if x = 4 then some .csv
  else if x = 5 then some .csvClient
  else if x = 2 then some .mysql
  else if x = 3 then some .postgresql
  else if x = 6 then some .timescale
  else if x = 0 then some .console
  else if x = 1 then some .none
  else none

/-- config.go 123-149 `InitStrategy.Do`: fast runs in the background, other strategies wait; only failOnError returns
the error. (`Loading.Strategy.run` has the details.) -/
def initKind (x : Nat) : Loading.Strategy :=
  if x = 2 then .fast else if x = 1 then .failOnError else .blocking

/-- The formatter of the log: does it write times, does it write JSON objects. -/
structure LogFormat where
  json : Bool
  times : Bool
  deriving DecidableEq, Repr

/-- log/logger.go 92-123 `ConfigureLogger`: the formatter afterwards, `old` the one before. (`logrus.JSONFormatter` writes
the time unless `DisableTimestamp` is set.) -/
def configureLogger (format : Nat) (timestamp : Bool) (old : LogFormat) : LogFormat :=
  if format = 0 then { json := false, times := !(!timestamp) }
  else if format = 1 then { json := true, times := true }
  else old

end Verif.Words
