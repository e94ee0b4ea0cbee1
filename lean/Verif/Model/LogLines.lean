/-
Model of the lines blocky writes to its own log while it answers a query (not the query log, but for the writer
that writes the query log there): /repo/server/server.go, /repo/resolver, /repo/cache/stringcache and
/repo/util/common.go.

A line has a level, fields and a message; timestamps, colours and the `prefix` field (the resolver's type) are left
out, as are lines that only name resolvers ("go to next resolver" and the like). Fields of a line that the logger in
the context has are those of `contextFields`; the lines of the lists' caches are written without them.
-/
import Verif.Model.Blocking
import Verif.Model.CustomDns
import Verif.Model.HostsFile
import Verif.Model.Conditional
import Verif.Model.QueryLog
import Verif.Model.Http

namespace Verif.LogLines
open Dns QueryLogFile StringCache Blocking Http

/-- logrus levels, as far as they are used here. -/
inductive Level where
  | trace | debug | info | warn | error
  deriving DecidableEq, Repr

/-- The order of the levels (logrus.Level, reversed). -/
def Level.rank : Level → Nat
  | .trace => 0
  | .debug => 1
  | .info => 2
  | .warn => 3
  | .error => 4

/-- A line of the log. -/
structure Line where
  level : Level
  fields : List (Str × Str) := []
  message : Str
  deriving DecidableEq, Repr

/-- log/logger.go 90-91: with `log.level` set to `level`, only lines of this level and above are written. -/
def shown (level : Level) (lines : List Line) : List Line := lines.filter (fun l => decide (level.rank ≤ l.level.rank))

/-- `log.privacy` and how things are printed: addresses and records, types, `strconv.Quote`, upstreams, expressions. -/
structure Env (E : RegexEngine) where
  privacy : Bool
  printer : Printer
  ipString : Option IP → Str
  typeString : Nat → Str
  quote : Str → Str
  regexString : E.Regex → Str

variable {E : RegexEngine}

/-- `fmt` for a slice of strings. -/
def sliceText (ss : List Str) : Str := '[' :: joinChar ' ' ss ++ str! "]"

/-- `strings.Join(ss, "; ")`. -/
def joinSemicolon : List Str → Str
  | [] => []
  | [s] => s
  | s :: t :: ss => s ++ str! "; " ++ joinSemicolon (t :: ss)

/-- util/common.go 65-72 `QuestionToString`. -/
def questionToString (env : Env E) (questions : List Question) : Str :=
  obfuscate env.privacy (joinComma (questions.map (fun q => env.typeString q.qtype ++ str! " (" ++ q.name ++ str! ")")))

/-- util/common.go 43-62 `AnswerToString`. -/
def answerText (env : Env E) (answer : List RR) : Str := answerToString env.privacy env.printer answer

/-! ### The server -/

/-- server.go 445-449: the fields of all lines about a request, in its context; client_names_resolver.go 66 adds the
client's names once they are known. -/
def contextFields (env : Env E) (reqId : Str) (request : Request) : List (Str × Str) :=
  [(str! "req_id", reqId), (str! "question", questionToString env request.req.question),
   (str! "client_ip", env.ipString request.clientIP)]

/-- server.go 510-512: the line about a query that could not be answered. -/
def errorLine (e : Str) : Line where
  level := .error
  message := str! "error on processing request:" ++ e

/-! ### Blocking -/

/-- string_caches.go 39-62 `stringMap.contains`. -/
def stringLines (m : StringMap) (s : Str) : List Line :=
  if m.contains s then
    [{ level := .debug
       message := str! "block rule '" ++ normalizeEntry s ++ str! "' matched with '" ++ s ++ str! "'" }]
  else []

/-- string_caches.go 137-147 `regexCache.contains`. -/
def regexLines (env : Env E) (cache : List E.Regex) (s : Str) : List Line :=
  match cache.find? (fun r => E.isMatch r s) with
  | some r =>
    [{ level := .debug
       message := str! "regex '" ++ env.regexString r ++ str! "' matched with '" ++ s ++ str! "'" }]
  | none => []

/-- in_memory_grouped_cache.go 46-60 `Contains`. -/
def groupedLines {C : Type} (caches : AMap Str C) (lines : C → List Line) (groups : List Str) : List Line :=
  groups.flatMap (fun g => match caches.get g with | some c => lines c | none => [])

/-- blocking_resolver.go 516-524 `matches`, chained_grouped_cache.go 28-42 `Contains` (regex, wildcard, string; the
wildcards write nothing). -/
def matchLines (env : Env E) (groups : List Str) (m : Caches E) (s : Str) : List Line :=
  if groups.length > 0 then
    groupedLines m.regex (fun c => regexLines env c s) groups ++ groupedLines m.string (fun c => stringLines c s) groups
  else []

/-- blocking_resolver.go 338: the line of `handleBlocked`, with the fields of its logger. -/
def blockedLine (fields : List (Str × Str)) (reason : Str) : Line where
  level := .debug
  fields := fields
  message := str! "blocking request '" ++ reason ++ str! "'"

/-- blocking_resolver.go 370-393, the loop over the questions of `handleDenylist`. -/
def denyLines (env : Env E) (b : BState E) (groups : List Str) : List Question → List Line
  | [] => []
  | q :: qs =>
    let domain := extractDomain q.name
    let fields := [(str! "domain", domain)]
    matchLines env groups b.allow domain ++
    if («matches» groups b.allow domain).length > 0 then
      [{ level := .debug
         fields := fields ++ [(str! "groups", sliceText («matches» groups b.allow domain))]
         message := str! "domain is allowlisted" }]
    else if hasAllowlistOnlyAllowed b groups then [blockedLine fields (str! "BLOCKED (ALLOWLIST ONLY)")]
    else
      matchLines env groups b.deny domain ++
      if («matches» groups b.deny domain).length > 0 then
        [blockedLine fields (str! "BLOCKED (" ++ joinChar ',' («matches» groups b.deny domain) ++ str! ")")]
      else denyLines env b groups qs

/-- blocking_resolver.go 413-425, the loop over the answer of the next resolver. -/
def answerLines (env : Env E) (benv : Blocking.Env) (b : BState E) (groups : List Str) : List RR → List Line
  | [] => []
  | rr :: rrs =>
    let (entry, tName) := extractEntry benv rr
    if entry.length > 0 then
      let fields := [(str! "response_entry", entry)]
      matchLines env groups b.allow entry ++
      if («matches» groups b.allow entry).length > 0 then
        { level := .debug
          fields := fields ++ [(str! "groups", sliceText («matches» groups b.allow entry))]
          message := tName ++ str! " is allowlisted" } :: answerLines env benv b groups rrs
      else
        matchLines env groups b.deny entry ++
        if («matches» groups b.deny entry).length > 0 then
          [blockedLine fields (str! "BLOCKED " ++ tName ++ str! " (" ++ joinChar ',' («matches» groups b.deny entry) ++ str! ")")]
        else answerLines env benv b groups rrs
    else answerLines env benv b groups rrs

/-- blocking_resolver.go 399-429 `Resolve` (and 367): its lines, without those of the next resolver, which answers
with `answer` if it is asked and there is no error. -/
def blockingLines (env : Env E) (benv : Blocking.Env) (b : BState E) (request : Request) (answer : List RR) : List Line :=
  let groups := groupsToCheck benv b.cgb b.fqdnIPs b.status request
  if groups.length > 0 then
    { level := .debug, fields := [(str! "groupsToCheck", joinSemicolon groups)], message := str! "checking groups for request" } ::
    denyLines env b groups request.req.question ++
    match handleDenylist b groups request request.req.question with
    | .no => answerLines env benv b groups answer
    | _ => []
  else []

/-! ### Custom DNS, hosts file -/

/-- custom_dns_resolver.go 136-140: the line about an answer, for the entries of `domain`. -/
def customLine (env : Env E) (domain : Str) (answer : List RR) : Line where
  level := .debug
  fields := [(str! "answer", answerText env answer), (str! "domain", domain)]
  message := str! "returning custom dns entry"

/-- custom_dns_resolver.go 108-162 `processRequest`: the line it writes. Lines written for the targets of aliases (by
the same function for the request for the target) are left out. -/
def customLines {W : Type} (env : Env E) (cenv : CustomDns.Env) (mapping : CustomDns.Mapping) (next : Resolver W) (depth : Nat)
    (request : Request) (w : W) : List Line :=
  match request.req.question with
  | [] => []
  | q :: _ =>
    match walk (AMap.get mapping) ((extractDomain q.name).length + 1) (extractDomain q.name) with
    | none => []
    | some (domain, entries) =>
      match CustomDns.processEntries cenv (CustomDns.processRequest cenv mapping next depth) request [] q entries [] w with
      | some (.ok rrs, _) => if rrs.length > 0 then [customLine env domain rrs] else []
      | _ => []

/-- hosts_file_resolver.go 128-136. -/
def hostsLines (env : Env E) (cfg : HostsFile.Cfg) (h : HostsFile.Hosts) (q : Question) : List Line :=
  match h.getIP q.qtype (extractDomain q.name) with
  | some ip =>
    [{ level := .debug
       fields := [(str! "answer", answerText env [HostsFile.createAnswer q ip cfg.ttl]),
         (str! "domain", obfuscate env.privacy (extractDomain q.name))]
       message := str! "returning hosts file entry" }]
  | none => []

/-! ### Cache -/

/-- caching_resolver.go 189-198: the line about a question whose answer is in the cache. -/
def cachedLine (env : Env E) (q : Question) : Line where
  level := .debug
  fields := [(str! "domain", obfuscate env.privacy (extractDomain q.name))]
  message := str! "domain is cached"

/-- caching_resolver.go 126-151 `reloadCacheEntry`: its lines, without those of the next resolver (the line about a
response that cannot be packed has no data of the query). -/
def reloadLines {W : Type} (env : Env E) (cenv : Caching.Env) (next : Resolver W) (key : Str) (w : W) : List Line :=
  match Caching.extractKey key with
  | none => []
  | some (t, name) =>
    { level := .debug
      message := str! "prefetching '" ++ obfuscate env.privacy name ++ str! "' (" ++ env.typeString t ++ str! ")" } ::
    match (next (Caching.reloadRequest cenv t name) w).1 with
    | .err e => [{ level := .error, message := str! "can't prefetch '" ++ name ++ str! "' " ++ e }]
    | _ => []

/-! ### Upstreams -/

/-- conditional_upstream_resolver.go 116-126: the line about the upstream `reso`'s answer (empty without one). -/
def conditionalLine (env : Env E) (domain upstream : Str) (o : Outcome) : Line where
  level := .debug
  fields := [(str! "answer", match o with | .ok r => answerText env r.res.answer | _ => []),
    (str! "domain", obfuscate env.privacy domain), (str! "upstream", upstream)]
  message := str! "received response from conditional upstream"

/-- rewriter_resolver.go 154-164 `rewriteDomain`: the rule used. -/
def ruleFor : List (Str × Str) → Str → Option (Str × Str)
  | [], _ => none
  | (k, v) :: rules, domain =>
    match Cond.cutSuffix domain ('.' :: k) with
    | some _ => some (k, v)
    | none => ruleFor rules domain

/-- rewriter_resolver.go 123-152 `rewriteRequest`: the line about one question. -/
def rewriteLines (env : Env E) (rules : List (Str × Str)) (q : Question) : List Line :=
  let domain := extractDomain q.name
  match ruleFor rules domain with
  | none => []
  | some (k, v) =>
    if Cond.rewriteDomain rules domain ≠ domain then
      [{ level := .debug
         fields := [(str! "rewrite", obfuscate env.privacy k ++ str! ":" ++ obfuscate env.privacy v)]
         message := str! "rewriting " ++ env.quote (obfuscate env.privacy domain) ++ str! " to " ++
           env.quote (obfuscate env.privacy (Cond.rewriteDomain rules domain)) }]
    else []

/-- upstream_resolver.go 365-371: the line about a call that is repeated. -/
def retryLine (env : Env E) (upstream ip attempt e : Str) (request : Request) : Line where
  level := .debug
  fields := [(str! "upstream", upstream), (str! "upstream_ip", ip),
    (str! "question", questionToString env request.req.question), (str! "attempt", attempt)]
  message := e ++ str! ", retrying..."

/-- upstream_resolver.go 382-394 `logResponse`; `others`: return code, upstream, its address, protocols and time. -/
def upstreamLine (env : Env E) (others : List (Str × Str)) (res : Msg) : Line where
  level := .debug
  fields := (str! "answer", answerText env res.answer) :: others
  message := str! "received response from upstream"

/-! ### The query log on the console -/

/-- logger_writer.go 31-56 `LogEntryFields` with `withoutZeroes`, and 21-25 `Write`. -/
def queryLogLine (number : Int → Str) (e : LogEntry) : Line where
  level := .info
  fields := ([(str! "client_ip", e.clientIP), (str! "client_names", joinSemicolon e.clientNames),
    (str! "response_reason", e.responseReason), (str! "response_type", e.responseType), (str! "response_code", e.responseCode),
    (str! "question_name", e.questionName), (str! "question_type", e.questionType), (str! "answer", e.answer),
    (str! "duration_ms", if e.durationMs = 0 then [] else number e.durationMs), (str! "instance", e.instanceID)]).filter
    (fun f => decide (f.2 ≠ []))
  message := str! "query resolved"

end Verif.LogLines
