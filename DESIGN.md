# Formal model of blocky: design

Target: 0xERR0R/blocky at the commit checked out in `/repo` (Go).
Deliverables: `properties.jsonl` (claims), `lean/` (model, specifications, proofs),
`MANIFEST.json` (claim → theorems), `seeded/LOG.jsonl` (tests of the theorems against wrong programs).

## 1. Layout

* `lean/Verif/Base/*`   strings, numbers, sorting, association lists (no claims).
* `lean/Verif/Model/*`  the code, function by function; every definition cites file and lines.
* `lean/Verif/Lemmas/*` helper lemmas.
* `lean/Verif/Spec/*`   small specifications that do not mention the model's helpers (some are at the head
  of the property file that uses them).
* `lean/Verif/Props/*`  the property theorems and, beside each, a concrete `example`.

## 2. Conventions

* A Go string is `Str = List Char`, one `Char` per byte. `strings.ToLower` is modelled for ASCII
  (DNS names arrive in the presentation format of miekg/dns, which is ASCII; list entries are
  converted to punycode before they are stored).
* `map[K]V` is an association list (`AMap`) or a function; where Go's map order is observable it is an
  explicit parameter, quantified over.
* Errors, panics and missing results are explicit constructors (`Outcome = ok | noResponse | err | panic`).
* "The next resolver", an upstream, a database, a random generator and a clock are parameters.
  A resolver that calls the next one is modelled in state-passing style over an arbitrary
  world type `W` (`Resolver W = Request → W → Outcome × W`), so "does not call the next resolver" is "the
  world is unchanged, for every `W` and every next resolver".
* Where code writes into the caller's message (rewriting, client subnet), the content of the message
  afterwards is part of the result (`Cond.MResolver`) or of the world (`Chain.MR`).
* Goroutines, timers and locks are step relations or total step functions over explicit states; theorems
  are about all schedules or all histories.
* TTLs are `UInt32` with Go's wrap-around, addresses `BitVec 32`/`BitVec 128`, durations integers (ns).
* External libraries (regexp, idna, net, glob, JSON, SQL, retry-go, miekg/dns) are parameters, with
  a contract stated as a hypothesis where one is needed, or are modelled from their source text or
  documentation as said at the definition.

## 3. What is modelled

| model file | code | claims |
|---|---|---|
| Trie, StringCache | trie/*.go, cache/stringcache/*.go (plain, regex, wildcard, grouped, chained caches) | C01–C03, C53 |
| Parsers, ListCache | lists/parsers/*.go, lists/list_cache.go | C04, C05, C35 |
| ExpCache | cache/expirationcache/*.go (with hashicorp LRU, prefetching) | C06, C07, C14 |
| Dns, Edns | model/*.go, util/edns0.go, util/common.go, parts of miekg/dns | C08, C29 |
| Caching | resolver/caching_resolver.go | C08–C14 |
| Blocking, BlockingStatus, StatusLock | resolver/blocking_resolver.go, api/api_interface_impl.go 40-90 | C15–C21 |
| Groups | resolver/parallel_best, strict, upstream_tree resolvers, upstreamResolverStatus | C22–C25, C51 |
| Conditional | resolver/conditional_upstream_resolver.go, rewriter_resolver.go | C26, C27 |
| CustomDns | resolver/custom_dns_resolver.go | C31, C32, C54 |
| Ecs | resolver/ecs_resolver.go | C28 |
| Small | filtering, fqdn_only, ede, sudn resolvers | C30, C42, C43 |
| Arpa | util/arpa.go | C33 |
| HostsFile | resolver/hosts_file_resolver.go | C34 |
| Server | server/server.go, server/server_endpoints.go | C39–C41, C55 |
| Upstream | resolver/upstream_resolver.go, resolver/bootstrap.go | C44, C45, C56, C57 |
| UpstreamUrl | config/upstream.go | C46 |
| ClientNames | resolver/client_names_resolver.go | C47 |
| Migrate | config/migration, the tables of deprecated options | C48 |
| QueryLogFile, QueryLog | querylog/file_writer.go, querylog/database_writer.go, resolver/query_logging_resolver.go, util.Obfuscate | C36, C37, C49, C50, C58, C59 |
| Redis | redis/redis.go and the two subscribers | C38 |
| Wiring, Chain | resolver/resolver.go, server.go 315-330: the whole chain composed of the models above | C52, C60–C63 |
| FqdnClients | resolver/blocking_resolver.go 155-169, 580-633 (identifiers that are domain names) | C64 |
| Duration | config/duration.go, cmd/blocking.go 68-83, api/api_interface_impl.go 90-118, Go time.ParseDuration and Duration.String | C65, C66 |
| Loading | lists/downloader.go 56-112, config/config.go 116-148 and 356-405, resolver/resolver.go 234-285, upstream_tree_resolver.go 26-91, upstream_resolver.go 270-325 | C67, C68, C69 |
| Url | Go net/url `Parse` up to the user and password (library) | C70 |
| ConfigText | config/query_log.go 59-77, config/bytes_source.go, lists/sourcereader.go, config/config.go 165-182, config/custom_dns.go, config/conditional_upstream.go 34-60, config/ecs.go 68-81, resolver/bootstrap.go 268-320 | C70-C74 |
| Http | util/http.go 52-64, util/common.go 43-62, api/api_interface_impl.go 155-183, server/server_endpoints.go 164-173 | C75, C76 |
| Metrics | resolver/metrics_resolver.go 33-63, metrics/metrics_event_publisher.go, expiration_cache.go 143-160 (callbacks), blocking_resolver.go 236, 277 | C77, C78 |
| ConfigFiles | `config/config.go` 442-575 (loading, directories), `cmd/root.go` (path, API address), `cmd/validate.go`, `cmd/serve.go` (loading) | C79, C80 |
| (Props/Observers) | the whole chain with two settings of query log and metrics | C81 |
| (Props/Zones, Props/Forwarding) | the whole chain: private zones, special-use names, unconfigured names | C82, C83 |
| RedisQueue | redis/redis.go 67-135, 180-205, server/server.go 131-142, config/redis.go | C84, C85 |
| Transport | resolver/upstream_resolver.go clients, net/http redirections, TLS versions | C86 |
| Listener | miekg/dns serveDNS, DefaultMsgAcceptFunc, ServeMux with server.go's handlers | C87 |
| (Props/Repeat) | the whole chain, two queries with the cache used in between | C88 |
| Cleaner | cache/expirationcache/expiration_cache.go 98-141, one step at a time | C89 |
| Process | server/server.go 66-260, 388-432, server/http.go 43-51, cmd/serve.go 37-79 | C90 |
| (Props/ListCounts) | cache/stringcache `ElementCount` of all caches, lists/list_cache.go 141-150 | C91 |
| Flights | resolver/caching_resolver.go 178-221, 272-299, 340-345 with queries interleaved | C92 |
| Cli | cmd/*.go (command tree, exit codes, printed status), api/api_client.gen.go, api/api_server.gen.go, api/api_interface_impl.go | C93 |
| LogSetup | resolver/query_logging_resolver.go 37-131, 241-256, querylog/database_writer.go 45-147, 187-192, querylog/file_writer.go 31-41, querylog/logger_writer.go; retry-go, SQL and `AddDate` as contracts | C94 |
| Waiting | resolver/upstream_resolver.go 213-268, 328-380, bootstrap.go 125-155, parallel_best_resolver.go 151-229, strict_resolver.go 75-99, server/server.go 531-534 with a clock; limits of miekg/dns `Client` and the HTTP transport as contracts | C95 |
| Web | server/http.go (middleware, CORS, timeouts), config/config.go 407-414; go-chi/cors, the deadlines of net/http and the Fetch standard as contracts | C96 |
| Download | lists/downloader.go 46-112 with the client's timeout over header and body | C67, C96 |
| LogLines | lines of the log during a query: server/server.go, resolver/*.go, cache/stringcache/string_caches.go, querylog/logger_writer.go, util/common.go | C97 |
| (no model; Lemmas/Case) | relational invariant over the whole chain: two runs with names in different letter case | C98 |
| (Props/MapOrder, Lemmas/MapOrder) | the whole chain, made of maps iterated over in arbitrary orders: `Settings.start`, `Orders.Of` | C99 |
| Groups (`tree`), Props/OwnGroup | upstream_tree_resolver.go 106-116 inside the whole chain; two runs that differ in other groups' upstreams | C100 |
| RedisStore | redis/redis.go 155-179, 211-231, 278-326, 343-351 (strings kept in redis, loaded by a starting server), caching_resolver.go 64-85, 153-169 | C101 |
| (no model; Props/OwnLists) | the whole chain with two blockers: lists of other groups, more entries, disabled groups | C102 |
| (no model; Props/Origin) | the whole chain with a ghost log of what upstreams answered; histories with cleaning up and prefetching | C103 |
| (no model; Props/Kind) | the whole chain with an upstream that tells classes and the DO bit apart | C104 |
| Dial | resolver/bootstrap.go (NewBootstrap, its chain, dialContext), config/caching.go (EnablePrefetch) | C105 |
| Routes | server/server_endpoints.go (createHTTPRouter and the handlers' registrations), metrics.go (Start), api_server.gen.go (routes), chi's search for a route | C106 |
| Losers | resolver/parallel_best_resolver.go (goroutines, channel, cancellation), strict_resolver.go (goroutine), upstream_resolver.go (attempts, raceClients), rewriter_resolver.go (replacing and restoring the request) | C107 |
| Printing | server/server.go (printConfiguration), log/logger.go (WithIndent), resolver/resolver.go (LogResolverConfig), all LogConfig methods of sections and resolvers | C108 |
| (Props/Survival) | histories of queries, clean-ups, redis messages and stored answers over Chain, Caching, Redis, RedisStore; which outcomes end the process | C109 |
| (Props/Asked) | questions sent upstream, along the whole chain, clean-ups and redis; the upstreams' log as part of the world | C110 |
| Words | config/config_enum.go, bytes_source_enum.go, qtype_set.go, log/logger_enum.go, list_cache_enum.go, models_enum.go (generated tables, Parse, String, UnmarshalText), config/config.go (IPVersion.Net, QTypes), createUpstreamBranches, newParallelBestResolver (choice of the kind), log/logger.go (ConfigureLogger) | C111 |
| (Props/Amplify) | how often the upstream groups are asked along the whole chain and in clean-ups; a counter in the upstreams' part of the world | C112 |
| Settings | config/config.go (Config, Ports, toEnable, Init, SourceLoading, Downloader, WithDefaults, loadConfig, unmarshalConfig, validate) and the structures of all sections with their tags; yaml.v2 UnmarshalStrict and creasty/defaults as far as needed | C113 |
| (Props/Memory) | how much the caches, the queue of the query log and the metrics keep, along the whole chain, clean-ups, redis messages and log writes | C114 |
| CacheMetrics, CacheSize | caching_resolver.go 82-123 (callbacks), prefetching_cache.go 19-126 with the marks of prefetched entries, the counters of metrics_event_publisher.go, names of all metrics; the making of a cache of a configured size | C115, C114 |
| (Props/Blind) | what the results of every resolver of the chain depend on, for two executions at a time (noninterference) | C116 |
| Refreshing | the goroutines of lists/list_cache.go 116-216 and resolver/hosts_file_resolver.go 158-210, with limit, channels and cancellation | C117 |
| (Props/Elsewhere) | two executions of the whole chain with configurations that differ for some zones | C118 |
| (Props/Monotone) | blocking decisions for two contents of the lists | C119 |
| (Props/CacheRight, Transparent, Unnoticed) | the whole chain with and without answer cache | C120 |
| Threads (Props/Threads, Props/Alone, Props/Answered) | many queries and refreshes at the same time, each step of the whole chain on shared state interleaved with others; a goroutine run without interruption does what the chain of Model/Chain does in one go; every goroutine ends, every query gets one reply | C121, C122 |
| Threads, Ecs (Props/Outside) | concurrent queries and refreshes: questions to upstreams | C123: a way of asking that refuses indecent messages gives the same runs (`wholeBy_agree`), and its runs only come to decent steps (`decentLogic`) |
| Threads (Props/Inside) | concurrent queries answered by the server itself | C124: the names a query gets are those of its steps (`getNames_run`, `Named`); with these the resolvers in front answer without a step on the answer cache or upstreams (`inside`) |
| Threads, QueryLog (Props/Logged) | the query log of concurrent queries, and its queue | C125: a run that ends has used up steps none of which is one of the log, and what follows does not matter (`fedLogic`); so the step that is left over is the entry of the response (`query_logged`); the message is as it came but for the letter case of the name (`Handed`) |
| Threads, Origin (Props/Sourced) | the answers of concurrent queries | C126: the lemmas of C103 are used for the runs of goroutines (`forRuns`, `RecordsIn` for questions that are steps); in a run that waits anything is said (`saidT`), one that is done has used steps made only; what is to be stored has origins (`GoodRun.keep`), so all entries of the cache have at all times (`Sourced`) |
| Threads, Amplify (Props/Thrift) | questions to upstreams of concurrent queries | C127: the cost lemmas of C112 count the questions used up by a run (`usedOf`); the steps a goroutine has made can be continued to the end of its run (`runs_along`), which uses up all of them |
| Live | blocking_resolver.go 343-524 with lists and status changing between any two lookups (one lookup: one kind of entries of one group, under its lock) | C128: what holds for all versions in use is an invariant of the changes (`Stays`); `C128_unchanged` ties the model to that of C15 |
| Exchange | resolver/upstream_resolver.go 138-204, 222, 328-380 with the reading loops of miekg/dns `ExchangeContext`: which of the messages that arrive is taken for the reply | C129 |
| (Props/Written) | texts of lists → loading by goroutines → blocking → server | C130: `loaded_history` joins C35 (lines), C117 (schedules of the loading), C05/C10 (matching); then C61 and C39 |
| HostsText (and Props/HostsText) | hosts.go 127-186 with the address itself, hosts_file_resolver.go 217-251 as producers | C131: texts of hosts files → loading by goroutines → hosts → server; joins C35, C117, C34, C39 |
| (Props/Lifetimes) | the whole chain over histories: TTLs of the records clients get | C132: invariant of the answer cache (TTLs at most the maximum, entries live no longer than their smallest TTL), answers of every resolver |
| (Props/Changes) | the whole chain over histories: upstreams change their data | C133: every entry of the cache is new or expires by a fixed time (`Renewed`); cleaning up after it removes the old ones |
| (Props/NewNames) | the whole chain over histories: what is behind the cache answers differently | C134: like C133, but for codes and whole lists of data per question, so also for names that did not exist (`UpToDate`, with a bound for the lifetimes of all entries) |
| BootForms | config.go 183-221 (forms of `bootstrapDns`) | C135: read exactly in the documented forms, all or nothing; also field by field (not documented) |

Not modelled: the text of log lines (only whether and when something is logged, C97), the rendering of metrics,
the syntax of YAML,
contexts and time-outs except where a claim is about them, memory model subtleties other than those listed
(data races are modelled only as interleavings of the cited statements).

### How the proofs go

* Data structures (trie, string caches, expiring cache) are refined to sets or timed maps by invariants over
  all histories of operations; binary search and sorted insertion are proved correct.
* Decision code (blocking, groups, special names, migration …) is proved equal to a separately written
  specification, by case analysis over everything the code can see.
* Recursion (aliases, retries, chain walks) is modelled with a bound and proved never to reach it, or by
  structural recursion.
* Concurrency (status lock, timers, address index, query queue, redis) by invariants over all schedules,
  and by explicit schedules for negative results. Absence of deadlock is: in every reachable state some thread can
  step, plus a measure that every step decreases.
* The composed chain is proved by a relation ("good resolver": every answer repeats id and question, …) that each
  resolver preserves.
* A claim that is false of the code has a theorem with a concrete witness, and a `_partial` theorem with
  the exact hypotheses under which it does hold.

## 4. Trusted base

* Lean's kernel. Axioms: only `propext`, `Classical.choice`, `Quot.sound` (table in section 7).
* The reading of the Go code (no code is executed here), and of the libraries' documentation.
* The specifications in `Spec/` and at the head of property files.

## 5. Testing the theorems

Wrong programs were tested in a scratch copy: one definition of the model is changed the way a programmer might get it
wrong, everything is rebuilt, and the theorems that fail are noted (`seeded/LOG.jsonl`, one line per attempt). Where a
change that breaks a claim went unnoticed the theorem was tightened (usually because its statement used the
model's own helper) or a theorem was added; these lines have a nonempty `theorems_tightened`. A failing helper lemma counts
as weaker evidence than a failing property theorem; edits caught only that way were repeated
in a form that keeps the helper lemmas provable.

## 6. Disagreements between claims and code

Each has a theorem (name in section 7's table, usually without `_partial`).

Lists and names
* a list line "/" crashes the process (C05); a download that breaks off is accepted as complete, a source that cannot
  be opened cancels the others of the group whose partial content is accepted, and a group's three caches are replaced one
  after the other (C04);
* plain list entries with a final dot never match (C53); the trie alone mishandles keys with a leading dot, which
  never reach it (C01);
* reverse names with leading zeros or two hexadecimal digits per label are accepted, upper-case ones are not (C33);
* hosts files: names with capitals are never found, one of several addresses is used, reverse lookups give one line's
  names (C34).

Caching
* an expired value is returned until the next clean-up, a reload with lifetime zero keeps the stale value for ever (C06);
* removal of an EDNS option or OPT record removes only the first one (C29);
* a message with two questions poisons the cache (C13); answers to full-length client subnets are shared (C12);
  truncated or CD NXDOMAIN answers and truncated prefetched answers are stored (C11); TTLs of NXDOMAIN answers with
  records grow (C10);
* the prefetching window slides with every query, reloaded records ignore the TTL bounds (C14).

Blocking
* with several questions an allowlisted first one lets a denied second one through (C16); a client listed with no groups
  gets the default groups (C17);
* a rejected disable request cancels a pending re-enabling for ever while the status still announces it; a timer that has
  fired re-enables after a newer request (C18, C19); "disable" without groups leaves allowlist-only groups active (C19);
* the nested read lock deadlocks with a waiting writer (C20).

Other resolvers
* the upstream group, and the rewriting rule, among several matching ones depend on Go's map order (C25, C27);
  rewritten names are put back only if they have the same letter case (C27);
* the conditional resolver ignores mappings of single labels and changes the letter case of the question (C26);
* special-use names in upper case go upstream (C30); filtered and non-FQDN answers never get an extended error (C42),
  are not logged, and non-FQDN answers have id 0 and no question (C39);
* custom DNS: one record of an unknown type breaks its name, IPv4-mapped AAAA records are returned for the wrong
  type (C32), aliases to outside names panic if rewriting is configured and lose the client's names (C54);
* client subnet: forwarded when the resolver is off, for the other address family, and when repeated; an IPv6-only
  prefix panics for IPv4 clients (C28);
* client names: a position out of range leaves the client without name (C47); failed lookups are kept for an hour.

Server and upstreams
* the EDNS size also limits TCP; removing the OPT record for client subnets loses the size (C40); DoH max-age takes TTL 0
  for "unset" (C41); DoH queries over 512 bytes are refused (C55);
* an upstream's SERVFAIL over TLS or HTTPS counts as success (C56); a failing AAAA lookup makes an upstream unusable
  although it has an IPv4 address (C57);
* an upstream's SERVFAIL for an alias target or rewritten name reaches the client with a foreign id and question (C60);
* upstream URLs with port 0 are accepted (C46); the type lookup never finds the last resolver of the chain (C52);
* a new option explicitly set to its default is overridden by the deprecated one; `failStartOnListError: true` wins over
  `startStrategy` (C48).

Logs and redis
* queries without question make the query log panic (C36); entries of a failed database bulk are lost (C37); log clean-up
  deletes foreign files with a date in front, and future-dated logs on amd64 (C49); per-client log files collide (C58);
* redis: crossing commands leave instances different for ever, a remote timer overrides a later command, an instance
  lacking a group rejects a command; cache keys of types with bytes from 128 on are mangled; answers without records
  are kept for 68 years (C38).
* clients identified by names: a look-up that fails at the start is never repeated, a vanished name keeps its last addresses for ever,
  the lifetime is the last record's (none is stored if that is 0), and identifiers that are addresses or subnets are sent upstream as
  names at every start (C64).
* Durations: the deprecation warning for a number without unit says "Please use '5 min' instead", which is refused for every number;
  153722868 and more minutes wrap around to another, here negative, duration (C65).
* `blocking disable --groups 'a,b'` disables the groups `a` and `b`, `--groups ''` disables all groups (C66).
* `attempts: 0` retries a list download for ever, also after the shutdown (C67).
* With init strategy fast, and for groups without upstreams with fast and blocking, clients' queries go to the bootstrap DNS instead of
  their group's upstreams; with failOnError an upstream that fails its test at the start stays out of its group for ever (C69).
* The password of a MySQL query log target in the documented form `user:password@tcp(host:port)/db` is logged in plain text at every start;
  percent-encoded passwords, too (C70).
* A list file whose name starts with `http` is taken for a link (C71). The description of an inline list never shows that further lines were cut
  off: `idx < len(text)` is evaluated after cutting (C71).
* A zone that spells a name in two ways (`nas.lan.`, `NAS.lan.`) loses the records of one spelling, which one depends on the map order (C72).
* `ports.dns: 53, 54` listens on `: 54` (C73). Addresses given beside a bootstrap upstream whose host is an address are never used (C74).
* Any DoH or API client can choose its identity with `X-Forwarded-For`, whether or not there is a proxy: per-client blocking, upstream groups
  and names follow the header. With several proxies (a list), and for link-local IPv6 peers (zone), the client has no address (C75).
* With log privacy the answers of the API's query endpoint are masked as well (C76).
* Queries stopped by filtering or FQDN-only are not counted in the metrics (C77). The gauge of cache entries is stale after a flush, after
  clean-up and after concurrent insertions (C78).
* C79: with `ports.http: "[::1]:4000"` the server listens, but every command builds `http://[[::1]]:4000/api` and fails. `--apiHost`/`--apiPort` have no effect once the configuration has an HTTP listener, although the help says they override.
* C80: the files of a configuration directory are joined into one text, of which yaml.v2 decodes the first document only. A file that begins with `---` (usual in YAML) is dropped with everything after it, without an error (C80_documents_false).
* C80: a configuration directory given as a symbolic link is silently read as empty (`filepath.WalkDir` does not follow a link as root), so the server starts with defaults. In a Kubernetes ConfigMap volume each file is found twice (below the time-stamped directory and through the link), so that strict decoding refuses all keys as duplicates. `blocky validate` checks that `./config.yml` exists before the environment variable is read: it refuses good and accepts missing files named by the variable. `--config ./config.yml` is overridden by the environment.
* C34: hosts-file data are replaced without synchronisation; a query that reads half old, half new maps misses names that are listed before and after the reload, and asks an upstream (C34_during_reload_false).
* If only an IPv6 prefix length of at most 32 is configured for client subnets, IPv4 clients' queries get a subnet option of family IPv6 with an IPv4 address (C28_ipv6_only_mixed).
* With `fallbackUpstream` for rewriting in the conditional section, every name of a conditional zone - also names no rule rewrites - is sent to the default upstreams when the zone's upstreams fail or return no records (C83_fallback_false).
* redis.New returns the client together with the error when only the subscription fails; with `required: false` the server goes on with this client, whose buffer nothing empties: after 1000 answers every query that needs an upstream hangs (C84_optional_false). Also with a working client, publishing blocks without regard for the query's context while redis is slower than the queries.
* The user name configured for redis sentinels (`sentinelUsername`) is not used; the one for redis is sent instead (C85_sentinel_user_false).
* `C86_redirect_false`: the HTTP client for DNS over HTTPS follows redirections (upstream_resolver.go 103-108 sets no
  `CheckRedirect`). A 307 or 308 to an http URL makes it send the query unencrypted, to any host.
* `C86_host_header_false`: the `Host` header of DNS over HTTPS requests is `cfg.Host` (upstream_resolver.go 155): without the port
  when it is not 443, and without brackets for IPv6 addresses.
* `C87_notify_false`: NOTIFY messages are accepted by miekg/dns and resolved like queries. The cache key does not hold the
  opcode, so an upstream's answer to a client's NOTIFY is served to everybody's queries.
* the clean-up of the cache collects expired keys, then reloads some of them by querying upstreams, and deletes the others
  at the end without looking again: an answer stored meanwhile, even for an hour, is deleted (C89); while it waits for a
  slow upstream no other clean-up runs, so expired answers are served without a bound (C89).
* Shutdown is graceful for DNS over UDP, TCP and TLS only: `Server.Stop` shuts down the DNS servers, the HTTP servers are closed with the process, so a DoH
  query under way is lost (C90_doh_lost). `Stop` returns at the first DNS server that cannot be shut down, e.g. one that is not started yet, and the
  queries of the others are lost although the exit code is 0 (C90_early_signal_lost). The failure of one listener ends the process without `Stop`.
* The number of entries reported for a list group counts wildcards and regular expressions once per occurrence, plain names once (C91_duplicates_counted).
* A flush of the cache does not affect answers received but not stored yet; they are stored after the flush and served (C92_flush_outlived). Queries for
  the same name are not joined, so an older answer can replace a newer one (C92_older_answer_returns).
* `blocky refresh` (as opposed to `blocky lists refresh`) has no hook that reads the configuration: it always asks localhost:4000 unless flags say otherwise (C93_refresh_ignores_config).
* A mistyped word below `blocking`, `lists` or `cache` prints the help and ends with exit code 0, so scripts take it for success (C93_typo_succeeds).
* `blocking status` prints a temporary disabling that has less than a second to go like one without an end (C93_last_second_looks_endless).
* `blocking status` and `query` dereference a nil pointer if a reply with status 200 is not JSON, e.g. because another HTTP server listens there; the other commands report OK (C93_foreign_server).
* `healthcheck` says OK for every reply, whatever its response code (C93_refusal_healthy).
* `queryLog.creationAttempts: 0` means "without limit": with an unreachable database blocky never starts, and as signals are already caught it does not react to SIGTERM either (C94_starts_false, C94_no_limit).
* `queryLog.flushInterval: 0` crashes the process in `time.NewTicker` (C94_flush_interval_crashes).
* With Timescale `logRetentionDays: 0` (documented: no deletion) creates a retention policy of 0 days, so the database deletes entries at once; a later change of the retention time has no effect as an existing policy is kept (C94_timescale_zero_false, C94_timescale_policy).
* The largest `logRetentionDays` makes the clean-up of a database delete all entries: the negation wraps and the date is tomorrow (C94_huge_retention_false).
* PostgreSQL tables get no primary key: the code compares the type with `postgres`, but it is called `postgresql` (C94_postgresql_no_key).
* Console lines of queries answered within a millisecond have no duration (C94_fast_queries_without_duration).
* `upstreams.timeout` ("Blocky will wait 2 seconds") limits each of three attempts per upstream and the lookup of its host, not the query: with the defaults a dead upstream takes 6.002 s, behind it in a strict group others are asked only then (C95_within_timeout_false, C95_strict_behind_dead).
* Values of `upstreams.timeout` above 2 s (the documentation's example is 5 s) do nothing for answers over UDP: the DNS client's own limit of 2 s is not changed (C95_long_timeout_false, C95_no_effect_partial).
* Each query starts with the first address of an upstream, so that a dead first address delays every query by a whole time-out (C95_second_address).
* From 1068 days on `upstreams.timeout` times 100 overflows and every query fails at once (C95_huge_timeout).
* Any web page open in a browser of the network can use the whole API (disable blocking, flush caches, refresh lists, query) and DNS over HTTPS and read the replies: all origins are allowed, and the state is changed by plain GET and POST requests (C96_any_page, C96_foreign_page_false). `AllowCredentials` together with `*` has no effect in browsers (C96_credentials).
* `readTimeout`, `readHeaderTimeout` and `writeTimeout` of `blocking.loading.downloads` are documented as timeouts of downloads; they are those of the HTTP server, downloads ignore them, and those of `hostsFile` are used nowhere (C96_download_options).
* A reply that is ready 20 s (`writeTimeout`) after its request is dropped: `blocky lists refresh` with slow sources ends with 1 although the lists were refreshed (C96_refresh_false); DNS over HTTPS loses answers that come over UDP (C96_slow_doh_false).
* The timeout of a download (5 s) includes the body, but only the header is retried: a list that takes longer is cut at that point and, if it had at least one entry so far, taken for the whole list without an error (C67_half_list_false).
* **`log.privacy` does not hide everything** (C97): the name of a query that an allowlist or a denylist matches is in debug lines as it is (`domain` of blocking_resolver.go 372, "block rule … matched with", "regex … matched with"), as is the entry of a response that was checked (`response_entry`, 416) and the name found by custom DNS (custom_dns_resolver.go 139). Two cases do not depend on the level: a failed prefetch logs an error with the name (caching_resolver.go 147, while line 130 hides it), and aliases in a circle give an error that lists the names (custom_dns_resolver.go 268, logged by server.go 512).
* **Letter case matters for special-use names and reverse lookups** (C98): "printer.LOCAL." goes to the upstream while "printer.local." is answered with NXDOMAIN (sudn_resolver.go compares the name as it was sent), and "….IN-ADDR.ARPA." finds no reverse entry of custom DNS or hosts files, so the address of an internal host is asked for at the upstream. Resolvers that use "0x20" randomisation of letter case send such names.
* A query log target that Go cannot parse as a URL is logged with its password (config/query_log.go 66-69 returns the target on any error): a space, `^`, a non-ASCII letter or a single `%` in the password is enough (C70_no_url_logged).
* **Answers that depend on Go's random map order** (C99): with two overlapping rewriting rules the same query may be rewritten one way now and another way a moment later; the reverse lookup of an address with two names in hosts files gives one of them at random; the order of the PTR records of an address with two custom names, and the winner among custom names that differ in letter case only, change with the start of the server. Without such ambiguities the whole server is independent of the orders.
* **The answer cache mixes upstream groups** (C100): docs/configuration.md 124-153 promise a group's upstream "as the only upstream DNS resolver" for its clients, but the cache (key: type and name) stands before the choice of the group. Whoever asks first decides which group's data everybody gets (C100_cache_false); prefetched entries come from the default group always (C100_prefetch_false); targets of custom aliases are looked up without the client's names, so with the default group (C100_alias_false).
* **Answers loaded from redis in the last half second are served anew** (C101): `redis.go` 278-312 asks for `TTL` and uses it if it is positive. Redis rounds to whole seconds, so a string with less than 500 ms left has a TTL of 0, and one that expires between GET and TTL has -2: in both cases the records keep the TTLs they had when they were stored, and the starting server serves them for their whole lifetime a second time (C101_half_second_false, C101_between_false). Answers without records are kept for 68 years and loaded as new ones (C101_negative_false).
* **Disabling a group can block more** (C102_disable_blocks_false): a disabled group's allowlist is disabled together with its denylist, so a name that it allows and another group of the client denies is blocked for as long as the group is disabled.
* **A message with two questions poisons the cache for everybody** (C103_two_questions_false, C13): over HTTPS messages with several questions are accepted; the answer to the whole message is cached under each of the questions (caching_resolver.go 188-221). Name servers answer the first question, so whoever controls the answer for one name decides what all clients get for any other.
* **The cache ignores class and DO bit** (C104): its key is type and name (util/common.go 186-195). Once a client without DNSSEC has asked for a name, clients that validate get the cached answer without signatures and have to treat the name as bogus (C104_signatures_lost_false); a query in class CH replaces the IN records of a name for everybody (C104_class_false). Prefetching always asks without DO bit (C104_prefetch_false), as do custom aliases (C104_alias_false), and removing a client subnet that is the only option removes the OPT record with the DO bit (C104_subnet_false).
* With extended errors on, clients without EDNS get an OPT record, contrary to RFC 6891 (C104_edns_unasked_false); answers from the cache and blocky's own ones never have one, although clients that send one must get one (C104_edns_missing_false).
* **Own connections suffer from settings made for clients** (C105): `bootstrap.go` 97-102 puts the clients' `filtering` and `caching` before the bootstrap servers. With `filtering.queryTypes: [A]` (or `[AAAA]` and `connectIPVersion: v6`) no upstream with a host name and no list server can be reached (C105_filtered_false); with `caching.cacheTimeNegative ≤ 0` an address that was withdrawn is used for ever, because the reload of the expired entry stores nothing and deletes nothing (C105_forgotten_false). Without `minTime` an address is kept for an hour whatever its TTL (C105_ttl_false, deliberate in the code), and a failed lookup for half an hour (C105_negative_false).
* `connectIPVersion` does not apply to hosts given as addresses (C105_version_false).
* **`prometheus.path` is not checked** (C106): it can replace the index page (`/`), an operation of the API (`/api/query`, for every method) or the DoH address of a client (`/dns-query/laptop`); with `/dns-query` the metrics cannot be read; without the slash at the beginning the start panics; with `*` the metrics answer everywhere (C106_false_*). `HEAD` gets 405 at every page that is served for `GET` only.
* A query goes on after it is answered (C107_quiet_false): an upstream that lost the race, but has a connection, is still sent the query, since the DNS library looks at the context only while connecting. The goroutines that lost read `request.Req` at each attempt while the rewriter puts the original query back (a data race); it never gets to a wrong upstream, because the context is cancelled before and nobody connects with a cancelled context (C107_sent).
* **The log shows secrets of list links and upstream paths** (C108_links_false): passwords for redis and the query log are hidden in the printed configuration, but `https://user:secret@…` as a list source and the path of a DoH upstream are logged as they are. Lines that other goroutines log while SIGUSR1 prints the configuration are indented too, since `log.WithIndent` adds a hook to the one logger of the process (C108_others_false).
* **A redis message with a key of less than two bytes ends the process** (C109_short_key_false): the key is not checked when it is received; with prefetching and `prefetchThreshold: 0` the entry is asked for again when it expires, `util.ExtractCacheKey` reads two bytes of it and panics in the clean-up goroutine, which nothing recovers. The same holds for a stored key `blocky:cache:x`. Instances of blocky never send such keys (C109_own_keys).
* **An instance may ask upstreams for garbage** (C110_type_any_false): cache keys (two bytes of type, then the name) are published as JSON strings, where bytes from 128 on become U+FFFD. The answer for ANY (type 255) of `x.org` arrives at the other instances under the key of type 239 and the name `\191\189x.org`; with prefetching and threshold 0 they ask their upstreams for that. (Until then the entry is just useless.)
* **Settings that are not followed** (C111): `upstreams.strategy: strict` holds for `upstreams.groups` only; the upstreams of a conditional mapping (and of the bootstrap) are always made by `NewParallelBestResolver`, so two of them race (C111_conditional_strict_false). `minTlsServeVersion: 1.1`, the documentation's example, is taken as 1.2 with a warning (C111_tls_version_false). `log.timestamp: false` has no effect with `log.format: json` (C111_json_timestamp_false).
* **One message can make many upstream queries** (C112_single_false): `CachingResolver.Resolve` loops over the questions of a message but passes the whole message on each time, so a message with k questions (accepted over HTTPS; miekg/dns refuses them over UDP and TCP) makes k upstream queries, each with all k questions; within the 512 bytes allowed that is about 80. Targets of aliases are resolved once for each path to them: n layers of two aliases make 2^n lookups.
* **An empty section loses its defaults** (C113_empty_section_false, C113_empty_section_endless, C113_private_names_false): yaml.v2 sets what a null node belongs to, also a whole structure, to Go's zero value, after the defaults have been set. A section of which only the name is left (everything below is commented out) is therefore not the same as a section that is left out. The documentation's example `blocking:` / `loading:` with only a comment below (docs/configuration.md 903-909) turns refreshing off, takes the timeouts away and sets `attempts` to 0, which retry-go reads as "until success", without a pause; with a list that is gone the server never starts. An empty `specialUseDomains:` switches the blocking of private names off, an empty `log:` gives level panic, an empty `ports:` no DNS port. Besides, docs/configuration.md 784 gives 1h as default period for hosts files and 913 gives 4h; the code has 4h.
* **Clients decide how much memory the metrics use, and can make them fail** (C114_series_false, C77_label_false): the label `client` of `blocky_query_total` is the id a client sends in the server name of TLS (`id-….`) or in the path of DoH; it is not checked, every new one makes a time series, and none is ever removed. An id that is no UTF-8 (`/dns-query/%FF`) makes prometheus' `With` panic after the query has been resolved, so the client gets a server failure instead of the answer and nothing is counted.
* **"Unlimited" is 10000** (C114_unlimited_false): docs/configuration.md 610 and 614 say that 0, the default, means an unlimited number of entries; the LRU list is made with 10000. The entries waiting for the query-log database are not bounded between two flushes (C114_database_false).
* **A negative `caching.maxItemsCount` (or `prefetchMaxItemsCount`) ends the process** (C114_negative_false): it is converted to `uint`, is then "positive", and is converted back for `lru.New`, whose error is ignored; without a list every look into the cache panics, and so does the clean-up goroutine after five seconds, which nothing recovers.
* **Cache metrics** (C115_own_lookups_false, C115_names_false): bootstrap.go 104 says "no metrics", but the counters of hits and misses are incremented without looking at that flag, so blocky's own lookups count as well. docs/prometheus_grafana.md lists `blocky_blocky_request_duration_seconds` and `blocky_cache_miss_count`; the code registers `blocky_request_duration_seconds` and `blocky_cache_misses_total`.
* C116: with caching, the TTL of an answer tells a client when another one asked for the same name (`C116_cached_false`); without caching nothing does.
* C10: TTLs of the authority and additional sections of cached answers are not counted down (`C10_authority_false`): a resolver behind blocky that caches negative answers by their SOA starts anew with the full time at each hit; negative answers stay for `cacheTimeNegative` whatever the SOA says.
* C117: `loading.concurrency` limits denylists and allowlists separately, not "the blocking resolver" as documented: 8 sources at a time with the default of 4 (`C117_together_false`). With a name in two hosts files, the address depends on which file's goroutine was faster at the last reload, and may change with each reload (`C117_hosts_false`).
* C120: special-use names are compared case-sensitively behind a cache that is not case-sensitive: after a query for `LOCALHOST.` the upstream's answer is given, from the cache, to everybody who asks for `localhost.` (`C120_special_false`), likewise for private reverse zones, `local.` and the others.
* a name that is on a denylist before and after a refresh, by entries of different kinds (say a regular expression and then a plain name), can pass while the refresh is completed (C128);
* A reply of an upstream is not compared with the query's question (RFC 5452, 9.1), and with DNS over HTTPS not even by its id. A stray message is passed on to the client with its own id and question, and its records are cached for the name asked for (C129_question_false, C129_https_false, C129_cached_false).
* The maximum caching time does not bound the TTLs clients get: records in a negative answer come out of the cache with TTLs up to the maximum plus the time of negative answers (caching_resolver.go 241-251 adds the remaining lifetime to the difference of TTLs); queries with a client subnet bypass both bounds; prefetched records are stored unclamped (C132_ttls_negative_false, C132_ttls_subnet_false, C132_ttls_prefetching_false).
* With prefetching, an answer stays in the cache and is given for ever if the upstream's new records have TTLs of zero: `Put` ignores a lifetime of zero, but the clean-up takes the entry for renewed (C133_prefetching_false, whole server; see C06_zero_lifetime_reload_keeps_stale).
* With special-use names enabled, one message with the two questions `a.invalid.` and `www.org.` makes `www.org.` NXDOMAIN for all clients until the entry expires, although the upstream knows the name: the special-use resolver answers for its first question only, and the cache stores that answer for every question (C134_two_questions_false; caching_resolver.go 178-220, see C13).
* `bootstrapDns: {host: 9.9.9.9}` is accepted and gives an upstream with port 0: the first attempt to read reads a mapping into the fields of `Upstream`, without the defaults and checks for texts (C135_fields_false; config.go 207, upstream.go 14-20).

## 7. Claims, theorems, axioms

All names are in `Verif.Props`. After each name the axioms it depends on: p = `propext`, c = `Classical.choice`,
q = `Quot.sound`, – = none.

**C01 Wildcard entries match exactly the subdomain closure** (proved). Exact for keys without leading dot (what normalizeWildcard produces); the counterexample shows the hypothesis is needed at trie level.
`C01_trie_exact` cpq; `C01_trie_exact_plain` cpq; `C01_trie_order_irrelevant` cpq; `C01_leading_dot_counterexample` cpq

**C02 Plain list entries match exactly and case-insensitively** (proved). ASCII case folding.
`C02_plain_exact` cpq; `C02_plain_monotone` cpq; `C02_count_exact` cpq

**C03 Grouped list lookup is the exact union of entry kinds** (proved). Regex engine is an arbitrary parameter.
`C03_lookup_union` cpq; `C03_histories_complete` pq

**C04 List refresh never leaves a group half loaded** (partial). False as stated: a download that breaks off mid-way is accepted with the lines read so far (C04_truncated_download_accepted), a source that cannot be opened cancels the reading of the others, whose entries so far are accepted (C04_failed_source_truncates_others), and Finish replaces the three caches of a group one after the other (C04_lookup_during_refresh). Proved: between refreshes a group answers from the last accepted refresh; failed refreshes change nothing.
`C04_last_accepted_partial` cpq; `C04_failed_refresh_keeps` pq; `C04_other_groups_unaffected` pq; `C04_complete_sources` cpq; `C04_nothing_delivered_keeps` cpq; `C04_truncated_download_accepted` cpq; `C04_failed_source_truncates_others` cpq; `C04_lookup_during_refresh` cpq

**C05 No list file can crash the process** (partial). False as stated: a line consisting of a single slash panics. Proved for every other content.
`C05_no_crash_partial` cpq; `C05_slash_line_crashes` cpq

**C06 Expiring cache returns the latest live value** (partial). False as stated: an expired value is still returned until the next clean-up (C06_expired_value_returned), and an expired entry whose reload yields a lifetime of zero is kept for ever (C06_zero_lifetime_reload_keeps_stale). Proved: only the last stored value is ever returned, with the right remaining lifetime, and it is gone after a clean-up.
`C06_get_latest` pq; `C06_last_stored_unique` pq; `C06_lifetime_bound` pq; `C06_absent` pq; `C06_no_loss` cpq; `C06_cleanup_keeps` pq; `C06_expired_gone_partial` cpq; `C06_expired_value_returned` p; `C06_zero_lifetime_reload_keeps_stale` cpq

**C07 Cache size bound and LRU order** (proved). 
`C07_size_bound` pq; `C07_evicts_least_recently_used` pq; `C07_no_other_loss` pq; `C07_cleanup_order` pq

**C08 Cached names and types never collide** (proved). The question class is not part of the key.
`C08_key_roundtrip` pq; `C08_key_iff` pq; `C08_share_iff` pq; `C08_question_roundtrip` pq

**C09 TTL clamping of cached answers** (proved). For answers obtained for a query; reloads by prefetching are not clamped in the same way, see C14.
`C09_clamped` cpq; `C09_lifetime` pq

**C10 Served-from-cache TTLs count down** (partial). False as stated for NXDOMAIN answers that contain records (C10_negative_answer_ttl_grows) and for the authority section: its TTLs are served as they were stored, however old the entry is (C10_authority_false; C10_other_sections for all entries).
`C10_countdown` pq; `C10_order` cpq; `C10_served_partial` pq; `C10_negative_answer_ttl_grows` p; `C10_other_sections` –; `C10_authority_false` p

**C100 Clients are served by the upstreams of their own group** (partial). False with the answer cache (C100_cache_false), with prefetching even if no other client asks (C100_prefetch_false), and for targets of custom aliases if the group is given by client name (C100_alias_false). Proved: while a query is answered only the upstreams of the client's group are asked (C100_query_partial, any configuration, any state); without answer cache, in any history of queries of all clients, the answers to a group's clients do not depend on other groups' upstreams (C100_uncached_partial, for upstreams whose answers do not depend on what was asked before).
`C100_query_partial` pq; `C100_uncached_partial` pq; `C100_cache_false` pq; `C100_prefetch_false` pq; `C100_alias_false` pq

**C101 Answers kept in redis do not outlive their TTL over a restart** (partial). False as stated: in the last half second before an entry expires, or when it expires between the commands GET and TTL, the loaded answer keeps its original TTLs; answers without records are loaded as new whenever. Proved for every history of kept and loaded answers without such loads. Without a configured minimum caching time (that is allowed to exceed TTLs).
`C101_fresh_partial` cpq; `C101_loaded` cpq; `C101_half_second_false` p; `C101_between_false` p; `C101_negative_false` p; `C101_other_keys` pq

**C102 Lists act on the clients of their own groups, and only while enabled** (partial). The independence of other groups' lists is proved for the whole server and whole histories. False as stated: disabling a group with an allowlist may block more; the first denylist of a group with an allowlist unblocks (as documented); allowlist-only groups cannot be disabled (C19). The statements about more and fewer entries are about the blocking resolver, for messages of one question.
`C102_query` cpq; `C102_history` cpq; `C102_disabled_partial` cpq; `C102_more_denied` cpq; `C102_more_allowed` cpq; `C102_disable_partial` cpq; `C102_disable_blocks_false` pq; `C102_first_denylist_false` pq

**C103 Every record in an answer has an origin** (proved). For histories of messages with at most one question, the only ones the plain DNS servers accept. Over HTTPS a message with two questions poisons the cache (negation proved, C103_two_questions_false; see C13). About the data of records in the answer section; owner names and TTLs are the subject of C09, C25 and C60. Looking up names of clients is assumed to leave the answer cache alone.
`C103_origin` cpq; `C103_written` cpq; `C103_not_elsewhere` p; `C103_two_questions_false` pq

**C104 Answers are of the kind asked for: class, signatures, EDNS** (partial). False as stated: the cache key holds neither class nor DO bit; prefetching and aliases ask without DO bit and in class IN; removing a client subnet can remove the DO bit; EDNS data are sent to clients without EDNS and not to those with. Proved: for queries passed on to upstreams, and for caches all of whose answers were obtained by queries of the same kind.
`C104_passed_on` pq; `C104_uncached_partial` cpq; `C104_cached_partial` pq; `C104_signatures_lost_false` pq; `C104_signatures_unasked_false` pq; `C104_class_false` pq; `C104_alias_false` pq; `C104_subnet_false` pq; `C104_prefetch_false` pq; `C104_edns_unasked_false` pq; `C104_edns_missing_false` pq

**C105 Downloads connect to the addresses the bootstrap servers give** (partial). False as stated: addresses are kept for an hour whatever their TTL (C105_ttl_false), failures to find one for half an hour (C105_negative_false), types filtered for clients are not looked up (C105_filtered_false), an address as host is connected to whatever connectIPVersion says (C105_version_false), and with negative caching off a withdrawn address is used for ever (C105_forgotten_false). Proved with the times that hold and for hosts not looked up before.
`C105_addresses_partial` cpq; `C105_connects_partial` pq; `C105_literal` cpq; `C105_system` p; `C105_no_panic` p; `C105_version_false` cpq; `C105_ttl_false` p; `C105_filtered_false` p; `C105_negative_false` p; `C105_forgotten_false` p

**C106 Every page of the HTTP server is found at its own address, and only there** (partial). Exact for every method and path when prometheus.path begins with a slash and is not the address of another page; whatever it is, only the metrics can appear at a wrong address. False in general: prometheus.path is not checked, so it can replace the index page, an API operation or the DoH address of a client, can be hidden by /dns-query, and without a slash the start panics (proved). Paths with { are not modelled.
`C106_pages_partial` cpq; `C106_no_page_partial` cpq; `C106_links_partial` cpq; `C106_api_partial` cpq; `C106_nothing_else` cpq; `C106_api_only` cpq; `C106_disabled` cpq; `C106_empty` p; `C106_start` p; `C106_start_own` p; `C106_asset` p; `C106_false_index` p; `C106_false_api` p; `C106_false_client` p; `C106_false_metrics` p; `C106_false_start` p; `C106_false_everywhere` p

**C107 Goroutines that lost the race do no harm** (partial). False as stated: an upstream that lost the race is still sent the query after the client has its answer (C107_quiet_false), at most once for each connection that was there (C107_late). Proved for all interleavings: each group of upstreams gets its own form of the query only, at most 3 (6 with TCP beside UDP) messages per goroutine, and all goroutines end without the goroutine of the query. That reading request.Req during its replacement gives one of the two values (Go memory model) is assumed.
`C107_sent` cpq; `C107_late` cpq; `C107_goes_on` cpq; `C107_ends` cpq; `C107_messages` cpq; `C107_attempt` cpq; `C107_quiet_false` pq

**C108 The printed configuration shows what is on and no secrets** (partial). False as stated in two ways: passwords in the links of lists and secret paths of upstreams are printed as they are (C108_links_false), and lines that other goroutines log during the printing are indented like lines of the section that is being printed (C108_others_false). Proved for all configurations, both log formats and all interleavings with other goroutines: sections shown are those that are on, in the order of the chain; redis passwords are never printed; two query log targets that differ in the password only (written without escapes, and not occurring elsewhere) give the same output; every list source, hosts file, upstream and conditional mapping has its line; the printing's own lines are as without other goroutines, and the indentation is gone at the end. Numbers and durations are given as printed; the lines about memory are left out.
`C108_redis` p; `C108_target_partial` cpq; `C108_off` pq; `C108_shown` pq; `C108_restored` pq; `C108_sections` pq; `C108_json` p; `C108_undisturbed_partial` pq; `C108_links_false` cpq; `C108_others_false` cpq

**C109 Nothing that clients, upstreams or other instances send ends the process** (partial). Panics outside the recovered goroutines: cleaning up the answer cache with prefetching, redis messages and stored answers. Partial because the claim is false for redis keys of less than two bytes with prefetching and threshold 0 (C109_short_key_false). Not included: other goroutines (query log writers, lists refresh, FQDN identifiers), crashes of the runtime (memory, data races on maps).
`C109_endures_partial` pq; `C109_answered` pq; `C109_groups` pq; `C109_own_keys` pq; `C109_short_key_false` pq

**C11 Only clean answers are cached** (partial). False as stated: NXDOMAIN answers and prefetched answers are stored without looking at TC and CD.
`C11_only_success_or_nxdomain` pq; `C11_clean_success_partial` pq; `C11_truncated_nxdomain_cached` p; `C11_prefetch_stores_truncated` p

**C110 Upstreams are asked only what clients asked for** (partial). Proved for all states, configurations changing over time, and histories: each question sent upstream has the type and, but for rewriting rules and aliases of the configuration, the name of a question of the query being handled, or (prefetching) of a key in the cache; all keys come from clients' questions or redis. Partial because the claim is false between instances for types with a byte from 128 on, ANY for example: the key published in JSON is another one (C110_type_any_false). Queries of blocky itself (bootstrap, lookups of client names, upstream checks) go other ways and are not included; the names lookup is assumed to have its own upstream.
`C110_query` cpq; `C110_clean_up` cpq; `C110_history` cpq; `C110_other_instance_partial` pq; `C110_type_any_false` pq

**C111 Words of the configuration mean what they say** (partial). Proved for all texts: exactly the documented words are taken, others are refused and leave the value as it was, values are printed as their words, and each word selects what it names. Partial because the claim is false for three settings: upstreams.strategy strict is not followed by conditional mappings and the bootstrap, minTlsServeVersion 1.0 and 1.1 are taken as 1.2, log.timestamp false has no effect with log.format json. The YAML library and log levels (logrus) are not modelled.
`C111_words` cpq; `C111_group_strategy` cpq; `C111_other_groups_partial` cpq; `C111_conditional_strict_false` –; `C111_ip_version` cpq; `C111_tls_version_partial` cpq; `C111_tls_version_false` –; `C111_query_log_type` cpq; `C111_loading_strategy` cpq; `C111_query_types` pq; `C111_fields` pq; `C111_log_partial` cpq; `C111_json_timestamp_false` –

**C112 One query of a client makes a bounded number of upstream queries** (partial). The number of queries to upstreams is bounded for every message, configuration, state and history: once per question and per target of an alias that can be reached, twice with conditional rewriting and fallbackUpstream; once for each expired answer with prefetching. That a query with one question is passed on at most once holds without aliases and fallback (C112_once) and is false in general (C112_single_false: five questions make five, five layers of two aliases make 32, fallback makes two). Not counted: what a group of upstreams does with one query (attempts, parallel requests: C13, C20, C107), looking up the names of clients, reloading of lists.
`C112_query` pq; `C112_once` pq; `C112_clean_up` pq; `C112_history` pq; `C112_single_false` pq

**C113 Settings that are left out have their documented defaults** (partial). Every setting of the table (95 rows, with default and zero value) is read exactly: a value that is written is taken, a setting that is left out has its default, and a file is refused exactly for a wrong value, a section that is no mapping, a key that comes twice or is unknown. False as stated: a section whose name is written with nothing below it loses all its defaults. The documentation's own example of the loading sections therefore switches refreshing off and retries downloads without end; an empty specialUseDomains section lets private names out. Which texts a setting takes is a parameter (see C110, C55); deprecated options are C48.
`C113_given` pq; `C113_left_out_partial` pq; `C113_emptied` pq; `C113_no_file` pq; `C113_refused` cpq; `C113_empty_section_false` pq; `C113_empty_section_endless` p; `C113_private_names_false` pq

**C114 What is kept in memory for queries is bounded by the configuration** (partial). False as stated: 0 means 10000 entries, not unlimited; entries for the database are unbounded between flushes; with metrics on, every client id ever seen keeps a time series. Proved for answers, counters, client names and the log queue, for all histories of the whole server.
`C114_bounded_partial` pq; `C114_unlimited_false` cpq; `C114_database_false` pq; `C114_flush` p; `C114_series_false` cpq; `C114_size` pq; `C114_negative_false` pq

**C115 The metrics of the answer cache count what they are named after** (partial). False as stated: lookups of the bootstrap's own cache count as hits and misses too, and two of the documented metrics do not exist under the names given. Proved for every history of both caches: each counter is the number of events it is named after.
`C115_counted_partial` cpq; `C115_same_lookup` pq; `C115_same_cleanUp` pq; `C115_own_lookups_false` p; `C115_own_prefetches` cpq; `C115_names_false` p

**C116 A client cannot tell what others asked** (partial). Proved for servers that do not cache answers (caching.maxTime below 0) with upstreams that answer by what they are asked alone: the reply to a query is the same after any two histories. False with caching, the default: the TTL of a cached answer tells when somebody else asked.
`C116_uncached_partial` cpq; `C116_cached_false` pq

**C117 Loading lists is limited, ends, and always gives the same lists** (partial). False for blocking as a whole: denylists and allowlists each have their own limit, so twice `concurrency` sources are read at a time (C117_together_false), and for hosts files: which file is asked for a name that is in two of them depends on the schedule (C117_hosts_false). Proved for all schedules: the limit of each list kind, no deadlock, the end after a number of moves that depends on the sizes only, the entries, the errors, and that the outcomes are those C04 assumes. The library parcour is a contract.
`C117_limit` cpq; `C117_never_stuck` cpq; `C117_ends` pq; `C117_completes` cpq; `C117_complete` cpq; `C117_error` cpq; `C117_possible` cpq; `C117_same_lists` cpq; `C117_hosts` cpq; `C117_together_false` p; `C117_hosts_false` p

**C118 What is configured for some names does not affect others** (proved). Two configurations that differ for some zones only (OnlyFor), through the whole chain. Reverse lookups are excluded in the statement; C118_reverse_differs shows that they have to be. leadOutside_of_targets gives a check for the condition on rewrite rules. Clean-ups without prefetching.
`C118_query` pq; `C118_history` pq; `C118_reverse_differs` pq

**C119 Denylists only block, allowlists only allow, and other entries do not matter** (proved). For entries of lists. That a first allowlist for a group without denylists blocks everything else is documented and shown by C119_first_allowlist_blocks. Answers are compared without the reason given in logs.
`C119_deny` cpq; `C119_stays_blocked` cpq; `C119_allow` cpq; `C119_unrelated` cpq; `C119_first_allowlist_blocks` pq

**C12 Client-subnet specific answers are not shared** (partial). False as stated: an answer to a query with a full-length client subnet is stored and shared with everybody (C12_full_prefix_shared).
`C12_partial_prefix_bypasses_partial` cpq; `C12_full_prefix_shared` p

**C120 The answer cache is not noticed, but for TTLs** (partial). False with special-use names in mixed letter case (C120_special_false), treated by default, with several upstream groups or DNSSEC flags (C100, C104) and with several questions (C13); proved for queries with one question where what is behind the cache is steady - which it is by C120_steady if the upstreams are, special-use names are not treated and no rewrite rules are set for conditional upstreams, and by C120_steady_special with special-use names if names are asked for in lower case. TTLs and letter case aside. Without messages from redis.
`C120_unnoticed_partial` cpq; `C120_steady` pq; `C120_steady_special` pq; `C120_special_false` pq

**C121 Queries handled at the same time do not disturb each other** (partial). For the whole chain with goroutines for queries and refreshes; each access to a cache or the query log and each question to an upstream is one step. False where C120 is (special-use names in mixed letter case, several questions, ...); proved for queries with one question where what is behind the cache is steady and no rewriting is set for conditional upstreams. Upstreams may answer with any TTLs and letter case. Answers from redis are not included. C121_alone and C121_refresh_alone: a query or refresh that nothing comes between is handled exactly as by the chain run in one go.
`C121_undisturbed_partial` cpq; `C121_alone` cpq; `C121_refresh_alone` pq

**C122 Every query handled among others is answered, once, with a reply to it** (partial). C122_ends needs no assumption but that the aliases of custom DNS fit the depth of the model: every goroutine, of a query or of a refresh, that gets to make steps again and again is done at some point. The reply is proved for the settings of C60 (`ConfigOk`); outside of them it fails as shown there.
`C122_ends` cpq; `C122_reply_partial` cpq; `C122_answered_partial` cpq

**C123 Queries handled at the same time give away no more of the clients' subnets than configured** (proved). for messages with at most one OPT record and custom DNS aliases within the depth the Go code needs (hypothesis hd, always satisfiable: depth is not bounded in the code)
`C123_removed` cpq; `C123_cut` cpq; `C123_refresh` cpq

**C124 Names answered by the server itself stay inside while many queries are handled at the same time** (proved). As stated: one question (with several C16 is false, see C16_second_question_leaks), configured names without aliases.
`C124_blocked` cpq; `C124_custom` cpq; `C124_filtered` pq

**C125 Every answered query is logged once, with its own data, while many queries are handled at the same time** (proved). C125_logged is for queries that pass the resolvers in front of the query log (PassesFront: one question, type not filtered, fully qualified if that is demanded, subnet option readable); failed queries, among them those answered with an error message of an upstream, are not logged, as in the code (query_logging_resolver.go 146-148).
`C125_logged` cpq; `C125_queue` pq; `C125_written` pq

**C126 Concurrent queries get records of their own names only** (proved). As in C103, for messages with at most one question; for more, C103_two_questions_false. Settings may differ from query to query as long as the origins they allow are allowed by one configuration (Covers); lists, client names, log, cache settings, zones may differ freely (covers_lists).
`C126_origin` cpq; `C126_not_elsewhere` cpq

**C127 Concurrent queries do not make the server ask upstreams more often** (proved). As in C112, not counted: what a group of upstreams does with one question (attempts, parallel requests), looking up the names of clients.
`C127_query` cpq; `C127_once` cpq; `C127_refresh` cpq; `C127_total` cpq; `C127_merged_false` pq

**C128 Queries are blocked properly while lists are refreshed** (partial). The last sentence is false (C128_replaced_false): if the new version matches a name by another kind of entry, the name passes if it is looked up while the three caches are exchanged. Everything else is proved, for entries that stay as they are written. The addresses of clients given by name are taken as fixed during a query.
`C128_refresh_completes` cpq; `C128_kept_blocks` cpq; `C128_kept_allows` cpq; `C128_kept_answer` cpq; `C128_never_listed` cpq; `C128_disabled` cpq; `C128_either` pq; `C128_unchanged` pq; `C128_replaced_false` cpq

**C129 Only replies to the query sent are taken for its answer** (partial). False as stated: the question of a reply is never compared with that of the query (C129_question_false), DNS over HTTPS does not compare the id either (C129_https_false); such a message is passed to the client and kept in the cache for the name asked for (C129_cached_false). Proved for all networks: with UDP, TCP and TLS the id is that of the query, datagrams with other ids change nothing, and if messages with the right id have the right question every client gets a matching response. The reading loop of miekg/dns is modelled from its source.
`C129_id_partial` p; `C129_servfail_id_partial` p; `C129_foreign_ignored` cpq; `C129_client_partial` cpq; `C129_question_false` p; `C129_https_false` p; `C129_cached_false` pq

**C13 Cache transparency** (partial). False as stated for requests with several questions (C13_two_questions_poison). Proved for single-question histories.
`C13_served_was_obtained_partial` pq; `C13_transparent_partial` pq; `C13_two_questions_poison` p

**C130 What is written in a list is what clients get** (proved). For sources that can be read to their end (no more faulty lines than allowed), one question per query, names not configured locally (after rewriting by custom DNS). C130_blocked is about what the server sends; C130_untouched, C130_allowed and C130_answer_blocked are about the blocking resolver in front of any resolver. Which names a line is about is stated with the parser of lines (C35); C130_name_line, C130_wildcard_line and C130_regex_line give it for the written forms. Regular expressions are an abstract engine; conversion of names to ASCII is the identity in the lemmas on lines.
`C130_blocked` cpq; `C130_untouched` cpq; `C130_allowed` cpq; `C130_answer_blocked` cpq; `C130_name_line` pq; `C130_wildcard_line` pq; `C130_regex_line` cpq; `C130_loads` cpq

**C131 What is written in a hosts file is what clients get** (proved). For names written in lower case in the files (a name written otherwise is never found, C34_upper_case_never_found). If the files give a name several addresses, one of them is sent (which one depends on the schedule, C117_hosts_false). C131_served and C131_only are about what the server sends (one question, the name after rewriting not in the custom DNS); net.ParseIP is any function.
`C131_served` cpq; `C131_only` cpq; `C131_passed` cpq; `C131_kept` cpq; `C131_line` pq; `C131_same_parser` –

**C132 The TTLs clients get keep to the configuration** (partial). False as stated (three witnesses: records of negative answers, queries with a client subnet, prefetching). Proved without prefetching, for queries the cache answers, over all histories: the TTL is configured, or at most the maximum caching time plus the time of negative answers; at most the maximum caching time alone if NXDOMAIN answers of upstreams contain no records. Answers with code SERVFAIL are passed on as they are.
`C132_ttls_partial` pq; `C132_ttls_max` pq; `C132_ttls_negative_false` pq; `C132_ttls_subnet_false` pq; `C132_ttls_prefetching_false` pq

**C133 Changes of upstream data are seen by clients after the caching time** (partial). Proved without prefetching, for the time of the first clean-up after the caching times have passed (until then expired answers are still given, C133_uncleaned_false); with prefetching it is false (C133_prefetching_false). Answers with code SERVFAIL are passed on as they are. The clock must show a time after 1970.
`C133_changes_seen` cpq; `C133_uncleaned_false` pq; `C133_prefetching_false` pq

**C134 Names that come into existence are found after the caching time** (partial). Proved without prefetching, for the time after the first clean-up that follows the caching times, for one question about a name nothing is configured about. Either what is behind the cache answers every question of a request (C134_new_answers, C134_client), or all clients ask one question per message after the change (C134_one_question); with special-use names and two questions in a message the claim is false (C134_two_questions_false). The clean-up is needed (C133_uncleaned_false), prefetching breaks the claim (C133_prefetching_false).
`C134_new_answers` cpq; `C134_client` cpq; `C134_one_question` cpq; `C134_two_questions_false` pq

**C135 Bootstrap servers are read alike in all forms** (partial). Proved in full for the reading; a mapping with the fields of an upstream is also accepted, without the checks and defaults of texts (C135_fields_false: port 0).
`C135_server` pq; `C135_read` pq; `C135_forms` pq; `C135_fields_false` p

**C14 Prefetching reloads exactly the popular names** (partial). False as stated: each query restarts the tracking time of the counter (C14_window_slides), and reloaded records are not clamped (C14_reload_ignores_bounds). Proved: no reload without more queries than the threshold since the last flush; reload whenever the queries of the last tracking period exceed the threshold and the counters fit.
`C14_reload_needs_demand` pq; `C14_demand_reloads_partial` cpq; `C14_on_expired` p; `C14_failed_reload_drops` pq; `C14_reload_question` pq; `C14_flush_forgets` pq; `C14_window_slides` p; `C14_reload_ignores_bounds` p; `C14_default_threshold` pq; `C14_default_demand_partial` cpq; `C14_default_off` p

**C15 Blocking decision is exactly the documented precedence** (proved). For messages with several questions the first question any list mentions decides. Library functions (address printing, subnet test, glob) are arbitrary parameters.
`C15_blocked_by_name` cpq; `C15_allowed_by_name` cpq; `C15_blocked_by_answer` cpq; `C15_passed` cpq; `C15_cases` cpq; `C15_reason_by_name` cpq; `C15_reason_by_answer` cpq

**C16 Blocked names never reach an upstream** (partial). False as stated for messages with several questions (possible over DoH): an allowlisted first question lets the whole message through.
`C16_blocked_not_asked_partial` cpq; `C16_second_question_leaks` pq

**C17 Client to group assignment** (partial). False as stated in one case: a client listed with an empty list of groups gets the default groups. Otherwise exact, in every map iteration order.
`C17_groups_of_client` cpq; `C17_exempt_client_gets_default` –

**C18 Timed disabling always ends** (partial). False as stated: a rejected disable request cancels the pending re-enabling for ever, and a timer that has fired re-enables after a newer disable request.
`C18_reenabled_partial` pq; `C18_quiet_reachable` pq; `C18_accepted_iff` cpq; `C18_rejected_keeps_status_partial` pq; `C18_rejected_request_cancels_reenabling` cpq; `C18_stale_timer_reenables` pq

**C19 Reported blocking status is the effective status** (partial). False as stated: a disable request without groups does not switch off allowlist-only groups; after a rejected request the status announces a re-enabling that never comes (C19_reported_time_wrong).
`C19_status_effective` cpq; `C19_disable_all_partial` cpq; `C19_disable_all_keeps_blocking` pq; `C19_api_disable` pq; `C19_reported_time_partial` cpq; `C19_reported_time_wrong` pq

**C20 Queries and status changes never deadlock** (partial). False as stated: the nested read lock deadlocks with a waiting writer, and then every later query waits for ever.
`C20_progress_partial` cpq; `C20_executions_end` pq; `C20_queries_alone_partial` cpq; `C20_without_groups_partial` cpq; `C20_deadlock` pq; `C20_deadlock_starves` pq; `C20_exclusion` pq

**C21 Block answers are well formed** (proved). 
`C21_block_answer` cpq; `C21_header` cpq; `C21_block_type` pq

**C22 Parallel upstreams: first success wins, error only if all fail** (proved). Both parallel strategies; every choice, order of arrival and outcome.
`C22_first_success` cpq; `C22_error_only_if_all_fail` cpq; `C22_answer_is_first` pq; `C22_asked` cpq

**C23 Weighted random choice is safe and never starves an upstream** (proved). The random source is an arbitrary draw in range; a group of at least as many upstreams as are asked, with one upstream no choice is made.
`C23_weight_bounds` cpq; `C23_weight_exact` pq; `C23_new_upstream` pq; `C23_weight_recovers` pq; `C23_drawn_iff` cpq; `C23_share` cpq; `C23_pick_distinct` cpq

**C24 Strict strategy respects configuration order** (proved). 
`C24_strict_order` pq

**C25 Upstream group selection precedence** (proved). Library functions (address printing, subnet test, glob) are arbitrary parameters. With several matching patterns the choice among them depends on Go's map order.
`C25_group_precedence` pq; `C25_several_patterns_depend_on_map_order` p

**C26 Conditional forwarding picks the most specific zone** (proved). A single-label query only uses the '.' mapping, never a mapping of that very label; the forwarded question is in lower case, also in what the client sees.
`C26_most_specific` pq; `C26_single_label_zone_not_used` p; `C26_question_case_lost` p

**C27 Rewriting is invisible to the client** (partial). False as stated: names are put back only if the answer repeats them in the same letter case; with overlapping rules the result depends on Go's map order.
`C27_rewriting` cpq; `C27_client_view_partial` cpq; `C27_no_rule_same` cpq; `C27_other_case_not_reverted` p; `C27_overlapping_rules_depend_on_map_order` –

**C28 Client subnet privacy** (partial). False as stated in three situations (resolver switched off, client of the other address family, repeated option); proved for ordinary messages when a prefix length is configured for the client's family, or none at all. With only an IPv6 length configured, queries of IPv4 clients panic.
`C28_no_masks_partial` cpq; `C28_masked_partial` cpq; `C28_forwarded` cpq; `C28_client_address` pq; `C28_rest_unchanged` pq; `C28_disabled_leaks` pq; `C28_other_family_leaks` pq; `C28_second_option_leaks` pq; `C28_ipv6_only_panics` pq; `C28_ipv6_only_mixed` cpq

**C29 EDNS0 option editing obeys get/set/remove laws** (partial). False as stated: removal drops only the first duplicate option or OPT record.
`C29_set_get` cpq; `C29_set_get_other` cpq; `C29_fixed_part` pq; `C29_only_opt_changes` p; `C29_remove_get_other` cpq; `C29_remove_get_partial` cpq; `C29_remove_record_partial` cpq; `C29_duplicate_option_survives` p; `C29_second_opt_survives` p

**C30 Special-use names never leak upstream** (partial). False as stated: names written in upper case are not recognised and go upstream. Exact for names in lower case; other names pass in any letter case.
`C30_special_use_partial` pq; `C30_others` pq; `C30_upper_case_leaks` p

**C31 Custom DNS aliases terminate** (proved). A crash is only possible if the rest of the chain gives no response at all (see C54).
`C31_terminates` cpq; `C31_loop_is_error` pq; `C31_no_crash` p

**C32 Custom DNS answers exactly the configured data** (partial). False as stated for names with records of types the resolver does not know (all queries fail) and for AAAA records with IPv4-mapped addresses. Exact for A, AAAA, TXT, SRV; aliases and reverse names in separate theorems.
`C32_exact_partial` cpq; `C32_alias` pq; `C32_configured_records` pq; `C32_reverse` pq; `C32_unknown_record_breaks_name` p; `C32_mapped_address_wrong_type` p

**C33 Reverse-lookup names round-trip** (partial). Recovery holds for every address. False: also names that are no reverse name are accepted (leading zeros, two hexadecimal digits per label), and names in upper case are not recognised.
`C33_round_trip_v4` pq; `C33_round_trip_v6` cpq; `C33_accepts_v4_partial` cpq; `C33_accepts_v6_partial` pq; `C33_leading_zero_accepted` pq; `C33_two_digits_accepted` p; `C33_upper_case_rejected` p

**C34 Hosts file entries are honoured** (partial). False as stated: names with capitals in the file are never found, only one of several addresses is returned, a reverse query gets the names of one line only. A query during a reload can miss a name that is listed before and after it (C34_during_reload_false).
`C34_forward_partial` cpq; `C34_reverse_partial` cpq; `C34_other_types` p; `C34_failed_load` –; `C34_admitted` pq; `C34_upper_case_never_found` cpq; `C34_second_address_lost` p; `C34_reverse_incomplete` p; `C34_during_reload_partial` cpq; `C34_during_reload_false` p

**C35 List parsing: comments, blanks and error budget** (proved). idna, ParseIP and regexp.Compile are arbitrary parameters.
`C35_parse_all` cpq; `C35_abandon` cpq; `C35_host_line` pq; `C35_abp_line` pq; `C35_hosts_file_line` pq; `C35_wildcard_line` pq; `C35_one_word` pq; `C35_regex_line` cpq; `C35_open_regex` cpq

**C36 Query logging never delays or alters answers** (partial). False for queries without question: logging panics after the query was answered.
`C36_transparent_partial` q; `C36_queue` pq; `C36_written` pq; `C36_one_entry` pq; `C36_fields` p; `C36_privacy` cpq; `C36_no_question_panics` p

**C37 Database query log loses nothing** (partial). False: the entries of a bulk that fails are dropped.
`C37_batches` pq; `C37_no_loss_partial` pq; `C37_never_twice` pq; `C37_errors_reported` pq; `C37_failed_bulk_lost` p

**C38 Redis synchronisation converges without echo** (partial). True for commands given on one instance; false if commands on two instances cross. Negative answers stay in redis for 68 years.
`C38_no_echo` p; `C38_delivery_silent` pq; `C38_same_state_partial` pq; `C38_same_timer` pq; `C38_crossing_diverges` pq; `C38_remote_timer_overrides` pq; `C38_other_groups` pq; `C38_cache_same_partial` pq; `C38_not_published` p; `C38_key_mangled` p; `C38_loaded_lifetime` cpq; `C38_store_lifetime` pq; `C38_negative_answers_for_ever` –

**C39 Every query gets exactly one matching response** (partial). False as stated: answers of the FQDN-only resolver have id 0, no question and no reply bit; a panic during rewriting gives a SERVFAIL for the rewritten name. Panics in goroutines started by resolvers (parallel upstreams) are outside the server's recovery and not modelled.
`C39_exactly_one` p; `C39_no_question` pq; `C39_failure` pq; `C39_answer` pq; `C39_upstream_error` pq; `C39_health_check` p; `C39_fqdn_only_false` pq; `C39_rewrite_panic_false` pq

**C40 Response size fits the transport** (partial). False as stated: the EDNS0 size also limits TCP responses, and the client-subnet resolver can delete the OPT record before its size is read. miekg/dns Truncate is a parameter with a stated contract.
`C40_udp_partial` pq; `C40_tcp_partial` pq; `C40_tcp_advertised` pq; `C40_tcp_edns_false` p; `C40_ecs_drops_size` pq

**C41 DoH freshness lifetime never exceeds a record's TTL** (partial). False as stated: a TTL of 0 is taken for 'not set yet'. Exact for answers without zero TTLs.
`C41_max_age_partial` cpq; `C41_empty` p; `C41_zero_false` p

**C42 Extended error codes are added faithfully** (partial). False as stated: answers of the filtering and FQDN-only resolvers, which come before the EDE resolver, never carry a code.
`C42_ede_partial` cpq; `C42_filtered_without_code` p

**C43 Filtered query types stop at the door** (proved). Decided by the first question of the message.
`C43_filtered` pq; `C43_second_question_passes` pq; `C43_fqdn_only` p

**C44 UDP/TCP race prefers complete answers** (proved). 
`C44_complete` p; `C44_truncated` p; `C44_error` cpq; `C44_first_wins` p

**C45 Upstream retries are bounded and rotate addresses** (proved). Behaviour of retry-go modelled from its documentation. Address lists are made anew for every query, so each query starts at the first address.
`C45_retries` cpq; `C45_no_panic` cpq; `C45_lookup_nonempty` p; `C45_index_in_range` p; `C45_starts_at_first` p

**C46 Upstream URLs survive printing and parsing** (proved). Whole parser (name for the certificate, protocol, path, Go's SplitHostPort, port, domain regular expression) and printer; net.ParseIP is a parameter known only to accept nonempty strings of hexadecimal digits, colons and dots. The certificate name is not printed, as the statement says. Port 0 is accepted.
`C46_round_trip` cpq; `C46_print_injective` cpq; `C46_defaults` cpq; `C46_hosts` cpq; `C46_host_of` cpq; `C46_certificate_name` cpq; `C46_port_zero` p

**C47 Client name resolution precedence** (partial). False if no position of the configured order exists: the client has no name. Names are cached for at least an hour, also after failures.
`C47_sources_partial` pq; `C47_single_name` cpq; `C47_order_out_of_range` cpq; `C47_no_name_at_all` p; `C47_get_names` p; `C47_history` pq; `C47_kept_for_an_hour` cpq; `C47_failure_is_cached` p

**C48 Deprecated options never override new ones** (partial). False for a new option explicitly set to its default value: the deprecated one overrides it (C48_explicit_default_overridden). Otherwise exact, over the three tables of deprecated options; option values are abstract.
`C48_new_option_wins_partial` p; `C48_untouched` p; `C48_deprecated_used` pq; `C48_moved` pq; `C48_converted` pq; `C48_default` p; `C48_one_each` –; `C48_loading_strategy` pq; `C48_explicit_default_overridden` p

**C49 Log retention deletes only old logs** (partial). False for foreign files named like logs, and (on amd64) for logs of future days. Exact instead of floating-point arithmetic.
`C49_clean_up_partial` cpq; `C49_no_retention` pq; `C49_kept` cpq; `C49_foreign_file_deleted` p; `C49_future_log_deleted_on_amd64` p

**C50 Obfuscated names hide every letter and digit** (proved). For ASCII letters and digits; the code never treats others.
`C50_obfuscate` cpq; `C50_hides` cpq

**C51 Cancellation does not punish slow upstreams; real failures do** (proved). 
`C51_error_time` pq

**C52 Resolver chain wiring** (partial). Linking and lookups over arbitrary lists of resolver objects. False for the last resolver, which cannot be linked: looking up its type fails. What the resolvers do with queries is in the other claims; their composition is Model/Chain.lean.
`C52_visited_in_order` p; `C52_lookup_partial` p; `C52_found_iff` pq; `C52_last_not_found` –

**C53 List entries written with a final dot mean the same name** (partial). False for plain entries: an entry with a final dot is accepted and never matches. True for wildcard entries.
`C53_wildcard_final_dot_partial` cpq; `C53_final_dot_never_matches` cpq

**C54 Aliases to outside names are resolved for the same client** (partial). False as stated: with rewrite rules the query panics; the client's names are lost.
`C54_outside_alias_partial` pq; `C54_alias_with_rewrite_panics` p; `C54_client_names_lost` –

**C55 DNS over HTTPS serves the same answers** (partial). False for queries of more than 512 bytes, which are refused.
`C55_malformed` pq; `C55_same_as_tcp_partial` pq; `C55_large_false` pq; `C55_client_id` pq; `C55_doh_client_id` pq

**C56 An upstream's SERVFAIL is a failure** (partial). True for plain DNS upstreams, false for DNS over TLS and HTTPS.
`C56_plain_partial` cpq; `C56_encrypted_false` p

**C57 Upstream host names are usable if they have an address** (partial). False if the lookup of one family fails.
`C57_lookup_partial` cpq; `C57_one_family_fails_false` pq

**C58 Query log file names** (partial). Different clients can share a file because of escaping.
`C58_file_name` cpq; `C58_separate_clients_partial` pq; `C58_clients_collide` –

**C59 Query log files can be read back** (proved). csv.Writer modelled from the Go standard library; read back by an independently written reader.
`C59_read_back` pq; `C59_rows` p

**C60 One matching response from the whole server** (partial). Composition of the models of all resolvers and the server. False for: an upstream's SERVFAIL for an alias target or a rewritten name (sent with foreign id and question), single-label names with fqdnOnly, aliases combined with rewriting (panic), only an IPv6 subnet prefix longer than 32. Proved otherwise. Metrics counters left out.
`C60_reply_partial` cpq; `C60_alias_servfail_false` pq; `C60_rewritten_servfail_false` pq; `C39_fqdn_only_false` pq; `C39_rewrite_panic_false` pq; `C28_ipv6_only_panics` pq; `C28_ipv6_only_mixed` cpq

**C61 Blocked names are blocked whatever is cached** (proved). Over the composed chain, with lookups of client names and rewriting by custom DNS: the name as rewritten must not be configured locally.
`C61_blocked_everywhere` cpq; `C16_blocked_not_asked_partial` cpq

**C62 Local names come first, refused types before all** (proved). Over the composed chain, with lookups of client names and rewriting rules of custom DNS (the name as rewritten has the records, the answer carries the name of the query); names without aliases (these: C32, C54).
`C62_custom_first` cpq; `C62_filtered_first` pq

**C63 Upstreams never see more of the client's subnet than configured** (proved). Over the composed chain; messages with at most one OPT record (repeated ones: C28); the subnet resolver enabled, not forwarding, and with prefix lengths for both families or none.
`C63_subnet_removed` cpq; `C63_subnet_cut` cpq

**C64 Clients identified by domain names** (partial). False: a name whose look-up fails at the start is never looked up again; a name that vanishes stands for its last addresses for ever; the lifetime is that of the last record; addresses and subnets are looked up as names, too. Proved: what is stored is always exactly one look-up's result, and expired addresses are replaced by a usable look-up.
`C64_known_addresses` cpq; `C64_refreshed` cpq; `C64_client_in_groups` cpq; `C64_never_retried_false` cpq; `C64_stale_for_ever_false` cpq; `C64_lifetime_of_last_record_false` p; `C64_addresses_looked_up_false` p

**C65 Durations in the configuration mean what they say** (partial). False: a number of minutes that does not fit into 64 bits becomes another, possibly negative, duration; the notation recommended by the deprecation warning ('5 min') is refused; two halves of the whole range add up to zero (Go's parser). Proved for everything that fits, to the nanosecond; fractions of hours and minutes are exact in the model, floating point in Go.
`C65_sum` cpq; `C65_nothing_else` cpq; `C65_minutes` pq; `C65_numbers` cpq; `C65_config_units` cpq; `C65_recommended_refused` pq; `C65_sum_wraps_false` pq; `C65_minutes_false` p; `C65_recommended_false` p

**C66 Disabling blocking on the command line does what was asked** (partial). False for group names with a comma (taken for several groups) and for an empty group name (becomes all groups). Proved for all durations and all other group names. HTTP escaping is not modelled.
`C66_duration_survives` cpq; `C66_disable_partial` cpq; `C66_api` pq; `C66_comma_false` cpq; `C66_empty_name_false` cpq

**C67 List downloads are retried as configured** (partial). False for attempts = 0, which means for ever, and for lists whose body does not come within the timeout: they are cut and not asked for again. Redirects are not modelled.
`C67_first_success` pq; `C67_unfinished` cpq; `C67_all_fail` pq; `C67_result` pq; `C67_attempts_false` pq; `C67_body_partial` cpq; `C67_slow_body` cpq; `C67_half_list_false` cpq; `C67_nothing` cpq; `C67_defaults` cpq

**C68 First load and periodic refresh** (partial). False: a refresh may still start after the shutdown signal. Panics in other goroutines than the load's own are not recovered and not modelled.
`C68_start` pq; `C68_first_load` pq; `C68_refresh` cpq; `C68_progress` p; `C68_no_refresh_after_stop_false` p

**C69 Upstream groups after the start** (partial). False: with fast start queries go to the bootstrap DNS until the group is initialised, and for ever for an empty group; with failOnError an upstream that fails its test at the start is never used.
`C69_fail_on_error` cpq; `C69_other_strategies` pq; `C69_only_own_upstreams_false` p; `C69_empty_group_false` –; `C69_all_used_false` p

**C70 Database passwords are not logged** (partial). False: a target that is no URL, for example because of a percent sign or a space in the password, is logged as it is (C70_no_url_logged); every MySQL target of the documented form user:password@tcp(host:port)/db is logged with the password; so are percent-encoded passwords, and targets without scheme with '://' in a parameter. Proved for URLs with plain passwords. Go's URL parser is modelled without zones of IPv6 addresses.
`C70_hidden` cpq; `C70_unchanged` cpq; `C70_decoded_hidden` cpq; `C70_encoded_logged` cpq; `C70_mysql_false` cpq; `C70_encoded_false` p; `C70_url_parameter_false` p; `C70_url_hidden` cpq; `C70_no_url_logged` cpq

**C71 Sources of lists mean what they say** (partial). False: a file whose name starts with http is taken for a link; an inline list of several lines is described like its first line alone.
`C71_link` pq; `C71_file` pq; `C71_inline` p; `C71_lines` p; `C71_round_trip` pq; `C71_description` pq; `C71_http_name_false` pq; `C71_unmarked_false` –

**C72 Configured addresses and upstreams are used as written** (partial). False for zones that spell a name in two ways: some of its records are lost. Proved otherwise, for addresses down to the answer. YAML and the zone file syntax are not modelled; net.ParseIP is a parameter.
`C72_addresses` pq; `C72_answer` cpq; `C72_zone` pq; `C72_conditional` pq; `C72_zone_spelling_false` p

**C73 Listen addresses and subnet prefix lengths** (partial). False for listen addresses with a space after a comma (the other lists of the configuration allow it).
`C73_listen` p; `C73_mask` pq; `C73_listen_space_false` p

**C74 Bootstrap servers need no DNS** (partial). False: the addresses given beside an upstream whose host is an address are accepted and never used.
`C74_accepted` cpq; `C74_no_lookup` cpq; `C74_errors` cpq; `C74_further_addresses_false` p

**C75 HTTP clients are identified by their address** (partial). False: every HTTP client can choose the client it is taken for with an X-Forwarded-For header, and is then treated exactly like a TCP client at that address; behind two proxies, and for link-local IPv6 peers, the client has no address. Proved for one address with or without port. net.ParseIP is a parameter with stated properties.
`C75_peer` p; `C75_forwarded` cpq; `C75_named` pq; `C75_identity_false` cpq; `C75_list_false` cpq; `C75_zone_false` p

**C76 API queries are answered like DNS queries** (partial). False with log privacy: the masking meant for logs also masks the API's answers. 
`C76_same_as_dns_partial` pq; `C76_unknown_type` p; `C76_privacy_false` p

**C77 Metrics count every query exactly once** (partial). False: queries stopped by filtering or FQDN-only are answered but never counted; a client whose id is no UTF-8 gets no answer if metrics are on, the label makes prometheus panic. Proved for requests that reach the metrics resolver, over all interleavings.
`C77_counts_partial` cpq; `C77_at_any_time` cpq; `C77_result_partial` cpq; `C77_stopped_false` pq; `C77_label_false` cpq

**C78 Gauges show the current state** (partial). The blocking gauge always agrees with the status. The cache gauge is false after a flush, after expired entries have been cleaned up, and after concurrent insertions, until the next insertion.
`C78_status` pq; `C78_after_put` pq; `C78_entries_partial` cpq; `C78_flush_false` p; `C78_expiry_false` p; `C78_race_false` p

**C79 CLI commands reach the API of the configured server** (partial). Holds for listeners on a name, an IPv4 address or all addresses, and for addresses given by flags when the configuration has no HTTP listener. False for IPv6 listeners (two pairs of brackets, C79_ipv6_false) and for flags beside a configured listener (C79_flags_false).
`C79_reaches` cpq; `C79_flags` cpq; `C79_ipv6_false` cpq; `C79_flags_false` –

**C80 The configuration is exactly what the chosen file or directory contains** (partial). Reading of a file or directory, choice of the path, and agreement of validate with the server are proved. False for a directory given as a link (C80_link_false), for files after the first that begin with the document marker --- (C80_documents_false: dropped silently), for files reachable twice as in a ConfigMap volume (C80_twice_false), for validate with an environment variable (C80_validate_false) and for an explicit default path (C80_explicit_false).
`C80_directory` cpq; `C80_file` p; `C80_path` p; `C80_validate_partial` pq; `C80_link_false` p; `C80_twice_false` p; `C80_validate_false` p; `C80_explicit_false` p; `C80_documents_false` p

**C81 Logging and metrics are invisible to clients** (proved). Whole server model; no hypotheses. The time a query takes is not modelled.
`C81_answers` pq

**C82 Names without configuration get the upstream's answer** (proved). Whole chain, with client name lookups and rewriting rules (which may rewrite the name, as long as custom DNS and the zones have nothing for what they make of it); names in any letter case. One question; TTL bounds below 2^32 s.
`C82_forwarded` cpq

**C83 Names of private zones are not sent to the default upstreams** (partial). Whole server: replies, caches and log are the same whatever the default upstreams do. Holds without fallbackUpstream (C83_fallback_false), for zones used for names of several labels or the zone "." (C83_single_label_false), when a rewritten name is in a zone too, and for special-use names in lower case. Aliases must lead to such names.
`C83_zones_partial` pq; `C83_special_partial` pq; `C83_reload_partial` pq; `C83_fallback_false` pq; `C83_single_label_false` pq

**C84 Publishing answers to redis does not hold up queries** (partial). Order, completeness and the absence of delay while fewer than 1000 answers are unsent are proved. False: when redis refuses the subscription but answers the ping, an optional redis stops all queries after 1000 answers (C84_optional_false).
`C84_order` pq; `C84_no_delay_partial` cpq; `C84_optional_false` pq; `C84_start` p

**C85 Redis and its sentinels get the configured credentials** (partial). Holds if the sentinels' user name equals that of redis; the configured sentinelUsername is never used (C85_sentinel_user_false).
`C85_credentials_partial` p; `C85_sentinel_user_false` –; `C85_defaults` p

**C86 Encrypted upstreams are talked to over TLS only** (partial). False as stated for DNS over HTTPS: redirections to http URLs are followed, with the query in the clear (C86_redirect_false). net/http's redirect rules are modelled; proxies from the environment are not. C86_host_header_false: the Host header lacks port and IPv6 brackets.
`C86_dot` pq; `C86_plain` p; `C86_doh_partial` pq; `C86_doh_once` pq; `C86_doh_answer` pq; `C86_bounded` p; `C86_redirect_false` p; `C86_redirected` p; `C86_host_header_false` –; `C86_listener_version` cpq

**C87 DNS ports hand exactly the proper queries to the resolvers** (partial). miekg/dns acceptance and zone matching are modelled, escapes included. C87_one_reply_partial has the conditions of C60. False for notifications, which are treated as queries and their answers cached (C87_notify_false).
`C87_health` cpq; `C87_resolved` cpq; `C87_rejected` cpq; `C87_reject_codes` cpq; `C87_one_reply_partial` cpq; `C87_notify_false` pq

**C88 A repeated query is answered from the cache** (proved). For messages that can be packed. Answers carrying the client subnet option are not cached (ReachesCache asks for a cacheable request).
`C88_repeated` cpq

**C89 Cleaning up the cache never deletes live entries** (partial). False as stated: an entry stored while the clean-up waits for a reload is deleted by it if an expired entry of that key was seen before (C89_fresh_entry_deleted). Proved: only such entries are lost. C89_stale_unbounded: while the clean-up waits, expired values are returned without a bound.
`C89_latest` pq; `C89_deletes_expired_partial` cpq; `C89_fresh_entry_deleted` p; `C89_expired_gone` cpq; `C89_ends` pq; `C89_stale_unbounded` pq

**C90 The server process starts completely and ends gracefully** (partial). False as stated: queries over DNS over HTTPS are not waited for (C90_doh_lost), and a signal while a listener is still being started makes Stop give up at once (C90_early_signal_lost). Binding, certificates and the creation of everything else are arbitrary outcomes.
`C90_created` pq; `C90_sockets` pq; `C90_exit_code` pq; `C90_drained_partial` cpq; `C90_ends` cpq; `C90_doh_lost` p; `C90_early_signal_lost` p

**C91 The size reported for a list group is the number of its entries** (partial). False as stated: wildcards and regular expressions given twice are counted twice (C91_duplicates_counted), and '*.' is counted although it matches nothing (C91_useless_counted). Otherwise exact.
`C91_count_partial` cpq; `C91_zero` cpq; `C91_duplicates_counted` pq; `C91_useless_counted` pq

**C92 A flush empties the cache for good** (partial). False as stated: a query that has its answer when the cache is flushed stores it afterwards (C92_flush_outlived), and with two queries for a name under way the older answer can replace the newer one (C92_older_answer_returns). Proved: nothing else outlives a flush, and without overlapping queries answers never go back.
`C92_after_flush_partial` pq; `C92_quiet_flush` pq; `C92_never_back_partial` pq; `C92_flush_outlived` p; `C92_older_answer_returns` p

**C93 Commands do what they say and end with 0 exactly if it was done** (partial). the claim as stated is false (C93_refresh_ignores_config, C93_typo_succeeds, C93_last_second_looks_endless, C93_foreign_server); group names without commas (see C66)
`C93_disable_partial` cpq; `C93_enable` pq; `C93_refresh` pq; `C93_flush` pq; `C93_query` pq; `C93_status` pq; `C93_status_after_disable_partial` cpq; `C93_address` p; `C93_zero_means_200` p; `C93_healthy` p; `C93_refresh_ignores_config` pq; `C93_typo_succeeds` pq; `C93_unknown_command` pq; `C93_last_second_looks_endless` pq; `C93_foreign_server` p; `C93_refusal_healthy` –; `C93_no_operation` pq; `C93_status_reads` pq; `C93_zero_seconds` p; `C93_query_codes` pq; `C93_bad_duration` pq; `C93_needs_config` p; `C93_health_question` p; `C93_query_title` p

**C94 The query log goes where it is configured to go, and is kept as long as configured** (partial). False as stated: with 0 attempts there is no limit (C94_starts_false), a flush interval of 0 crashes, Timescale deletes rows with a retention of 0 (C94_timescale_zero_false), and the largest retention deletes everything (C94_huge_retention_false). retry-go, SQL statements and AddDate (without daylight saving time) are contracts.
`C94_kind` p; `C94_driver` pq; `C94_directory` p; `C94_created_partial` pq; `C94_fallback_partial` pq; `C94_late_database` pq; `C94_no_limit` pq; `C94_starts_false` pq; `C94_negative_attempts` pq; `C94_flush_interval_crashes` pq; `C94_host_name_needed` pq; `C94_instance` p; `C94_kept_for_ever` p; `C94_clean_up_partial` cpq; `C94_not_too_early_partial` cpq; `C94_mysql_restart` pq; `C94_postgresql_no_key` q; `C94_timescale_policy` pq; `C94_timescale_young` p; `C94_timescale_zero_false` pq; `C94_huge_retention_false` cpq; `C94_console` pq; `C94_fast_queries_without_duration` pq

**C95 How long a query waits for upstreams** (partial). False as documented: upstreams.timeout limits each of three attempts (and the lookup of the host), not the query (C95_within_timeout_false), and except over HTTPS nothing beyond 2 s for connecting and 2 s for reading is waited for (C95_long_timeout_false, C95_no_effect_partial). The bounds that do hold are proved for every behaviour of the servers. The limits of miekg/dns and of Go's HTTP transport are contracts read from memory of their sources; waiting is the only thing that takes time.
`C95_upstream_partial` cpq; `C95_group_partial` cpq; `C95_query_partial` cpq; `C95_dead` pq; `C95_within_timeout_false` pq; `C95_strict_behind_dead` pq; `C95_heard_partial` pq; `C95_heard_https` pq; `C95_late` pq; `C95_long_timeout_false` pq; `C95_no_effect_partial` cpq; `C95_parallel_fast` pq; `C95_parallel_fails` pq; `C95_random_behind_dead` pq; `C95_second_address` pq; `C95_refused` pq; `C95_huge_timeout` pq; `C95_same_result` pq; `C95_strict_finds_it_false` pq

**C96 The HTTP server answers its own users, in time, and nobody else** (partial). False: any web page can use the API and DNS over HTTPS through a browser of the network; replies that take longer than blocking.loading.downloads.writeTimeout (20 s) are dropped although the work was done; the options documented as timeouts of downloads are those of the HTTP server. The cancellation of a request's context at the read deadline is not modelled; net/http, go-chi/cors and the Fetch standard are contracts.
`C96_same_answer` p; `C96_preflight` p; `C96_secure_headers` cpq; `C96_any_page` cpq; `C96_credentials` cpq; `C96_refused` pq; `C96_foreign_page_false` cpq; `C96_delivered` cpq; `C96_closed` pq; `C96_in_time` pq; `C96_too_slow` cpq; `C96_refresh_false` cpq; `C96_download_options` p; `C96_slow_doh_false` p; `C96_no_origin` pq

**C97 Log privacy** (partial). False as stated: names matched by lists or custom DNS are in debug lines as they are (C97_list_shows, C97_custom_shows), and a failed prefetch or aliases in a circle put them in lines of level error (C97_prefetch_shows, C97_loop_false). Lines of the targets of aliases, of client lookup and of redis are not modelled.
`C97_context` cpq; `C97_hidden` cpq; `C97_rewritten` p; `C97_quiet` cpq; `C97_off` pq; `C97_query_log` p; `C97_levels` pq; `C97_no_groups` pq; `C97_answer_shows` pq; `C97_regex_line` pq; `C97_list_shows` pq; `C97_list_false` pq; `C97_custom_shows` p; `C97_custom_false` p; `C97_prefetch_shows` pq; `C97_loop_false` p

**C98 Letter case of names** (partial). False for special-use names (C98_special_false: printer.LOCAL. goes upstream) and for reverse lookups of custom DNS and hosts files (C98_reverse_false, C98_hosts_reverse_false). Proved for all other queries, one by one (C98_query_partial) and in whole histories (C98_history_partial), for upstreams that ignore letter case. What truncation cuts off is assumed not to depend on letter case.
`C98_query_partial` pq; `C98_history_partial` pq; `C98_special_false` pq; `C98_reverse_false` pq; `C98_hosts_reverse_false` pq

**C99 Map iteration order does not show** (partial). For unambiguous configurations, whole server and every sequence of queries with new orders each time. The four ambiguities are each necessary: for each a configuration, two orders and a query whose answers differ is proved. The iteration orders inside the upstream groups (C25) are part of the upstream parameter; the order of list sources is the subject of C03/C04.
`C99_whole_partial` cpq; `C99_history_partial` cpq; `C99_groups` cpq; `C99_rules_false` pq; `C99_hosts_false` pq; `C99_reverse_false` pq; `C99_names_false` pq

