{"id": "C01", "title": "Wildcard entries match exactly the subdomain closure", "statement": "After inserting any set of domains in any order, asking whether a domain is covered answers yes exactly when the domain equals, or is a subdomain (on label boundaries) of, some inserted domain; the order and repetition of insertions never change any answer.", "quantifier": "every finite sequence of inserted domains (without leading dots), every queried domain", "why_tests_cant": "Path compression makes the answer depend on the shape built by earlier insertions; tests exercise a handful of insertion orders out of infinitely many.", "anchors": ["trie/trie.go:Trie.Insert", "trie/trie.go:Trie.HasParentOf", "trie/trie.go:parent.insert", "trie/trie.go:terminal.hasParentOf", "trie/split.go:SplitTLD"]}
{"id": "C02", "title": "Plain list entries match exactly and case-insensitively", "statement": "A plain (non-wildcard, non-regex) list entry blocks/allows a domain if and only if the domain is equal to it ignoring ASCII case; no sequence of insertions makes an entry disappear, or a never-added name match.", "quantifier": "every sequence of added entries, every looked-up name", "why_tests_cant": "The lookup is a binary search over one concatenated string per name length; correctness depends on the sortedness of every bucket after every insertion order.", "anchors": ["cache/stringcache/string_caches.go:stringMap.contains", "cache/stringcache/string_caches.go:stringCacheFactory.addEntry", "cache/stringcache/string_caches.go:stringCacheFactory.insertString", "cache/stringcache/string_caches.go:stringCacheFactory.create"]}
{"id": "C03", "title": "Grouped list lookup is the exact union of entry kinds", "statement": "Looking up a name in a set of groups returns, sorted and without duplicates, exactly those of the requested groups for which some entry (plain, wildcard or regex) in that group's current list matches the name.", "quantifier": "every content of the groups, every requested group list, every name", "why_tests_cant": "Entries are routed to the first of three matchers that accepts them; whether an entry falls between two matchers needs all entry shapes.", "anchors": ["cache/stringcache/chained_grouped_cache.go:ChainedGroupedCache.Contains", "cache/stringcache/chained_grouped_cache.go:chainedGroupFactory.AddEntry", "cache/stringcache/in_memory_grouped_cache.go:InMemoryGroupedCache.Contains"]}
{"id": "C04", "title": "List refresh never leaves a group half loaded", "statement": "After any sequence of list refreshes, each group answers lookups from the complete contents of the last refresh of that group that was accepted; a refresh of a group that fails (download error, no usable entry) leaves that group answering exactly as before, and never affects any other group.", "quantifier": "every history of refreshes, every per-source result (entries, errors, partial failures)", "why_tests_cant": "Requires all interleavings of success/failure per source and per group over time.", "anchors": ["lists/list_cache.go:ListCache.refresh", "lists/list_cache.go:ListCache.createCacheForGroup", "lists/list_cache.go:ListCache.parseFile", "cache/stringcache/in_memory_grouped_cache.go:inMemoryGroupFactory.Finish"]}
{"id": "C05", "title": "No list file can crash the process", "statement": "Whatever a downloaded or local list contains, loading it either adds entries or reports errors; it never panics.", "quantifier": "every list file content", "why_tests_cant": "An input-space claim: the panicking entry is a single one-character line no test has.", "anchors": ["cache/stringcache/string_caches.go:regexCacheFactory.addEntry", "lists/parsers/hosts.go:validateHostsListEntry", "lists/parsers/hosts.go:isRegex"]}
{"id": "C06", "title": "Expiring cache returns the latest live value", "statement": "A cache lookup returns the value most recently stored under that key (never another key's value), with a remaining lifetime that never exceeds the lifetime given when it was stored minus the time passed; once the lifetime has passed, the value is not returned any more.", "quantifier": "every history of puts, gets, background clean-ups and clears with arbitrary clock advances", "why_tests_cant": "Depends on the interleaving of the background cleaner with reads at every clock value.", "anchors": ["cache/expirationcache/expiration_cache.go:ExpiringLRUCache.Put", "cache/expirationcache/expiration_cache.go:ExpiringLRUCache.Get", "cache/expirationcache/expiration_cache.go:ExpiringLRUCache.cleanUp", "cache/expirationcache/expiration_cache.go:isExpired"]}
{"id": "C07", "title": "Cache size bound and LRU order", "statement": "The cache never holds more than the configured number of entries, and when it is full, only the least recently used entry is dropped by a new key.", "quantifier": "every history of operations, every capacity", "why_tests_cant": "A bound over unbounded histories.", "anchors": ["cache/expirationcache/expiration_cache.go:NewCacheWithOnExpired", "cache/expirationcache/expiration_cache.go:ExpiringLRUCache.Put"]}
{"id": "C08", "title": "Cached names and types never collide", "statement": "Two questions share a cached answer if and only if they ask for the same record type and the same name ignoring case; the type and name stored in a cache key can always be recovered from it.", "quantifier": "every pair of questions (all 65536 types, every name)", "why_tests_cant": "Injectivity over all names and types.", "anchors": ["util/common.go:GenerateCacheKey", "util/common.go:ExtractCacheKey"]}
{"id": "C09", "title": "TTL clamping of cached answers", "statement": "Every record of an answer that passes through the cache on a miss leaves with a TTL no larger than the configured maximum (if any) and no smaller than the configured minimum (if that does not exceed the maximum); TTLs already within bounds are unchanged; the entry's lifetime is the smallest resulting TTL.", "quantifier": "every answer, every min/max configuration", "why_tests_cant": "Arithmetic over all TTL values and both bounds.", "anchors": ["resolver/caching_resolver.go:CachingResolver.adjustTTLs"]}
{"id": "C10", "title": "Served-from-cache TTLs count down", "statement": "An answer served from the cache carries, for each record, the TTL stored minus the time spent in the cache (to the second, never underflowing), so the smallest TTL is the entry's remaining lifetime and the order of TTLs is preserved.", "quantifier": "every cached answer, every remaining lifetime", "why_tests_cant": "32-bit modular subtraction is used; absence of wrap-around is a for-all claim.", "anchors": ["resolver/caching_resolver.go:setTTLInCachedResponse", "resolver/caching_resolver.go:CachingResolver.getFromCache"]}
{"id": "C11", "title": "Only clean answers are cached", "statement": "A truncated answer, an answer obtained with checking disabled, a server failure or an upstream error is never stored in the cache, so a later client can never receive it from there.", "quantifier": "every request and every upstream outcome", "why_tests_cant": "Combination of response code and header flags; includes combinations no test builds.", "anchors": ["resolver/caching_resolver.go:isResponseCacheable", "resolver/caching_resolver.go:CachingResolver.putInCache", "resolver/caching_resolver.go:CachingResolver.reloadCacheEntry"]}
{"id": "C12", "title": "Client-subnet specific answers are not shared", "statement": "An answer that was obtained for a query carrying a client subnet is never served from the cache to a query that carries a different subnet or none.", "quantifier": "every pair of requests with arbitrary client-subnet options", "why_tests_cant": "Needs all subnet masks and all pairs of requests.", "anchors": ["resolver/caching_resolver.go:isRequestCacheable", "resolver/caching_resolver.go:CachingResolver.Resolve"]}
{"id": "C13", "title": "Cache transparency", "statement": "With caching on, a client gets for each question either a freshly obtained answer or the answer (same records up to TTL, same response code) obtained earlier for a question with same type and same name ignoring case, and the response carries the client's own message id and question.", "quantifier": "every history of queries and upstream answers", "why_tests_cant": "A refinement over unbounded histories of queries.", "anchors": ["resolver/caching_resolver.go:CachingResolver.Resolve", "resolver/caching_resolver.go:CachingResolver.putInCache", "resolver/caching_resolver.go:CachingResolver.getFromCache"]}
{"id": "C14", "title": "Prefetching reloads exactly the popular names", "statement": "When an entry expires, it is refreshed in the background if and only if the number of queries seen for that name within the tracking window exceeds the threshold (always when the threshold is 0); a refreshed entry obeys the same TTL bounds and admission rules as a normally cached one.", "quantifier": "every history of queries, expirations and background reloads", "why_tests_cant": "Counting over histories with expiry of the counters.", "anchors": ["cache/expirationcache/prefetching_cache.go:PrefetchingExpiringLRUCache.shouldPrefetch", "cache/expirationcache/prefetching_cache.go:PrefetchingExpiringLRUCache.onExpired", "resolver/caching_resolver.go:CachingResolver.reloadCacheEntry"]}
{"id": "C15", "title": "Blocking decision is exactly the documented precedence", "statement": "A query is answered by the blocker if and only if, for the client's active groups: the name is on no allowlist of those groups and (one of those groups has allowlists but no denylists, or the name is on a denylist of those groups), or the upstream answer contains an address or alias that is on a denylist and not on an allowlist; otherwise the upstream's answer is passed unchanged.", "quantifier": "every configuration of groups, every content of lists, every query and every upstream answer", "why_tests_cant": "Precedence between four sources of decision over all configurations.", "anchors": ["resolver/blocking_resolver.go:BlockingResolver.Resolve", "resolver/blocking_resolver.go:BlockingResolver.handleDenylist", "resolver/blocking_resolver.go:BlockingResolver.hasAllowlistOnlyAllowed", "resolver/blocking_resolver.go:BlockingResolver.matches"]}
{"id": "C16", "title": "Blocked names never reach an upstream", "statement": "If a query's name is blocked for the client, neither the cache nor any upstream server is asked for it, whatever else is configured before the blocker in the chain.", "quantifier": "every configuration and every query; every behaviour of the later chain", "why_tests_cant": "A non-interference claim over all downstream behaviours.", "anchors": ["resolver/blocking_resolver.go:BlockingResolver.Resolve", "server/server.go:createQueryResolver", "resolver/resolver.go:Chain"]}
{"id": "C17", "title": "Client to group assignment", "statement": "The groups applied to a client are exactly those configured for a matching client name pattern, its exact IP address, or a subnet containing it; the default groups apply if and only if nothing else matches; currently disabled groups are never applied.", "quantifier": "every configuration map, every client (names, IP), every set of disabled groups", "why_tests_cant": "Union over several independent match kinds.", "anchors": ["resolver/blocking_resolver.go:BlockingResolver.groupsToCheckForClient", "resolver/blocking_resolver.go:BlockingResolver.isGroupDisabled", "util/common.go:CidrContainsIP", "util/common.go:ClientNameMatchesGroupName"]}
{"id": "C18", "title": "Timed disabling always ends", "statement": "After blocking has been disabled for a duration, then unless another disable or enable request succeeds in the meantime, blocking is enabled again once the duration has passed; a rejected request changes nothing.", "quantifier": "every sequence of enable/disable requests (accepted or rejected), remote state messages and timer firings", "why_tests_cant": "Timers and rejected requests interleave in unboundedly many ways.", "anchors": ["resolver/blocking_resolver.go:BlockingResolver.internalDisableBlocking", "resolver/blocking_resolver.go:BlockingResolver.internalEnableBlocking", "resolver/blocking_resolver.go:BlockingResolver.EnableBlocking"]}
{"id": "C19", "title": "Reported blocking status is the effective status", "statement": "The blocking status reported by the API always agrees with what queries experience: enabled means no group is switched off, disabled means exactly the listed groups are switched off, and a disable request without groups stops all blocking.", "quantifier": "every history of enable/disable requests and timer firings, every query", "why_tests_cant": "State invariant over unbounded histories.", "anchors": ["resolver/blocking_resolver.go:BlockingResolver.BlockingStatus", "resolver/blocking_resolver.go:BlockingResolver.retrieveAllBlockingGroups", "api/api_interface_impl.go:OpenAPIInterfaceImpl.DisableBlocking"]}
{"id": "C20", "title": "Queries and status changes never deadlock", "statement": "Whatever the interleaving of concurrent queries with enable/disable requests, every query and every request eventually completes its locking section.", "quantifier": "every number of concurrent queries and writers, every schedule", "why_tests_cant": "A schedule-space claim; the deadlock needs a writer to arrive between two nested read locks.", "anchors": ["resolver/blocking_resolver.go:BlockingResolver.groupsToCheckForClient", "resolver/blocking_resolver.go:BlockingResolver.isGroupDisabled", "resolver/blocking_resolver.go:BlockingResolver.internalDisableBlocking"]}
{"id": "C21", "title": "Block answers are well formed", "statement": "A blocked query is answered with the configured block type only: for zero IP, 0.0.0.0 for A and :: for AAAA and NXDOMAIN for other types; for NXDOMAIN, no records; for custom IPs, exactly the configured addresses of the asked family, or the zero address if none; every record carries the question's name and the block TTL.", "quantifier": "every question, every block configuration", "why_tests_cant": "All types and all address lists.", "anchors": ["resolver/blocking_resolver.go:createBlockHandler", "resolver/blocking_resolver.go:zeroIPBlockHandler.handleBlock", "resolver/blocking_resolver.go:ipBlockHandler.handleBlock", "resolver/blocking_resolver.go:nxDomainBlockHandler.handleBlock"]}
{"id": "C22", "title": "Parallel upstreams: first success wins, error only if all fail", "statement": "With the parallel strategies, a client gets an answer whenever at least one of the asked upstreams answers, in whatever order the replies and errors arrive; the answer is the first success to arrive; an error is returned only if all asked upstreams failed.", "quantifier": "every arrival order of results, every set of upstreams and failures", "why_tests_cant": "Arrival order is nondeterministic.", "anchors": ["resolver/parallel_best_resolver.go:ParallelBestResolver.Resolve", "resolver/parallel_best_resolver.go:evaluateResponses", "resolver/parallel_best_resolver.go:ParallelBestResolver.retryWithDifferent"]}
{"id": "C23", "title": "Weighted random choice is safe and never starves an upstream", "statement": "Choosing upstreams never panics for a non-empty group, the chosen upstreams of one query are distinct and belong to the group, and every upstream keeps a positive probability of being chosen however often it failed.", "quantifier": "every group, every error history, every clock value, every random draw", "why_tests_cant": "Weights depend on clock and history.", "anchors": ["resolver/parallel_best_resolver.go:pickRandom", "resolver/parallel_best_resolver.go:weightedRandom", "resolver/parallel_best_resolver.go:upstreamResolverStatus.resolve"]}
{"id": "C24", "title": "Strict strategy respects configuration order", "statement": "With the strict strategy, the answer comes from the first upstream in configuration order that answers, no upstream after it is asked, every upstream before it was asked and failed, and an error is returned only if all failed.", "quantifier": "every group, every outcome of every upstream", "why_tests_cant": "All outcome vectors.", "anchors": ["resolver/strict_resolver.go:StrictResolver.Resolve"]}
{"id": "C25", "title": "Upstream group selection precedence", "statement": "A client's query goes to exactly one upstream group: that of its exact IP if configured, otherwise of a matching client name pattern, otherwise of a subnet containing it, otherwise the default group.", "quantifier": "every configuration of groups, every client", "why_tests_cant": "Precedence across all configurations.", "anchors": ["resolver/upstream_tree_resolver.go:UpstreamTreeResolver.upstreamGroupByClient", "resolver/upstream_tree_resolver.go:UpstreamTreeResolver.Resolve"]}
{"id": "C26", "title": "Conditional forwarding picks the most specific zone", "statement": "A query is forwarded to the conditional upstream of the longest configured suffix (on label boundaries, ignoring case) of its name, single-label names go to the '.' mapping if there is one, and all other queries are passed on unchanged.", "quantifier": "every mapping, every name", "why_tests_cant": "All nestings of configured zones.", "anchors": ["resolver/conditional_upstream_resolver.go:ConditionalUpstreamResolver.processRequest", "resolver/conditional_upstream_resolver.go:ConditionalUpstreamResolver.internalResolve"]}
{"id": "C27", "title": "Rewriting is invisible to the client", "statement": "When a rewrite rule applies, the wrapped resolver sees the rewritten name, while the client's response always shows the originally asked names; queries no rule applies to, and everything passed on to the next resolver, are unaffected by rewriting.", "quantifier": "every rule map, every query, every inner and next resolver behaviour", "why_tests_cant": "All inner outcomes (answer, nil, error, fallback).", "anchors": ["resolver/rewriter_resolver.go:RewriterResolver.Resolve", "resolver/rewriter_resolver.go:RewriterResolver.rewriteRequest", "resolver/rewriter_resolver.go:RewriterResolver.rewriteDomain"]}
{"id": "C28", "title": "Client subnet privacy", "statement": "Unless forwarding of client subnets is enabled, no upstream ever sees a client-subnet option other than the client's address masked to the configured prefix length; with no masks configured, none is sent at all.", "quantifier": "every ECS configuration, every client address, every request", "why_tests_cant": "All masks, both families, all incoming options.", "anchors": ["resolver/ecs_resolver.go:ECSResolver.Resolve", "resolver/ecs_resolver.go:ECSResolver.setSubnet", "resolver/ecs_resolver.go:maskIP", "config/ecs.go:ECS"]}
{"id": "C29", "title": "EDNS0 option editing obeys get/set/remove laws", "statement": "Setting an EDNS0 option makes exactly that option readable and leaves all other options and records unchanged; removing an option makes it unreadable and leaves the others; removing the OPT record leaves no EDNS0 data.", "quantifier": "every message, every option", "why_tests_cant": "Algebraic laws over all messages.", "anchors": ["util/edns0.go:SetEdns0Option", "util/edns0.go:GetEdns0Option", "util/edns0.go:RemoveEdns0Option", "util/edns0.go:RemoveEdns0Record"]}
{"id": "C30", "title": "Special-use names never leak upstream", "statement": "With special-use-domain handling enabled, a query for a special-use name (RFC 6761 and friends: reverse zones of private ranges, .test, .localhost, .invalid, .local, .onion, home.arpa, and the Appendix G names if enabled), in whatever letter case it is written, is answered locally and never sent to an upstream; all other names are passed on unchanged.", "quantifier": "every query name and type", "why_tests_cant": "All names under all zones, all letter cases.", "anchors": ["resolver/sudn_resolver.go:SpecialUseDomainNamesResolver.Resolve", "resolver/sudn_resolver.go:SpecialUseDomainNamesResolver.handler", "resolver/sudn_resolver.go:sudnHandlers"]}
{"id": "C31", "title": "Custom DNS aliases terminate", "statement": "Resolving a custom DNS name always terminates, whatever the configured aliases are: an alias loop produces an error, never an endless recursion or a crash.", "quantifier": "every custom mapping (including cyclic aliases), every query", "why_tests_cant": "Termination over all alias graphs.", "anchors": ["resolver/custom_dns_resolver.go:CustomDNSResolver.processCNAME", "resolver/custom_dns_resolver.go:CustomDNSResolver.processRequest", "resolver/custom_dns_resolver.go:CustomDNSResolver.processDNSEntry"]}
{"id": "C32", "title": "Custom DNS answers exactly the configured data", "statement": "A query for a configured name, or a subdomain of one, is answered with exactly the configured records of the asked type of the most specific configured name; a configured name without records of that type yields an empty answer if filtering of unmapped types is on and is passed on otherwise; other names are passed on.", "quantifier": "every mapping, every question", "why_tests_cant": "All nestings of configured names and all types.", "anchors": ["resolver/custom_dns_resolver.go:CustomDNSResolver.processRequest", "resolver/custom_dns_resolver.go:CustomDNSResolver.processIP", "resolver/custom_dns_resolver.go:CustomDNSResolver.handleReverseDNS"]}
{"id": "C33", "title": "Reverse-lookup names round-trip", "statement": "The address encoded in a reverse-lookup name (in-addr.arpa, ip6.arpa) is recovered exactly for every IPv4 and IPv6 address, and a name is accepted only if it is the reverse name of some address.", "quantifier": "every IPv4 and IPv6 address; every name", "why_tests_cant": "2^128 addresses; all malformed names.", "anchors": ["util/arpa.go:ParseIPFromArpaAddr", "util/arpa.go:parseIPFromArpaV4", "util/arpa.go:parseIPFromArpaV6"]}
{"id": "C34", "title": "Hosts file entries are honoured", "statement": "After loading hosts files, a query for a name listed there (ignoring case) is answered with the listed addresses of the asked family, a reverse query for a listed address is answered with the names listed for it, and nothing else is answered by the hosts file.", "quantifier": "every hosts file content, every query", "why_tests_cant": "All entry combinations (same name in several lines, aliases, loopback filter, letter case).", "anchors": ["resolver/hosts_file_resolver.go:HostsFileResolver.Resolve", "resolver/hosts_file_resolver.go:HostsFileResolver.handleReverseDNS", "resolver/hosts_file_resolver.go:splitHostsFileData.add", "lists/parsers/hosts.go:HostsFileEntry.UnmarshalText"]}
{"id": "C35", "title": "List parsing: comments, blanks and error budget", "statement": "Parsing a list yields, in order, exactly the valid entries of its lines with comments, blank lines and surrounding white space removed; loading is abandoned exactly when more than the allowed number of invalid lines is met.", "quantifier": "every file content, every error limit", "why_tests_cant": "Unbounded inputs and a counter threshold.", "anchors": ["lists/parsers/lines.go:Lines.Next", "lists/parsers/filtererrors.go:filterErrors.Next", "lists/parsers/parser.go:ForEach", "lists/parsers/filtererrors.go:AllowErrors"]}
{"id": "C36", "title": "Query logging never delays or alters answers", "statement": "Enabling query logging changes no answer, never blocks a query, loses log entries only when the queue is full, keeps the order of the entries it keeps, and writes only the configured fields.", "quantifier": "every history of queries and writer progress, every field configuration", "why_tests_cant": "Interleavings of producer and consumer with a bounded queue.", "anchors": ["resolver/query_logging_resolver.go:QueryLoggingResolver.Resolve", "resolver/query_logging_resolver.go:QueryLoggingResolver.createLogEntry", "resolver/query_logging_resolver.go:QueryLoggingResolver.writeLog"]}
{"id": "C37", "title": "Database query log loses nothing", "statement": "Every log entry handed to the database writer is eventually stored exactly once, in batches of at most the bulk size, even if a database write fails temporarily.", "quantifier": "every interleaving of writes and flushes, every pattern of database failures", "why_tests_cant": "Crash/failure points in all positions.", "anchors": ["querylog/database_writer.go:DatabaseWriter.Write", "querylog/database_writer.go:DatabaseWriter.doDBWrite"]}
{"id": "C38", "title": "Redis synchronisation converges without echo", "statement": "An instance never reacts to its own published messages, and after a remote enable/disable message an instance is in the same blocking state as the sender; a cached answer received from another instance is stored like an own one with the transmitted lifetime.", "quantifier": "every sequence of messages between any number of instances", "why_tests_cant": "Distributed histories.", "anchors": ["redis/redis.go:Client.processReceivedMessage", "redis/redis.go:Client.PublishEnabled", "redis/redis.go:convertMessage", "resolver/blocking_resolver.go:BlockingResolver.redisSubscriber"]}
{"id": "C39", "title": "Every query gets exactly one matching response", "statement": "For every DNS query received, the server sends exactly one response, with the query's id and question; a failing or panicking resolver yields SERVFAIL and a query without question yields FORMERR.", "quantifier": "every query, every behaviour of the resolver chain (answers, errors, panics)", "why_tests_cant": "All chain outcomes including panics.", "anchors": ["server/server.go:Server.OnRequest", "server/server.go:Server.handleReq", "server/server.go:Server.resolve", "resolver/fqdn_only_resolver.go:FQDNOnlyResolver.Resolve"]}
{"id": "C40", "title": "Response size fits the transport", "statement": "A response to a UDP query without EDNS0 is limited to 512 bytes, with EDNS0 to the advertised size, and responses over TCP are limited only by the protocol maximum.", "quantifier": "every query (transport, EDNS0 size)", "why_tests_cant": "All advertised sizes and transports.", "anchors": ["server/server.go:getMaxResponseSize"]}
{"id": "C41", "title": "DoH freshness lifetime never exceeds a record's TTL", "statement": "The Cache-Control max-age of a DNS-over-HTTPS response never exceeds the smallest TTL in its answer section.", "quantifier": "every answer section", "why_tests_cant": "All TTL combinations including zero.", "anchors": ["server/server_endpoints.go:getSmallestTTLFromAnswer", "server/server_endpoints.go:httpMsgWriter.WriteMsg"]}
{"id": "C42", "title": "Extended error codes are added faithfully", "statement": "With extended DNS errors enabled, every response carries the error code that corresponds to the way it was produced, and nothing else in the response is changed; disabled, responses are unchanged.", "quantifier": "every response kind and message", "why_tests_cant": "All messages and response kinds.", "anchors": ["resolver/ede_resolver.go:EDEResolver.Resolve", "resolver/ede_resolver.go:EDEResolver.addExtraReasoning", "model/models.go:ResponseType.ToExtendedErrorCode"]}
{"id": "C43", "title": "Filtered query types stop at the door", "statement": "A query of a filtered type is answered with an empty success response and never reaches any other resolver; any other query is passed on unchanged.", "quantifier": "every query type set, every query", "why_tests_cant": "All types and downstream behaviours.", "anchors": ["resolver/filtering_resolver.go:FilteringResolver.Resolve", "config/qtype_set.go:QTypeSet.Contains"]}
{"id": "C44", "title": "UDP/TCP race prefers complete answers", "statement": "When an upstream is asked over UDP and TCP at once, a complete answer is returned if either transport delivers one, a truncated answer only if no complete one arrives, an error only if both fail, independent of the arrival order.", "quantifier": "every pair of outcomes in every arrival order", "why_tests_cant": "Race outcome space.", "anchors": ["resolver/upstream_resolver.go:dnsUpstreamClient.raceClients"]}
{"id": "C45", "title": "Upstream retries are bounded and rotate addresses", "statement": "One upstream query makes at most three attempts, retries only after a timeout, returns the first success or the last error, and tries the upstream's addresses round-robin without ever indexing out of range, even when other queries advance the index concurrently.", "quantifier": "every outcome sequence, every address list, every interleaving of index updates", "why_tests_cant": "Concurrency on the index.", "anchors": ["resolver/upstream_resolver.go:UpstreamResolver.Resolve", "resolver/bootstrap.go:IPSet.Next", "resolver/bootstrap.go:IPSet.Current", "resolver/bootstrap.go:Bootstrap.resolve"]}
{"id": "C46", "title": "Upstream URLs survive printing and parsing", "statement": "Parsing the printed form of an upstream configuration yields the same upstream again (protocol, host, port, path), for every upstream that parsing can produce.", "quantifier": "every upstream value", "why_tests_cant": "All hosts (names, IPv4, IPv6), ports and paths.", "anchors": ["config/upstream.go:Upstream.String", "config/upstream.go:ParseUpstream"]}
{"id": "C47", "title": "Client name resolution precedence", "statement": "The client names attached to a query are: the client id of the request if it has one; otherwise all configured names of its IP if there are any; otherwise the names obtained by reverse lookup reduced to the configured order; otherwise the IP itself.", "quantifier": "every configuration, every request, every reverse-lookup result", "why_tests_cant": "Combination of sources.", "anchors": ["resolver/client_names_resolver.go:ClientNamesResolver.getClientNames", "resolver/client_names_resolver.go:ClientNamesResolver.resolveClientNames", "resolver/client_names_resolver.go:extractClientNamesFromAnswer"]}
{"id": "C48", "title": "Deprecated options never override new ones", "statement": "Migrating a configuration uses the value of a deprecated option exactly when that option is set and its replacement is left at its default; an explicitly set new option is never changed.", "quantifier": "every combination of old and new option values", "why_tests_cant": "All combinations over all options.", "anchors": ["config/migration/migration.go:Migrate", "config/migration/migration.go:Move", "config/blocking.go:Blocking.migrate"]}
{"id": "C49", "title": "Log retention deletes only old logs", "statement": "Cleaning up query log files deletes exactly the log files of days older than the retention period and never a newer log or a foreign file.", "quantifier": "every directory content, every date, every retention period", "why_tests_cant": "Date arithmetic and file-name parsing over all names.", "anchors": ["querylog/file_writer.go:FileWriter.CleanUp"]}
{"id": "C50", "title": "Obfuscated names hide every letter and digit", "statement": "With log privacy on, the logged form of a name or address has the same length and punctuation but contains none of its letters or digits, and obfuscating twice changes nothing more.", "quantifier": "every string", "why_tests_cant": "All strings.", "anchors": ["util/common.go:Obfuscate"]}
{"id": "C51", "title": "Cancellation does not punish slow upstreams; real failures do", "statement": "An upstream's error time is updated exactly when a request to it fails for a reason other than cancellation (because another upstream was faster); a success never changes it.", "quantifier": "every request outcome, every history", "why_tests_cant": "History of outcomes.", "anchors": ["resolver/parallel_best_resolver.go:upstreamResolverStatus.resolve"]}
{"id": "C52", "title": "Resolver chain wiring", "statement": "Queries traverse the configured resolvers in the documented order, each enabled resolver being able to answer or pass on, and the lookups of a resolver by type find it exactly if it is in the chain.", "quantifier": "every list of resolvers", "why_tests_cant": "All chain compositions.", "anchors": ["resolver/resolver.go:Chain", "resolver/resolver.go:GetFromChainWithType", "resolver/resolver.go:ForEach", "server/server.go:createQueryResolver"]}
{"id": "C53", "title": "List entries written with a final dot mean the same name", "statement": "A plain list entry with a final dot (the absolute form of a name, as in zone files) blocks or allows the same queries as the entry without the dot.", "quantifier": "every list, every entry, every query", "why_tests_cant": "All names.", "anchors": ["cache/stringcache/string_caches.go:stringMapFactory.AddEntry", "lists/list_cache.go:ListCache.Match"]}
{"id": "C54", "title": "Aliases to outside names are resolved for the same client", "statement": "A custom DNS alias whose target is not configured is answered with the alias record and the answer the rest of the chain gives the same client for the target, with and without rewrite rules.", "quantifier": "every configuration, every request, every behaviour of the rest of the chain", "why_tests_cant": "Combination of resolvers and configurations.", "anchors": ["resolver/custom_dns_resolver.go:CustomDNSResolver.processCNAME", "resolver/rewriter_resolver.go:NewRewriterResolver"]}
{"id": "C55", "title": "DNS over HTTPS serves the same answers", "statement": "A DoH request carrying a DNS query, by GET or POST, gets exactly one HTTP response containing the DNS response the same client would get over TCP; any other request gets one HTTP error of the 400 range and nothing is resolved.", "quantifier": "every HTTP request, every chain of resolvers", "why_tests_cant": "All encodings and sizes of requests.", "anchors": ["server/server_endpoints.go:Server.dohGetRequestHandler", "server/server_endpoints.go:Server.dohPostRequestHandler", "server/server_endpoints.go:Server.processDohMessage", "server/server.go:newRequestFromHTTP", "server/server.go:extractClientIDFromHost"]}
{"id": "C56", "title": "An upstream's SERVFAIL is a failure", "statement": "A SERVFAIL from an upstream is treated as failure of that upstream, so that the group can ask another one, whatever protocol the upstream uses.", "quantifier": "every upstream protocol, every reply", "why_tests_cant": "Combinations of protocols and replies.", "anchors": ["resolver/upstream_resolver.go:dnsUpstreamClient.callExternal", "resolver/upstream_resolver.go:httpUpstreamClient.callExternal", "resolver/upstream_resolver.go:dnsUpstreamClient.raceClients"]}
{"id": "C57", "title": "Upstream host names are usable if they have an address", "statement": "If the bootstrap DNS yields at least one address of a wanted family for an upstream's host name, the upstream is used with exactly the addresses found; otherwise there is an error.", "quantifier": "every behaviour of the bootstrap DNS for each address family", "why_tests_cant": "Combinations of successes and failures per family.", "anchors": ["resolver/bootstrap.go:Bootstrap.resolve", "resolver/bootstrap.go:Bootstrap.resolveType", "resolver/bootstrap.go:Bootstrap.UpstreamIPs"]}
{"id": "C58", "title": "Query log file names", "statement": "Whatever a client is called, its query log file is a plain name inside the log directory beginning with the day of the query; entries of different days never share a file, entries of one day share one file without per-client logs and have one file per client with them.", "quantifier": "every client name, every date", "why_tests_cant": "All names, including hostile ones.", "anchors": ["querylog/file_writer.go:FileWriter.Write", "querylog/file_writer.go:escape"]}
{"id": "C59", "title": "Query log files can be read back", "statement": "Reading a query log file yields exactly the records written, in order and with all fields, whatever names, reasons and answers contain: no query can add, split or damage a record.", "quantifier": "every list of entries", "why_tests_cant": "All characters in all fields.", "anchors": ["querylog/file_writer.go:createQueryLogRow", "querylog/file_writer.go:createCsvWriter", "querylog/file_writer.go:FileWriter.Write"]}
{"id": "C60", "title": "One matching response from the whole server", "statement": "A query with one question is answered by exactly one message: a reply with the query's id and its question (case of the name aside), whatever the configuration of the resolvers, the content of caches, lists and hosts files, and whatever the upstreams answer.", "quantifier": "every configuration, every state of caches and lists, every upstream that echoes id and question, every query with one question", "why_tests_cant": "The product of all resolvers' configurations and states.", "anchors": ["server/server.go:createQueryResolver", "server/server.go:Server.OnRequest", "server/server.go:Server.resolve", "resolver/rewriter_resolver.go:RewriterResolver.Resolve", "resolver/custom_dns_resolver.go:CustomDNSResolver.processCNAME"]}
{"id": "C61", "title": "Blocked names are blocked whatever is cached", "statement": "A name that the client's lists block and that is not configured locally gets the block answer from the whole server, whatever the cache holds and whatever the upstreams would answer; neither cache nor upstreams are consulted.", "quantifier": "every configuration, every cache content, every upstream, every client", "why_tests_cant": "All cache contents and list contents.", "anchors": ["server/server.go:createQueryResolver", "resolver/blocking_resolver.go:BlockingResolver.Resolve", "resolver/caching_resolver.go:CachingResolver.Resolve"]}
{"id": "C62", "title": "Local names come first, refused types before all", "statement": "A name with records in the custom DNS is answered from these even if the lists block it, it is cached or the upstreams know it otherwise; a query of a filtered type is answered with an empty answer without touching log, caches or upstreams.", "quantifier": "every configuration, every state, every upstream", "why_tests_cant": "All combinations of lists, caches and records.", "anchors": ["server/server.go:createQueryResolver", "resolver/custom_dns_resolver.go:CustomDNSResolver.Resolve", "resolver/filtering_resolver.go:FilteringResolver.Resolve"]}
{"id": "C63", "title": "Upstreams never see more of the client's subnet than configured", "statement": "With the client-subnet resolver not forwarding: without prefix lengths no upstream is ever asked with a client-subnet option; with a prefix length for the client's address family every subnet option an upstream is asked with is that prefix of the client's address. This holds for the whole server, whatever the client sent: caching, blocking, custom DNS, rewriting, conditional upstreams and client names included.", "quantifier": "every configuration of the other resolvers, every state, every message with at most one OPT record, every upstream", "why_tests_cant": "All paths through the chain, and all upstreams, at once (relational statement: behaviour does not depend on what upstreams do with other messages).", "anchors": ["resolver/ecs_resolver.go:ECSResolver.Resolve", "resolver/ecs_resolver.go:ECSResolver.setSubnet", "server/server.go:createQueryResolver"]}
{"id": "C64", "title": "Clients identified by domain names", "statement": "A client identifier that is a domain name stands for exactly the addresses that the name's address look-ups give: a client with one of these addresses is in the identifier's groups, other clients are not; when the look-ups' lifetime is over the addresses are looked up again and the new ones count, and a name that no longer exists stands for nobody.", "quantifier": "every configuration of up to 10000 identifiers, every answers of the look-ups at the start and at every clean-up, every history", "why_tests_cant": "All sequences of answers over time, every number of clean-ups.", "anchors": ["resolver/blocking_resolver.go:BlockingResolver.queryForFQIdentifierIPs", "resolver/blocking_resolver.go:BlockingResolver.initFQDNIPCache", "resolver/blocking_resolver.go:isFQDN", "resolver/blocking_resolver.go:BlockingResolver.groupsToCheckForClient"]}
{"id": "C65", "title": "Durations in the configuration mean what they say", "statement": "A duration in the configuration is a whole number (minutes) or a sequence of decimal numbers with units, with or without a sign; its value is exactly the sum of its parts; every other text is refused; a value that does not fit is refused; and the notation that the deprecation warning recommends for a number without a unit means the same.", "quantifier": "every text", "why_tests_cant": "All texts; the sum, the overflow limits and the rejected texts at once.", "anchors": ["config/duration.go:Duration.UnmarshalText"]}
{"id": "C66", "title": "Disabling blocking on the command line does what was asked", "statement": "`blocking disable` with a duration and groups makes the server disable exactly these groups for exactly this duration: the duration survives printing and parsing, the groups survive joining and splitting; the API refuses every duration it cannot read without touching the blocking.", "quantifier": "every 64 bit duration, every list of group names, every API call", "why_tests_cant": "2^64 durations and all lists of names.", "anchors": ["cmd/blocking.go:disableBlocking", "api/api_interface_impl.go:OpenAPIInterfaceImpl.DisableBlocking"]}
{"id": "C67", "title": "List downloads are retried as configured", "statement": "A download returns the body of the first attempt that is answered with status 200 among the configured number of attempts, and fails with the last error if there is none; it makes no request more than needed or configured, reports every failed attempt once, and keeps the cooldown before every further request.", "quantifier": "every sequence of answers, every number of attempts, every cooldown", "why_tests_cant": "All sequences of failures of any length.", "anchors": ["lists/downloader.go:httpDownloader.DownloadFile", "lists/downloader.go:onDownloadError"]}
{"id": "C68", "title": "First load and periodic refresh", "statement": "The start fails exactly if the strategy is failOnError and the first load fails or panics; except with fast, the first load is complete when the start returns; failing or panicking loads never end the periodic refresh, are logged once each, and the refresh goes on until shutdown and not after it.", "quantifier": "every strategy, period, load function and state, every interleaving of ticks, loads and cancellation", "why_tests_cant": "All interleavings and all sequences of failing loads.", "anchors": ["config/config.go:InitStrategy.Do", "config/config.go:SourceLoading.StartPeriodicRefresh", "config/config.go:SourceLoading.periodically", "config/config.go:recoverToError"]}
{"id": "C69", "title": "Upstream groups after the start", "statement": "The program starts exactly if there is a default group and, with failOnError, every group has an upstream that answers the test query; a group's queries go only to its configured upstreams, in their order, without those that failed the test under failOnError.", "quantifier": "every strategy, every configuration of groups, every outcome of the tests", "why_tests_cant": "All configurations and test outcomes.", "anchors": ["resolver/upstream_tree_resolver.go:NewUpstreamTreeResolver", "resolver/upstream_tree_resolver.go:createUpstreamBranches", "resolver/resolver.go:initGroupResolvers", "resolver/resolver.go:createGroupResolvers", "resolver/upstream_resolver.go:NewUpstreamResolver"]}
{"id": "C70", "title": "Database passwords are not logged", "statement": "The query log target is logged at the start with its password replaced; the password does not occur in the logged text. Targets without user are logged as they are.", "quantifier": "every log type, every user name, password, host, port, database name and parameters", "why_tests_cant": "All passwords and all forms of targets.", "anchors": ["config/query_log.go:QueryLog.censoredTarget", "config/query_log.go:QueryLog.LogConfig"]}
{"id": "C71", "title": "Sources of lists mean what they say", "statement": "A link is downloaded, a file path read, an inline list taken as it is, each exactly as written; the printed form of a source reads as the same source; the description of an inline list is one short line and tells whether something is missing.", "quantifier": "every text, every state of files and network", "why_tests_cant": "All texts.", "anchors": ["config/bytes_source.go:BytesSource.UnmarshalText", "config/bytes_source.go:BytesSource.String", "lists/sourcereader.go:NewSourceOpener"]}
{"id": "C72", "title": "Configured addresses and upstreams are used as written", "statement": "A custom DNS name is answered with exactly the addresses of the asked family in its configuration text, in their order; a text with anything that is no address is refused as a whole; a zone's name has exactly the records the zone gives it; a conditional mapping keeps for every name the upstreams of its text, in order, or is refused as a whole.", "quantifier": "every mapping, zone and query", "why_tests_cant": "All texts and all zones, from the configuration to the answer.", "anchors": ["config/custom_dns.go:CustomDNSEntries.UnmarshalYAML", "config/custom_dns.go:ZoneFileDNS.UnmarshalYAML", "config/custom_dns.go:configToRR", "config/conditional_upstream.go:ConditionalUpstreamMapping.UnmarshalYAML"]}
{"id": "C73", "title": "Listen addresses and subnet prefix lengths", "statement": "A comma separated list of ports and addresses gives one listen address each, a port alone meaning all interfaces; a subnet prefix length is accepted exactly if it is a decimal number within the family's limit.", "quantifier": "every text", "why_tests_cant": "All texts.", "anchors": ["config/config.go:ListenConfig.UnmarshalText", "config/ecs.go:unmarshalInternal"]}
{"id": "C74", "title": "Bootstrap servers need no DNS", "statement": "A bootstrap configuration is accepted exactly if every server can be reached without looking up a name; the addresses used for a server are known, at least one, never looked up, and all addresses given are used; every unusable item is reported with its position.", "quantifier": "every bootstrap configuration, every system and bootstrap resolver", "why_tests_cant": "All configurations of any length.", "anchors": ["resolver/bootstrap.go:newBootstrapedResolvers", "resolver/bootstrap.go:Bootstrap.UpstreamIPs", "resolver/bootstrap.go:Bootstrap.resolveUpstream"]}
{"id": "C75", "title": "HTTP clients are identified by their address", "statement": "A client of DNS over HTTPS or of the API is taken for the host at the other end of its connection, or for the one host a proxy names in X-Forwarded-For; it cannot choose whom it is taken for.", "quantifier": "every header, every peer address (IPv4, IPv6, with zone), every port", "why_tests_cant": "All header texts and addresses.", "anchors": ["util/http.go:HTTPClientIP", "server/server.go:newRequestFromHTTP"]}
{"id": "C76", "title": "API queries are answered like DNS queries", "statement": "A query through the API gets the code and the answer a DNS client at the same address gets over TCP, and has the same effects; where the chain fails it reports an error; an unknown record type is refused without any effect.", "quantifier": "every query, type name, HTTP request, chain of resolvers and state", "why_tests_cant": "All chains and states.", "anchors": ["api/api_interface_impl.go:OpenAPIInterfaceImpl.Query", "server/server_endpoints.go:Server.Query", "util/common.go:AnswerToString"]}
{"id": "C77", "title": "Metrics count every query exactly once", "statement": "Each query counter is the number of queries of that client and type, each response counter the number of responses with that reason, code and type, the error counter the number of failures; at any time results are at most queries, the difference being requests in progress; results are passed on unchanged.", "quantifier": "any number of concurrent requests, every interleaving of their updates", "why_tests_cant": "All interleavings of any number of handlers.", "anchors": ["resolver/metrics_resolver.go:MetricsResolver.Resolve", "server/server.go:createQueryResolver"]}
{"id": "C78", "title": "Gauges show the current state", "statement": "The blocking gauge is 1 exactly while blocking is enabled; the cache gauge is the number of entries in the cache.", "quantifier": "every history of enabling, disabling, timers, insertions, look-ups, expiries and flushes; concurrent insertions", "why_tests_cant": "All histories and interleavings.", "anchors": ["metrics/metrics_event_publisher.go:registerBlockingEventListeners", "metrics/metrics_event_publisher.go:registerCachingEventListeners", "cache/expirationcache/expiration_cache.go:ExpiringLRUCache.Put", "resolver/caching_resolver.go:CachingResolver.FlushCaches"]}
{"id": "C79", "title": "CLI commands reach the API of the configured server", "statement": "If the first HTTP listener of the configuration is host:port, the commands (query, blocking, lists, cache) connect to exactly this host and port; without one they use --apiHost and --apiPort.", "quantifier": "for all listen addresses, flags and further listeners", "why_tests_cant": "Tests use one IPv4 listener; the set of listen addresses (names, IPv4, IPv6, empty host) and flag combinations is unbounded.", "anchors": ["cmd/root.go:64", "cmd/root.go:73"]}
{"id": "C80", "title": "The configuration is exactly what the chosen file or directory contains", "statement": "The path comes from --config, else BLOCKY_CONFIG_FILE, else CONFIG_FILE, else the default. A directory contributes each of its YAML files (also in subdirectories) once, in path order, each starting on a new line, and nothing else; it is refused iff one of them cannot be read. A missing path is an error for the server. `validate` accepts exactly what the server loads.", "quantifier": "for all directory trees, paths and environments", "why_tests_cant": "Tests use a few fixed directories; trees of any depth with unreadable, linked and special files cannot be enumerated.", "anchors": ["config/config.go:449", "config/config.go:504", "cmd/root.go:73", "cmd/validate.go:23"]}
{"id": "C81", "title": "Logging and metrics are invisible to clients", "statement": "Whatever is configured for the query log and for metrics, whatever the log's queue holds and whatever its clock says, a query gets the same messages in reply and leaves the caches and upstreams in the same state; only the queue of the log differs.", "quantifier": "every message (also malformed), every configuration and state of the rest of the server, every two settings of query log and metrics, every content of the queue", "why_tests_cant": "A test compares single answers with logging on and off; this is about every query through the whole chain, including all the errors, panics and aliases inside.", "anchors": ["server/server.go:315", "resolver/query_logging_resolver.go:137", "resolver/metrics_resolver.go:33"]}
{"id": "C82", "title": "Names without configuration get the upstream's answer", "statement": "A query for a name about which nothing is configured (no filter, local record, list entry, zone, special use or rewriting) and which is not in the cache leads to exactly one upstream query, and the client gets that answer: same code, flags, sections and records in order, only TTLs clamped to the configured bounds and extended errors added; an upstream error is handed on.", "quantifier": "every request with one question, every configuration and state, every upstream and answer without denied content", "why_tests_cant": "Every resolver of the chain has its own tests with a mocked neighbour; that together they add or lose nothing for any answer is not testable by examples.", "anchors": ["server/server.go:315", "resolver/caching_resolver.go:180", "resolver/blocking_resolver.go:375", "resolver/conditional_upstream_resolver.go:84"]}
{"id": "C83", "title": "Names of private zones are not sent to the default upstreams", "statement": "A query for a name in a zone with conditional upstreams, or for a special-use name, is never sent to the default upstreams: neither directly nor through aliases, rewriting, retries or refreshing of the cache.", "quantifier": "every message, every configuration and state of the rest of the server, every two behaviours of the default upstreams", "why_tests_cant": "Absence of a leak on all paths (aliases, fallbacks, cache refresh) cannot be shown by tests of single queries.", "anchors": ["resolver/conditional_upstream_resolver.go:53", "resolver/rewriter_resolver.go:60", "resolver/sudn_resolver.go:107", "server/server.go:315"]}
{"id": "C84", "title": "Publishing answers to redis does not hold up queries", "statement": "Sharing answers through redis publishes every obtained answer once and in order, and a query gets its reply whether or not redis works; with an optional redis that is not usable the server works as without redis.", "quantifier": "every sequence of queries and every speed of redis, every outcome of the connection at the start", "why_tests_cant": "Needs a redis that misbehaves in a particular way at the start and more than a thousand queries afterwards.", "anchors": ["redis/redis.go:67", "redis/redis.go:128", "redis/redis.go:180", "server/server.go:131", "resolver/caching_resolver.go:295"]}
{"id": "C85", "title": "Redis and its sentinels get the configured credentials", "statement": "The connection to redis is made to the configured address with the configured user name, password and database, and that to the sentinels with the user name and password configured for them.", "quantifier": "every configuration of redis", "why_tests_cant": "Needs a sentinel with users of its own; tests use a redis mock without access control.", "anchors": ["redis/redis.go:73", "config/redis.go:8"]}
{"id": "C86", "title": "Encrypted upstreams are talked to over TLS only", "statement": "A query for an upstream configured with tcp-tls or https only ever leaves over TLS 1.2 or later, to a server whose certificate is checked for the name after '#' or else the upstream's host; DNS over HTTPS answers are used only with status 200, the DNS content type and a well-formed body; at most ten requests are made per query; the server's own TLS listeners never accept versions before 1.2.", "quantifier": "every upstream definition, address and query, every behaviour of HTTP servers including redirections, every configured TLS version", "why_tests_cant": "Servers that redirect, and names given in several places.", "anchors": ["resolver/upstream_resolver.go:createUpstreamClient", "resolver/upstream_resolver.go:httpUpstreamClient.callExternal", "resolver/upstream_resolver.go:httpUpstreamClient.fmtURL", "config/config.go:TLSVersion.validate", "server/server.go:newTLSConfig"]}
{"id": "C87", "title": "DNS ports hand exactly the proper queries to the resolvers", "statement": "A message received on a DNS port is ignored if it is a response, rejected with an error code if it is not a query with one question, answered at once without asking the resolvers if it is for the health-check name or one below it, and otherwise resolved; every message that is not a response gets exactly one reply with its id.", "quantifier": "every message (any header, counts and contents, also cut short), every state of the server", "why_tests_cant": "Malformed messages and escapes in names.", "anchors": ["server/server.go:Server.registerDNSHandlers", "server/server.go:Server.OnHealthCheck", "server/server.go:createUDPServer", "server/server.go:createTCPServer", "server/server.go:createTLSServer"]}
{"id": "C88", "title": "A repeated query is answered from the cache", "statement": "Once a query's answer went through the cache, every later query for the same type and name, in any letter case and from any client for which nothing before the cache decides, is answered from the cache until the answer's lifetime is over, as long as the entry is not replaced and fewer other names than the cache holds were used; it gets its own id and question, the same code and records and TTLs lowered by the time passed, and no upstream is asked.", "quantifier": "every first and second query, every configuration of the other resolvers, every use of the cache in between and every passing of time", "why_tests_cant": "Needs every history of cache uses between two queries, in particular which entry is evicted, and the composition of all resolvers.", "anchors": ["resolver/caching_resolver.go:173", "resolver/caching_resolver.go:252", "cache/expirationcache/expiration_cache.go:98", "server/server.go:315"]}
{"id": "C89", "title": "Cleaning up the cache never deletes live entries", "statement": "However the steps of the background clean-up are interleaved with uses of the cache, a lookup returns the last stored value, the clean-up deletes only entries whose lifetime is over, entries that were expired when it started are gone when it is finished, and it finishes after a number of steps bounded by the number of entries.", "quantifier": "every interleaving of stores, lookups, flushes, passing time and clean-up steps, every answer of the reload function", "why_tests_cant": "A deletion of a fresh entry needs a query to arrive while the clean-up waits for an upstream.", "anchors": ["cache/expirationcache/expiration_cache.go:113", "cache/expirationcache/expiration_cache.go:143", "cache/expirationcache/prefetching_cache.go:73"]}
{"id": "C90", "title": "The server process starts completely and ends gracefully", "statement": "The server starts exactly if a needed certificate is available and all HTTP addresses can be bound; it listens on all configured addresses and no others; it ends with code 0 only after a signal and with code 1 only after a listener failed; after either it does end; at an end with code 0 every query taken before has been answered.", "quantifier": "every configuration of ports and certificates, every outcome of binding, every order of starts, failures, queries, answers and signals", "why_tests_cant": "Signals would have to arrive at every moment of start and shutdown, with queries under way on every kind of listener.", "anchors": ["server/server.go:NewServer", "server/server.go:Server.Start", "server/server.go:Server.Stop", "server/http.go:httpServer.Serve", "cmd/serve.go:startServer"]}
{"id": "C91", "title": "The size reported for a list group is the number of its entries", "statement": "After any history of list loads, the number of entries reported for a group (in the log and the blocky_denylist_cache_entries metrics) is the number of different usable entries of the group's current list; a group reported as empty matches no name.", "quantifier": "every history of completed loads of any groups with any entries, every regular expression engine", "why_tests_cant": "Depends on duplicates in different spellings across sources and kinds of entries and on reloads.", "anchors": ["cache/stringcache/string_caches.go:29", "cache/stringcache/in_memory_grouped_cache.go:34", "cache/stringcache/chained_grouped_cache.go:19", "lists/list_cache.go:141"]}
{"id": "C92", "title": "A flush empties the cache for good", "statement": "After the cache was flushed, no answer obtained from an upstream before the flush is served from the cache; answers served for a question never go back to one obtained earlier than an answer served before.", "quantifier": "every interleaving of any number of queries, reloads, stores, clean-ups, flushes and passing time, every answer", "why_tests_cant": "Needs a flush between the arrival of an answer and its storing, a window of microseconds.", "anchors": ["resolver/caching_resolver.go:178", "resolver/caching_resolver.go:272", "resolver/caching_resolver.go:340", "api/api_interface_impl.go:185"]}
{"id": "C93", "title": "Commands do what they say and end with 0 exactly if it was done", "statement": "A command given to `blocky` (blocking enable/disable/status, lists refresh, cache flush, query, healthcheck) reaches the API of the configured server; the server does what the words and flags ask for; the exit code is 0 if and only if the server did it; what `blocking status` and `query` print is what the server has, including the time left of a temporary disabling.", "quantifier": "for all words, flags, configurations, server states and replies", "why_tests_cant": "Tests call each command with one mocked reply; words that are no command, other addresses, other servers, all durations and all states of blocking are out of their reach.", "anchors": ["cmd/root.go:32", "cmd/blocking.go:50", "cmd/lists.go:24", "cmd/query.go:29", "cmd/healthcheck.go:29", "api/api_interface_impl.go:90", "api/api_server.gen.go:307"]}
{"id": "C94", "title": "The query log goes where it is configured to go, and is kept as long as configured", "statement": "If the configured query log writer can be created within `creationAttempts` attempts, `creationCooldown` apart, every entry goes to it; otherwise entries go to the console; blocky starts in both cases. Without a retention time no entry of a database is ever deleted; with one exactly the entries older than it are. A console line has exactly the fields of the entry that are not empty.", "quantifier": "for all configurations, all sequences of failing and succeeding attempts, all times at which the database becomes reachable, all runs of storing, clean-ups and policies of the database", "why_tests_cant": "Tests use an in-memory database or a mock that fails every time; days of retention, databases that come up late, real Timescale policies and extreme values are not reachable in a test run.", "anchors": ["resolver/query_logging_resolver.go:37", "resolver/query_logging_resolver.go:66", "querylog/database_writer.go:60", "querylog/database_writer.go:93", "querylog/database_writer.go:187", "querylog/logger_writer.go:32", "querylog/file_writer.go:31"]}
{"id": "C95", "title": "How long a query waits for upstreams", "statement": "The result of a query that needs upstreams is there within a time given by the configuration: per upstream one attempt takes at most upstreams.timeout, an upstream is given up after at most four times that (one lookup of its host, three attempts) and 2 ms, a parallel_best group likewise, random after twice that, strict after that per upstream, and no query outlives a hundred times upstreams.timeout. An upstream that answers before upstreams.timeout has passed is heard, and with parallel_best a dead second upstream does not delay the answer.", "quantifier": "for all behaviours of the servers over time (when connections come up or are refused, when which reply comes), all lists of upstreams and addresses, all strategies, all values of the time-out, all starting moments", "why_tests_cant": "Tests use servers that answer at once or mock a fixed delay; worst cases need combinations of silent servers, several addresses, retries, races of two protocols and contexts that end, for every value of a duration - and minutes of waiting per case.", "anchors": ["resolver/upstream_resolver.go:213-268", "resolver/upstream_resolver.go:328-380", "resolver/bootstrap.go:140-155", "resolver/parallel_best_resolver.go:151-229", "resolver/strict_resolver.go:75-99", "server/server.go:524-537"]}
{"id": "C96", "title": "The HTTP server answers its own users, in time, and nobody else", "statement": "The HTTP server adds only headers to what the handlers answer (security headers exactly over TLS), requests of browsers for permission reach no handler, web pages of other origins cannot control the server or read its answers, every request that is handled gets its reply, and the timeouts of list downloads concern list downloads.", "quantifier": "all requests (method, origin, headers, TLS), all handlers and states, all configured timeouts, all arrival times and handler durations", "why_tests_cant": "Tests check that CORS headers are present and that endpoints answer; they do not run a browser's decision procedure, nor requests that take longer than a timeout.", "anchors": ["server/http.go:19-99", "config/config.go:407-414", "api/api_server.gen.go:626-650", "lists/downloader.go:46-112", "docs/configuration.md:931-938"]}
{"id": "C97", "title": "Log privacy", "statement": "With log.privacy on, the lines blocky logs while it answers a query show the names asked for and the answers only with letters and digits replaced: the lines are the same for every other name of the same shape that is treated alike. With the default level, a query leaves no line of the resolvers at all.", "quantifier": "every configuration, query and answer; every pair of names of the same shape", "why_tests_cant": "Tests look at single lines of single resolvers; a name shows only in the lines of the branch taken, for example after a failed prefetch.", "anchors": ["resolver/blocking_resolver.go:364-425", "resolver/custom_dns_resolver.go:136-140", "resolver/caching_resolver.go:126-151", "server/server.go:445-512", "cache/stringcache/string_caches.go:39-147", "util/common.go:34-72", "docs/configuration.md:57"]}
{"id": "C98", "title": "Letter case of names", "statement": "DNS names are compared without regard to letter case: asking for a name in other letter case, at any point of any history of queries, changes no answer but for the letter case of names in it - neither lists, custom DNS, hosts files, conditional upstreams, filters nor cached answers treat the two differently.", "quantifier": "every configuration, every history of queries of any clients with time passing and cache clean-ups, every change of letter case in it, every upstream that itself ignores letter case", "why_tests_cant": "Every resolver normalises names on its own; tests try one upper-case name per resolver, never a whole chain, and never what the cache keeps after it.", "anchors": ["util/common.go:75-79", "resolver/caching_resolver.go:183-190", "resolver/sudn_resolver.go:131-175", "resolver/custom_dns_resolver.go:105-190", "resolver/hosts_file_resolver.go:60-130", "resolver/conditional_upstream_resolver.go:80-160", "resolver/rewriter_resolver.go:60-130"]}
{"id": "C99", "title": "Map iteration order does not show", "statement": "Go iterates over maps in random order. Nevertheless two servers started with the same configuration give the same answers to the same queries, make the same upstream queries and write the same log entries, and one server answers the same query in the same situation always alike - provided the configuration is unambiguous: no two rewriting rules apply to the same name, no address belongs to two clients, two hosts of the hosts files or two custom names, and no custom name or conditional zone is configured twice in different spelling. The groups that apply to a client never depend on the order.", "quantifier": "For all configurations, all iteration orders of all maps (a new one for every query), all upstreams, all worlds and all sequences of queries.", "why_tests_cant": "Go randomises map iteration: a test sees one order per run, so a dependence on the order shows up as a flaky test at best.", "anchors": ["resolver/rewriter_resolver.go:28-46", "resolver/rewriter_resolver.go:154-164", "resolver/custom_dns_resolver.go:33-68", "resolver/hosts_file_resolver.go:87-104", "resolver/blocking_resolver.go:98-113", "resolver/blocking_resolver.go:461-514", "resolver/conditional_upstream_resolver.go:26-41", "resolver/client_names_resolver.go:148-158"]}
{"id": "C100", "title": "Clients are served by the upstreams of their own group", "statement": "A client of an upstream group (by name, address or subnet) is answered with data of that group's upstreams only: exchanging the upstreams of other groups changes no answer to it, whatever other clients ask in between. Holds for every single query from any state, and for whole histories with caching disabled. False with the answer cache, with prefetching, and for custom aliases if the group is given by client name.", "quantifier": "For all configurations, upstream groups, clients, queries, states and - without answer cache - all histories of queries of clients of all groups, passing time and clean-ups.", "why_tests_cant": "Quantifies over all upstreams of the other groups and all interleavings of clients (non-interference); a test has one upstream per group and one order of queries.", "anchors": ["resolver/upstream_tree_resolver.go:106-158", "resolver/caching_resolver.go:126-151", "resolver/caching_resolver.go:181-236", "resolver/custom_dns_resolver.go:247-287", "docs/configuration.md:124-153", "server/server.go:315-330"]}
{"id": "C101", "title": "Answers kept in redis do not outlive their TTL over a restart", "statement": "Instances put their cached answers into redis, and a server that starts fills its cache from there. Every cached answer that came this way is one that was given to redis under the same key with the same records, and it expires when the TTLs it had then are over (within half a second, the rounding of redis). A question whose answer was loaded is answered from the cache without asking upstreams, with the original data and TTLs of the time that is left. Other keys in redis are ignored.", "quantifier": "for all histories of answers put into redis by any instances, passing time, and loads of any keys in any order with any delay between the commands GET and TTL, all questions, answers and TTLs", "why_tests_cant": "The tests run against an in-memory redis whose clock stands still; that entries are loaded shortly before their expiry, or expire between two commands, depends on timing no test arranges.", "anchors": ["redis/redis.go:155-179", "redis/redis.go:211-231", "redis/redis.go:278-326", "redis/redis.go:343-351", "resolver/caching_resolver.go:153-169"]}
{"id": "C102", "title": "Lists act on the clients of their own groups, and only while enabled", "statement": "What a client is answered depends on the lists of the groups in effect for it only: whatever is loaded, refreshed, disabled or enabled for other groups changes none of its answers. While blocking is disabled, the server answers as if there were no lists. New entries on denylists only block, new entries on allowlists only unblock, disabling groups only unblocks.", "quantifier": "for all configurations, list contents and histories of queries of the clients concerned (with caching, aliases, rewriting, logging), all upstreams and world states", "why_tests_cant": "A two-run property: it compares a server with every other server that differs in lists the client has nothing to do with. Tests look at one set-up of lists at a time.", "anchors": ["resolver/blocking_resolver.go:399-429", "resolver/blocking_resolver.go:460-524", "lists/list_cache.go:106-109"]}
{"id": "C103", "title": "Every record in an answer has an origin", "statement": "Whatever happened before (queries of other clients, passing time, cleaning up, prefetching), the data of every record a client gets were given by an upstream that was asked for this name and type, or for a name it leads to by configured rewriting or aliases; or by a custom record or the hosts file entry of such a name; or are the configured sink address of blocked names or the address of localhost. In particular, without rewriting and aliases, what an upstream answers for one name never shows in answers for another one. (For messages of one question.)", "quantifier": "for all configurations, upstreams, world states and histories of events that begin with an empty cache, all clients and queries", "why_tests_cant": "A statement about all sources an answer may have had, over all histories. Tests check that the expected record is there for a few set-ups, not that nothing else can get in through cache keys, prefetching, alias chasing or rewriting back.", "anchors": ["server/server.go:315-330", "resolver/caching_resolver.go:126-221", "resolver/custom_dns_resolver.go:120-283", "resolver/rewriter_resolver.go:52-110", "resolver/hosts_file_resolver.go:80-170", "resolver/sudn_resolver.go:60-130"]}
{"id": "C104", "title": "Answers are of the kind asked for: class, signatures, EDNS", "statement": "A client that sets the DO bit gets the signatures its upstream has for the name, one that does not gets none; answers are of the class asked for; the upstream gets a query of the client's opcode, flags, class and DO bit; EDNS data are sent to the clients that sent some. What other clients asked for before makes no difference.", "quantifier": "for all queries with all flags, classes and EDNS data, all upstreams, configurations and histories", "why_tests_cant": "Tests query class IN without EDNS data, against an empty cache or one filled by the same kind of query.", "anchors": ["resolver/caching_resolver.go:126-221", "resolver/caching_resolver.go:272-300", "util/common.go:186-204", "resolver/ecs_resolver.go:51-77", "util/edns0.go:18-128", "resolver/ede_resolver.go:36-60"]}
{"id": "C105", "title": "Downloads connect to the addresses the bootstrap servers give", "statement": "With bootstrap servers configured, a connection for a download goes to the port asked for, at the host itself if that is an address, and otherwise at an address of a configured family that the bootstrap servers gave for the host, no longer ago than the record's TTL; every address they know may be chosen, and there is a connection whenever they know one. Without bootstrap servers the connection is left to the system. Dialing never crashes.", "quantifier": "every configuration, every behaviour of the bootstrap servers, every history of lookups, clean-ups and passing time, every random choice", "why_tests_cant": "Needs histories of lookups over hours with servers changing their answers, and every combination of families, filters and networks.", "anchors": ["resolver/bootstrap.go:Bootstrap.dialContext", "resolver/bootstrap.go:NewBootstrap", "resolver/bootstrap.go:Bootstrap.resolve", "config/caching.go:Caching.EnablePrefetch"]}
{"id": "C106", "title": "Every page of the HTTP server is found at its own address, and only there", "statement": "For every method and path, the router of the HTTP(S) server hands the request to the handler that the documentation puts there (the six REST operations under /api, the profiler below /debug, the OpenAPI document, the built-in assets below /static/, the index page, DNS over HTTPS at /dns-query with an optional client id, the metrics at prometheus.path), to no other handler, and answers 404 where no method has a page and 405 where only other methods have one. Every link of the index page leads to the page of its title. The value of prometheus.path does not take away another page and does not keep the server from starting.", "quantifier": "All methods, all paths, all values of prometheus.enable and prometheus.path (without '{').", "why_tests_cant": "Tests ask for a few addresses with the default path of the metrics; the claim is about every address and every configured path, and the order of the registrations decides which handler wins.", "anchors": ["server/server_endpoints.go:56-65", "server/server_endpoints.go:175-268", "metrics/metrics.go:21-28", "api/api_server.gen.go:306-323"]}
{"id": "C107", "title": "Goroutines that lost the race do no harm", "statement": "When several upstreams are asked at once for a query that was rewritten for conditional forwarding, then whatever the order in which the goroutines run, also after the query was answered: upstreams behind the rewriter are sent the rewritten query only, the others the query as it came only; once the answer is chosen no upstream of that group is sent anything more; a goroutine sends at most three messages (six if it asks over UDP and TCP at once); and every goroutine comes to its end by itself, without anybody reading its result.", "quantifier": "All interleavings of any number of goroutines, all numbers of upstreams, all timeouts, errors and answers, all lengths of the execution.", "why_tests_cant": "It depends on the order of steps of several goroutines, in particular of those that go on after the test has its answer.", "anchors": ["resolver/parallel_best_resolver.go:67-87", "resolver/parallel_best_resolver.go:150-215", "resolver/strict_resolver.go:75-99", "resolver/upstream_resolver.go:193-262", "resolver/upstream_resolver.go:327-381", "resolver/rewriter_resolver.go:59-134"]}
{"id": "C108", "title": "The printed configuration shows what is on and no secrets", "statement": "The configuration that is logged at the start and on SIGUSR1 has a section for each resolver of the chain that is enabled, and for no other, in the order in which queries pass them; every list source, hosts file, upstream and conditional mapping in use has its line. It does not depend on passwords. It leaves lines of other goroutines, during and after the printing, as they are.", "quantifier": "for all configurations, both log formats, and all interleavings of the printing with lines that other goroutines log", "why_tests_cant": "Tests check that LogConfig methods log something; no test prints a whole configuration, compares outputs for two passwords, or logs from another goroutine while the indenting hook is installed.", "anchors": ["server/server.go:347-380", "log/logger.go:145-190", "resolver/resolver.go:146-171", "config/redis.go:27-50", "config/query_log.go:40-77", "config/blocking.go:58-93", "config/upstreams.go:36-91", "resolver/rewriter_resolver.go:28-57"]}
{"id": "C109", "title": "Nothing that clients, upstreams or other instances send ends the process", "statement": "Whatever queries clients send, whatever upstreams answer, and whatever other instances publish or keep in redis, the process goes on: each query is answered by one message, panics while handling it are recovered, and the periodic clean-up of the answer cache, which runs unrecovered and asks for expiring entries again, never panics.", "quantifier": "for all configurations (changing over time), histories of queries, clean-ups, redis messages, loaded keys and flushes, and all behaviours of upstreams that answer or fail", "why_tests_cant": "Tests never put foreign keys into the cache and let them expire with prefetching on; the panic needs a key no query has, threshold 0 and an expired entry.", "anchors": ["server/server.go:524-570", "cache/expirationcache/prefetching_cache.go:63-88", "cache/expirationcache/expiration_cache.go:113-141", "resolver/caching_resolver.go:126-169", "util/common.go:197-204", "redis/redis.go:234-326"]}
{"id": "C110", "title": "Upstreams are asked only what clients asked for", "statement": "Every question sent to an upstream while a query is handled stems from the questions of this query: same type, and the name is the client's name (up to case), rewritten or replaced by an alias only as configured. What is sent upstream when cached answers expire stems in the same way from questions that clients have asked here or at another instance sharing the redis. Nothing else makes the server ask an upstream, and without prefetching nothing is asked unless a client asks.", "quantifier": "for all configurations (changing over time), states of the caches, messages with any number of questions, and histories of queries, clean-ups, redis messages, loaded keys and flushes", "why_tests_cant": "Tests look at single resolvers with a mock behind them; none follows a question through rewriting, aliases, cache keys, JSON and prefetching of another instance up to the upstream.", "anchors": ["resolver/rewriter_resolver.go:75-160", "resolver/custom_dns_resolver.go:176-340", "resolver/conditional_upstream_resolver.go:53-120", "resolver/caching_resolver.go:126-205", "util/common.go:184-204", "redis/redis.go:211-231"]}
{"id": "C111", "title": "Words of the configuration mean what they say", "statement": "Each enumerated setting takes exactly its documented words, letter by letter; any other text is refused and changes nothing; a value is printed as the word it is read from. Each word selects the behaviour it names: strategies of all groups of upstreams, IP versions, least TLS version, query log type and fields, loading strategy, filtered query types, format and times of the log.", "quantifier": "for all texts and lists of texts, all values (also invalid ones), all earlier values of the setting", "why_tests_cant": "Tests read a few sample files; they check neither the words that must be refused, nor that the three generated tables agree, nor the combinations of a strategy with the other places where upstreams are used.", "anchors": ["config/config_enum.go:14-663", "config/bytes_source_enum.go:14-101", "log/logger_enum.go:14-86", "model/models_enum.go:14-202", "config/config.go:58-149", "config/qtype_set.go:24-76", "resolver/upstream_tree_resolver.go:54-91", "resolver/conditional_upstream_resolver.go:26-50", "resolver/parallel_best_resolver.go:107-130", "log/logger.go:92-123"]}
{"id": "C112", "title": "One query of a client makes a bounded number of upstream queries", "statement": "For a client's message the upstream groups are asked at most once for each question in it and once for each target of an alias reachable from the name; with conditional rewriting and fallbackUpstream twice. A plain query (one question, no aliases, no fallback) is passed on at most once. When expired answers are cleaned up, at most one query is made per expired answer, and none without prefetching. So a server without aliases and prefetching never sends more queries than its clients asked questions, whatever else happens.", "quantifier": "for all messages with any number of questions, configurations (changing over time), states of the caches, upstreams, and histories of queries, clean-ups, redis messages, loaded keys and flushes", "why_tests_cant": "Tests count calls of a mock for single resolvers and single queries; none composes loops over questions, recursion over aliases and fallbacks, where the factors multiply.", "anchors": ["resolver/caching_resolver.go:140-215", "resolver/custom_dns_resolver.go:108-340", "resolver/rewriter_resolver.go:60-118", "resolver/conditional_upstream_resolver.go:66-133", "cache/expirationcache/expiration_cache.go:113-141"]}
{"id": "C113", "title": "Settings that are left out have their documented defaults", "statement": "For every configuration file that is accepted, every setting the file gives a value has that value; every setting the file does not give a value has the default of the documentation, whatever else the file contains and whether or not the sections around it are mentioned; a file is refused exactly if a value is not taken by its setting, a section is not a mapping, or a key comes twice or is unknown.", "quantifier": "All documents (any nesting of mappings, lists, texts and empty nodes), all settings, all rules of which texts a setting takes.", "why_tests_cant": "Tests load a handful of files. They check defaults of sections that are absent, not of sections that are named but empty, and no test can go through all combinations of sections and settings.", "anchors": ["config/config.go:224", "config/config.go:422", "config/config.go:448", "config/config.go:553", "config/config.go:602", "config/sudn.go:8", "docs/configuration.md:903"]}
{"id": "C114", "title": "What is kept in memory for queries is bounded by the configuration", "statement": "However many queries arrive, with whatever names and from whatever clients, and whatever upstreams, redis and other instances deliver: the number of answers in the cache never exceeds caching.maxItemsCount, the number of query counters never exceeds caching.prefetchMaxItemsCount (10000 each where that is 0), the names of at most 10000 clients are kept, and at most 1000 entries wait for the writer of the query log, however slow it is; a configured 0 means unlimited; nothing else that is kept grows with the number of queries.", "quantifier": "all histories of queries, messages, clean-ups and log writes; all upstream behaviour; all configured limits", "why_tests_cant": "Tests fill one small cache; memory growth needs many distinct clients or names over a long time, and the limit of 10000 is only reached by large tests.", "anchors": ["cache/expirationcache/expiration_cache.go:58-79", "cache/expirationcache/prefetching_cache.go:90-98", "resolver/query_logging_resolver.go:157-161", "resolver/client_names_resolver.go:72-95", "resolver/metrics_resolver.go:36-41", "querylog/database_writer.go:182-185", "docs/configuration.md:610-614"]}
{"id": "C115", "title": "The metrics of the answer cache count what they are named after", "statement": "With prometheus enabled, blocky_cache_hits_total and blocky_cache_misses_total are the numbers of lookups of cached answers that found, and did not find, an answer; blocky_prefetches_total is the number of expired answers fetched again by prefetching; blocky_prefetch_hits_total is the number of lookups that found an answer whose latest version had been put there by prefetching. Only lookups for queries of clients count, and the metrics have the names given in the documentation.", "quantifier": "all histories of both answer caches (the server's and the bootstrap's): lookups, answers stored, clean-ups with any results of fetching again, flushes, any passing of time; all cache configurations", "why_tests_cant": "Tests look at single callbacks; that the marks of prefetched entries survive every interleaving of lookups, evictions, stores, reloads and flushes, and that no other cache counts as well, is about all histories.", "anchors": ["resolver/caching_resolver.go:86-123", "cache/expirationcache/prefetching_cache.go:63-126", "cache/expirationcache/expiration_cache.go:113-174", "metrics/metrics_event_publisher.go:117-192", "resolver/bootstrap.go:102-107", "docs/prometheus_grafana.md:11-28"]}
{"id": "C116", "title": "A client cannot tell what others asked", "statement": "With upstreams that answer by what they are asked alone, the messages a client gets for a query do not depend on what happened before: not on queries of other clients, not on messages from other instances, not on earlier lists and settings.", "quantifier": "all configurations, all pairs of histories (queries, waiting, cleaning up, redis messages, reloads, flushes), all queries", "why_tests_cant": "It is a statement about two executions at a time, and about every state the server's memory (answer cache, client names, log queue) can be in; a test compares a few.", "anchors": ["server/server.go:498-522", "resolver/caching_resolver.go:180-221", "resolver/client_names_resolver.go:72-95"]}
{"id": "C117", "title": "Loading lists is limited, ends, and always gives the same lists", "statement": "However the goroutines that download and parse sources are scheduled: never more than `loading.concurrency` sources are worked on at a time; the loading never gets stuck and ends; every group gets exactly the entries of its sources; and a failing source gives the group an error.", "quantifier": "every number of groups and sources, all contents, every limit and channel size greater than 0, every schedule of producers and consumers, every point at which a failure of one source stops others", "why_tests_cant": "The outcome has to be the same for all interleavings of any number of goroutines with bounded channels; tests run one schedule, with few small lists, and a deadlock or a lost entry needs the right one.", "anchors": ["lists/list_cache.go:116-216", "lists/list_cache.go:219-279", "resolver/hosts_file_resolver.go:158-210", "lists/parsers/parser.go:33-57"]}
{"id": "C118", "title": "What is configured for some names does not affect others", "statement": "Adding, changing or removing custom DNS entries, hosts and conditional upstreams for some zones changes nothing for names outside of these zones: queries for them (other than reverse lookups) get the same answers, cause the same questions to upstreams in the same order, and leave cache, query log and all other state as they would be without the change - in whole histories with passing time, clean-ups, messages from redis and flushes. Aliases and rewrite rules, which are the same in both configurations, may be used as long as they do not lead into the zones.", "quantifier": "for all sets of zones, pairs of configurations that differ for these zones only, histories of queries for names outside, time, clean-ups without prefetching, redis messages and flushes, and all states and upstreams", "why_tests_cant": "a statement about pairs of executions, for every pair of configurations and every name outside", "anchors": ["resolver/custom_dns_resolver.go:85", "resolver/hosts_file_resolver.go:113", "resolver/conditional_upstream_resolver.go:53", "resolver/rewriter_resolver.go:60"]}
{"id": "C119", "title": "Denylists only block, allowlists only allow, and other entries do not matter", "statement": "With more entries on denylists, every query is answered as before or blocked, and what was blocked stays blocked with the same answer. With more entries on allowlists, every query gets the answer of the resolvers behind the blocking or is blocked as it was before. And if lists change in entries that match neither the name asked for nor an address or alias in the answer, the query is answered as before, asking upstreams as before.", "quantifier": "for all pairs of contents of lists (after any refreshes), requests with any questions, groups, client assignments, block types, answers of the next resolver", "why_tests_cant": "a statement about pairs of list contents, for every query and answer", "anchors": ["resolver/blocking_resolver.go:364", "resolver/blocking_resolver.go:399", "lists/list_cache.go:107"]}
{"id": "C120", "title": "The answer cache is not noticed, but for TTLs", "statement": "Whatever was asked before by whatever clients - with time passing, prefetching, clean-ups, flushes, and with lists, custom DNS, hosts files and cache settings changing meanwhile - a server with answer cache answers every query like the same server without cache that was just started: same response code and same records, but for TTLs and letter case, cut off at the same size. So the cache makes nothing blocked or unblocked, gives no answer for another name or type, and does not keep what lists, custom DNS or hosts files said. Supposed is that upstreams are steady: they answer the same question the same way whoever asks, whenever.", "quantifier": "for all configurations of the whole chain, steady upstreams, histories of any length of queries with one question, time, clean-ups with prefetching and flushes, and all queries", "why_tests_cant": "a statement about pairs of servers after every history; tests compare single answers", "anchors": ["resolver/caching_resolver.go:180", "resolver/caching_resolver.go:241", "resolver/caching_resolver.go:273", "resolver/caching_resolver.go:126", "resolver/sudn_resolver.go:118", "util/common.go:186"]}
{"id": "C121", "title": "Queries handled at the same time do not disturb each other", "statement": "The server handles every query in a goroutine of its own, while others clean up and refresh the answer cache and write the query log. Whatever the order in which the goroutines get to the answer cache, the cache of client names, the query log and the upstreams - with time passing, entries dropped or refreshed, the cache flushed, and lists, custom DNS, hosts files and cache settings changing in between - every query is answered like by a server without cache that was just started and never had another query: same response code and same records, but for TTLs and letter case, cut off at the same size. Supposed is that upstreams are steady: they answer the same question the same way whoever asks, whenever, TTLs and letter case aside.", "quantifier": "for all configurations of the whole chain, steady upstreams, numbers of queries with one question at the same time, interleavings of their accesses to shared state, and all queries", "why_tests_cant": "interleavings of goroutines are chosen by the scheduler; the race detector finds unsynchronised accesses, not wrong orders of synchronised ones", "anchors": ["server/server.go:498", "resolver/caching_resolver.go:180", "resolver/client_names_resolver.go:72", "resolver/query_logging_resolver.go:137", "cache/expirationcache/expiration_cache.go:113", "resolver/caching_resolver.go:126"]}
{"id": "C122", "title": "Every query handled among others is answered, once, with a reply to it", "statement": "However many queries are handled at the same time, and however their steps, time, clean-ups, refreshes, flushes and changes of settings come between: the goroutine of a query does not go on forever, whatever upstreams answer and whatever the caches hold - it is done after finitely many of its own steps -, and then exactly one message has been written, a reply with the id and the question of the query (names compared without case). Supposed for the latter is that the upstreams' answers to this query echo its id and question; nothing is supposed of the answers to other queries and of what they have put into the caches.", "quantifier": "for all configurations of the whole chain, infinite executions with any number of queries, interleavings, upstream answers, and all queries with one question", "why_tests_cant": "termination under every scheduling is not observable by tests; a test sees one schedule, and a hanging query only as a timeout", "anchors": ["server/server.go:498", "server/server.go:509", "resolver/caching_resolver.go:180", "resolver/custom_dns_resolver.go:107", "resolver/rewriter_resolver.go:60", "resolver/client_names_resolver.go:72"]}
{"id": "C123", "title": "Queries handled at the same time give away no more of the clients' subnets than configured", "statement": "However the steps of queries handled at the same time interleave, and whatever is in the caches: a query handled with the client-subnet resolver on, not forwarding and without prefix lengths never asks an upstream (usual or conditional) with a subnet option; with a prefix length for the family of its client's address it asks with that prefix of this client's own address or with no subnet option at all, never with the address of a client whose query is handled at the same time; and refreshing an entry of the answer cache asks without any option.", "quantifier": "all executions (any number of queries and refreshes, any interleaving, any cache contents, any answers of upstreams, settings changed in between), all clients and messages with at most one OPT record, all prefix lengths", "why_tests_cant": "Leaks between queries need particular interleavings and contents of caches; tests look at a few queries handled one after another.", "anchors": ["resolver/ecs_resolver.go:40-120", "resolver/caching_resolver.go:126-151", "resolver/conditional_upstream_resolver.go:61-110", "server/server.go:498-522"]}
{"id": "C124", "title": "Names answered by the server itself stay inside while many queries are handled at the same time", "statement": "However the steps of queries handled at the same time interleave, and whatever is in the caches: a query with one question, for a name that is not configured locally and that the lists block for its client (with the names the client has come to have for this query, be they sent, cached or looked up) never asks an upstream, never looks at or changes the answer cache, and is answered with the block answer; the same holds for names with records (no aliases) in the custom DNS, answered from these whatever the lists say; and a query of a filtered type makes no step on anything shared at all and is answered with an empty success.", "quantifier": "all executions (any number of queries and refreshes, any interleaving, any cache contents, any answers of upstreams, settings changed in between), all clients, lists, configured records", "why_tests_cant": "A leak needs an interleaving in which, say, the client's names change or another query fills the cache; tests run a handful of schedules.", "anchors": ["server/server.go:315-330", "server/server.go:498-522", "resolver/blocking_resolver.go:399-440", "resolver/client_names_resolver.go:62-95", "resolver/custom_dns_resolver.go:188-198", "resolver/filtering_resolver.go:25-45"]}
{"id": "C125", "title": "Every answered query is logged once, with its own data, while many queries are handled at the same time", "statement": "However the steps of queries handled at the same time interleave, and whatever is in the caches: a query with one question that gets as far as the query log and is done has either made exactly one entry, as its last step, that holds its own client, the names this client has come to have for this query, the name and type it asked for (maybe with the name in lower case) and the code and answer of the very reply its client gets, in the fields configured and placeholders in the others; or it has made none, and then it failed, or its response is one for special use domains and these are to be ignored. Whatever is written to the log is an entry made by a query (never by a refresh of the cache), at most as often as it has been made, and as long as fewer than 1000 entries wait no entry is lost.", "quantifier": "all executions (any number of queries and refreshes, any interleaving with each other and with the writer of the log, any cache contents, any answers of upstreams, settings changed in between), all clients, messages and log settings", "why_tests_cant": "Entries mixed up between queries, doubled or lost need particular interleavings; tests log a few queries one after another.", "anchors": ["resolver/query_logging_resolver.go:137-217", "resolver/query_logging_resolver.go:222-245", "resolver/client_names_resolver.go:62-95", "server/server.go:315-330", "server/server.go:498-522"]}
{"id": "C126", "title": "Concurrent queries get records of their own names only", "statement": "While any number of queries are handled at the same time, and cached answers are asked for again, dropped or flushed, every record in a reply has data that come from an answer some upstream gave, in this execution, to a question of the same type for the same name - or for a name the queried one leads to by configured rewriting or custom aliases - or from the configuration (custom DNS, hosts file, addresses for blocked names, localhost). Without rewriting and aliases, what upstreams answer for one name never gets into a reply for another one.", "quantifier": "all executions (any number of one-question queries and refreshes, any interleaving, any answers of upstreams, settings changing from query to query within those of a covering configuration), all records of all replies", "why_tests_cant": "A record that gets into the entry or the reply of another question needs particular interleavings of steps on the shared cache; tests ask one after another and for few names.", "anchors": ["resolver/caching_resolver.go:126-151", "resolver/caching_resolver.go:180-293", "resolver/rewriter_resolver.go:59-130", "resolver/custom_dns_resolver.go:110-270", "server/server.go:315-330", "server/server.go:498-522"]}
{"id": "C127", "title": "Concurrent queries do not make the server ask upstreams more often", "statement": "While any number of queries are handled at the same time, each message makes the server ask upstreams at most once for each question in it and each alias target that can be reached, twice with conditional rewriting and fallback; an entry of the cache that is refreshed is asked for once (twice with fallback); all together at most the sum of these. Queries with one question are passed on at most once without aliases and fallback. The other way round nothing is saved: two queries for the same name at the same time both go to the upstream.", "quantifier": "all executions (any number of queries and refreshes, any interleaving, any answers of upstreams, settings changing in between), all messages", "why_tests_cant": "Loops, retries or repeated lookups that depend on what other queries do to the cache meanwhile need particular interleavings; tests count questions of single queries.", "anchors": ["resolver/caching_resolver.go:126-151", "resolver/caching_resolver.go:180-221", "resolver/conditional_upstream_resolver.go:61-120", "resolver/custom_dns_resolver.go:110-270", "resolver/rewriter_resolver.go:59-130", "server/server.go:498-522"]}
{"id": "C128", "title": "Queries are blocked properly while lists are refreshed", "statement": "While lists are refreshed and groups are disabled or enabled, a query that is handled at the same time is either blocked, with the block answer for one of its questions, or gets exactly what is behind. An entry that is in the old and all new versions of a denylist blocks at any moment (names asked for as well as addresses and aliases in answers), one that stays on an allowlist lets pass at any moment, names that no version matches pass, and so do all queries of clients whose groups are disabled. A name that old and new version match is blocked at any moment.", "quantifier": "all lists and histories of refreshes, all changes between any two steps of a query, all messages, all answers from behind", "why_tests_cant": "The three caches of a group are replaced one after the other and searched one after the other; tests do not refresh lists between two lookups of one query.", "anchors": ["resolver/blocking_resolver.go:343-429", "resolver/blocking_resolver.go:461-524", "cache/stringcache/chained_grouped_cache.go:28-42", "cache/stringcache/chained_grouped_cache.go:78-82", "cache/stringcache/in_memory_grouped_cache.go:46-94"]}
{"id": "C129", "title": "Only replies to the query sent are taken for its answer", "statement": "A message from the network is taken for the answer of an upstream only if it is the reply to the query that was sent: same id, same question. Messages that are not (late replies to other queries, forged datagrams) change neither the answer nor what is asked afterwards, and a client always gets a response to its own query.", "quantifier": "all networks (whatever messages arrive in whatever order over UDP, TCP, TLS and HTTPS), upstreams, retries, configurations of the whole server, states and queries", "why_tests_cant": "Tests use well-behaved mock upstreams that copy id and question of the query; forged and late messages at every point of every exchange cannot be enumerated.", "anchors": ["resolver/upstream_resolver.go:138-187", "resolver/upstream_resolver.go:193-268", "resolver/upstream_resolver.go:328-380", "resolver/caching_resolver.go:189-220"]}
{"id": "C130", "title": "What is written in a list is what clients get", "statement": "If a line of a denylist of one of the client's groups names the host asked for (alone, between || and ^, in a line of a hosts file, below a *. wildcard, or by a matching regular expression) and no line of the allowlists of these groups does, the client gets the block answer and no upstream is asked; if no line is about the name nor about addresses or aliases in the answer, blocking changes nothing; a line of an allowlist makes an exception. This holds however the goroutines that read the sources were scheduled.", "quantifier": "all texts of sources, configurations of groups, schedules of the loading goroutines, queries, clients, cache contents and upstreams", "why_tests_cant": "tests check the parser, the loading and the resolver one by one, with a few lists; a fault in how they are put together (entries lost between goroutines, another spelling in the list than in the query) does not show", "anchors": ["lists/list_cache.go:116-279", "lists/parsers/hosts.go:1-260", "lists/parsers/lines.go:1-90", "resolver/blocking_resolver.go:343-524", "server/server.go:480-560"]}
{"id": "C131", "title": "What is written in a hosts file is what clients get", "statement": "If a line of a hosts file gives an address to a name, a client that asks for the name (in any letter case) gets one record with an address that a line gives it, whatever the lists, the cache and the upstreams say, and none of these is touched; if the files give one address of the family, it is this one. A name that no line gives an address of the family asked for is left to the resolvers behind. If one of the files cannot be read or has too many faulty lines, all hosts stay as they were. Lines with an interface, and with the loopback filter lines with a loopback address or localhost, give nothing. All this holds however the goroutines that read the files were scheduled.", "quantifier": "all texts and numbers of hosts files, settings, schedules of the loading goroutines, queries, clients, cache contents and upstreams", "why_tests_cant": "tests load one small file and ask for a few names; they do not run the parser, the goroutines and the server together for arbitrary texts and schedules", "anchors": ["resolver/hosts_file_resolver.go:109-251", "lists/parsers/hosts.go:127-186", "lists/parsers/lines.go:44-93"]}
{"id": "C132", "title": "The TTLs clients get keep to the configuration", "statement": "Whatever queries have been answered before, however much time has passed and however often the cache has been cleaned up, every record in an answer to a client has a TTL that is written in the configuration (custom DNS, hosts files, block answers) or one of at most caching.maxTime.", "quantifier": "all configurations with a positive caching.maxTime, all upstreams and upstream TTLs, all histories of queries (any number of questions), passing time and cleaning up", "why_tests_cant": "TTLs of cached answers are computed by wrapping unsigned arithmetic from the TTLs stored, their minimum and the remaining lifetime, which in turn depend on all earlier answers; tests check single steps with a few TTLs.", "anchors": ["resolver/caching_resolver.go:189-251", "resolver/caching_resolver.go:272-332", "cache/expirationcache/expiration_cache.go:113-141", "resolver/custom_dns_resolver.go:84-286", "resolver/blocking_resolver.go:527-580"]}
{"id": "C133", "title": "Changes of upstream data are seen by clients after the caching time", "statement": "If the upstreams change their data, every record that any client gets after caching.maxTime and caching.cacheTimeNegative have passed (and the cache has been cleaned up) has new data, or data of the server itself (custom DNS, hosts files, block answers, localhost).", "quantifier": "all configurations with a positive caching.maxTime, all upstreams before and after the change, all histories of queries, passing time and cleaning up before the change, in between and afterwards", "why_tests_cant": "Needs an invariant over everything in the cache and every way into it; a test can only look at single names after single waits.", "anchors": ["resolver/caching_resolver.go:189-332", "cache/expirationcache/expiration_cache.go:113-178", "resolver/conditional_upstream_resolver.go:84-129", "server/server.go:315-330"]}
{"id": "C134", "title": "Names that come into existence are found after the caching time", "statement": "If what is behind the answer cache now answers in another way (a name exists that did not, a name is gone, records are added or removed), a client that asks for a name about which nothing is configured gets the code and all records of a new answer once caching.maxTime and caching.cacheTimeNegative have passed and the cache has been cleaned up. Whatever other clients ask does not change this.", "quantifier": "all configurations with a positive caching.maxTime, all answers before and after the change, all histories of queries (any number of questions), passing time and cleaning up before the change, in between and afterwards", "why_tests_cant": "Negative and empty answers are stored with another lifetime than others, and one request may store an answer for several questions; tests look at single cache entries shortly after they are made.", "anchors": ["resolver/caching_resolver.go:160-221", "resolver/caching_resolver.go:272-293", "resolver/caching_resolver.go:301-335", "cache/expirationcache/expiration_cache.go:102-174"]}
{"id": "C135", "title": "Bootstrap servers are read alike in all forms", "statement": "An upstream under bootstrapDns may be written as text, after the key upstream, with addresses in any order of the two keys, and alone or in a list; all forms give this upstream with these addresses. A list gives one server for each item, in order; one wrong item, an unknown key or a repeated key makes the whole setting an error. Nothing else is accepted.", "quantifier": "all YAML nodes of scalars, sequences and mappings, all texts of upstreams and addresses", "why_tests_cant": "Reading tries several types one after the other on the same node, so a form could be taken for another one or half of it be lost; tests read one or two files.", "anchors": ["config/config.go:183-221", "config/config.go:282-302", "config/upstream.go:64-75"]}
