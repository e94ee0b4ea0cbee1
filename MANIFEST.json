{
 "claims": [
  {
   "property": "C01",
   "status": "proved",
   "theorems": [
    "Verif.Props.C01_trie_exact",
    "Verif.Props.C01_trie_exact_plain",
    "Verif.Props.C01_trie_order_irrelevant",
    "Verif.Props.C01_leading_dot_counterexample"
   ],
   "note": "Exact for keys without leading dot (what normalizeWildcard produces); the counterexample shows the hypothesis is needed at trie level."
  },
  {
   "property": "C02",
   "status": "proved",
   "theorems": [
    "Verif.Props.C02_plain_exact",
    "Verif.Props.C02_plain_monotone",
    "Verif.Props.C02_count_exact"
   ],
   "note": "ASCII case folding."
  },
  {
   "property": "C03",
   "status": "proved",
   "theorems": [
    "Verif.Props.C03_lookup_union",
    "Verif.Props.C03_histories_complete"
   ],
   "note": "Regex engine is an arbitrary parameter."
  },
  {
   "property": "C04",
   "status": "partial",
   "theorems": [
    "Verif.Props.C04_last_accepted_partial",
    "Verif.Props.C04_failed_refresh_keeps",
    "Verif.Props.C04_other_groups_unaffected",
    "Verif.Props.C04_complete_sources",
    "Verif.Props.C04_nothing_delivered_keeps",
    "Verif.Props.C04_truncated_download_accepted",
    "Verif.Props.C04_failed_source_truncates_others",
    "Verif.Props.C04_lookup_during_refresh"
   ],
   "note": "False as stated: a download that breaks off mid-way is accepted with the lines read so far (C04_truncated_download_accepted), a source that cannot be opened cancels the reading of the others, whose entries so far are accepted (C04_failed_source_truncates_others), and Finish replaces the three caches of a group one after the other (C04_lookup_during_refresh). Proved: between refreshes a group answers from the last accepted refresh; failed refreshes change nothing."
  },
  {
   "property": "C05",
   "status": "partial",
   "theorems": [
    "Verif.Props.C05_no_crash_partial",
    "Verif.Props.C05_slash_line_crashes"
   ],
   "note": "False as stated: a line consisting of a single slash panics. Proved for every other content."
  },
  {
   "property": "C06",
   "status": "partial",
   "theorems": [
    "Verif.Props.C06_get_latest",
    "Verif.Props.C06_last_stored_unique",
    "Verif.Props.C06_lifetime_bound",
    "Verif.Props.C06_absent",
    "Verif.Props.C06_no_loss",
    "Verif.Props.C06_cleanup_keeps",
    "Verif.Props.C06_expired_gone_partial",
    "Verif.Props.C06_expired_value_returned",
    "Verif.Props.C06_zero_lifetime_reload_keeps_stale"
   ],
   "note": "False as stated: an expired value is still returned until the next clean-up (C06_expired_value_returned), and an expired entry whose reload yields a lifetime of zero is kept for ever (C06_zero_lifetime_reload_keeps_stale). Proved: only the last stored value is ever returned, with the right remaining lifetime, and it is gone after a clean-up."
  },
  {
   "property": "C07",
   "status": "proved",
   "theorems": [
    "Verif.Props.C07_size_bound",
    "Verif.Props.C07_evicts_least_recently_used",
    "Verif.Props.C07_no_other_loss",
    "Verif.Props.C07_cleanup_order"
   ],
   "note": ""
  },
  {
   "property": "C08",
   "status": "proved",
   "theorems": [
    "Verif.Props.C08_key_roundtrip",
    "Verif.Props.C08_key_iff",
    "Verif.Props.C08_share_iff",
    "Verif.Props.C08_question_roundtrip"
   ],
   "note": "The question class is not part of the key."
  },
  {
   "property": "C09",
   "status": "proved",
   "theorems": [
    "Verif.Props.C09_clamped",
    "Verif.Props.C09_lifetime"
   ],
   "note": "For answers obtained for a query; reloads by prefetching are not clamped in the same way, see C14."
  },
  {
   "property": "C10",
   "status": "partial",
   "theorems": [
    "Verif.Props.C10_countdown",
    "Verif.Props.C10_order",
    "Verif.Props.C10_served_partial",
    "Verif.Props.C10_negative_answer_ttl_grows",
    "Verif.Props.C10_other_sections",
    "Verif.Props.C10_authority_false"
   ],
   "note": "False as stated for NXDOMAIN answers that contain records (C10_negative_answer_ttl_grows) and for the authority section: its TTLs are served as they were stored, however old the entry is (C10_authority_false; C10_other_sections for all entries)."
  },
  {
   "property": "C11",
   "status": "partial",
   "theorems": [
    "Verif.Props.C11_only_success_or_nxdomain",
    "Verif.Props.C11_clean_success_partial",
    "Verif.Props.C11_truncated_nxdomain_cached",
    "Verif.Props.C11_prefetch_stores_truncated"
   ],
   "note": "False as stated: NXDOMAIN answers and prefetched answers are stored without looking at TC and CD."
  },
  {
   "property": "C12",
   "status": "partial",
   "theorems": [
    "Verif.Props.C12_partial_prefix_bypasses_partial",
    "Verif.Props.C12_full_prefix_shared"
   ],
   "note": "False as stated: an answer to a query with a full-length client subnet is stored and shared with everybody (C12_full_prefix_shared)."
  },
  {
   "property": "C13",
   "status": "partial",
   "theorems": [
    "Verif.Props.C13_served_was_obtained_partial",
    "Verif.Props.C13_transparent_partial",
    "Verif.Props.C13_two_questions_poison"
   ],
   "note": "False as stated for requests with several questions (C13_two_questions_poison). Proved for single-question histories."
  },
  {
   "property": "C14",
   "status": "partial",
   "theorems": [
    "Verif.Props.C14_reload_needs_demand",
    "Verif.Props.C14_demand_reloads_partial",
    "Verif.Props.C14_on_expired",
    "Verif.Props.C14_failed_reload_drops",
    "Verif.Props.C14_reload_question",
    "Verif.Props.C14_flush_forgets",
    "Verif.Props.C14_window_slides",
    "Verif.Props.C14_reload_ignores_bounds",
    "Verif.Props.C14_default_threshold",
    "Verif.Props.C14_default_demand_partial",
    "Verif.Props.C14_default_off"
   ],
   "note": "False as stated: each query restarts the tracking time of the counter (C14_window_slides), and reloaded records are not clamped (C14_reload_ignores_bounds). Proved: no reload without more queries than the threshold since the last flush; reload whenever the queries of the last tracking period exceed the threshold and the counters fit."
  },
  {
   "property": "C15",
   "status": "proved",
   "theorems": [
    "Verif.Props.C15_blocked_by_name",
    "Verif.Props.C15_allowed_by_name",
    "Verif.Props.C15_blocked_by_answer",
    "Verif.Props.C15_passed",
    "Verif.Props.C15_cases",
    "Verif.Props.C15_reason_by_name",
    "Verif.Props.C15_reason_by_answer"
   ],
   "note": "For messages with several questions the first question any list mentions decides. Library functions (address printing, subnet test, glob) are arbitrary parameters."
  },
  {
   "property": "C16",
   "status": "partial",
   "theorems": [
    "Verif.Props.C16_blocked_not_asked_partial",
    "Verif.Props.C16_second_question_leaks"
   ],
   "note": "False as stated for messages with several questions (possible over DoH): an allowlisted first question lets the whole message through."
  },
  {
   "property": "C17",
   "status": "partial",
   "theorems": [
    "Verif.Props.C17_groups_of_client",
    "Verif.Props.C17_exempt_client_gets_default"
   ],
   "note": "False as stated in one case: a client listed with an empty list of groups gets the default groups. Otherwise exact, in every map iteration order."
  },
  {
   "property": "C18",
   "status": "partial",
   "theorems": [
    "Verif.Props.C18_reenabled_partial",
    "Verif.Props.C18_quiet_reachable",
    "Verif.Props.C18_accepted_iff",
    "Verif.Props.C18_rejected_keeps_status_partial",
    "Verif.Props.C18_rejected_request_cancels_reenabling",
    "Verif.Props.C18_stale_timer_reenables"
   ],
   "note": "False as stated: a rejected disable request cancels the pending re-enabling for ever, and a timer that has fired re-enables after a newer disable request."
  },
  {
   "property": "C19",
   "status": "partial",
   "theorems": [
    "Verif.Props.C19_status_effective",
    "Verif.Props.C19_disable_all_partial",
    "Verif.Props.C19_disable_all_keeps_blocking",
    "Verif.Props.C19_api_disable",
    "Verif.Props.C19_reported_time_partial",
    "Verif.Props.C19_reported_time_wrong"
   ],
   "note": "False as stated: a disable request without groups does not switch off allowlist-only groups; after a rejected request the status announces a re-enabling that never comes (C19_reported_time_wrong)."
  },
  {
   "property": "C20",
   "status": "partial",
   "theorems": [
    "Verif.Props.C20_progress_partial",
    "Verif.Props.C20_executions_end",
    "Verif.Props.C20_queries_alone_partial",
    "Verif.Props.C20_without_groups_partial",
    "Verif.Props.C20_deadlock",
    "Verif.Props.C20_deadlock_starves",
    "Verif.Props.C20_exclusion"
   ],
   "note": "False as stated: the nested read lock deadlocks with a waiting writer, and then every later query waits for ever."
  },
  {
   "property": "C21",
   "status": "proved",
   "theorems": [
    "Verif.Props.C21_block_answer",
    "Verif.Props.C21_header",
    "Verif.Props.C21_block_type"
   ],
   "note": ""
  },
  {
   "property": "C22",
   "status": "proved",
   "theorems": [
    "Verif.Props.C22_first_success",
    "Verif.Props.C22_error_only_if_all_fail",
    "Verif.Props.C22_answer_is_first",
    "Verif.Props.C22_asked"
   ],
   "note": "Both parallel strategies; every choice, order of arrival and outcome."
  },
  {
   "property": "C23",
   "status": "proved",
   "theorems": [
    "Verif.Props.C23_weight_bounds",
    "Verif.Props.C23_weight_exact",
    "Verif.Props.C23_new_upstream",
    "Verif.Props.C23_weight_recovers",
    "Verif.Props.C23_drawn_iff",
    "Verif.Props.C23_share",
    "Verif.Props.C23_pick_distinct"
   ],
   "note": "The random source is an arbitrary draw in range; a group of at least as many upstreams as are asked, with one upstream no choice is made."
  },
  {
   "property": "C24",
   "status": "proved",
   "theorems": [
    "Verif.Props.C24_strict_order"
   ],
   "note": ""
  },
  {
   "property": "C25",
   "status": "proved",
   "theorems": [
    "Verif.Props.C25_group_precedence",
    "Verif.Props.C25_several_patterns_depend_on_map_order"
   ],
   "note": "Library functions (address printing, subnet test, glob) are arbitrary parameters. With several matching patterns the choice among them depends on Go's map order."
  },
  {
   "property": "C26",
   "status": "proved",
   "theorems": [
    "Verif.Props.C26_most_specific",
    "Verif.Props.C26_single_label_zone_not_used",
    "Verif.Props.C26_question_case_lost"
   ],
   "note": "A single-label query only uses the '.' mapping, never a mapping of that very label; the forwarded question is in lower case, also in what the client sees."
  },
  {
   "property": "C27",
   "status": "partial",
   "theorems": [
    "Verif.Props.C27_rewriting",
    "Verif.Props.C27_client_view_partial",
    "Verif.Props.C27_no_rule_same",
    "Verif.Props.C27_other_case_not_reverted",
    "Verif.Props.C27_overlapping_rules_depend_on_map_order"
   ],
   "note": "False as stated: names are put back only if the answer repeats them in the same letter case; with overlapping rules the result depends on Go's map order."
  },
  {
   "property": "C28",
   "status": "partial",
   "theorems": [
    "Verif.Props.C28_no_masks_partial",
    "Verif.Props.C28_masked_partial",
    "Verif.Props.C28_forwarded",
    "Verif.Props.C28_client_address",
    "Verif.Props.C28_rest_unchanged",
    "Verif.Props.C28_disabled_leaks",
    "Verif.Props.C28_other_family_leaks",
    "Verif.Props.C28_second_option_leaks",
    "Verif.Props.C28_ipv6_only_panics",
    "Verif.Props.C28_ipv6_only_mixed"
   ],
   "note": "False as stated in three situations (resolver switched off, client of the other address family, repeated option); proved for ordinary messages when a prefix length is configured for the client's family, or none at all. With only an IPv6 length configured, queries of IPv4 clients panic."
  },
  {
   "property": "C29",
   "status": "partial",
   "theorems": [
    "Verif.Props.C29_set_get",
    "Verif.Props.C29_set_get_other",
    "Verif.Props.C29_fixed_part",
    "Verif.Props.C29_only_opt_changes",
    "Verif.Props.C29_remove_get_other",
    "Verif.Props.C29_remove_get_partial",
    "Verif.Props.C29_remove_record_partial",
    "Verif.Props.C29_duplicate_option_survives",
    "Verif.Props.C29_second_opt_survives"
   ],
   "note": "False as stated: removal drops only the first duplicate option or OPT record."
  },
  {
   "property": "C30",
   "status": "partial",
   "theorems": [
    "Verif.Props.C30_special_use_partial",
    "Verif.Props.C30_others",
    "Verif.Props.C30_upper_case_leaks"
   ],
   "note": "False as stated: names written in upper case are not recognised and go upstream. Exact for names in lower case; other names pass in any letter case."
  },
  {
   "property": "C31",
   "status": "proved",
   "theorems": [
    "Verif.Props.C31_terminates",
    "Verif.Props.C31_loop_is_error",
    "Verif.Props.C31_no_crash"
   ],
   "note": "A crash is only possible if the rest of the chain gives no response at all (see C54)."
  },
  {
   "property": "C32",
   "status": "partial",
   "theorems": [
    "Verif.Props.C32_exact_partial",
    "Verif.Props.C32_alias",
    "Verif.Props.C32_configured_records",
    "Verif.Props.C32_reverse",
    "Verif.Props.C32_unknown_record_breaks_name",
    "Verif.Props.C32_mapped_address_wrong_type"
   ],
   "note": "False as stated for names with records of types the resolver does not know (all queries fail) and for AAAA records with IPv4-mapped addresses. Exact for A, AAAA, TXT, SRV; aliases and reverse names in separate theorems."
  },
  {
   "property": "C33",
   "status": "partial",
   "theorems": [
    "Verif.Props.C33_round_trip_v4",
    "Verif.Props.C33_round_trip_v6",
    "Verif.Props.C33_accepts_v4_partial",
    "Verif.Props.C33_accepts_v6_partial",
    "Verif.Props.C33_leading_zero_accepted",
    "Verif.Props.C33_two_digits_accepted",
    "Verif.Props.C33_upper_case_rejected"
   ],
   "note": "Recovery holds for every address. False: also names that are no reverse name are accepted (leading zeros, two hexadecimal digits per label), and names in upper case are not recognised."
  },
  {
   "property": "C34",
   "status": "partial",
   "theorems": [
    "Verif.Props.C34_forward_partial",
    "Verif.Props.C34_reverse_partial",
    "Verif.Props.C34_other_types",
    "Verif.Props.C34_failed_load",
    "Verif.Props.C34_admitted",
    "Verif.Props.C34_upper_case_never_found",
    "Verif.Props.C34_second_address_lost",
    "Verif.Props.C34_reverse_incomplete",
    "Verif.Props.C34_during_reload_partial",
    "Verif.Props.C34_during_reload_false"
   ],
   "note": "False as stated: names with capitals in the file are never found, only one of several addresses is returned, a reverse query gets the names of one line only. A query during a reload can miss a name that is listed before and after it (C34_during_reload_false)."
  },
  {
   "property": "C35",
   "status": "proved",
   "theorems": [
    "Verif.Props.C35_parse_all",
    "Verif.Props.C35_abandon",
    "Verif.Props.C35_host_line",
    "Verif.Props.C35_abp_line",
    "Verif.Props.C35_hosts_file_line",
    "Verif.Props.C35_wildcard_line",
    "Verif.Props.C35_one_word",
    "Verif.Props.C35_regex_line",
    "Verif.Props.C35_open_regex"
   ],
   "note": "idna, ParseIP and regexp.Compile are arbitrary parameters."
  },
  {
   "property": "C36",
   "status": "partial",
   "theorems": [
    "Verif.Props.C36_transparent_partial",
    "Verif.Props.C36_queue",
    "Verif.Props.C36_written",
    "Verif.Props.C36_one_entry",
    "Verif.Props.C36_fields",
    "Verif.Props.C36_privacy",
    "Verif.Props.C36_no_question_panics"
   ],
   "note": "False for queries without question: logging panics after the query was answered."
  },
  {
   "property": "C37",
   "status": "partial",
   "theorems": [
    "Verif.Props.C37_batches",
    "Verif.Props.C37_no_loss_partial",
    "Verif.Props.C37_never_twice",
    "Verif.Props.C37_errors_reported",
    "Verif.Props.C37_failed_bulk_lost"
   ],
   "note": "False: the entries of a bulk that fails are dropped."
  },
  {
   "property": "C38",
   "status": "partial",
   "theorems": [
    "Verif.Props.C38_no_echo",
    "Verif.Props.C38_delivery_silent",
    "Verif.Props.C38_same_state_partial",
    "Verif.Props.C38_same_timer",
    "Verif.Props.C38_crossing_diverges",
    "Verif.Props.C38_remote_timer_overrides",
    "Verif.Props.C38_other_groups",
    "Verif.Props.C38_cache_same_partial",
    "Verif.Props.C38_not_published",
    "Verif.Props.C38_key_mangled",
    "Verif.Props.C38_loaded_lifetime",
    "Verif.Props.C38_store_lifetime",
    "Verif.Props.C38_negative_answers_for_ever"
   ],
   "note": "True for commands given on one instance; false if commands on two instances cross. Negative answers stay in redis for 68 years."
  },
  {
   "property": "C39",
   "status": "partial",
   "theorems": [
    "Verif.Props.C39_exactly_one",
    "Verif.Props.C39_no_question",
    "Verif.Props.C39_failure",
    "Verif.Props.C39_answer",
    "Verif.Props.C39_upstream_error",
    "Verif.Props.C39_health_check",
    "Verif.Props.C39_fqdn_only_false",
    "Verif.Props.C39_rewrite_panic_false"
   ],
   "note": "False as stated: answers of the FQDN-only resolver have id 0, no question and no reply bit; a panic during rewriting gives a SERVFAIL for the rewritten name. Panics in goroutines started by resolvers (parallel upstreams) are outside the server's recovery and not modelled."
  },
  {
   "property": "C40",
   "status": "partial",
   "theorems": [
    "Verif.Props.C40_udp_partial",
    "Verif.Props.C40_tcp_partial",
    "Verif.Props.C40_tcp_advertised",
    "Verif.Props.C40_tcp_edns_false",
    "Verif.Props.C40_ecs_drops_size"
   ],
   "note": "False as stated: the EDNS0 size also limits TCP responses, and the client-subnet resolver can delete the OPT record before its size is read. miekg/dns Truncate is a parameter with a stated contract."
  },
  {
   "property": "C41",
   "status": "partial",
   "theorems": [
    "Verif.Props.C41_max_age_partial",
    "Verif.Props.C41_empty",
    "Verif.Props.C41_zero_false"
   ],
   "note": "False as stated: a TTL of 0 is taken for 'not set yet'. Exact for answers without zero TTLs."
  },
  {
   "property": "C42",
   "status": "partial",
   "theorems": [
    "Verif.Props.C42_ede_partial",
    "Verif.Props.C42_filtered_without_code"
   ],
   "note": "False as stated: answers of the filtering and FQDN-only resolvers, which come before the EDE resolver, never carry a code."
  },
  {
   "property": "C43",
   "status": "proved",
   "theorems": [
    "Verif.Props.C43_filtered",
    "Verif.Props.C43_second_question_passes",
    "Verif.Props.C43_fqdn_only"
   ],
   "note": "Decided by the first question of the message."
  },
  {
   "property": "C44",
   "status": "proved",
   "theorems": [
    "Verif.Props.C44_complete",
    "Verif.Props.C44_truncated",
    "Verif.Props.C44_error",
    "Verif.Props.C44_first_wins"
   ],
   "note": ""
  },
  {
   "property": "C45",
   "status": "proved",
   "theorems": [
    "Verif.Props.C45_retries",
    "Verif.Props.C45_no_panic",
    "Verif.Props.C45_lookup_nonempty",
    "Verif.Props.C45_index_in_range",
    "Verif.Props.C45_starts_at_first"
   ],
   "note": "Behaviour of retry-go modelled from its documentation. Address lists are made anew for every query, so each query starts at the first address."
  },
  {
   "property": "C46",
   "status": "proved",
   "theorems": [
    "Verif.Props.C46_round_trip",
    "Verif.Props.C46_print_injective",
    "Verif.Props.C46_defaults",
    "Verif.Props.C46_hosts",
    "Verif.Props.C46_host_of",
    "Verif.Props.C46_certificate_name",
    "Verif.Props.C46_port_zero"
   ],
   "note": "Whole parser (name for the certificate, protocol, path, Go's SplitHostPort, port, domain regular expression) and printer; net.ParseIP is a parameter known only to accept nonempty strings of hexadecimal digits, colons and dots. The certificate name is not printed, as the statement says. Port 0 is accepted."
  },
  {
   "property": "C47",
   "status": "partial",
   "theorems": [
    "Verif.Props.C47_sources_partial",
    "Verif.Props.C47_single_name",
    "Verif.Props.C47_order_out_of_range",
    "Verif.Props.C47_no_name_at_all",
    "Verif.Props.C47_get_names",
    "Verif.Props.C47_history",
    "Verif.Props.C47_kept_for_an_hour",
    "Verif.Props.C47_failure_is_cached"
   ],
   "note": "False if no position of the configured order exists: the client has no name. Names are cached for at least an hour, also after failures."
  },
  {
   "property": "C48",
   "status": "partial",
   "theorems": [
    "Verif.Props.C48_new_option_wins_partial",
    "Verif.Props.C48_untouched",
    "Verif.Props.C48_deprecated_used",
    "Verif.Props.C48_moved",
    "Verif.Props.C48_converted",
    "Verif.Props.C48_default",
    "Verif.Props.C48_one_each",
    "Verif.Props.C48_loading_strategy",
    "Verif.Props.C48_explicit_default_overridden"
   ],
   "note": "False for a new option explicitly set to its default value: the deprecated one overrides it (C48_explicit_default_overridden). Otherwise exact, over the three tables of deprecated options; option values are abstract."
  },
  {
   "property": "C49",
   "status": "partial",
   "theorems": [
    "Verif.Props.C49_clean_up_partial",
    "Verif.Props.C49_no_retention",
    "Verif.Props.C49_kept",
    "Verif.Props.C49_foreign_file_deleted",
    "Verif.Props.C49_future_log_deleted_on_amd64"
   ],
   "note": "False for foreign files named like logs, and (on amd64) for logs of future days. Exact instead of floating-point arithmetic."
  },
  {
   "property": "C50",
   "status": "proved",
   "theorems": [
    "Verif.Props.C50_obfuscate",
    "Verif.Props.C50_hides"
   ],
   "note": "For ASCII letters and digits; the code never treats others."
  },
  {
   "property": "C51",
   "status": "proved",
   "theorems": [
    "Verif.Props.C51_error_time"
   ],
   "note": ""
  },
  {
   "property": "C52",
   "status": "partial",
   "theorems": [
    "Verif.Props.C52_visited_in_order",
    "Verif.Props.C52_lookup_partial",
    "Verif.Props.C52_found_iff",
    "Verif.Props.C52_last_not_found"
   ],
   "note": "Linking and lookups over arbitrary lists of resolver objects. False for the last resolver, which cannot be linked: looking up its type fails. What the resolvers do with queries is in the other claims; their composition is Model/Chain.lean."
  },
  {
   "property": "C53",
   "status": "partial",
   "theorems": [
    "Verif.Props.C53_wildcard_final_dot_partial",
    "Verif.Props.C53_final_dot_never_matches"
   ],
   "note": "False for plain entries: an entry with a final dot is accepted and never matches. True for wildcard entries."
  },
  {
   "property": "C54",
   "status": "partial",
   "theorems": [
    "Verif.Props.C54_outside_alias_partial",
    "Verif.Props.C54_alias_with_rewrite_panics",
    "Verif.Props.C54_client_names_lost"
   ],
   "note": "False as stated: with rewrite rules the query panics; the client's names are lost."
  },
  {
   "property": "C55",
   "status": "partial",
   "theorems": [
    "Verif.Props.C55_malformed",
    "Verif.Props.C55_same_as_tcp_partial",
    "Verif.Props.C55_large_false",
    "Verif.Props.C55_client_id",
    "Verif.Props.C55_doh_client_id"
   ],
   "note": "False for queries of more than 512 bytes, which are refused."
  },
  {
   "property": "C56",
   "status": "partial",
   "theorems": [
    "Verif.Props.C56_plain_partial",
    "Verif.Props.C56_encrypted_false"
   ],
   "note": "True for plain DNS upstreams, false for DNS over TLS and HTTPS."
  },
  {
   "property": "C57",
   "status": "partial",
   "theorems": [
    "Verif.Props.C57_lookup_partial",
    "Verif.Props.C57_one_family_fails_false"
   ],
   "note": "False if the lookup of one family fails."
  },
  {
   "property": "C58",
   "status": "partial",
   "theorems": [
    "Verif.Props.C58_file_name",
    "Verif.Props.C58_separate_clients_partial",
    "Verif.Props.C58_clients_collide"
   ],
   "note": "Different clients can share a file because of escaping."
  },
  {
   "property": "C59",
   "status": "proved",
   "theorems": [
    "Verif.Props.C59_read_back",
    "Verif.Props.C59_rows"
   ],
   "note": "csv.Writer modelled from the Go standard library; read back by an independently written reader."
  },
  {
   "property": "C60",
   "status": "partial",
   "theorems": [
    "Verif.Props.C60_reply_partial",
    "Verif.Props.C60_alias_servfail_false",
    "Verif.Props.C60_rewritten_servfail_false",
    "Verif.Props.C39_fqdn_only_false",
    "Verif.Props.C39_rewrite_panic_false",
    "Verif.Props.C28_ipv6_only_panics",
    "Verif.Props.C28_ipv6_only_mixed"
   ],
   "note": "Composition of the models of all resolvers and the server. False for: an upstream's SERVFAIL for an alias target or a rewritten name (sent with foreign id and question), single-label names with fqdnOnly, aliases combined with rewriting (panic), only an IPv6 subnet prefix longer than 32. Proved otherwise. Metrics counters left out."
  },
  {
   "property": "C61",
   "status": "proved",
   "theorems": [
    "Verif.Props.C61_blocked_everywhere",
    "Verif.Props.C16_blocked_not_asked_partial"
   ],
   "note": "Over the composed chain, with lookups of client names and rewriting by custom DNS: the name as rewritten must not be configured locally."
  },
  {
   "property": "C62",
   "status": "proved",
   "theorems": [
    "Verif.Props.C62_custom_first",
    "Verif.Props.C62_filtered_first"
   ],
   "note": "Over the composed chain, with lookups of client names and rewriting rules of custom DNS (the name as rewritten has the records, the answer carries the name of the query); names without aliases (these: C32, C54)."
  },
  {
   "property": "C63",
   "status": "proved",
   "theorems": [
    "Verif.Props.C63_subnet_removed",
    "Verif.Props.C63_subnet_cut"
   ],
   "note": "Over the composed chain; messages with at most one OPT record (repeated ones: C28); the subnet resolver enabled, not forwarding, and with prefix lengths for both families or none."
  },
  {
   "property": "C64",
   "status": "partial",
   "theorems": [
    "Verif.Props.C64_known_addresses",
    "Verif.Props.C64_refreshed",
    "Verif.Props.C64_client_in_groups",
    "Verif.Props.C64_never_retried_false",
    "Verif.Props.C64_stale_for_ever_false",
    "Verif.Props.C64_lifetime_of_last_record_false",
    "Verif.Props.C64_addresses_looked_up_false"
   ],
   "note": "False: a name whose look-up fails at the start is never looked up again; a name that vanishes stands for its last addresses for ever; the lifetime is that of the last record; addresses and subnets are looked up as names, too. Proved: what is stored is always exactly one look-up's result, and expired addresses are replaced by a usable look-up."
  },
  {
   "property": "C65",
   "status": "partial",
   "theorems": [
    "Verif.Props.C65_sum",
    "Verif.Props.C65_nothing_else",
    "Verif.Props.C65_minutes",
    "Verif.Props.C65_numbers",
    "Verif.Props.C65_config_units",
    "Verif.Props.C65_recommended_refused",
    "Verif.Props.C65_sum_wraps_false",
    "Verif.Props.C65_minutes_false",
    "Verif.Props.C65_recommended_false"
   ],
   "note": "False: a number of minutes that does not fit into 64 bits becomes another, possibly negative, duration; the notation recommended by the deprecation warning ('5 min') is refused; two halves of the whole range add up to zero (Go's parser). Proved for everything that fits, to the nanosecond; fractions of hours and minutes are exact in the model, floating point in Go."
  },
  {
   "property": "C66",
   "status": "partial",
   "theorems": [
    "Verif.Props.C66_duration_survives",
    "Verif.Props.C66_disable_partial",
    "Verif.Props.C66_api",
    "Verif.Props.C66_comma_false",
    "Verif.Props.C66_empty_name_false"
   ],
   "note": "False for group names with a comma (taken for several groups) and for an empty group name (becomes all groups). Proved for all durations and all other group names. HTTP escaping is not modelled."
  },
  {
   "property": "C67",
   "status": "partial",
   "theorems": [
    "Verif.Props.C67_first_success",
    "Verif.Props.C67_unfinished",
    "Verif.Props.C67_all_fail",
    "Verif.Props.C67_result",
    "Verif.Props.C67_attempts_false",
    "Verif.Props.C67_body_partial",
    "Verif.Props.C67_slow_body",
    "Verif.Props.C67_half_list_false",
    "Verif.Props.C67_nothing",
    "Verif.Props.C67_defaults"
   ],
   "note": "False for attempts = 0, which means for ever, and for lists whose body does not come within the timeout: they are cut and not asked for again. Redirects are not modelled."
  },
  {
   "property": "C68",
   "status": "partial",
   "theorems": [
    "Verif.Props.C68_start",
    "Verif.Props.C68_first_load",
    "Verif.Props.C68_refresh",
    "Verif.Props.C68_progress",
    "Verif.Props.C68_no_refresh_after_stop_false"
   ],
   "note": "False: a refresh may still start after the shutdown signal. Panics in other goroutines than the load's own are not recovered and not modelled."
  },
  {
   "property": "C69",
   "status": "partial",
   "theorems": [
    "Verif.Props.C69_fail_on_error",
    "Verif.Props.C69_other_strategies",
    "Verif.Props.C69_only_own_upstreams_false",
    "Verif.Props.C69_empty_group_false",
    "Verif.Props.C69_all_used_false"
   ],
   "note": "False: with fast start queries go to the bootstrap DNS until the group is initialised, and for ever for an empty group; with failOnError an upstream that fails its test at the start is never used."
  },
  {
   "property": "C70",
   "status": "partial",
   "theorems": [
    "Verif.Props.C70_hidden",
    "Verif.Props.C70_unchanged",
    "Verif.Props.C70_decoded_hidden",
    "Verif.Props.C70_encoded_logged",
    "Verif.Props.C70_mysql_false",
    "Verif.Props.C70_encoded_false",
    "Verif.Props.C70_url_parameter_false",
    "Verif.Props.C70_url_hidden",
    "Verif.Props.C70_no_url_logged"
   ],
   "note": "False: a target that is no URL, for example because of a percent sign or a space in the password, is logged as it is (C70_no_url_logged); every MySQL target of the documented form user:password@tcp(host:port)/db is logged with the password; so are percent-encoded passwords, and targets without scheme with '://' in a parameter. Proved for URLs with plain passwords. Go's URL parser is modelled without zones of IPv6 addresses."
  },
  {
   "property": "C71",
   "status": "partial",
   "theorems": [
    "Verif.Props.C71_link",
    "Verif.Props.C71_file",
    "Verif.Props.C71_inline",
    "Verif.Props.C71_lines",
    "Verif.Props.C71_round_trip",
    "Verif.Props.C71_description",
    "Verif.Props.C71_http_name_false",
    "Verif.Props.C71_unmarked_false"
   ],
   "note": "False: a file whose name starts with http is taken for a link; an inline list of several lines is described like its first line alone."
  },
  {
   "property": "C72",
   "status": "partial",
   "theorems": [
    "Verif.Props.C72_addresses",
    "Verif.Props.C72_answer",
    "Verif.Props.C72_zone",
    "Verif.Props.C72_conditional",
    "Verif.Props.C72_zone_spelling_false"
   ],
   "note": "False for zones that spell a name in two ways: some of its records are lost. Proved otherwise, for addresses down to the answer. YAML and the zone file syntax are not modelled; net.ParseIP is a parameter."
  },
  {
   "property": "C73",
   "status": "partial",
   "theorems": [
    "Verif.Props.C73_listen",
    "Verif.Props.C73_mask",
    "Verif.Props.C73_listen_space_false"
   ],
   "note": "False for listen addresses with a space after a comma (the other lists of the configuration allow it)."
  },
  {
   "property": "C74",
   "status": "partial",
   "theorems": [
    "Verif.Props.C74_accepted",
    "Verif.Props.C74_no_lookup",
    "Verif.Props.C74_errors",
    "Verif.Props.C74_further_addresses_false"
   ],
   "note": "False: the addresses given beside an upstream whose host is an address are accepted and never used."
  },
  {
   "property": "C75",
   "status": "partial",
   "theorems": [
    "Verif.Props.C75_peer",
    "Verif.Props.C75_forwarded",
    "Verif.Props.C75_named",
    "Verif.Props.C75_identity_false",
    "Verif.Props.C75_list_false",
    "Verif.Props.C75_zone_false"
   ],
   "note": "False: every HTTP client can choose the client it is taken for with an X-Forwarded-For header, and is then treated exactly like a TCP client at that address; behind two proxies, and for link-local IPv6 peers, the client has no address. Proved for one address with or without port. net.ParseIP is a parameter with stated properties."
  },
  {
   "property": "C76",
   "status": "partial",
   "theorems": [
    "Verif.Props.C76_same_as_dns_partial",
    "Verif.Props.C76_unknown_type",
    "Verif.Props.C76_privacy_false"
   ],
   "note": "False with log privacy: the masking meant for logs also masks the API's answers. "
  },
  {
   "property": "C77",
   "status": "partial",
   "theorems": [
    "Verif.Props.C77_counts_partial",
    "Verif.Props.C77_at_any_time",
    "Verif.Props.C77_result_partial",
    "Verif.Props.C77_stopped_false",
    "Verif.Props.C77_label_false"
   ],
   "note": "False: queries stopped by filtering or FQDN-only are answered but never counted; a client whose id is no UTF-8 gets no answer if metrics are on, the label makes prometheus panic. Proved for requests that reach the metrics resolver, over all interleavings."
  },
  {
   "property": "C78",
   "status": "partial",
   "theorems": [
    "Verif.Props.C78_status",
    "Verif.Props.C78_after_put",
    "Verif.Props.C78_entries_partial",
    "Verif.Props.C78_flush_false",
    "Verif.Props.C78_expiry_false",
    "Verif.Props.C78_race_false"
   ],
   "note": "The blocking gauge always agrees with the status. The cache gauge is false after a flush, after expired entries have been cleaned up, and after concurrent insertions, until the next insertion."
  },
  {
   "property": "C79",
   "status": "partial",
   "theorems": [
    "Verif.Props.C79_reaches",
    "Verif.Props.C79_flags",
    "Verif.Props.C79_ipv6_false",
    "Verif.Props.C79_flags_false"
   ],
   "note": "Holds for listeners on a name, an IPv4 address or all addresses, and for addresses given by flags when the configuration has no HTTP listener. False for IPv6 listeners (two pairs of brackets, C79_ipv6_false) and for flags beside a configured listener (C79_flags_false)."
  },
  {
   "property": "C80",
   "status": "partial",
   "theorems": [
    "Verif.Props.C80_directory",
    "Verif.Props.C80_file",
    "Verif.Props.C80_path",
    "Verif.Props.C80_validate_partial",
    "Verif.Props.C80_link_false",
    "Verif.Props.C80_twice_false",
    "Verif.Props.C80_validate_false",
    "Verif.Props.C80_explicit_false",
    "Verif.Props.C80_documents_false"
   ],
   "note": "Reading of a file or directory, choice of the path, and agreement of validate with the server are proved. False for a directory given as a link (C80_link_false), for files after the first that begin with the document marker --- (C80_documents_false: dropped silently), for files reachable twice as in a ConfigMap volume (C80_twice_false), for validate with an environment variable (C80_validate_false) and for an explicit default path (C80_explicit_false)."
  },
  {
   "property": "C81",
   "status": "proved",
   "theorems": [
    "Verif.Props.C81_answers"
   ],
   "note": "Whole server model; no hypotheses. The time a query takes is not modelled."
  },
  {
   "property": "C82",
   "status": "proved",
   "theorems": [
    "Verif.Props.C82_forwarded"
   ],
   "note": "Whole chain, with client name lookups and rewriting rules (which may rewrite the name, as long as custom DNS and the zones have nothing for what they make of it); names in any letter case. One question; TTL bounds below 2^32 s."
  },
  {
   "property": "C83",
   "status": "partial",
   "theorems": [
    "Verif.Props.C83_zones_partial",
    "Verif.Props.C83_special_partial",
    "Verif.Props.C83_reload_partial",
    "Verif.Props.C83_fallback_false",
    "Verif.Props.C83_single_label_false"
   ],
   "note": "Whole server: replies, caches and log are the same whatever the default upstreams do. Holds without fallbackUpstream (C83_fallback_false), for zones used for names of several labels or the zone \".\" (C83_single_label_false), when a rewritten name is in a zone too, and for special-use names in lower case. Aliases must lead to such names."
  },
  {
   "property": "C84",
   "status": "partial",
   "theorems": [
    "Verif.Props.C84_order",
    "Verif.Props.C84_no_delay_partial",
    "Verif.Props.C84_optional_false",
    "Verif.Props.C84_start"
   ],
   "note": "Order, completeness and the absence of delay while fewer than 1000 answers are unsent are proved. False: when redis refuses the subscription but answers the ping, an optional redis stops all queries after 1000 answers (C84_optional_false)."
  },
  {
   "property": "C85",
   "status": "partial",
   "theorems": [
    "Verif.Props.C85_credentials_partial",
    "Verif.Props.C85_sentinel_user_false",
    "Verif.Props.C85_defaults"
   ],
   "note": "Holds if the sentinels' user name equals that of redis; the configured sentinelUsername is never used (C85_sentinel_user_false)."
  },
  {
   "property": "C86",
   "status": "partial",
   "theorems": [
    "Verif.Props.C86_dot",
    "Verif.Props.C86_plain",
    "Verif.Props.C86_doh_partial",
    "Verif.Props.C86_doh_once",
    "Verif.Props.C86_doh_answer",
    "Verif.Props.C86_bounded",
    "Verif.Props.C86_redirect_false",
    "Verif.Props.C86_redirected",
    "Verif.Props.C86_host_header_false",
    "Verif.Props.C86_listener_version"
   ],
   "note": "False as stated for DNS over HTTPS: redirections to http URLs are followed, with the query in the clear (C86_redirect_false). net/http's redirect rules are modelled; proxies from the environment are not. C86_host_header_false: the Host header lacks port and IPv6 brackets."
  },
  {
   "property": "C87",
   "status": "partial",
   "theorems": [
    "Verif.Props.C87_health",
    "Verif.Props.C87_resolved",
    "Verif.Props.C87_rejected",
    "Verif.Props.C87_reject_codes",
    "Verif.Props.C87_one_reply_partial",
    "Verif.Props.C87_notify_false"
   ],
   "note": "miekg/dns acceptance and zone matching are modelled, escapes included. C87_one_reply_partial has the conditions of C60. False for notifications, which are treated as queries and their answers cached (C87_notify_false)."
  },
  {
   "property": "C88",
   "status": "proved",
   "theorems": [
    "Verif.Props.C88_repeated"
   ],
   "note": "For messages that can be packed. Answers carrying the client subnet option are not cached (ReachesCache asks for a cacheable request)."
  },
  {
   "property": "C89",
   "status": "partial",
   "theorems": [
    "Verif.Props.C89_latest",
    "Verif.Props.C89_deletes_expired_partial",
    "Verif.Props.C89_fresh_entry_deleted",
    "Verif.Props.C89_expired_gone",
    "Verif.Props.C89_ends",
    "Verif.Props.C89_stale_unbounded"
   ],
   "note": "False as stated: an entry stored while the clean-up waits for a reload is deleted by it if an expired entry of that key was seen before (C89_fresh_entry_deleted). Proved: only such entries are lost. C89_stale_unbounded: while the clean-up waits, expired values are returned without a bound."
  },
  {
   "property": "C90",
   "status": "partial",
   "theorems": [
    "Verif.Props.C90_created",
    "Verif.Props.C90_sockets",
    "Verif.Props.C90_exit_code",
    "Verif.Props.C90_drained_partial",
    "Verif.Props.C90_ends",
    "Verif.Props.C90_doh_lost",
    "Verif.Props.C90_early_signal_lost"
   ],
   "note": "False as stated: queries over DNS over HTTPS are not waited for (C90_doh_lost), and a signal while a listener is still being started makes Stop give up at once (C90_early_signal_lost). Binding, certificates and the creation of everything else are arbitrary outcomes."
  },
  {
   "property": "C91",
   "status": "partial",
   "theorems": [
    "Verif.Props.C91_count_partial",
    "Verif.Props.C91_zero",
    "Verif.Props.C91_duplicates_counted",
    "Verif.Props.C91_useless_counted"
   ],
   "note": "False as stated: wildcards and regular expressions given twice are counted twice (C91_duplicates_counted), and '*.' is counted although it matches nothing (C91_useless_counted). Otherwise exact."
  },
  {
   "property": "C92",
   "status": "partial",
   "theorems": [
    "Verif.Props.C92_after_flush_partial",
    "Verif.Props.C92_quiet_flush",
    "Verif.Props.C92_never_back_partial",
    "Verif.Props.C92_flush_outlived",
    "Verif.Props.C92_older_answer_returns"
   ],
   "note": "False as stated: a query that has its answer when the cache is flushed stores it afterwards (C92_flush_outlived), and with two queries for a name under way the older answer can replace the newer one (C92_older_answer_returns). Proved: nothing else outlives a flush, and without overlapping queries answers never go back."
  },
  {
   "property": "C93",
   "status": "partial",
   "theorems": [
    "Verif.Props.C93_disable_partial",
    "Verif.Props.C93_enable",
    "Verif.Props.C93_refresh",
    "Verif.Props.C93_flush",
    "Verif.Props.C93_query",
    "Verif.Props.C93_status",
    "Verif.Props.C93_status_after_disable_partial",
    "Verif.Props.C93_address",
    "Verif.Props.C93_zero_means_200",
    "Verif.Props.C93_healthy",
    "Verif.Props.C93_refresh_ignores_config",
    "Verif.Props.C93_typo_succeeds",
    "Verif.Props.C93_unknown_command",
    "Verif.Props.C93_last_second_looks_endless",
    "Verif.Props.C93_foreign_server",
    "Verif.Props.C93_refusal_healthy",
    "Verif.Props.C93_no_operation",
    "Verif.Props.C93_status_reads",
    "Verif.Props.C93_zero_seconds",
    "Verif.Props.C93_query_codes",
    "Verif.Props.C93_bad_duration",
    "Verif.Props.C93_needs_config",
    "Verif.Props.C93_health_question",
    "Verif.Props.C93_query_title"
   ],
   "note": "the claim as stated is false (C93_refresh_ignores_config, C93_typo_succeeds, C93_last_second_looks_endless, C93_foreign_server); group names without commas (see C66)"
  },
  {
   "property": "C94",
   "status": "partial",
   "theorems": [
    "Verif.Props.C94_kind",
    "Verif.Props.C94_driver",
    "Verif.Props.C94_directory",
    "Verif.Props.C94_created_partial",
    "Verif.Props.C94_fallback_partial",
    "Verif.Props.C94_late_database",
    "Verif.Props.C94_no_limit",
    "Verif.Props.C94_starts_false",
    "Verif.Props.C94_negative_attempts",
    "Verif.Props.C94_flush_interval_crashes",
    "Verif.Props.C94_host_name_needed",
    "Verif.Props.C94_instance",
    "Verif.Props.C94_kept_for_ever",
    "Verif.Props.C94_clean_up_partial",
    "Verif.Props.C94_not_too_early_partial",
    "Verif.Props.C94_mysql_restart",
    "Verif.Props.C94_postgresql_no_key",
    "Verif.Props.C94_timescale_policy",
    "Verif.Props.C94_timescale_young",
    "Verif.Props.C94_timescale_zero_false",
    "Verif.Props.C94_huge_retention_false",
    "Verif.Props.C94_console",
    "Verif.Props.C94_fast_queries_without_duration"
   ],
   "note": "False as stated: with 0 attempts there is no limit (C94_starts_false), a flush interval of 0 crashes, Timescale deletes rows with a retention of 0 (C94_timescale_zero_false), and the largest retention deletes everything (C94_huge_retention_false). retry-go, SQL statements and AddDate (without daylight saving time) are contracts."
  },
  {
   "property": "C95",
   "status": "partial",
   "theorems": [
    "Verif.Props.C95_upstream_partial",
    "Verif.Props.C95_group_partial",
    "Verif.Props.C95_query_partial",
    "Verif.Props.C95_dead",
    "Verif.Props.C95_within_timeout_false",
    "Verif.Props.C95_strict_behind_dead",
    "Verif.Props.C95_heard_partial",
    "Verif.Props.C95_heard_https",
    "Verif.Props.C95_late",
    "Verif.Props.C95_long_timeout_false",
    "Verif.Props.C95_no_effect_partial",
    "Verif.Props.C95_parallel_fast",
    "Verif.Props.C95_parallel_fails",
    "Verif.Props.C95_random_behind_dead",
    "Verif.Props.C95_second_address",
    "Verif.Props.C95_refused",
    "Verif.Props.C95_huge_timeout",
    "Verif.Props.C95_same_result",
    "Verif.Props.C95_strict_finds_it_false"
   ],
   "note": "False as documented: upstreams.timeout limits each of three attempts (and the lookup of the host), not the query (C95_within_timeout_false), and except over HTTPS nothing beyond 2 s for connecting and 2 s for reading is waited for (C95_long_timeout_false, C95_no_effect_partial). The bounds that do hold are proved for every behaviour of the servers. The limits of miekg/dns and of Go's HTTP transport are contracts read from memory of their sources; waiting is the only thing that takes time."
  },
  {
   "property": "C96",
   "status": "partial",
   "theorems": [
    "Verif.Props.C96_same_answer",
    "Verif.Props.C96_preflight",
    "Verif.Props.C96_secure_headers",
    "Verif.Props.C96_any_page",
    "Verif.Props.C96_credentials",
    "Verif.Props.C96_refused",
    "Verif.Props.C96_foreign_page_false",
    "Verif.Props.C96_delivered",
    "Verif.Props.C96_closed",
    "Verif.Props.C96_in_time",
    "Verif.Props.C96_too_slow",
    "Verif.Props.C96_refresh_false",
    "Verif.Props.C96_download_options",
    "Verif.Props.C96_slow_doh_false",
    "Verif.Props.C96_no_origin"
   ],
   "note": "False: any web page can use the API and DNS over HTTPS through a browser of the network; replies that take longer than blocking.loading.downloads.writeTimeout (20 s) are dropped although the work was done; the options documented as timeouts of downloads are those of the HTTP server. The cancellation of a request's context at the read deadline is not modelled; net/http, go-chi/cors and the Fetch standard are contracts."
  },
  {
   "property": "C97",
   "status": "partial",
   "theorems": [
    "Verif.Props.C97_context",
    "Verif.Props.C97_hidden",
    "Verif.Props.C97_rewritten",
    "Verif.Props.C97_quiet",
    "Verif.Props.C97_off",
    "Verif.Props.C97_query_log",
    "Verif.Props.C97_levels",
    "Verif.Props.C97_no_groups",
    "Verif.Props.C97_answer_shows",
    "Verif.Props.C97_regex_line",
    "Verif.Props.C97_list_shows",
    "Verif.Props.C97_list_false",
    "Verif.Props.C97_custom_shows",
    "Verif.Props.C97_custom_false",
    "Verif.Props.C97_prefetch_shows",
    "Verif.Props.C97_loop_false"
   ],
   "note": "False as stated: names matched by lists or custom DNS are in debug lines as they are (C97_list_shows, C97_custom_shows), and a failed prefetch or aliases in a circle put them in lines of level error (C97_prefetch_shows, C97_loop_false). Lines of the targets of aliases, of client lookup and of redis are not modelled."
  },
  {
   "property": "C98",
   "status": "partial",
   "theorems": [
    "Verif.Props.C98_query_partial",
    "Verif.Props.C98_history_partial",
    "Verif.Props.C98_special_false",
    "Verif.Props.C98_reverse_false",
    "Verif.Props.C98_hosts_reverse_false"
   ],
   "note": "False for special-use names (C98_special_false: printer.LOCAL. goes upstream) and for reverse lookups of custom DNS and hosts files (C98_reverse_false, C98_hosts_reverse_false). Proved for all other queries, one by one (C98_query_partial) and in whole histories (C98_history_partial), for upstreams that ignore letter case. What truncation cuts off is assumed not to depend on letter case."
  },
  {
   "property": "C99",
   "status": "partial",
   "theorems": [
    "Verif.Props.C99_whole_partial",
    "Verif.Props.C99_history_partial",
    "Verif.Props.C99_groups",
    "Verif.Props.C99_rules_false",
    "Verif.Props.C99_hosts_false",
    "Verif.Props.C99_reverse_false",
    "Verif.Props.C99_names_false"
   ],
   "note": "For unambiguous configurations, whole server and every sequence of queries with new orders each time. The four ambiguities are each necessary: for each a configuration, two orders and a query whose answers differ is proved. The iteration orders inside the upstream groups (C25) are part of the upstream parameter; the order of list sources is the subject of C03/C04."
  },
  {
   "property": "C100",
   "status": "partial",
   "theorems": [
    "Verif.Props.C100_query_partial",
    "Verif.Props.C100_uncached_partial",
    "Verif.Props.C100_cache_false",
    "Verif.Props.C100_prefetch_false",
    "Verif.Props.C100_alias_false"
   ],
   "note": "False with the answer cache (C100_cache_false), with prefetching even if no other client asks (C100_prefetch_false), and for targets of custom aliases if the group is given by client name (C100_alias_false). Proved: while a query is answered only the upstreams of the client's group are asked (C100_query_partial, any configuration, any state); without answer cache, in any history of queries of all clients, the answers to a group's clients do not depend on other groups' upstreams (C100_uncached_partial, for upstreams whose answers do not depend on what was asked before)."
  },
  {
   "property": "C101",
   "status": "partial",
   "theorems": [
    "Verif.Props.C101_fresh_partial",
    "Verif.Props.C101_loaded",
    "Verif.Props.C101_half_second_false",
    "Verif.Props.C101_between_false",
    "Verif.Props.C101_negative_false",
    "Verif.Props.C101_other_keys"
   ],
   "note": "False as stated: in the last half second before an entry expires, or when it expires between the commands GET and TTL, the loaded answer keeps its original TTLs; answers without records are loaded as new whenever. Proved for every history of kept and loaded answers without such loads. Without a configured minimum caching time (that is allowed to exceed TTLs)."
  },
  {
   "property": "C102",
   "status": "partial",
   "theorems": [
    "Verif.Props.C102_query",
    "Verif.Props.C102_history",
    "Verif.Props.C102_disabled_partial",
    "Verif.Props.C102_more_denied",
    "Verif.Props.C102_more_allowed",
    "Verif.Props.C102_disable_partial",
    "Verif.Props.C102_disable_blocks_false",
    "Verif.Props.C102_first_denylist_false"
   ],
   "note": "The independence of other groups' lists is proved for the whole server and whole histories. False as stated: disabling a group with an allowlist may block more; the first denylist of a group with an allowlist unblocks (as documented); allowlist-only groups cannot be disabled (C19). The statements about more and fewer entries are about the blocking resolver, for messages of one question."
  },
  {
   "property": "C103",
   "status": "proved",
   "theorems": [
    "Verif.Props.C103_origin",
    "Verif.Props.C103_written",
    "Verif.Props.C103_not_elsewhere",
    "Verif.Props.C103_two_questions_false"
   ],
   "note": "For histories of messages with at most one question, the only ones the plain DNS servers accept. Over HTTPS a message with two questions poisons the cache (negation proved, C103_two_questions_false; see C13). About the data of records in the answer section; owner names and TTLs are the subject of C09, C25 and C60. Looking up names of clients is assumed to leave the answer cache alone."
  },
  {
   "property": "C104",
   "status": "partial",
   "theorems": [
    "Verif.Props.C104_passed_on",
    "Verif.Props.C104_uncached_partial",
    "Verif.Props.C104_cached_partial",
    "Verif.Props.C104_signatures_lost_false",
    "Verif.Props.C104_signatures_unasked_false",
    "Verif.Props.C104_class_false",
    "Verif.Props.C104_alias_false",
    "Verif.Props.C104_subnet_false",
    "Verif.Props.C104_prefetch_false",
    "Verif.Props.C104_edns_unasked_false",
    "Verif.Props.C104_edns_missing_false"
   ],
   "note": "False as stated: the cache key holds neither class nor DO bit; prefetching and aliases ask without DO bit and in class IN; removing a client subnet can remove the DO bit; EDNS data are sent to clients without EDNS and not to those with. Proved: for queries passed on to upstreams, and for caches all of whose answers were obtained by queries of the same kind."
  },
  {
   "property": "C105",
   "status": "partial",
   "theorems": [
    "Verif.Props.C105_addresses_partial",
    "Verif.Props.C105_connects_partial",
    "Verif.Props.C105_literal",
    "Verif.Props.C105_system",
    "Verif.Props.C105_no_panic",
    "Verif.Props.C105_version_false",
    "Verif.Props.C105_ttl_false",
    "Verif.Props.C105_filtered_false",
    "Verif.Props.C105_negative_false",
    "Verif.Props.C105_forgotten_false"
   ],
   "note": "False as stated: addresses are kept for an hour whatever their TTL (C105_ttl_false), failures to find one for half an hour (C105_negative_false), types filtered for clients are not looked up (C105_filtered_false), an address as host is connected to whatever connectIPVersion says (C105_version_false), and with negative caching off a withdrawn address is used for ever (C105_forgotten_false). Proved with the times that hold and for hosts not looked up before."
  },
  {
   "property": "C106",
   "status": "partial",
   "theorems": [
    "Verif.Props.C106_pages_partial",
    "Verif.Props.C106_no_page_partial",
    "Verif.Props.C106_links_partial",
    "Verif.Props.C106_api_partial",
    "Verif.Props.C106_nothing_else",
    "Verif.Props.C106_api_only",
    "Verif.Props.C106_disabled",
    "Verif.Props.C106_empty",
    "Verif.Props.C106_start",
    "Verif.Props.C106_start_own",
    "Verif.Props.C106_asset",
    "Verif.Props.C106_false_index",
    "Verif.Props.C106_false_api",
    "Verif.Props.C106_false_client",
    "Verif.Props.C106_false_metrics",
    "Verif.Props.C106_false_start",
    "Verif.Props.C106_false_everywhere"
   ],
   "note": "Exact for every method and path when prometheus.path begins with a slash and is not the address of another page; whatever it is, only the metrics can appear at a wrong address. False in general: prometheus.path is not checked, so it can replace the index page, an API operation or the DoH address of a client, can be hidden by /dns-query, and without a slash the start panics (proved). Paths with { are not modelled."
  },
  {
   "property": "C107",
   "status": "partial",
   "theorems": [
    "Verif.Props.C107_sent",
    "Verif.Props.C107_late",
    "Verif.Props.C107_goes_on",
    "Verif.Props.C107_ends",
    "Verif.Props.C107_messages",
    "Verif.Props.C107_attempt",
    "Verif.Props.C107_quiet_false"
   ],
   "note": "False as stated: an upstream that lost the race is still sent the query after the client has its answer (C107_quiet_false), at most once for each connection that was there (C107_late). Proved for all interleavings: each group of upstreams gets its own form of the query only, at most 3 (6 with TCP beside UDP) messages per goroutine, and all goroutines end without the goroutine of the query. That reading request.Req during its replacement gives one of the two values (Go memory model) is assumed."
  },
  {
   "property": "C108",
   "status": "partial",
   "theorems": [
    "Verif.Props.C108_redis",
    "Verif.Props.C108_target_partial",
    "Verif.Props.C108_off",
    "Verif.Props.C108_shown",
    "Verif.Props.C108_restored",
    "Verif.Props.C108_sections",
    "Verif.Props.C108_json",
    "Verif.Props.C108_undisturbed_partial",
    "Verif.Props.C108_links_false",
    "Verif.Props.C108_others_false"
   ],
   "note": "False as stated in two ways: passwords in the links of lists and secret paths of upstreams are printed as they are (C108_links_false), and lines that other goroutines log during the printing are indented like lines of the section that is being printed (C108_others_false). Proved for all configurations, both log formats and all interleavings with other goroutines: sections shown are those that are on, in the order of the chain; redis passwords are never printed; two query log targets that differ in the password only (written without escapes, and not occurring elsewhere) give the same output; every list source, hosts file, upstream and conditional mapping has its line; the printing's own lines are as without other goroutines, and the indentation is gone at the end. Numbers and durations are given as printed; the lines about memory are left out."
  },
  {
   "property": "C109",
   "status": "partial",
   "theorems": [
    "Verif.Props.C109_endures_partial",
    "Verif.Props.C109_answered",
    "Verif.Props.C109_groups",
    "Verif.Props.C109_own_keys",
    "Verif.Props.C109_short_key_false"
   ],
   "note": "Panics outside the recovered goroutines: cleaning up the answer cache with prefetching, redis messages and stored answers. Partial because the claim is false for redis keys of less than two bytes with prefetching and threshold 0 (C109_short_key_false). Not included: other goroutines (query log writers, lists refresh, FQDN identifiers), crashes of the runtime (memory, data races on maps)."
  },
  {
   "property": "C110",
   "status": "partial",
   "theorems": [
    "Verif.Props.C110_query",
    "Verif.Props.C110_clean_up",
    "Verif.Props.C110_history",
    "Verif.Props.C110_other_instance_partial",
    "Verif.Props.C110_type_any_false"
   ],
   "note": "Proved for all states, configurations changing over time, and histories: each question sent upstream has the type and, but for rewriting rules and aliases of the configuration, the name of a question of the query being handled, or (prefetching) of a key in the cache; all keys come from clients' questions or redis. Partial because the claim is false between instances for types with a byte from 128 on, ANY for example: the key published in JSON is another one (C110_type_any_false). Queries of blocky itself (bootstrap, lookups of client names, upstream checks) go other ways and are not included; the names lookup is assumed to have its own upstream."
  },
  {
   "property": "C111",
   "status": "partial",
   "theorems": [
    "Verif.Props.C111_words",
    "Verif.Props.C111_group_strategy",
    "Verif.Props.C111_other_groups_partial",
    "Verif.Props.C111_conditional_strict_false",
    "Verif.Props.C111_ip_version",
    "Verif.Props.C111_tls_version_partial",
    "Verif.Props.C111_tls_version_false",
    "Verif.Props.C111_query_log_type",
    "Verif.Props.C111_loading_strategy",
    "Verif.Props.C111_query_types",
    "Verif.Props.C111_fields",
    "Verif.Props.C111_log_partial",
    "Verif.Props.C111_json_timestamp_false"
   ],
   "note": "Proved for all texts: exactly the documented words are taken, others are refused and leave the value as it was, values are printed as their words, and each word selects what it names. Partial because the claim is false for three settings: upstreams.strategy strict is not followed by conditional mappings and the bootstrap, minTlsServeVersion 1.0 and 1.1 are taken as 1.2, log.timestamp false has no effect with log.format json. The YAML library and log levels (logrus) are not modelled."
  },
  {
   "property": "C112",
   "status": "partial",
   "theorems": [
    "Verif.Props.C112_query",
    "Verif.Props.C112_once",
    "Verif.Props.C112_clean_up",
    "Verif.Props.C112_history",
    "Verif.Props.C112_single_false"
   ],
   "note": "The number of queries to upstreams is bounded for every message, configuration, state and history: once per question and per target of an alias that can be reached, twice with conditional rewriting and fallbackUpstream; once for each expired answer with prefetching. That a query with one question is passed on at most once holds without aliases and fallback (C112_once) and is false in general (C112_single_false: five questions make five, five layers of two aliases make 32, fallback makes two). Not counted: what a group of upstreams does with one query (attempts, parallel requests: C13, C20, C107), looking up the names of clients, reloading of lists."
  },
  {
   "property": "C113",
   "status": "partial",
   "theorems": [
    "Verif.Props.C113_given",
    "Verif.Props.C113_left_out_partial",
    "Verif.Props.C113_emptied",
    "Verif.Props.C113_no_file",
    "Verif.Props.C113_refused",
    "Verif.Props.C113_empty_section_false",
    "Verif.Props.C113_empty_section_endless",
    "Verif.Props.C113_private_names_false"
   ],
   "note": "Every setting of the table (95 rows, with default and zero value) is read exactly: a value that is written is taken, a setting that is left out has its default, and a file is refused exactly for a wrong value, a section that is no mapping, a key that comes twice or is unknown. False as stated: a section whose name is written with nothing below it loses all its defaults. The documentation's own example of the loading sections therefore switches refreshing off and retries downloads without end; an empty specialUseDomains section lets private names out. Which texts a setting takes is a parameter (see C110, C55); deprecated options are C48."
  },
  {
   "property": "C114",
   "status": "partial",
   "theorems": [
    "Verif.Props.C114_bounded_partial",
    "Verif.Props.C114_unlimited_false",
    "Verif.Props.C114_database_false",
    "Verif.Props.C114_flush",
    "Verif.Props.C114_series_false",
    "Verif.Props.C114_size",
    "Verif.Props.C114_negative_false"
   ],
   "note": "False as stated: 0 means 10000 entries, not unlimited; entries for the database are unbounded between flushes; with metrics on, every client id ever seen keeps a time series. Proved for answers, counters, client names and the log queue, for all histories of the whole server."
  },
  {
   "property": "C115",
   "status": "partial",
   "theorems": [
    "Verif.Props.C115_counted_partial",
    "Verif.Props.C115_same_lookup",
    "Verif.Props.C115_same_cleanUp",
    "Verif.Props.C115_own_lookups_false",
    "Verif.Props.C115_own_prefetches",
    "Verif.Props.C115_names_false"
   ],
   "note": "False as stated: lookups of the bootstrap's own cache count as hits and misses too, and two of the documented metrics do not exist under the names given. Proved for every history of both caches: each counter is the number of events it is named after."
  },
  {
   "property": "C116",
   "status": "partial",
   "theorems": [
    "Verif.Props.C116_uncached_partial",
    "Verif.Props.C116_cached_false"
   ],
   "note": "Proved for servers that do not cache answers (caching.maxTime below 0) with upstreams that answer by what they are asked alone: the reply to a query is the same after any two histories. False with caching, the default: the TTL of a cached answer tells when somebody else asked."
  },
  {
   "property": "C117",
   "status": "partial",
   "theorems": [
    "Verif.Props.C117_limit",
    "Verif.Props.C117_never_stuck",
    "Verif.Props.C117_ends",
    "Verif.Props.C117_completes",
    "Verif.Props.C117_complete",
    "Verif.Props.C117_error",
    "Verif.Props.C117_possible",
    "Verif.Props.C117_same_lists",
    "Verif.Props.C117_hosts",
    "Verif.Props.C117_together_false",
    "Verif.Props.C117_hosts_false"
   ],
   "note": "False for blocking as a whole: denylists and allowlists each have their own limit, so twice `concurrency` sources are read at a time (C117_together_false), and for hosts files: which file is asked for a name that is in two of them depends on the schedule (C117_hosts_false). Proved for all schedules: the limit of each list kind, no deadlock, the end after a number of moves that depends on the sizes only, the entries, the errors, and that the outcomes are those C04 assumes. The library parcour is a contract."
  },
  {
   "property": "C118",
   "status": "proved",
   "theorems": [
    "Verif.Props.C118_query",
    "Verif.Props.C118_history",
    "Verif.Props.C118_reverse_differs"
   ],
   "note": "Two configurations that differ for some zones only (OnlyFor), through the whole chain. Reverse lookups are excluded in the statement; C118_reverse_differs shows that they have to be. leadOutside_of_targets gives a check for the condition on rewrite rules. Clean-ups without prefetching."
  },
  {
   "property": "C119",
   "status": "proved",
   "theorems": [
    "Verif.Props.C119_deny",
    "Verif.Props.C119_stays_blocked",
    "Verif.Props.C119_allow",
    "Verif.Props.C119_unrelated",
    "Verif.Props.C119_first_allowlist_blocks"
   ],
   "note": "For entries of lists. That a first allowlist for a group without denylists blocks everything else is documented and shown by C119_first_allowlist_blocks. Answers are compared without the reason given in logs."
  },
  {
   "property": "C120",
   "status": "partial",
   "theorems": [
    "Verif.Props.C120_unnoticed_partial",
    "Verif.Props.C120_steady",
    "Verif.Props.C120_steady_special",
    "Verif.Props.C120_special_false"
   ],
   "note": "False with special-use names in mixed letter case (C120_special_false), treated by default, with several upstream groups or DNSSEC flags (C100, C104) and with several questions (C13); proved for queries with one question where what is behind the cache is steady - which it is by C120_steady if the upstreams are, special-use names are not treated and no rewrite rules are set for conditional upstreams, and by C120_steady_special with special-use names if names are asked for in lower case. TTLs and letter case aside. Without messages from redis."
  },
  {
   "property": "C121",
   "status": "partial",
   "theorems": [
    "Verif.Props.C121_undisturbed_partial",
    "Verif.Props.C121_alone",
    "Verif.Props.C121_refresh_alone"
   ],
   "note": "For the whole chain with goroutines for queries and refreshes; each access to a cache or the query log and each question to an upstream is one step. False where C120 is (special-use names in mixed letter case, several questions, ...); proved for queries with one question where what is behind the cache is steady and no rewriting is set for conditional upstreams. Upstreams may answer with any TTLs and letter case. Answers from redis are not included. C121_alone and C121_refresh_alone: a query or refresh that nothing comes between is handled exactly as by the chain run in one go."
  },
  {
   "property": "C122",
   "status": "partial",
   "theorems": [
    "Verif.Props.C122_ends",
    "Verif.Props.C122_reply_partial",
    "Verif.Props.C122_answered_partial"
   ],
   "note": "C122_ends needs no assumption but that the aliases of custom DNS fit the depth of the model: every goroutine, of a query or of a refresh, that gets to make steps again and again is done at some point. The reply is proved for the settings of C60 (`ConfigOk`); outside of them it fails as shown there."
  },
  {
   "property": "C123",
   "status": "proved",
   "theorems": [
    "Verif.Props.C123_removed",
    "Verif.Props.C123_cut",
    "Verif.Props.C123_refresh"
   ],
   "note": "for messages with at most one OPT record and custom DNS aliases within the depth the Go code needs (hypothesis hd, always satisfiable: depth is not bounded in the code)"
  },
  {
   "property": "C124",
   "status": "proved",
   "theorems": [
    "Verif.Props.C124_blocked",
    "Verif.Props.C124_custom",
    "Verif.Props.C124_filtered"
   ],
   "note": "As stated: one question (with several C16 is false, see C16_second_question_leaks), configured names without aliases."
  },
  {
   "property": "C125",
   "status": "proved",
   "theorems": [
    "Verif.Props.C125_logged",
    "Verif.Props.C125_queue",
    "Verif.Props.C125_written"
   ],
   "note": "C125_logged is for queries that pass the resolvers in front of the query log (PassesFront: one question, type not filtered, fully qualified if that is demanded, subnet option readable); failed queries, among them those answered with an error message of an upstream, are not logged, as in the code (query_logging_resolver.go 146-148)."
  },
  {
   "property": "C126",
   "status": "proved",
   "theorems": [
    "Verif.Props.C126_origin",
    "Verif.Props.C126_not_elsewhere"
   ],
   "note": "As in C103, for messages with at most one question; for more, C103_two_questions_false. Settings may differ from query to query as long as the origins they allow are allowed by one configuration (Covers); lists, client names, log, cache settings, zones may differ freely (covers_lists)."
  },
  {
   "property": "C127",
   "status": "proved",
   "theorems": [
    "Verif.Props.C127_query",
    "Verif.Props.C127_once",
    "Verif.Props.C127_refresh",
    "Verif.Props.C127_total",
    "Verif.Props.C127_merged_false"
   ],
   "note": "As in C112, not counted: what a group of upstreams does with one question (attempts, parallel requests), looking up the names of clients."
  },
  {
   "property": "C128",
   "status": "partial",
   "theorems": [
    "Verif.Props.C128_refresh_completes",
    "Verif.Props.C128_kept_blocks",
    "Verif.Props.C128_kept_allows",
    "Verif.Props.C128_kept_answer",
    "Verif.Props.C128_never_listed",
    "Verif.Props.C128_disabled",
    "Verif.Props.C128_either",
    "Verif.Props.C128_unchanged",
    "Verif.Props.C128_replaced_false"
   ],
   "note": "The last sentence is false (C128_replaced_false): if the new version matches a name by another kind of entry, the name passes if it is looked up while the three caches are exchanged. Everything else is proved, for entries that stay as they are written. The addresses of clients given by name are taken as fixed during a query."
  },
  {
   "property": "C129",
   "status": "partial",
   "theorems": [
    "Verif.Props.C129_id_partial",
    "Verif.Props.C129_servfail_id_partial",
    "Verif.Props.C129_foreign_ignored",
    "Verif.Props.C129_client_partial",
    "Verif.Props.C129_question_false",
    "Verif.Props.C129_https_false",
    "Verif.Props.C129_cached_false"
   ],
   "note": "False as stated: the question of a reply is never compared with that of the query (C129_question_false), DNS over HTTPS does not compare the id either (C129_https_false); such a message is passed to the client and kept in the cache for the name asked for (C129_cached_false). Proved for all networks: with UDP, TCP and TLS the id is that of the query, datagrams with other ids change nothing, and if messages with the right id have the right question every client gets a matching response. The reading loop of miekg/dns is modelled from its source."
  },
  {
   "property": "C130",
   "status": "proved",
   "theorems": [
    "Verif.Props.C130_blocked",
    "Verif.Props.C130_untouched",
    "Verif.Props.C130_allowed",
    "Verif.Props.C130_answer_blocked",
    "Verif.Props.C130_name_line",
    "Verif.Props.C130_wildcard_line",
    "Verif.Props.C130_regex_line",
    "Verif.Props.C130_loads"
   ],
   "note": "For sources that can be read to their end (no more faulty lines than allowed), one question per query, names not configured locally (after rewriting by custom DNS). C130_blocked is about what the server sends; C130_untouched, C130_allowed and C130_answer_blocked are about the blocking resolver in front of any resolver. Which names a line is about is stated with the parser of lines (C35); C130_name_line, C130_wildcard_line and C130_regex_line give it for the written forms. Regular expressions are an abstract engine; conversion of names to ASCII is the identity in the lemmas on lines."
  },
  {
   "property": "C131",
   "status": "proved",
   "theorems": [
    "Verif.Props.C131_served",
    "Verif.Props.C131_only",
    "Verif.Props.C131_passed",
    "Verif.Props.C131_kept",
    "Verif.Props.C131_line",
    "Verif.Props.C131_same_parser"
   ],
   "note": "For names written in lower case in the files (a name written otherwise is never found, C34_upper_case_never_found). If the files give a name several addresses, one of them is sent (which one depends on the schedule, C117_hosts_false). C131_served and C131_only are about what the server sends (one question, the name after rewriting not in the custom DNS); net.ParseIP is any function."
  },
  {
   "property": "C132",
   "status": "partial",
   "theorems": [
    "Verif.Props.C132_ttls_partial",
    "Verif.Props.C132_ttls_max",
    "Verif.Props.C132_ttls_negative_false",
    "Verif.Props.C132_ttls_subnet_false",
    "Verif.Props.C132_ttls_prefetching_false"
   ],
   "note": "False as stated (three witnesses: records of negative answers, queries with a client subnet, prefetching). Proved without prefetching, for queries the cache answers, over all histories: the TTL is configured, or at most the maximum caching time plus the time of negative answers; at most the maximum caching time alone if NXDOMAIN answers of upstreams contain no records. Answers with code SERVFAIL are passed on as they are."
  },
  {
   "property": "C133",
   "status": "partial",
   "theorems": [
    "Verif.Props.C133_changes_seen",
    "Verif.Props.C133_uncleaned_false",
    "Verif.Props.C133_prefetching_false"
   ],
   "note": "Proved without prefetching, for the time of the first clean-up after the caching times have passed (until then expired answers are still given, C133_uncleaned_false); with prefetching it is false (C133_prefetching_false). Answers with code SERVFAIL are passed on as they are. The clock must show a time after 1970."
  },
  {
   "property": "C134",
   "status": "partial",
   "theorems": [
    "Verif.Props.C134_new_answers",
    "Verif.Props.C134_client",
    "Verif.Props.C134_one_question",
    "Verif.Props.C134_two_questions_false"
   ],
   "note": "Proved without prefetching, for the time after the first clean-up that follows the caching times, for one question about a name nothing is configured about. Either what is behind the cache answers every question of a request (C134_new_answers, C134_client), or all clients ask one question per message after the change (C134_one_question); with special-use names and two questions in a message the claim is false (C134_two_questions_false). The clean-up is needed (C133_uncleaned_false), prefetching breaks the claim (C133_prefetching_false)."
  },
  {
   "property": "C135",
   "status": "partial",
   "theorems": [
    "Verif.Props.C135_server",
    "Verif.Props.C135_read",
    "Verif.Props.C135_forms",
    "Verif.Props.C135_fields_false"
   ],
   "note": "Proved in full for the reading; a mapping with the fields of an upstream is also accepted, without the checks and defaults of texts (C135_fields_false: port 0)."
  }
 ]
}