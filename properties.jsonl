{"id": "C01", "title": "Rule ordering is a strict total order on rule keys", "statement": "The ordering the library keeps rules in (used for iteration, insertion, and binary decision of 'same rule') is reflexive-zero, antisymmetric and transitive on well-formed rules, and compares equal exactly when the two rules have the same family, addresses and prefix lengths, protocol, ports, interfaces, key flags, effective priority and parent-event label.", "quantifier": "all pairs/triples of rules of every address length, port, interface, flag word and parent event", "why_tests_cant": "a comparator that is intransitive on one triple silently makes inserts land out of order and rules unfindable; the triple space is astronomically large", "anchors": ["src/routes.c: cmp_addrs_prefixful, wolfsentry_route_key_cmp_1, wolfsentry_route_key_cmp"]}
{"id": "C02", "title": "Table stays sorted and duplicate-free", "statement": "After any sequence of rule (or event, action, KV, address-family) insertions, deletions, flushes and lookups, walking the table yields strictly increasing keys, the reported entry count equals the number of entries walked, and no key appears twice.", "quantifier": "every finite sequence of table operations from an empty table, for any lawful ordering", "why_tests_cant": "unit tests exercise short fixed histories; the invariant must survive every interleaving of inserts and deletes", "anchors": ["src/wolfsentry_internal.c: wolfsentry_table_ent_insert, wolfsentry_table_ent_delete, wolfsentry_table_ent_delete_1, wolfsentry_table_ent_get"]}
{"id": "C03", "title": "Table operations behave like a finite map", "statement": "Looking a key up after any history returns exactly the entry most recently inserted under that key and not since deleted; inserting an already-present key fails with ITEM_ALREADY_PRESENT and changes nothing about existing entries; deleting an absent key fails with ITEM_NOT_FOUND.", "quantifier": "every finite operation history, every key", "why_tests_cant": "tests sample a few histories; the map law is a statement about all of them", "anchors": ["src/wolfsentry_internal.c: wolfsentry_table_ent_insert, wolfsentry_table_ent_get, wolfsentry_table_ent_delete"]}
{"id": "C04", "title": "Object IDs are unique and never the reserved value", "statement": "Every object that is in the context's ID table has a non-zero ID, no two live objects share an ID, lookup by ID returns exactly the live object with that ID, and automatically allocated IDs never collide with a live ID even after the 32-bit counter has wrapped or explicit IDs were used.", "quantifier": "every history of automatic and explicit ID allocation and release, of any length, including counter wraparound", "why_tests_cant": "wraparound needs 2^32 allocations; collisions depend on the full history", "anchors": ["src/wolfsentry_internal.c: wolfsentry_id_allocate, wolfsentry_table_ent_insert_by_id, wolfsentry_table_ent_get_by_id, wolfsentry_table_ent_delete_by_id_1"]}
{"id": "C05", "title": "Linked list primitives preserve a well-formed doubly linked list", "statement": "Prepending, appending, inserting before/after an element and deleting an element turn a well-formed doubly linked list for sequence L into a well-formed list for the corresponding edited sequence, with no other cell touched, regardless of the stale link fields in the inserted cell.", "quantifier": "all lists of any length, all positions, all prior contents of the inserted cell's link fields", "why_tests_cant": "pointer corruption appears only with specific stale link contents (delete followed by re-insert at head/tail)", "anchors": ["src/wolfsentry_ll.h: wolfsentry_list_ent_prepend, wolfsentry_list_ent_append, wolfsentry_list_ent_insert_before, wolfsentry_list_ent_insert_after, wolfsentry_list_ent_delete"]}
{"id": "C06", "title": "CIDR semantics of address matching", "statement": "An address matches a rule address of prefix length n exactly when their first n bits, most significant first, are equal.", "quantifier": "all addresses, all prefix lengths 0..128, rule addresses of any width", "why_tests_cant": "errors are confined to particular prefix lengths and bit patterns; 2^32 x 33 IPv4 cases and far more for IPv6", "anchors": ["src/routes.c: cmp_addrs_prefixful, wolfsentry_route_init, wolfsentry_route_key_cmp_1"]}
{"id": "C07", "title": "Bitmask semantics of address matching", "statement": "With bitmask matching enabled, a target address matches an (address, mask) rule of the same width exactly when every byte of target AND mask equals the rule's address byte.", "quantifier": "all addresses, masks and widths", "why_tests_cant": "needs all byte patterns", "anchors": ["src/routes.c: cmp_addrs_bitmaskful"]}
{"id": "C08", "title": "Wildcard fields match anything, non-wildcard fields match only equals", "statement": "A rule returned as matching a query agrees with the query on every field not flagged wildcard in the rule or query: family, protocol, local port, remote port, interfaces exactly; addresses up to their prefix; and the reported inexact-match flags name exactly the fields that matched without being equal.", "quantifier": "all rules and queries", "why_tests_cant": "2^8 wildcard combinations times all field values", "anchors": ["src/routes.c: wolfsentry_route_key_cmp_1"]}
{"id": "C09", "title": "Lookup returns only matching rules", "statement": "Whenever a dispatch or lookup returns a rule, that rule is in the table, matches the query under the wildcard rules, and (when requested) is not penalty-boxed.", "quantifier": "every table and every query", "why_tests_cant": "tables are unbounded and search order depends on all entries", "anchors": ["src/routes.c: wolfsentry_route_lookup_0"]}
{"id": "C10", "title": "Lookup does not miss a matching rule", "statement": "If some rule in the table matches the query then an (inexact) lookup reports a rule rather than ITEM_NOT_FOUND, and the rule reported has the best (numerically lowest) effective priority among the candidates examined.", "quantifier": "every table and query", "why_tests_cant": "a missed rule is a firewall bypass that depends on the exact ordering of all other rules", "anchors": ["src/routes.c: wolfsentry_route_lookup_0, compare_match_exactness"]}
{"id": "C11", "title": "Exact lookup finds a rule iff it was inserted", "statement": "An exact-match lookup for a rule's own key returns that rule if and only if it is in the table.", "quantifier": "every table reachable by inserts and deletes, every key", "why_tests_cant": "depends on full table history", "anchors": ["src/routes.c: wolfsentry_route_lookup_0, wolfsentry_route_insert_1, wolfsentry_route_delete_0"]}
{"id": "C12", "title": "Specificity comparison of candidates is consistent", "statement": "Choosing the more specific of two matching rules is antisymmetric (A more specific than B excludes B more specific than A), so the result of a lookup does not depend on presentation order.", "quantifier": "all triples (query, rule A, rule B)", "why_tests_cant": "requires quantification over all addresses and prefixes", "anchors": ["src/routes.c: compare_match_exactness, addr_prefix_match_size"]}
{"id": "C13", "title": "Rule insertion validates wildcards and widths", "statement": "Creating a rule succeeds only if wildcard flags are consistent with the supplied fields: a wildcarded field is zero/empty, remote address requires family, ports require protocol (TCP/UDP-like numbering), at least one direction flag is set, and stored address padding bits are zeroed; otherwise it fails with INVALID_ARG and no rule is created.", "quantifier": "all argument combinations", "why_tests_cant": "2^14 flag combinations times field values", "anchors": ["src/routes.c: wolfsentry_route_init, wolfsentry_route_new"]}
{"id": "C14", "title": "Failed rule insertion leaves the table unchanged", "statement": "If inserting a rule reports an error (duplicate, table full of connections, insert action rejected it), the set of rules in the table, their order and the purge queue are as before the call.", "quantifier": "every table state, every rule, every failing cause", "why_tests_cant": "error paths with specific table contents are rarely exercised", "anchors": ["src/routes.c: wolfsentry_route_insert_1"]}
{"id": "C15", "title": "Deleting a rule with live connections is deferred", "statement": "Deleting a rule whose connection count is zero removes it at once; with live connections it is marked pending-delete, no longer matches as a fresh rule for purposes of reinsertion, and is removed exactly when its connection count reaches zero.", "quantifier": "all histories of connect/disconnect/delete on a rule", "why_tests_cant": "depends on arbitrary event histories", "anchors": ["src/routes.c: wolfsentry_route_delete_0, wolfsentry_route_event_dispatch_0, wolfsentry_route_drop_reference"]}
{"id": "C16", "title": "Purging removes only expired rules, oldest expiry first, and terminates", "statement": "Stale-rule purge never removes a rule whose purge-after time is in the future or that was given none; the purge queue is ordered by expiry; and the purge call terminates for every table state.", "quantifier": "every table state and clock value", "why_tests_cant": "termination and ordering depend on arbitrary histories of dispatches that move expiry times", "anchors": ["src/routes.c: wolfsentry_route_stale_purge_1, wolfsentry_route_purge_time_set, wolfsentry_route_purge_list_insert"]}
{"id": "C17", "title": "Bound on purgeable rules", "statement": "Right after a successful rule insertion, the number of purgeable rules does not exceed the configured maximum.", "quantifier": "all insertion histories", "why_tests_cant": "needs arbitrary histories", "anchors": ["src/routes.c: wolfsentry_route_insert_1, wolfsentry_route_table_max_purgeable_routes_set"]}
{"id": "C18", "title": "Connection count never exceeds the configured maximum, under any interleaving", "statement": "With a maximum connection count M configured, the number of admitted (accepted, not yet disconnected) connections on a rule never exceeds M, for any number of threads dispatching concurrently, and each rejected connect leaves the count unchanged after it completes.", "quantifier": "all thread counts and all interleavings of the atomic steps of concurrent dispatches", "why_tests_cant": "races are schedule-dependent", "anchors": ["src/routes.c: wolfsentry_route_event_dispatch_0", "wolfsentry/wolfsentry_util.h: WOLFSENTRY_ATOMIC_INCREMENT_UNSIGNED_SAFELY"]}
{"id": "C19", "title": "Rule meta counters never wrap", "statement": "Hit, connection, derogatory and commendable counters saturate: an increment that would overflow or a decrement below zero leaves the counter unchanged and is reported.", "quantifier": "all counter values and deltas, all interleavings", "why_tests_cant": "overflow needs 2^16..2^32 events", "anchors": ["src/routes.c: wolfsentry_route_increment_derogatory_count, wolfsentry_route_increment_commendable_count", "wolfsentry/wolfsentry_util.h: WOLFSENTRY_ATOMIC_INCREMENT_UNSIGNED_SAFELY, WOLFSENTRY_ATOMIC_DECREMENT_UNSIGNED_SAFELY, WOLFSENTRY_ATOMIC_INCREMENT_UNSIGNED_SAFELY_BY_ONE"]}
{"id": "C20", "title": "Penalty-boxed traffic is rejected until the box expires", "statement": "While a rule is penalty-boxed and its duration has not elapsed every dispatch that resolves to it yields REJECT and not ACCEPT; once the duration (when non-zero) has elapsed the next dispatch clears the penalty box; with duration zero it never expires by itself.", "quantifier": "all rules, all configurations, all clock values, all initial action results", "why_tests_cant": "time-dependent behaviour over arbitrary histories", "anchors": ["src/routes.c: wolfsentry_route_event_dispatch_0"]}
{"id": "C21", "title": "Derogatory threshold boxes offenders", "statement": "A dispatch reporting derogatory behaviour that brings the (net, unless configured otherwise) derogatory count to the configured threshold penalty-boxes the rule in the same dispatch; below the threshold it never does.", "quantifier": "all counts, thresholds and configurations", "why_tests_cant": "arithmetic over all counter values and flag combinations", "anchors": ["src/routes.c: wolfsentry_route_event_dispatch_0"]}
{"id": "C22", "title": "Greenlisting is overridden by the penalty box", "statement": "A greenlisted, non-penalty-boxed rule yields ACCEPT; if a rule is both greenlisted and penalty-boxed then REJECT wins.", "quantifier": "all flag words and incoming results", "why_tests_cant": "all flag/result combinations", "anchors": ["src/routes.c: wolfsentry_route_event_dispatch_0"]}
{"id": "C23", "title": "Dispatch without a verdict falls through to the default policy", "statement": "If neither the rule nor any action sets ACCEPT or REJECT the result is the table's default policy with FALLTHROUGH set, and default policies other than the allowed accept/reject/stop/error combinations are refused.", "quantifier": "all tables, rules and results", "why_tests_cant": "must hold for every reachable combination of action results", "anchors": ["src/routes.c: wolfsentry_route_event_dispatch_0, wolfsentry_route_event_dispatch_1, wolfsentry_route_table_default_policy_set"]}
{"id": "C24", "title": "Action lists run in order with STOP/disabled/inhibit semantics", "statement": "Dispatching runs the enabled actions of a list in list order, each exactly once, skipping disabled ones, stops right after the first action that sets STOP or returns an error, and runs none when actions are inhibited; the accumulated result is the fold of the handlers' results.", "quantifier": "all lists of actions, all handlers", "why_tests_cant": "unbounded lists and arbitrary handler behaviour", "anchors": ["src/actions.c: wolfsentry_action_list_dispatch"]}
{"id": "C25", "title": "Action list editing", "statement": "Append, prepend, insert-after and delete on an event's action list produce exactly the corresponding edited sequence, refuse a second occurrence of the same action with ITEM_ALREADY_PRESENT, and report ITEM_NOT_FOUND for absent anchors, leaving the list unchanged on error.", "quantifier": "all lists and all edit histories", "why_tests_cant": "unbounded histories", "anchors": ["src/actions.c: wolfsentry_action_list_append, wolfsentry_action_list_prepend, wolfsentry_action_list_insert_after, wolfsentry_action_list_delete"]}
{"id": "C26", "title": "Insert and delete actions run at most once per rule lifetime", "statement": "For every rule the insert actions are invoked at most once, and the delete actions at most once and only if the insert actions were invoked.", "quantifier": "all histories of insert, delete, purge and flush", "why_tests_cant": "depends on every combination of error and deferred-delete paths", "anchors": ["src/routes.c: wolfsentry_route_call_insert_action, wolfsentry_route_call_delete_action, wolfsentry_route_delete_0"]}
{"id": "C27", "title": "Built-in object names are protected", "statement": "User API calls cannot create or delete events or actions whose label falls in the reserved built-in namespace.", "quantifier": "all labels", "why_tests_cant": "all strings", "anchors": ["src/wolfsentry_internal.c: wolfsentry_label_is_builtin", "src/actions.c: wolfsentry_action_insert", "src/events.c: wolfsentry_event_insert"]}
{"id": "C28", "title": "Rule flag updates only touch permitted bits", "statement": "Updating rule flags succeeds only for bits outside the key/immutable and internal sets, yields exactly (old | set) & ~clear, and reports old and new words; otherwise fails and changes nothing.", "quantifier": "all flag words and requests", "why_tests_cant": "2^96 combinations", "anchors": ["src/routes.c: wolfsentry_route_update_flags_1", "wolfsentry/wolfsentry_util.h: WOLFSENTRY_ATOMIC_UPDATE_FLAGS"]}
{"id": "C29", "title": "Reference counting never frees an object that is still referenced", "statement": "Under any history of checkout, table insertion/removal and drop of references, an object is freed exactly when its last reference is dropped, is freed at most once, and the count never over- or underflows.", "quantifier": "all histories and interleavings", "why_tests_cant": "use-after-free needs specific histories", "anchors": ["src/routes.c: wolfsentry_route_drop_reference_1", "src/actions.c: wolfsentry_action_drop_reference_1", "src/events.c: wolfsentry_event_drop_reference_1", "src/wolfsentry_internal.h: WOLFSENTRY_REFCOUNT_INCREMENT, WOLFSENTRY_REFCOUNT_DECREMENT"]}
{"id": "C30", "title": "Readers/writer lock mutual exclusion", "statement": "At no point does a thread hold the context lock exclusively while any other thread holds it shared or exclusively.", "quantifier": "all thread counts, all interleavings of lock, try-lock, timed-lock, promote, downgrade and unlock calls", "why_tests_cant": "violations need precise schedules (here: a timed-out writer between two readers)", "anchors": ["src/wolfsentry_util.c: wolfsentry_lock_shared_abstimed, wolfsentry_lock_mutex_abstimed, wolfsentry_lock_unlock, wolfsentry_lock_shared2mutex_abstimed, wolfsentry_lock_mutex2shared"]}
{"id": "C31", "title": "Lock recursion balances", "statement": "A thread that acquires the lock n times (shared or exclusive, nested) must release it n times before another thread's exclusive request is granted, and after n releases it holds nothing.", "quantifier": "all nesting depths and histories of one thread against any others", "why_tests_cant": "unbounded nesting", "anchors": ["src/wolfsentry_util.c: wolfsentry_lock_mutex_abstimed, wolfsentry_lock_unlock, wolfsentry_lock_shared_abstimed"]}
{"id": "C32", "title": "Lock promotion and reservation", "statement": "At most one thread holds a promotion reservation; a second attempt gets BUSY instead of deadlocking; promoting succeeds only when all other shared holders have left and keeps the caller's hold count.", "quantifier": "all schedules", "why_tests_cant": "schedule-dependent", "anchors": ["src/wolfsentry_util.c: wolfsentry_lock_shared2mutex_reserve, wolfsentry_lock_shared2mutex_redeem_abstimed, wolfsentry_lock_shared2mutex_abandon"]}
{"id": "C33", "title": "Every API call releases the lock it acquired", "statement": "API entry points that acquire the context lock return with the caller's lock holdings exactly as they were at entry, on every success and error path.", "quantifier": "all arguments and table states", "why_tests_cant": "error paths", "anchors": ["src/routes.c: wolfsentry_route_event_dispatch_by_id_1, wolfsentry_route_event_dispatch_by_route_1", "src/events.c: wolfsentry_event_get_config, wolfsentry_event_update_config, wolfsentry_event_set_aux_event, wolfsentry_event_action_list_start", "src/addr_families.c: wolfsentry_addr_family_insert", "src/kv.c: wolfsentry_kv_get_reference"]}
{"id": "C34", "title": "Error codes round-trip", "statement": "For every source id 0..127, line 0..65535 and code |c| <= 255, decoding an encoded error returns the same code, source and line; success codes are non-negative, errors negative, and distinct inputs encode distinctly.", "quantifier": "all codes, source ids and lines", "why_tests_cant": "full domain product", "anchors": ["wolfsentry/wolfsentry_errcodes.h: WOLFSENTRY_ERROR_ENCODE_0, WOLFSENTRY_ERROR_DECODE_ERROR_CODE, WOLFSENTRY_ERROR_DECODE_SOURCE_ID, WOLFSENTRY_ERROR_DECODE_LINE_NUMBER"]}
{"id": "C35", "title": "Time conversions round-trip", "statement": "Converting seconds/nanoseconds to wolfSentry time and back returns the original truncated to microseconds, and out-of-range inputs are rejected rather than wrapped; interval and sum are inverse.", "quantifier": "all 64-bit times", "why_tests_cant": "64-bit domain", "anchors": ["src/wolfsentry_util.c: wolfsentry_builtin_to_epoch_time, wolfsentry_builtin_from_epoch_time, wolfsentry_builtin_diff_time, wolfsentry_builtin_add_time"]}
{"id": "C36", "title": "Base64 decoding is correct and bounded", "statement": "Decoding the base64 encoding of any byte string returns that byte string; decoding never writes beyond the supplied buffer; with junk-ignoring, characters outside the alphabet are skipped.", "quantifier": "all byte strings, all input texts, all buffer sizes", "why_tests_cant": "unbounded inputs", "anchors": ["src/wolfsentry_util.c: wolfsentry_base64_decode"]}
{"id": "C37", "title": "User-value store semantics", "statement": "The KV store behaves as a map from keys to typed values: get returns the last stored value with its type, a mismatched type request is WRONG_TYPE, absent keys are ITEM_NOT_FOUND, store without overwrite on a present key fails, and a failed store leaves the map unchanged.", "quantifier": "all histories, keys and values", "why_tests_cant": "unbounded histories", "anchors": ["src/kv.c: wolfsentry_kv_insert, wolfsentry_kv_set, wolfsentry_kv_get_1, wolfsentry_kv_delete"]}
{"id": "C38", "title": "Read-only user values cannot change", "statement": "A KV entry marked read-only can be neither overwritten nor deleted until made writable, over any sequence of store/delete calls.", "quantifier": "all histories", "why_tests_cant": "unbounded histories", "anchors": ["src/kv.c: wolfsentry_kv_set, wolfsentry_kv_delete, wolfsentry_user_value_set_mutability"]}
{"id": "C39", "title": "KV validator invariant", "statement": "Once a validator is installed successfully every value in the store satisfies it, and continues to after any sequence of operations.", "quantifier": "all validators and histories", "why_tests_cant": "unbounded histories", "anchors": ["src/kv.c: wolfsentry_kv_set_validator, wolfsentry_kv_insert, wolfsentry_kv_set"]}
{"id": "C40", "title": "Address family names and numbers map one-to-one", "statement": "User-registered address families form a bijection between numbers and names; lookup by number and by name agree; and both directions agree after any history of inserts and deletes.", "quantifier": "all histories, all names", "why_tests_cant": "unbounded histories", "anchors": ["src/addr_families.c: wolfsentry_addr_family_insert_1, wolfsentry_addr_family_delete_1, wolfsentry_addr_family_get_bynumber, wolfsentry_addr_family_get_byname"]}
{"id": "C41", "title": "Event configuration is validated and preserved", "statement": "A configuration accepted by the library never asks for the same bit both added and cleared, has a derogatory threshold within counter range, and reading it back returns what was set.", "quantifier": "all configurations", "why_tests_cant": "full field product", "anchors": ["src/wolfsentry_util.c: wolfsentry_eventconfig_check, wolfsentry_eventconfig_load, wolfsentry_eventconfig_get_1, wolfsentry_eventconfig_update_1"]}
{"id": "C42", "title": "Auxiliary event graph stays safe", "statement": "After any history of event creations and aux-event assignments, following aux events from any event terminates (no cycles other than explicit self reference).", "quantifier": "all histories of assignments", "why_tests_cant": "unbounded graph shapes", "anchors": ["src/events.c: wolfsentry_event_set_aux_event"]}
{"id": "C43", "title": "Event priority and label invariants", "statement": "Events are retrievable by label exactly when inserted, label comparison is a total order, labels over the maximum length are refused; priority of the highest priority route is tracked.", "quantifier": "all labels", "why_tests_cant": "all strings", "anchors": ["src/events.c: wolfsentry_event_key_cmp, wolfsentry_event_insert, wolfsentry_event_get_1", "src/routes.c: wolfsentry_route_insert_1"]}
{"id": "C44", "title": "Context exchange is an involution and exchanges all policy state", "statement": "Exchanging two contexts twice restores both; after one exchange each context serves exactly the other's former rules, events, actions, user values and default configuration, while locks and cleanup hooks stay put.", "quantifier": "all context contents", "why_tests_cant": "all states", "anchors": ["src/wolfsentry_util.c: wolfsentry_context_exchange"]}
{"id": "C45", "title": "Context clone is faithful", "statement": "A cloned context has the same rules, events, actions and values in the same order with the same IDs, and cross-references inside the clone point to the clone's own objects; later changes to one do not affect the other.", "quantifier": "all contexts", "why_tests_cant": "all states", "anchors": ["src/wolfsentry_util.c: wolfsentry_context_clone", "src/wolfsentry_internal.c: wolfsentry_table_clone, wolfsentry_coupled_table_clone"]}
{"id": "C46", "title": "Cleanup hooks run LIFO exactly once", "statement": "Registered cleanup callbacks run in reverse order of registration, each exactly once, duplicates being coalesced.", "quantifier": "all registration histories", "why_tests_cant": "unbounded histories", "anchors": ["src/wolfsentry_util.c: wolfsentry_cleanup_push, wolfsentry_cleanup_pop, wolfsentry_cleanup_all"]}
{"id": "C47", "title": "Numeric text rendering is exact and bounded", "statement": "Integer and hexadecimal rendering used in rule export produce the exact decimal/hex text and never write past the stated buffer length, reporting BUFFER_TOO_SMALL instead.", "quantifier": "all integers, all buffer lengths", "why_tests_cant": "full integer range and all lengths", "anchors": ["src/routes.c: ws_itoa, wolfsentry_route_format_json", "src/routes.c: wolfsentry_route_format_address"]}
{"id": "C48", "title": "Bitmask-family reference counts", "statement": "A family is treated as bitmask-matching exactly while at least one rule with a bitmask address of that family is in the table.", "quantifier": "all insert/delete histories", "why_tests_cant": "unbounded histories", "anchors": ["src/routes.c: wolfsentry_bitmask_matching_upref, wolfsentry_bitmask_matching_downref, is_bitmask_matching"]}
{"id": "C49", "title": "JSON parser accepts exactly JSON, in any chunking", "statement": "The incremental JSON parser through which configurations are loaded accepts exactly the JSON texts (RFC 8259, strings being well-formed UTF-8 without overlong forms, surrogates or out-of-range code points) within the configured limits, reports exactly their events in order to the callback, never touches memory outside its stack, buffer or input, stays failed after an error, and all of that independently of how the text is split into the chunks fed to it.", "quantifier": "all byte strings, all chunkings, all callbacks and all parser limits", "why_tests_cant": "every text and every split point of it, at any length and nesting depth", "anchors": ["src/json/centijson_sax.c: json_init, json_feed, json_fini, json_string_automaton, json_number_automaton, json_literal_automaton, json_process", "wolfsentry/centijson_sax.h: JSON_CONFIG, JSON_CALLBACKS", "src/json/load_config.c: default_json_config"]}
{"id": "C50", "title": "JSON dictionary is a map with logarithmic depth", "statement": "The dictionary used for JSON values behaves as a finite map for all histories of add/get/remove, and remains a valid red-black tree (no red-red edge, equal black heights).", "quantifier": "all histories", "why_tests_cant": "rebalancing case analysis over unbounded trees", "anchors": ["src/json/centijson_value.c: json_value_dict_get_or_add_, json_value_dict_remove_"]}
{"id": "C51", "title": "A dispatch reports the rule it acted on", "statement": "A dispatch that finds a rule reports that rule's ID (none once it left the table) and how the rule differs from the traffic, and an error of an action is both returned and marked ERROR in the results. A trigger label that names no event makes the call fail with the lookup's error and no effect at all, unless the caller's flags allow any event, when it is as if no label was given. Traffic without a rule and without post actions reports no rule ID and says that the default policy was used.", "quantifier": "all tables, traffic, flags, trigger labels, action handlers", "why_tests_cant": "depends on every combination of lookup outcome, trigger label, and action result", "anchors": ["src/routes.c: wolfsentry_route_event_dispatch_1"]}
{"id": "C52", "title": "JSON integers are classified and converted by value", "statement": "Whatever its length, a JSON integer is reported as fitting a signed/unsigned 32/64-bit type exactly when its mathematical value is in the range of that type, a number with fraction or exponent is never reported as an integer, the conversion functions give exactly the value of every number in range (the most negative included, without overflow), and every 64-bit integer is written as the JSON integer of that value, so writing and reading gives the same integer.", "quantifier": "all JSON numbers of any length, all 64-bit integers, all chunkings of the text", "why_tests_cant": "the classification works on digit strings of unbounded length and the conversion on 2^64 values", "anchors": ["src/json/centijson_sax.c: json_analyze_number, json_number_to_int32, json_number_to_uint32, json_number_to_int64, json_number_to_uint64, json_dump_int64, json_dump_uint64"]}
{"id": "C53", "title": "Strings are written so that they are read back unchanged", "statement": "Every string of Unicode characters is written as a JSON string of exactly these characters, whatever characters need escaping, in consecutive pieces up to the first write error, whose code is returned; parsing the text in any chunks gives back the same bytes.", "quantifier": "all Unicode strings, write functions, chunkings", "why_tests_cant": "all strings of unbounded length and all write callbacks", "anchors": ["src/json/centijson_sax.c: json_dump_string, json_control_to_hex, json_feed"]}
{"id": "C54", "title": "Numbers in a configuration are stored exactly or refused", "statement": "A JSON number given for an 8-, 16- or 32-bit setting or a signed 64-bit value is accepted exactly when it is an integer in the range of the setting, and is then stored with its value: out-of-range values, negative values and fractions are refused, never truncated or wrapped. Strings are accepted exactly when they are decimal, octal or hexadecimal literals in range. Durations (a number of seconds, or a string with unit s, m, h or d) are stored with exactly their value, whatever bytes follow in memory.", "quantifier": "all JSON numbers and strings of any length, all memory contents after the value", "why_tests_cant": "unbounded digit strings, several number bases and memory contents beyond the token", "anchors": ["src/json/load_config.c: convert_uint64, convert_sint64, convert_uint32, convert_uint16, convert_uint8, convert_wolfsentry_duration"]}
{"id": "C55", "title": "A configuration can be loaded without touching rules and events", "statement": "Loading any text with NO_ROUTES_OR_EVENTS makes no library call that creates or changes a rule or an event or names the default event, whether or not the text is accepted; whatever all other calls leave alone is left alone. A document without rules and events has the same effect with and without the flag.", "quantifier": "all texts, chunkings, libraries and memory contents behind the tokens", "why_tests_cant": "ranges over all texts, including malformed ones, and over every point at which the load can fail", "anchors": ["src/json/load_config.c: json_process, handle_route_clause, handle_event_clause, handle_defaultpolicy_clause"]}
{"id": "C56", "title": "A configuration document has exactly its documented effect", "statement": "A document is accepted exactly when every member is a known key with a value of the right form in the right place, and the library calls made are exactly those its rule, event, policy, setting and user-value objects stand for, in document order: each rule object is one insertion of a rule that has the given fields and is a wildcard in all the others, each event object one event; no value is carried over from one object to the next.", "quantifier": "all JSON trees, all chunkings of their texts, all libraries and resolver answers", "why_tests_cant": "all documents of unbounded size, with members in any order and number", "anchors": ["src/json/load_config.c: json_process, handle_route_clause, handle_route_endpoint_clause, handle_event_clause, handle_eventconfig_clause, handle_user_value_clause"]}
{"id": "C57", "title": "An exported rule loads back as the same rule", "statement": "The JSON object written for a rule, placed in the static-routes list of a configuration document and loaded into a library that accepts it, makes exactly one rule insertion, and the inserted rule has the direction, family, protocol, addresses, prefix lengths or bitmasks, ports, interfaces, wildcards, flags and parent event of the exported rule; nothing else is inserted.", "quantifier": "all well-formed rules of a reachable table, all libraries and resolver answers, all chunkings", "why_tests_cant": "all rules: every combination of wildcards, prefix lengths, address bytes, labels and flags", "anchors": ["src/routes.c: wolfsentry_route_format_json", "src/json/load_config.c: handle_route_clause, handle_route_endpoint_clause, convert_sockaddr_address"]}
{"id": "C58", "title": "A JSON text parsed into memory gives the value it denotes", "statement": "Parsing a JSON text into a value in memory, in any pieces, succeeds with exactly the value the text denotes: the same nesting, strings and order; each number as an integer of the smallest fitting type, otherwise as a floating-point number; of members with the same key the first or the last one counts, or the text is refused, as the flags say. A text that denotes no value is refused and gives null.", "quantifier": "all texts, chunkings, configurations, flags and conversions of decimal numbers", "why_tests_cant": "unbounded texts, nesting and repetitions of keys, and every way of cutting the input", "anchors": ["src/json/centijson_dom.c: json_dom_process, json_dom_parse, json_dom_fini", "src/json/centijson_value.c: json_value_dict_get_or_add, json_value_array_append", "src/json/centijson_dom.c: init_number"]}
{"id": "C59", "title": "A value written as JSON is read back as the same value", "statement": "Writing a value in memory as JSON text, with any formatting flags, and parsing that text in any pieces gives the same value, up to the type an integer is stored in and the order of unordered dictionaries; a value that came from a text and whose order is kept comes back exactly. The bytes reach the write function in order until it reports an error, which is passed on. Floating-point numbers are written so that they are read as floating-point numbers.", "quantifier": "all values, formatting flags, write functions, chunkings and number formatters", "why_tests_cant": "unbounded values and strings with every escape", "anchors": ["src/json/centijson_dom.c: json_dom_dump, json_dom_dump_helper", "src/json/centijson_sax.c: json_dump_double, json_dump_string, json_dump_int32"]}
{"id": "C60", "title": "Arrays of JSON values behave as lists", "statement": "After any history of insertions, appends, assignments, removals of elements or ranges and clearing, every call reported what a list would report (failing without effect when the allocator has no memory or the index is outside), the array has the elements of that list in order, and no call touched memory outside the array or released memory.", "quantifier": "all histories of calls, element values, indices, counts and answers of the allocator", "why_tests_cant": "unbounded histories, and every pattern of allocation failure and reallocation", "anchors": ["src/json/centijson_value.c: json_value_array_insert, json_value_array_append, json_value_array_remove, json_value_array_remove_range, json_value_array_clean, json_value_array_realloc"]}
{"id": "C61", "title": "Strings, integers and truth values stored in JSON values come back unchanged", "statement": "A string of any bytes and length stored in a JSON value is returned with its exact length, terminated by zero, also when the value is the key of a dictionary entry whose colour changes; an integer or truth value is returned exactly. An integer value is reported compatible with another integer type exactly if that type contains it, and the getter of that type then returns it. Without memory, a value that needs it is refused and null.", "quantifier": "all strings, integers, previous contents of the value and recolourings", "why_tests_cant": "all lengths (variable-length encoding) and all integers", "anchors": ["src/json/centijson_value.c: json_value_init_string_, json_value_string, json_value_string_length, json_value_init_int32, json_value_int32, json_value_is_compatible"]}
{"id": "C62", "title": "A path leads to the value it names", "statement": "The path lookup on a JSON value follows the parts of the path between slashes one after the other: an empty part stays, [n] selects element n of an array, any other part selects the entry of a dictionary with that key; it returns null exactly if some part leads nowhere.", "quantifier": "all values and paths", "why_tests_cant": "unbounded values, paths and indices", "anchors": ["src/json/centijson_value.c: json_value_path"]}
{"id": "C63", "title": "The lwIP packet filter gives lwIP the answer of the rules", "statement": "A filter callback returns 'reset' (TCP and UDP only) if the rules ask for a reset, 'abort' if they reject, and OK otherwise; an event the layer does not ask about, or an error of the library, lets the packet pass; with a rule deciding, the answer is what that rule, the event configuration and the default policy prescribe (over its connection limit, penalty-boxed, reaching its threshold, greenlisted), and penalty-boxed peers are refused.", "quantifier": "all layers, events, addresses, rule tables, configurations, clocks and handlers", "why_tests_cant": "all traffic and all rule tables", "anchors": ["src/lwip/packet_filter_glue.c: ethernet_filter_with_wolfsentry, ip4_filter_with_wolfsentry, ip6_filter_with_wolfsentry, tcp_filter_with_wolfsentry, udp_filter_with_wolfsentry, icmp4_filter_with_wolfsentry, icmp6_filter_with_wolfsentry"]}
{"id": "C64", "title": "The lwIP packet filter asks the rules about the traffic it was shown", "statement": "For every layer and event the question put to the rules has the family, addresses, protocol, ports (for ICMP the type), interface and direction of the traffic, wildcards exactly for a peer that does not exist, and result bits that say what has happened; the rule that decides fits that traffic, and no better rule does.", "quantifier": "all layers, events, addresses, ports, interfaces and rule tables", "why_tests_cant": "all combinations of layer, event and traffic over all tables", "anchors": ["src/lwip/packet_filter_glue.c: ethernet_filter_with_wolfsentry, ip4_filter_with_wolfsentry, tcp_filter_with_wolfsentry, udp_filter_with_wolfsentry, icmp4_filter_with_wolfsentry", "lwip/LWIP_PACKET_FILTER_API.patch: tcp_filter_dispatch_incoming, tcp_filter_dispatch_outgoing, udp_filter_dispatch_incoming"]}
{"id": "C65", "title": "The lwIP packet filter counts connections", "statement": "Over any history of events, the connection count of a rule is what it was before plus the accepted connections it decided (not those over its limit) minus the accepted ones that ended and that it decided; no other rule's count changes.", "quantifier": "all histories of events of all layers, over all tables, with configurations, clocks and handlers changing between events", "why_tests_cant": "unbounded histories", "anchors": ["src/lwip/packet_filter_glue.c: tcp_filter_with_wolfsentry", "lwip/LWIP_PACKET_FILTER_API.patch: tcp_listen_input, tcp_filter_dispatch_incoming, tcp_filter_dispatch_outgoing"]}
{"id": "C66", "title": "Installing lwIP callbacks is complete, all or nothing, and undone by shutdown", "statement": "After the callbacks were installed successfully, an event reaches the context's callback exactly if its layer's mask asks for it (asking for one of the TCP events accept, close, reset asks for all three); after a failed installation none is installed; asking for nothing, and shutting the context down, removes all; whatever contexts do in whatever order, no event reaches a callback with a context that was shut down.", "quantifier": "all masks, failures of lock and memory, and histories of installations and shutdowns by any number of contexts", "why_tests_cant": "unbounded histories and every failure pattern", "anchors": ["src/lwip/packet_filter_glue.c: wolfsentry_install_lwip_filter_callbacks, wolfsentry_install_lwip_filter_tcp_callback, wolfsentry_cleanup_lwip_filter_callbacks", "src/wolfsentry_util.c: wolfsentry_cleanup_push, wolfsentry_cleanup_all"]}
{"id": "C67", "title": "A rule can be exported and made again", "statement": "A rule exported and then inserted again (the event it names existing with the same priority, no rule of that key present) gives a rule with the same key, so matching the same traffic, with the same counts, expiry, flags and private data; all other rules are as they were. Setting wildcards on a rule before insertion zeroes the fields concerned and leaves the others.", "quantifier": "all rules, with any private data, settings, addresses, flags, and all tables that calls can produce", "why_tests_cant": "all byte contents and layouts, all tables", "anchors": ["src/routes.c: wolfsentry_route_export, wolfsentry_route_new_by_exports, wolfsentry_route_init_by_exports, wolfsentry_route_insert_by_exports_2, wolfsentry_route_insert_by_exports_into_table, wolfsentry_route_set_wildcard, wolfsentry_route_get_private_data"]}
{"id": "C68", "title": "The built-in tracking action adds a rule for the traffic seen", "statement": "The action %track-peer-v1, called for traffic whose key is not in the table, adds exactly one rule: the traffic's own key, with the auxiliary event of the generating rule's event (else that event), zero counts and the configured expiry; the rule matches that traffic; everything else stays, and the results gain INSERTED only. Called for a rule of the table, or when the insertion fails, it changes nothing. The behaviour reported with the traffic is counted once.", "quantifier": "all traffic, generating rules, events, settings and tables that calls can produce, every failure of lock, clock, memory and lookup", "why_tests_cant": "all tables, traffic and failure patterns", "anchors": ["src/action_builtins.c: wolfsentry_builtin_action_track_peer", "src/routes.c: wolfsentry_route_reset_metadata_exports, wolfsentry_route_insert_by_exports_into_table"]}
{"id": "C69", "title": "Thread contexts have identities of their own", "statement": "Contexts initialised and destroyed by any number of threads at once have different, non-zero identities while in use, as long as fewer than 2^24-1 have been initialised without an identity from the host; contexts that go in the reverse order of coming (interrupt handlers) can come and go for ever. Beyond that bound identities repeat, and the lock lets the second context with the identity of the exclusive holder in.", "quantifier": "all interleavings of the atomic steps of initialisation and destruction of any number of contexts; all nested histories", "why_tests_cant": "all interleavings, 2^24 initialisations", "anchors": ["src/wolfsentry_util.c: wolfsentry_init_thread_context, wolfsentry_destroy_thread_context, fallback_thread_id_counter", "wolfsentry/wolfsentry_settings.h: wolfsentry_thread_id_t"]}
{"id": "C70", "title": "Deadlines of a thread context", "statement": "An absolute deadline is accepted exactly when it is a proper moment; a relative one is the present plus the interval, exactly; a new or cleared context reports never. A lock call without its own time-out waits for ever without a deadline and times out with one; its own time-out takes precedence. A context can be destroyed exactly when its thread holds no lock and no reservation.", "quantifier": "all contexts, times, intervals, time-outs; all lock histories", "why_tests_cant": "all times and lock histories", "anchors": ["src/wolfsentry_util.c: wolfsentry_set_deadline_rel_usecs, wolfsentry_set_deadline_abs, wolfsentry_clear_deadline, wolfsentry_get_thread_deadline, wolfsentry_destroy_thread_context, wolfsentry_lock_shared_abstimed_1, wolfsentry_lock_mutex_abstimed_1"]}
{"id": "C71", "title": "A thread can ask what it holds, and be made read-only", "statement": "have_shared, have_mutex, have_either and have_shared2mutex_reservation tell a thread exactly what it holds. A thread marked read-only never gets the exclusive lock nor a reservation; marking is refused to a thread that holds either and leaves everything else unchanged.", "quantifier": "all lock histories of any number of threads, some of them read-only for some of the time", "why_tests_cant": "all interleavings", "anchors": ["src/wolfsentry_util.c: wolfsentry_lock_have_shared, wolfsentry_lock_have_mutex, wolfsentry_lock_have_either, wolfsentry_lock_have_shared2mutex_reservation, wolfsentry_set_thread_readonly, wolfsentry_set_thread_readwrite"]}
{"id": "C72", "title": "Exporting the whole rule table and loading it back", "statement": "Exporting the table with dump_json_start, dump_json_next and dump_json_end produces exactly one JSON configuration holding the rules in table order, whatever the size of the buffer and wherever the caller empties it, and never writes outside the buffer. Loading that text, in chunks of any size, inserts exactly those rules, in that order, and does nothing else.", "quantifier": "all rule tables, buffer sizes, patterns of emptying the buffer, chunkings of the text", "why_tests_cant": "the tables, buffer sizes and chunkings are unbounded", "anchors": ["src/routes.c: wolfsentry_route_table_dump_json_start, wolfsentry_route_table_dump_json_next, wolfsentry_route_table_dump_json_end, wolfsentry_route_format_json", "src/json/load_config.c: wolfsentry_config_json_feed"]}
{"id": "C73", "title": "Iterating over a table visits each entry once, in order", "statement": "An iteration starts on the first entry; stepping forward visits every entry exactly once in table order and then reports that there is no more, however often it is called; stepping backward from the end visits them in the opposite order; one step forward and one back leads to where one was. An iteration does not start without a lock or memory.", "quantifier": "all tables, numbers of steps and positions", "why_tests_cant": "tables of every size and all positions", "anchors": ["src/wolfsentry_internal.c: wolfsentry_table_cursor_seek_to_head, wolfsentry_table_cursor_seek_to_tail, wolfsentry_table_cursor_next, wolfsentry_table_cursor_prev, wolfsentry_table_cursor_current", "src/routes.c: wolfsentry_route_table_iterate_start, wolfsentry_route_table_iterate_next, wolfsentry_route_table_iterate_prev, wolfsentry_route_table_iterate_current"]}
{"id": "C74", "title": "The built-in allocator hands out aligned, disjoint areas, keeps their contents, and gets every block back", "statement": "With the library's default allocator, whatever sequence of malloc, memalign, realloc, free and free_aligned calls the library makes: the areas in the hands of callers never overlap, an area from memalign starts at a multiple of the requested alignment, an area's contents change only by the caller's own writes, realloc preserves the common prefix, and giving an area back returns to the system exactly the block that was taken for it, so that nothing leaks.", "quantifier": "all histories of allocation calls, sizes, alignments, addresses the system may choose, and 32- or 64-bit size types", "why_tests_cant": "the system's choice of addresses and the histories are unbounded, and misalignment or overlap shows only for particular addresses", "anchors": ["src/wolfsentry_util.c: wolfsentry_builtin_malloc, wolfsentry_builtin_free, wolfsentry_builtin_realloc, wolfsentry_builtin_memalign, wolfsentry_builtin_free_aligned"]}
{"id": "C75", "title": "A timed wait on FreeRTOS ends at its deadline and not before", "statement": "On FreeRTOS a timed wait on a semaphore takes the semaphore if it is available, never reports a time-out before the deadline, takes the semaphore if it is posted before the deadline, and reports the time-out within one tick of the deadline; a try never waits; an unlimited wait never times out. The arithmetic on time structures that it rests on is exact.", "quantifier": "all tick rates, tick counts, deadlines and moments of the post", "why_tests_cant": "rounding and wrap-around appear only at particular combinations of tick rate, uptime and deadline", "anchors": ["src/wolfsentry_util.c: UTILS_TimespecCompare, UTILS_TimespecSubtract, freertos_sem_timedwait, freertos_sem_wait, freertos_sem_trywait, freertos_now"]}
{"id": "C76", "title": "A lock is destroyed exactly when nobody uses it", "statement": "Creating a lock succeeds exactly when its flags are allowed and the system provides the memory and the semaphores. While any thread holds the lock or waits for it, destroying or freeing it is refused and leaves it as it was. Once every thread has released what it acquired, in whatever interleaving, it can be destroyed and freed. A destroyed lock cannot be destroyed again.", "quantifier": "all histories and interleavings of any number of threads, all lock calls, all failures of the system's semaphore calls", "why_tests_cant": "the residue a lock keeps depends on the interleaving of all the calls made on it before", "anchors": ["src/wolfsentry_util.c: wolfsentry_lock_init, wolfsentry_lock_alloc, wolfsentry_lock_destroy, wolfsentry_lock_free"]}
{"id": "C77", "title": "A user value is rendered as its JSON text, within the caller's buffer", "statement": "Rendering a user value into a buffer of the caller's produces the JSON text of the value, terminated by a zero, when the buffer is long enough, and otherwise reports that it is too small and how long the text is; it never stores behind the end of the buffer. The text reads back as the value. Values without a text (no value, byte strings) are refused, leaving the buffer as it was. Errors of the JSON library come out as the corresponding library errors.", "quantifier": "all values of all types, all buffer lengths, all contents of the memory", "why_tests_cant": "values, strings, JSON trees and buffer lengths are unbounded; overruns and missing escapes appear only for particular ones", "anchors": ["src/kv.c: wolfsentry_kv_render_value, _json_value_dump_writer", "src/json/json_util.c: wolfsentry_centijson_errcode_translate"]}
{"id": "C78", "title": "A rule written to a stream is one complete line describing it", "statement": "Writing a rule (or an export of one) to a stdio stream puts one line on that stream that tells its addresses, interfaces, ports, directions, family, protocol, event, flags and id, and nothing on any other stream. When some output fails the call reports it, and what is on the stream is a beginning of the line. However the call ends, no reference to the address family is left taken.", "quantifier": "all rules, all registered families and formatters, all patterns of failing output calls", "why_tests_cant": "rules are unbounded, and output failures happen at any call", "anchors": ["src/routes.c: wolfsentry_route_render, wolfsentry_route_exports_render, wolfsentry_route_render_flags, wolfsentry_route_render_address, wolfsentry_route_render_endpoint, wolfsentry_route_render_proto"]}
{"id": "C79", "title": "The default event stays the one that was set, and alive", "statement": "After an event has been set as the default event, asking for the default event reports that event's label (or that the caller's buffer is too small, changing nothing), and reports nothing found when none was set or it was cleared since; other calls do not change the answer. Setting fails only when no event of that label exists or its reference count is exhausted, and then changes nothing. The event in force is never released, even if it is deleted from the table; an event is released exactly when it is in neither place and nobody else holds it.", "quantifier": "all tables of events, all histories of set, clear, insert and delete, all buffers given by the caller", "why_tests_cant": "event lifetimes depend on unbounded histories of set, clear, delete and hold operations", "anchors": ["src/routes.c: wolfsentry_route_table_set_default_event, wolfsentry_route_table_get_default_event, wolfsentry_route_table_clear_default_event", "src/events.c: wolfsentry_event_insert, wolfsentry_event_delete, wolfsentry_event_drop_reference, wolfsentry_event_get_reference"]}
{"id": "C80", "title": "Results can be told in words", "statement": "Every result code of the library has a name and a text of its own, whatever line and file it comes from; a code or source file defined by the user is told by the text registered first for it, and by a text that says so when none was. A text is accepted for a code or source exactly when users may define it and none was registered yet. Every set bit of a word of action results has a name by which that bit is found again. No result code, however made, makes these functions read outside their tables.", "quantifier": "all result codes, lines, sources and words of results, all histories of registrations", "why_tests_cant": "codes, lines, sources and registration histories combine without bound", "anchors": ["src/wolfsentry_util.c: wolfsentry_user_source_string_set, wolfsentry_user_error_string_set, wolfsentry_errcode_source_string, wolfsentry_errcode_error_string, wolfsentry_errcode_error_name, wolfsentry_action_res_assoc_by_flag, wolfsentry_action_res_assoc_by_name"]}
{"id": "C81", "title": "A caller built for another layout is turned away", "statement": "The library accepts a caller's build settings exactly when the caller was built for the same version, sets no configuration bit the library does not know, and agrees with the library on every configuration bit that changes the layout of shared structures; a refusal says which of these failed.", "quantifier": "all versions and configuration words of library and caller", "why_tests_cant": "there are 2^64 settings for each library", "anchors": ["src/wolfsentry_util.c: wolfsentry_build_settings_compatible", "wolfsentry/wolfsentry_settings.h: enum wolfsentry_build_flags"]}
{"id": "C82", "title": "A context is made whole or refused, and shut down without a trace", "statement": "wolfsentry_init_ex hands out a context exactly when the build settings fit, the configuration is valid, the callbacks are complete, every allocation is granted and the lock can be made; what is then allocated is exactly what a context consists of. A call whose arguments are refused allocates nothing, and a call that fails later leaves nothing allocated. wolfsentry_shutdown is refused, with the context unchanged, while the lock is contended or held more than once; otherwise it frees the context's memory and every object of its tables, and keeps exactly those that a caller still holds, with whatever they refer to.", "quantifier": "all build options, arguments, patterns of refused allocations, and contexts reached by any history of reference-counted operations", "why_tests_cant": "each refused allocation is a different failure path, and the graph of references at shutdown is unbounded", "anchors": ["src/wolfsentry_util.c: wolfsentry_init_ex, wolfsentry_context_alloc_1, wolfsentry_context_free_1, wolfsentry_shutdown", "src/routes.c: wolfsentry_route_table_free, wolfsentry_route_table_fallthrough_route_alloc", "src/wolfsentry_internal.c: wolfsentry_table_free_ents", "src/action_builtins.c: wolfsentry_action_insert_builtins"]}
{"id": "C83", "title": "A configuration load is a transaction", "statement": "A dry run leaves the context, its tables and its users' handlers alone, whatever the text. LOAD_THEN_COMMIT is all or nothing: every feed returns what a dry run's feed returns, if the dry run fails the load fails with the same error and the context is unchanged and no handler has run, and if the dry run succeeds the context ends with exactly the rules, events, actions and user values that loading the text into a fresh draft gives, the delete handlers of the old rules having run in table order before the insert handlers of the new ones. A load in place flushes what the flags say first, and then leaves exactly what feeding the text leaves. After a feed that fails, every further feed is refused and fini reports the failure. Loading in one call is init, one feed, fini.", "quantifier": "all configuration texts, all ways of cutting them into chunks, all combinations of load flags, all contexts, all user handlers and all limits of the parser", "why_tests_cant": "the property ranges over every text and every point in it at which the load can fail, and over every table the context can hold", "anchors": ["src/json/load_config.c: wolfsentry_config_json_init_ex, wolfsentry_config_json_feed, wolfsentry_config_json_fini, wolfsentry_config_json_oneshot_ex", "src/wolfsentry_util.c: wolfsentry_context_clone, wolfsentry_context_exchange, wolfsentry_context_flush, wolfsentry_context_inhibit_actions, wolfsentry_context_enable_actions", "src/routes.c: wolfsentry_route_bulk_clear_insert_action_status, wolfsentry_route_bulk_insert_actions, wolfsentry_route_flush_table"]}
{"id": "C84", "title": "A loaded configuration is what is in force", "statement": "When a load succeeds, the text was a JSON document, and what is in force in the context afterwards — settings, policies, default event, events with their priorities, configurations and action lists, rules with what they match and when they expire, user values — is what the flags leave of the former contents, changed by the document from its first member to its last, and by nothing else. Each object of a \"routes\" section adds the rule its members describe, under the settings in force at that point of the document; with no limit on rules that expire, every rule of the document and every rule kept is in force at the end and no other; no two rules in force match the same traffic for the same event, and each is found by what it matches.", "quantifier": "all texts and ways of cutting them into chunks, all contexts a program can have made by registering actions, making library calls and loading configurations, all load flags but NO_FLUSH together with LOAD_THEN_COMMIT, all clocks, ID generators and user-value tables, all handlers that leave what is seen of rules alone", "why_tests_cant": "the property ranges over every document, and over every context it is loaded into", "anchors": ["src/json/load_config.c: wolfsentry_config_json_init_ex, wolfsentry_config_json_feed, wolfsentry_config_json_fini, handle_route_clause, handle_event_clause, handle_defaultpolicy_clause, handle_user_value_clause", "src/routes.c: wolfsentry_route_insert_1, wolfsentry_route_table_max_purgeable_routes_set", "src/events.c: wolfsentry_event_insert, wolfsentry_event_action_append", "src/wolfsentry_internal.c: wolfsentry_table_ent_insert"]}
{"id": "C85", "title": "Exported rules come back", "statement": "The rules of a context, exported to text and loaded in place of the rules of a context with the same events (the same one, or a new one), are in force again: the load succeeds, however the export was cut into pieces; every rule has one that matches the same traffic for the same event with the same status (penalty box, green list, what is counted), in the same order; nothing else in the context changes. The same holds of a load that is committed at the end.", "quantifier": "all contexts a program can have made, all sets of rules, all sizes of export buffers and ways of cutting the text into chunks, names or numbers, all clocks, ID generators and action handlers that succeed and leave rules alone", "why_tests_cant": "the property ranges over every table of rules and joins the exporter, the parser, the loader and the table; a test saves and restores a few", "anchors": ["src/routes.c: wolfsentry_route_table_dump_json_start, wolfsentry_route_table_dump_json_next, wolfsentry_route_table_dump_json_end, wolfsentry_route_format_json, wolfsentry_route_insert_1", "src/json/load_config.c: wolfsentry_config_json_init_ex, wolfsentry_config_json_feed, wolfsentry_config_json_fini, handle_route_clause"]}
{"id": "C86", "title": "A loaded configuration decides the traffic", "statement": "After a configuration has been loaded successfully (in place, or committed at the end), a dispatch about a packet is decided by the document: of the rules that cover the packet (direction, family, protocol, ports, interfaces, address prefixes, each unless the rule leaves it open) and whose event admits the call, one with the best priority answers: REJECT if it is in the penalty box, else ACCEPT if it is green-listed, else the default policy with FALLTHROUGH; if no rule covers the packet, the default policy answers, with FALLTHROUGH, and the call reports that. The rules that decide are those of the document, all of them and no others.", "quantifier": "all documents and ways of cutting them into chunks, all contexts a program can have made, all packets with both addresses known, all dispatching programs whose handlers only observe, all clocks and ID generators", "why_tests_cant": "the property joins parser, loader, rule table, search and verdict and ranges over every document and packet; a test tries a few of each", "anchors": ["src/json/load_config.c: wolfsentry_config_json_init_ex, wolfsentry_config_json_feed, wolfsentry_config_json_fini, handle_route_clause", "src/routes.c: wolfsentry_route_insert_1, wolfsentry_route_lookup_0, wolfsentry_route_event_dispatch_0, wolfsentry_route_event_dispatch_1"]}
{"id": "C87", "title": "An offender is banned, for the time configured, and no one else", "statement": "Take any history of dispatches, by address or by rule ID, with handlers that only observe. As long as the offences charged to a rule (less its commendations, unless configured otherwise; wiped out by a commendation where so configured) stay below the configured threshold, the rule is not penalty-boxed and its visits are rejected only if the caller, the configuration or the default policy says so. The visit that brings them to the threshold is rejected and bans the rule, with a fresh record. From then on every visit is rejected until the configured duration has passed since the ban (or a commendation lifts it, where so configured); the first visit after that is treated like any other unless the offences during the ban call for a new one. Dispatches on other traffic leave the rule's record and ban alone, except that an expired rule may be purged. (Visits refused for the connection limit are outside the first two sentences.)", "quantifier": "all tables, rules, configurations, and all finite sequences of dispatch calls with any addresses, flags, labels, reported results, clocks, lock outcomes and observing handlers, in any interleaving of visits to different rules", "why_tests_cant": "the record is spread over unboundedly many calls on interleaved traffic with arbitrary clocks; a test sees a few histories", "anchors": ["src/routes.c: wolfsentry_route_event_dispatch_0, wolfsentry_route_event_dispatch_1, wolfsentry_route_event_dispatch_by_id_1, wolfsentry_route_update_flags, wolfsentry_route_stale_purge_1"]}
{"id": "C88", "title": "Objects stay alive while threads look up, use, replace, delete and release them at the same time", "statement": "Take any number of threads sharing one context, making any calls that look up, use, store, overwrite, delete and release events, actions, address families and user values, or set, clear and read the default event, interleaved in any way access by access. No access touches an object that has been freed, no object is freed twice, and no NULL pointer is followed; what a thread has a reference to stays alive with the same contents whatever the others do, even once it has been deleted; a getter gives the value stored at that moment; and once no call is under way and all references are released, exactly what is in a table or is the default event is alive. (False of the code for callers that do not hold the lock around the user-value getters, the default-event getter and, if the compiler reads the parent pointer twice, releases.)", "quantifier": "all numbers of threads, all sequences of calls by each, all interleavings of their single accesses to shared memory", "why_tests_cant": "the windows between giving back the lock and using the object are a few instructions wide; only particular schedules hit them", "anchors": ["src/kv.c: wolfsentry_kv_get_1, wolfsentry_kv_get_2, wolfsentry_kv_get_reference, wolfsentry_kv_drop_reference, wolfsentry_kv_set, wolfsentry_kv_delete", "src/actions.c: wolfsentry_action_get_reference, wolfsentry_action_drop_reference, wolfsentry_action_delete", "src/events.c: wolfsentry_event_get_reference, wolfsentry_event_drop_reference, wolfsentry_event_delete", "src/addr_families.c: wolfsentry_addr_family_drop_reference, wolfsentry_addr_family_pton, wolfsentry_addr_family_ntop, wolfsentry_addr_family_handler_delete", "src/routes.c: wolfsentry_route_table_set_default_event, wolfsentry_route_table_clear_default_event, wolfsentry_route_table_get_default_event"]}
{"id": "C89", "title": "A loaded configuration over time", "statement": "After a configuration document has been loaded, whatever is dispatched afterwards (any number of calls about any traffic or rules, at any times): no rule appears, no rule that never expires disappears, and the rules left are those of the document but for bans and times of expiry; default policy and default event are as loaded. If the document gives a rule a threshold of n offences, then calls about packets for which that rule alone answers are counted against that rule, whoever sends them: until the n-th offence they are rejected only by the default policy, the n-th is rejected and bans the rule, the ban rejects everything the rule answers for until the configured time has passed, and then they are accepted again as before.", "quantifier": "all documents and contexts a load can start from, all histories of dispatches with handlers that only observe, all packets, thresholds and times", "why_tests_cant": "The claim joins the parser, the loader, the rule table and an unbounded history of dispatches with interleaved traffic, purges and clock readings; tests load a few documents and make a few calls.", "anchors": ["src/json/load_config.c: wolfsentry_config_json_init, wolfsentry_config_json_fini", "src/routes.c: wolfsentry_route_event_dispatch_0", "src/routes.c: wolfsentry_route_event_dispatch_1", "src/routes.c: wolfsentry_route_lookup_0", "src/routes.c: wolfsentry_route_stale_purge_1"]}
{"id": "C90", "title": "The limit on connections holds over time", "statement": "Whatever is dispatched and whatever happens to other rules, a rule that counts connections always stands at the ledger of the connections reported to it: a connection is entered while there are fewer than the limit, and a report that one has ended takes one out. So the count never exceeds the limit, a connection asked for at the limit is rejected and changes neither the count nor the ban, and as long as those who report connections stay within the limit the count is exactly the number of connections open. For a rule of a loaded configuration to which only connections are reported: a call is rejected exactly if it asks for a connection while the limit is reached, or the default policy rejects, whoever sends the traffic and however it is interleaved with other traffic.", "quantifier": "all histories of dispatches, all times, limits, rules and reports; for the last part all documents and contexts a load can start from and all packets", "why_tests_cant": "It is a claim about every interleaved history of opening, closing and other traffic, including increments that are undone; a test makes a few calls.", "anchors": ["src/routes.c: wolfsentry_route_event_dispatch_0", "src/routes.c: wolfsentry_route_event_dispatch_1", "src/routes.c: wolfsentry_route_lookup_0", "src/json/load_config.c: wolfsentry_config_json_init, wolfsentry_config_json_fini"]}
{"id": "C91", "title": "A configuration can be replaced in service", "statement": "After any traffic a context is in order again, so it can be edited and loaded as if it were new, any number of times. If a document is loaded and committed (or loaded in place) after any traffic, what is in force afterwards is what the document's calls make of the same start as if there had been no traffic; nothing is charged to any rule; from then on traffic is decided by the new rules, offenders are banned after as many offences as they say and limits on connections are kept. If the document is refused, every rule with its bans, counts and times of expiry, every event, setting and value is as before, and traffic goes on as if nothing had been tried.", "quantifier": "all histories of traffic, library calls, dry runs, refused and successful loads in any order, starting with a fresh context; all documents, chunkings, flags and handlers that only observe", "why_tests_cant": "It is about every history of traffic before a reload and every history after it; tests reload idle contexts.", "anchors": ["src/json/load_config.c: wolfsentry_config_json_init, wolfsentry_config_json_fini", "src/routes.c: wolfsentry_route_event_dispatch_0", "src/routes.c: wolfsentry_route_stale_purge_1", "src/wolfsentry_util.c: wolfsentry_context_clone, wolfsentry_context_exchange"]}
{"id": "C92", "title": "Deadlines handed to the system are exact", "statement": "For every clock reading and every delay that stay in the range of the library's times, the absolute deadline made for the system's waits is in the system's form (nanoseconds not negative and less than a second), is never later than now plus the delay and less than one microsecond earlier. A later start or a longer delay never gives an earlier deadline. Making the deadline in one call is the same as taking the time and converting it, whatever clock callbacks the host installed. Converted back, the deadline is the library's time for it. If the clock cannot be read, the error is returned and no deadline is stored; if the host's conversion fails, the failure is returned.", "quantifier": "all clock readings, delays and host clock callbacks", "why_tests_cant": "It ranges over every clock reading and delay; tests run at the present time with a few short delays.", "anchors": ["src/wolfsentry_util.c: wolfsentry_builtin_get_time, wolfsentry_builtin_add_time, wolfsentry_builtin_to_epoch_time, wolfsentry_time_now_plus_delta, wolfsentry_time_to_timespec, wolfsentry_time_now_plus_delta_timespec"]}
{"id": "C93", "title": "Every JSON failure has a text of its own", "statement": "For every number, asking the JSON library for its text gives a text, and reads nothing outside the tables. Every code the parser or the value builder can return, on any text in any chunks under any limits, has a text that says what it means, and no other code has that text; what a parse returns is one of these or what the caller's callback returned. Every kind of event has its name and no other number has it. The loader's messages give the text of the code they report.", "quantifier": "all integers; all texts, chunkings, limits, flags and callbacks", "why_tests_cant": "It is about every code every parse can return and about every integer a caller can pass; tests see a few codes.", "anchors": ["src/json/centijson_sax.c: json_error_str, json_type_str, json_feed, json_fini", "src/json/centijson_dom.c: json_dom_error_str, json_dom_process", "src/json/load_config.c: wolfsentry_config_centijson_errcode, wolfsentry_config_json_feed"]}
{"id": "C94", "title": "The parser's internal error never comes out", "statement": "The parser's own sanity check never fails: on any text in any chunks under any limits, neither a feed nor the end of the parse returns the internal error, unless the caller's callback returned it. What a parse returns is success, one of the codes for faulty texts or exceeded limits, or what the caller's callback returned.", "quantifier": "all texts, chunkings, limits, flags and callbacks", "why_tests_cant": "It is about every way of cutting every text; a test shows only that some texts do not reach the check.", "anchors": ["src/json/centijson_sax.c: json_string_automaton, json_dispatch, json_feed, json_fini, json_parse"]}
