{
 "C35": {
  "status": "partial",
  "note": "Round trip t->(s,ns)->t proved for every int64 time. Forward direction proved for s>=0; negation witnesses for negative seconds and for unchecked overflow."
 },
 "C34": {
  "note": "Full domain."
 },
 "C36": {
  "note": "Round trip, buffer bound for all inputs and outcomes, junk skipping. Malformed padding accepted is recorded as a finding theorem."
 },
 "C01": {
  "status": "proved",
  "note": "All well-formed rules."
 },
 "C06": {
  "status": "partial",
  "note": "Proved for prefix lengths multiple of 4; exact characterisation of the compared bits for every length; the claim is false of the code for other lengths (C06_not_cidr_22, C06_not_cidr_17)."
 },
 "C07": {
  "status": "proved",
  "note": "Same width, whole bytes. C07_narrow_target_ignored records a defect for narrower targets."
 },
 "C08": {
  "status": "proved",
  "note": "Prefix addresses (C08_*) and, with C07's mask comparison, every shape of stored address: C08_covers_iff states for masked and unmasked rules alike exactly when a rule covers a query."
 },
 "C12": {
  "status": "partial",
  "note": "False of the code in general (C12_not_antisymmetric); antisymmetry proved when inexact-field counts differ or both rules have remote bitmasks."
 },
 "C02": {
  "status": "proved",
  "note": "All histories of all tables, any lawful comparators; comparators of the actual tables shown lawful."
 },
 "C03": {
  "status": "proved",
  "note": "Finite-map laws over all histories."
 },
 "C04": {
  "status": "proved",
  "note": "Uniqueness and freshness over all histories with the wrapping counter; C04_wrap_fails_once records that one allocation fails at wrap-around."
 },
 "C05": {
  "status": "partial",
  "note": "prepend, append, delete, table splice/unlink proved with no assumption on stale links; insert_before/after need a NULL stale link at the ends. The full claim is false of the code (C05_insertBefore_stale_broken, C05_purge_time_set_corrupts)."
 },
 "C18": {
  "status": "partial",
  "note": "Limit and quiescent exactness proved for every thread count and interleaving when the counter cannot reach 65535; C18_race_at_65535, C18_no_limit_above_65535, C18_spurious_rejection record where the claim is false of the code."
 },
 "C19": {
  "status": "partial",
  "note": "Saturating increments/decrements proved for all values and interleavings except the defects recorded as theorems."
 },
 "C28": {
  "status": "partial",
  "note": "Acceptance condition, resulting word, reported words and atomicity proved; bits 16 and 17 are not protected (C28_marks_not_protected)."
 },
 "C09": {
  "status": "partial",
  "note": "Soundness of every returned rule for prefix addresses whose lengths are multiples of 4 (C06) and, with C09_sound_masked_partial, for masked rules of regular shape; for any rule, membership. False of the code for penalty-box exclusion when the rule's key equals the query (C09_excluded_rule_returned)."
 },
 "C10": {
  "status": "partial",
  "note": "False of the code in general: four refutations (C10_misses_*, C10_diverges). Proved: best priority among all matching candidates for fully specified queries and same-family rules, masked families (C10_masked_family_reach_partial, C48_bitmask_families), and any-family queries; termination conditions."
 },
 "C11": {
  "status": "proved",
  "note": "Every sorted table; sortedness over histories is C02."
 },
 "C24": {
  "status": "proved",
  "note": "All handlers, all lists, all six kinds."
 },
 "C25": {
  "status": "partial",
  "note": "Every edit sequence except insert-after at the tail, which is broken in the code (C25_insert_after_last_broken)."
 },
 "C13": {
  "status": "partial",
  "note": "Exact acceptance condition, error codes, stored fields, masking, and zeroed wildcard fields over all histories proved. Padding proved for prefix lengths multiple of 4; the claim is false of the code for other lengths (C13_padding_wrong, C13_prefix_damaged), and the direction flags can be stripped by configuration (C13_direction_lost)."
 },
 "C14": {
  "status": "partial",
  "note": "That insertions which meet the stated conditions succeed and add exactly the stored form of the rule is proved (C14_insert_succeeds). Unchanged table proved for every failure except eviction of the stalest rule and failing insert actions; both exceptions are shown real (C14_evicts_before_failing, C14_action_failure_breaks), as is the mark left by C14_upref_failure_marks."
 },
 "C15": {
  "status": "partial",
  "note": "Immediate deletion, deferral, revival, deletion by key proved over all histories. 'Removed exactly when the count reaches zero' is false of the code (C15_stays_at_zero, C15_purged_with_connections)."
 },
 "C16": {
  "status": "partial",
  "note": "Only expired rules removed: all histories. Order and completeness: all histories without a hit on the queue's last rule; termination when no expired rule is held. Negations: C16_purge_diverges, C16_hit_breaks_order."
 },
 "C17": {
  "status": "partial",
  "note": "After a successful insertion the count is at most max(limit, count before); a full queue gives up one rule, the first to expire (C17_insert_evicts). Over-limit tables arise by other calls and stay over the limit (C17_expiry_set_exceeds, C17_over_limit_stays)."
 },
 "C26": {
  "status": "partial",
  "note": "At most once per lifetime while nobody touches the marks; marks can be cleared through the API (C26_mark_clearable, C26_bulk_reruns); delete actions run without insert actions (C26_delete_without_insert)."
 },
 "C48": {
  "status": "proved",
  "note": "All histories of calls whose insert actions do not fail (failing insert actions: C14_action_failure_breaks)."
 },
 "C23": {
  "status": "proved",
  "note": "Dispatch by ID, by addresses with and without a rule; refused policies in Props/TableState. C23_invalid_arguments_use_fallback and C23_by_id_refuses_bitmask_rules record defects."
 },
 "C20": {
  "status": "partial",
  "note": "REJECT and staying boxed proved for every dispatch on a held rule, for observing handlers and (C20_any_handlers) for arbitrary handlers that do not touch the box; release proved. 'and not ACCEPT' is false of the code (C20_accept_survives); over-limit and commendable exceptions are witnessed."
 },
 "C21": {
  "status": "partial",
  "note": "Boxing iff threshold reached, for every unboxed rule and results not over the connection limit; over the limit the claim is false of the code (C21_over_limit_not_boxed)."
 },
 "C22": {
  "status": "proved",
  "note": "Observing handlers; rule in the table or no fallthrough rule. C22_fallthrough_uses_traffic_flags records a defect on the fallthrough path."
 },
 "C27": {
  "status": "partial",
  "note": "Creation of reserved labels refused, refusal only for reserved ones, and reserved objects exist only from initialisation: all histories. Deletion of a built-in action is NOT refused by the code (C27_builtin_action_deletable)."
 },
 "C29": {
  "status": "proved",
  "note": "All histories of checkouts, insertions, removals and drops in the model, for callers that respect the API; findings recorded as theorems (object_release after delete, route drop reading a freed event's config, self-reference leak)."
 },
 "C41": {
  "status": "partial",
  "note": "Acceptance exactly characterised, accepted configurations consistent, read-back exact. Findings: size check wraps, init pads twice, NULL update uses an uninitialised value."
 },
 "C42": {
  "status": "proved",
  "note": "All histories of creation, deletion, assignment and rule insertion."
 },
 "C43": {
  "status": "proved",
  "note": "Event/action tables over all histories, label order, length limit, priority tracking (Props/TableState)."
 },
 "C30": {
  "status": "partial",
  "note": "Proved for any number of threads and every schedule of caller-correct calls, with deadlines whenever an expiring wait is harmless, and unconditionally without deadlines. The full claim is false of the code: C30_writer_timeout_breaks_exclusion, C30_promotion_by_stranger_breaks_exclusion."
 },
 "C31": {
  "status": "partial",
  "note": "Releases by holders always succeed, counters equal the caller's nested holds, nested holds block writers, a balanced history leaves the lock free and grantable, no lost wake-up: same hypotheses as C30. Refutations for waits that expire at the moment of the grant and for strangers: C31_late_grant_cannot_be_released, C31_late_reader_untracked, C31_stranger_releases_a_reader."
 },
 "C32": {
  "status": "partial",
  "note": "One reservation, second attempts refused with BUSY and no effect, promotion only for the last holder and keeping the hold count: same hypotheses as C30. Findings: AUTO_DOWNGRADE never happens, a timed-out promotion leaves its count behind."
 },
 "C37": {
  "status": "partial",
  "note": "Refinement of an abstract map by every call after every history; the ID-exhaustion outcome is characterised (C37_every_outcome) and excluded for histories shorter than 2^32-2 calls. Falsity at ID exhaustion, get_json and -0.0 are finding theorems."
 },
 "C38": {
  "status": "proved",
  "note": "All histories of store/delete/mutability/validator calls, including ID exhaustion. context_flush does drop protected values (finding)."
 },
 "C39": {
  "status": "partial",
  "note": "Invariant over all sequential histories; false under concurrent validator installation and for validators that inspect the read-only bit (finding theorems)."
 },
 "C40": {
  "status": "proved",
  "note": "All histories (with other tables competing for IDs). Built-in tables: round trip with the exceptions LINK64/UNSPEC. Findings: registered names are case-sensitive, may shadow built-ins; ntop without object pointer ignores registered families."
 },
 "C46": {
  "status": "partial",
  "note": "All histories with handlers that may register further hooks; plain handlers: exact LIFO order. False of the code when a handler itself pops hooks (C46_pop_in_handler_uses_freed, C46_pop_in_handler_recurses)."
 },
 "C44": {
  "status": "partial",
  "note": "One exchange: proved for all contexts that obtain the locks. Twice: exact restoration when no rule ID is shared; for a derived (cloned and edited) second context the first is restored exactly and the second up to the state of shared rules. Involution is false of the code (C44_not_involution); further findings C44_unrelated_rules_overwritten, C44_purge_queue_disordered."
 },
 "C47": {
  "status": "partial",
  "note": "Integer text exact and bounded for every int but INT_MIN (undefined). Address text exact (per family) and bounded for non-empty buffers. Rule export gives exactly the JSON object of the specification and stays in the buffer whenever that object fits; too-small buffers are reported and respected for rules without addresses only: findings C47_export_overruns(_by_one) show stores past the end otherwise. Other findings: zero-length buffer, long IPv4 address, unknown protocol number."
 },
 "C50": {
  "status": "proved",
  "note": "For every comparison function that is an order (the default one is proved to be the byte-lexicographic order) and every history of fewer than 2^32-1 calls. Nodes are modelled as trees with paths as zippers (no pointers). Finding: C50_clone_error_lost."
 },
 "C49": {
  "status": "partial",
  "note": "Proved: exactly which texts are accepted (C49_accepted, C49_accepts_exactly): the JSON texts within the limits and such texts cut off in or after their last number or literal (Spec/JsonCut), each with exactly its events, for every chunking and callback; a cut off text is always the beginning of a JSON value; raw strings accepted iff well-formed UTF-8; independence of chunking; no faults; sticky errors. Partial because the property says only JSON texts are accepted, which the code refutes for the cut off ones (C49_finding_unclosed_accepted, C49_finding_truncated_literal)."
 },
 "C33": {
  "status": "partial",
  "note": "Balanced for every run of 86 of the 104 API functions (C33_balanced_partial, C33_session_partial), for every successful call of all of them (C33_success_balanced), plus contracts of clone, exchange, JSON load and the lwIP callback installer. The unrestricted claim is false: C33_finding_* give failing runs of 18 functions (and of context_free, shutdown, context_clone, config_json_init, install_lwip_filter_callbacks) that leave a lock held or release one they did not take."
 },
 "C51": {
  "status": "proved",
  "note": "Found rule, unknown trigger, and no-rule paths; memory for the target is available."
 },
 "C45": {
  "status": "partial",
  "note": "Clone of every well-formed context (cross-references to objects still in their tables; memory available) proved to succeed and to be a copy up to a renaming to new objects: tables, order, IDs, hit counts, contents, ID index, settings, reference counts; source untouched; independence both ways. False of the code: shared fallthrough rule, idle limit not copied, family back links, sources with deleted-but-referenced events, private-data resize, remembered any-family rule (finding theorems)."
 },
 "C52": {
  "status": "proved",
  "note": "Model/JsonNum.lean (integer classification, conversion, writing) with the parser of Model/JsonSax.lean; doubles are not modelled."
 },
 "C53": {
  "status": "proved",
  "note": "json_dump_string for all write callbacks; read back through the parser model of C49."
 },
 "C54": {
  "status": "partial",
  "note": "Model/ConfNum.lean: strto* with base 0 (ISO C, 64-bit long). Proved in full for 8/16/32-bit and signed 64-bit settings and for durations; unsigned 64-bit values wrap negative numbers (C54_unsigned_wraps, a finding), so that statement is partial. Findings: C54_duration_overread, C54_duration_overflow, C54_hex_byte_refused. convert_double (strtod) is not modelled."
 },
 "C55": {
  "status": "proved",
  "note": "For every text, chunking, library and memory content; log of calls; documents without rules load the same."
 },
 "C56": {
  "status": "partial",
  "note": "Event level: exact equivalence with the independent specification Spec/Config for every tree read in place. Text level: for texts not cut off in or after a number or literal (CutOff, Spec/JsonCut) and tokens read in place. Findings: truncated configurations accepted with the rule dropped, prefix-bits over-read, unknown names crash, documented lists refused."
 },
 "C57": {
  "status": "partial",
  "note": "Proved for rules whose families are IPv4/IPv6/link/CAN with prefix (or IPv4 bitmask) addresses and plain labels (Reloadable). Missing: registered custom families, IPv6 bitmasks, local sockets, TCP rules without the tcplike flag, labels with quotes/backslashes/control characters \u2014 for which the findings show the claim false of the code (except custom families) \u2014 and tokens split over chunks."
 },
 "C58": {
  "status": "partial",
  "note": "Model/JsonDom.lean (json_dom_process and friends over the SAX model). For the abort and use-last policies: exactly what is accepted and with which value (C58_exactly), including texts cut off (C49's finding). With use-first, repeated keys whose value is an array or an object are excluded: C58_ignored_object_is_merged, C58_ignored_object_replaces_root and C58_ignored_objects_undefined show the code wrong there. Numbers of 63 bytes or more that are not integers are refused (C58_long_number_refused). strtod is a parameter; allocation failure is not modelled."
 },
 "C59": {
  "status": "partial",
  "note": "All values with UTF-8 strings, distinct keys and integers within their types; floating-point numbers under the hypothesis that snprintf writes a JSON number of at most 60 bytes without an upper-case E from which strtod recovers the value (Writable). Infinities and NaN are written as text that is not JSON (C59_infinity_is_not_json)."
 },
 "C60": {
  "status": "partial",
  "note": "Proved for allocators whose realloc(p, 0) does not release p, and otherwise for histories in which no removal empties the array; index + count must not wrap; json_value_fini must not fail. Each exception is a finding: C60_emptied_array_dangles (use after release with glibc), C60_removal_wraps, C60_failed_removal_destroys."
 },
 "C61": {
  "status": "proved",
  "note": "Byte-level model of JSON_VALUE (inline and allocated). The types float and double are not modelled."
 },
 "C62": {
  "status": "partial",
  "note": "Proved for paths whose bracketed parts hold decimal numbers below 2^64; C62_index_wraps and C62_brackets_misread show the claim false for the others."
 },
 "C63": {
  "status": "partial",
  "note": "Answer characterised for every callback and event; that errors of the library let packets pass is proved. Partial because the deciding-rule theorems need handlers that only observe, and because a NULL local address or control block is dereferenced (C63_null_dereferenced) and a failed thread teardown drops the packet after the rules accepted it (C63_teardown_failure)."
 },
 "C64": {
  "status": "partial",
  "note": "The question is characterised bit by bit for every layer and event, and the deciding rule covers the traffic (C64_decided_by_covering_rule_partial). Partial: CLOSE_WAIT is not told (C64_close_wait_not_told), ICMPv6 is asked about as ICMP (C64_icmp6_is_icmp), a dual-stack address is shown as IPv4 (C64_dual_stack_shown_as_ip4); 'no better rule' needs the hypotheses of the lookup theorem C10."
 },
 "C65": {
  "status": "partial",
  "note": "Proved for histories with observing handlers and configurations that leave the counting bits alone. Findings: an accept that is refused for another reason stays counted (C65_refused_is_counted); rules with an interface leak connections (C65_interface_rules_leak)."
 },
 "C66": {
  "status": "proved",
  "note": "Findings: one context's shutdown removes another's callbacks (C66_other_contexts_removed), re-entrant events are not filtered (C66_reentrant_unfiltered), a failed registration in the ICMP or TCP installer leaves the context's lock held (C33_finding_lwip_lock_kept)."
 },
 "C67": {
  "status": "partial",
  "note": "Key, counts, expiry and flags proved for every rule and table (C67_reinserted, C67_same_traffic); private data only if the settings put no padding in front (C67_finding_private_data_shifted); wildcards only without the one for the remote address (C67_finding_set_wildcard_moves_local). The time of penalty boxing is lost (C67_finding_boxed_for_good); expired rules are refused (C67_expired_refused)."
 },
 "C68": {
  "status": "partial",
  "note": "Counting fails: the first report is counted on neither rule (C68_finding_first_offence_uncounted). Failures leave the table alone unless handlers of the new rule fail or the queue of expiring rules is full (C14); when the lock or the event cannot be had the results gain whatever lay on the stack (C68_finding_uninitialised_results)."
 },
 "C69": {
  "status": "partial",
  "note": "Distinctness for fewer than 2^24-1 initialisations without a host identity, and for ever in nested use; C69_identities_repeat shows that the full claim is false beyond that."
 },
 "C70": {
  "status": "partial",
  "note": "Findings: the deadline 'now' makes a contended lock call fail fatally; a late reader's context can be destroyed while it holds the lock (C31). The end of a context is under the obligations of C30-C32."
 },
 "C71": {
  "status": "partial",
  "note": "Under the obligations of C30-C32 (the finding of C31, C70_finding_late_reader, shows the query wrong otherwise)."
 },
 "C72": {
  "status": "partial",
  "note": "Export: full for clients that empty the buffer when less than the longest rule is left; clients that retry after 'buffer too small' only for rules without addresses (C72_finding_export_overruns: the claim is false otherwise). Reload: for the rules C57 covers."
 },
 "C73": {
  "status": "proved",
  "note": "For all tables and steps, on the list model of the cursor (the pointer-level list is C11/C12)."
 },
 "C74": {
  "status": "partial",
  "note": "Proved for requests with a power-of-two alignment up to 2^15 and sizes that do not overflow; overflow, other alignments, larger alignments and the 64-bit truncation in realloc are findings. The compiler's malloc, free, realloc are the honest-system hypotheses."
 },
 "C75": {
  "status": "partial",
  "note": "Never early: proved. Taking in time and ending in time need a tick rate that divides 10^9 and a deadline within the range of the tick type; far deadlines, 16-bit ticks and the 64-bit clock are findings."
 },
 "C76": {
  "status": "partial",
  "note": "Refusal of destruction: under the hypotheses of C30 on the history. Destruction of a released lock: histories without deadlines; with an expired promotion it is false (finding). A failing initialisation does not destroy its semaphores (finding)."
 },
 "C77": {
  "status": "partial",
  "note": "Proved: the text, the length, the bounds of the buffer, reading back of null, truth values, integers, plain strings and JSON trees, the refusals, the translation of the JSON library's codes. Not provable because the code does not do it (findings proved): strings are not escaped, a zero byte cuts a string, a JSON value does not tell the length needed. The fixed-point text of a floating-point number is snprintf's."
 },
 "C78": {
  "status": "partial",
  "note": "Proved under conditions on the rule (address texts exist, flags have names, no IP or local bit-matching address; wildcard addresses only on standard output): the line, the behaviour under failing output; without conditions: references for rules. The rest is false of the code (findings proved): the star of a wildcard address goes to standard output, IP bit-matching rules cannot be written, a failing protocol output is not reported, an export that fails leaks a family reference, unnamed flags go to standard error."
 },
 "C79": {
  "status": "proved",
  "note": "Histories of create, delete, flush, hold, release, set and clear. Findings: a deleted event stays in force (C79_finding_deleted_stays_in_force), and a later event of the same label is not the one in force (C79_finding_namesake)."
 },
 "C80": {
  "status": "partial",
  "note": "False of the code for registered success codes: the text of the error of the same number is returned, or a null pointer (C80_finding_success_text). Everything else in the statement is proved."
 },
 "C81": {
  "status": "proved",
  "note": "The library's own check of a user-chosen enumeration size is not modelled. Limit: the bit for masks is not compared (C81_finding_masks_not_compared)."
 },
 "C82": {
  "status": "partial",
  "note": "Success characterised exactly, refusals leave nothing, shutdown keeps exactly what is held (given no cycle of references). The clause that a late failure leaves nothing is proved for builds without threads unless the table of values or a family table is refused (C82_init_failure_partial); otherwise it is false of the code: C82_finding_uninitialised (unwritten rule table read), C82_finding_threads_leak (with threads nothing is freed). A self-referring event survives shutdown (C82_finding_cycle_survives)."
 },
 "C83": {
  "status": "partial",
  "note": "Proved for every text, chunking, flag set, context and handler: dry runs leave everything alone, a load on a draft that fails changes nothing, the committed contents, the flush-first rule and the feed discipline (C83_dry_run, _all_or_nothing, _dry_run_feeds, _draft, _commit_contents, _feeding, _init_refuses, _oneshot, _flush_first, _in_place). Handler runs at a commit are proved without NO_FLUSH (C83_commit_handlers_partial). The rest is false of the code and stated as findings: a load in place that fails leaves half of the text loaded; events loaded with a configuration of their own stay muted after a commit; with NO_FLUSH the new rules' insert handlers never run and the kept rules' delete handlers do; a commit loses the default policy, default event and fallthrough rule; a handler that fails makes a load fail after the commit; a commit enables actions the user had inhibited; a context with a deleted event that a rule or the default still refers to cannot be cloned, and the attempt runs delete handlers of rules that stay (C83_finding_clone_fails; the two claims about handlers are for contexts without that)."
 },
 "C84": {
  "status": "partial",
  "note": "Proved for loads in place and for LOAD_THEN_COMMIT, without NO_FLUSH (C84_commit_partial) and with it (C84_add_commit_partial, if no rule in force is marked as to be deleted), for texts as in C56 (strict JSON, tokens read in place, not cut off in a number or literal) and handlers that leave flags and keys of rules alone; C84_rules, C84_no_twins and C84_found hold without the restriction on texts. C84_lived: the contexts supposed are those a program makes from an empty one by successful calls and loads. Findings: a document that lowers the limit on rules that expire is refused although the limit is lowered; a limit set where there was none is exceeded; with NO_FLUSH and LOAD_THEN_COMMIT a rule brought back by the document is marked as to be deleted again by the commit, with an expiry but outside the queue."
 },
 "C85": {
  "status": "partial",
  "note": "Proved for loads in place and committed loads, any chunking and buffer sizes, every context in the invariant of C84: C85_restored_partial, C85_same_context_partial, C85_committed_partial. Missing: rules the export does not describe completely (Savable: prefix or mask under an address wildcard, wildcard for the parent event; settings that change flags), more than a table can hold (Holdable), handlers that fail or change rules. The full claim is false of the code: C85_finding_export_refused (an export is refused with ITEM_ALREADY_PRESENT and a rule is lost), C85_finding_expiry_lost (the time a rule expires is not exported)."
 },
 "C86": {
  "status": "partial",
  "note": "Proved for loads in place (C86_document_partial) and committed loads without NO_FLUSH (C86_commit_partial), for every document and every fully known packet, that a dispatch ends as the rules in force say (C86_decided_partial, also for contexts not just loaded, as long as nothing has been charged to the rules), that the rules are those of the document, and that the search ends. Missing: rules for any family, address masks, prefixes that are not a multiple of four bits or longer than the packet's addresses, and rules equal to the packet in every field, for which the search is not right (C09, C10); configurations that add verdicts by themselves; post actions for traffic without a rule; interfering handlers. Finding: with one catch-all rule for each direction, the second is never found by a packet, which is accepted by default although the document rejects it (C86_any_family_missed)."
 },
 "C87": {
  "status": "proved",
  "note": "Over whole histories. Findings: a ban is forgotten when the rule expires (C87_ban_lost_by_expiry); a ban pronounced while the clock fails never ends (C87_blind_ban)."
 },
 "C88": {
  "status": "partial",
  "note": "The full claim is false of the code (findings): unlocked value getters read, and unlocked record getters count references to, freed objects; the default-event getter follows NULL; releasing may follow a NULL parent table. Proved for the calls that count a reference under the lock without any condition (C88_references_safe), and for all calls if the caller holds the lock around those."
 },
 "C89": {
  "status": "partial",
  "note": "C89_rules_left holds in full for handlers that only observe. The rest is for rules of the ordinary kind (one family, prefixes of whole nibbles, no masks: C86, the code misses or mis-orders others), rules that never expire (an expiring rule takes its ban with it: C87_ban_lost_by_expiry), reports without connections or commendations (C87 covers these for one rule), and configurations that give no verdicts themselves."
 },
 "C90": {
  "status": "partial",
  "note": "The ledger, the limit and the refusals over the limit hold for limits up to 65535 (the counter has 16 bits: C18_no_limit_above_65535) and handlers that only observe. C90_rejected_iff and the theorems about loaded configurations are for reports of connections only and rules of the ordinary kind, as in C89. Finding C90_rejected_is_counted: a connection rejected for another reason than the limit (a ban, the default policy) is counted although it never exists, so it uses up room until somebody reports its end."
 },
 "C91": {
  "status": "partial",
  "note": "Proved for documents as in C84, C86, C89 and C90. A committed load works after any traffic; edits and loads in place suppose that the traffic has left the purge queue in order, which traffic about the rule next to expire need not do (C16_hit_breaks_order); if no rule expires it does (C91_lasting). LOAD_THEN_COMMIT with NO_FLUSH is in the histories if the table of bitmask families is within its size (BmFits) and no rule is marked as to be deleted. Refusals: C91_refused_reload holds in full for failures before the commit (C83_finding_error_after_commit for those after it). Findings: loading the configuration in force once more ends every ban (C91_reload_ends_bans) and forgets open connections, so that more than the limit are open (C91_reload_forgets_connections)."
 },
 "C92": {
  "status": "partial",
  "note": "Proved for clock readings from the epoch on and delays within the range of the library's times. Findings (theorems): a time before the epoch gives negative nanoseconds (C92_before_epoch); a failing host conversion is reported as success and the deadline is indeterminate (C92_failure_ignored); a delay meaning for ever overflows (C92_overflow). So the full statement is false of the code for times before the epoch and for failing conversions."
 },
 "C93": {
  "status": "partial",
  "note": "Proved but for the loader's messages. Findings (theorems): the code for a parser never started (-24) has no text (C93_not_inited); the loader asks json_error_str, which has no text for the value builder's own code nor for codes of its own callback (C93_loader_texts)."
 },
 "C94": {
  "status": "proved",
  "note": "Allocation succeeds in the model (DESIGN.md), so out of memory is not among the codes."
 }
}