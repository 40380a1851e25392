{
 "claims": [
  {
   "property": "C01",
   "status": "proved",
   "theorems": [
    "WS.Props.C01_eq_iff",
    "WS.Props.C01_swap",
    "WS.Props.C01_lt_trans",
    "WS.Props.C01_le_trans",
    "WS.Props.C01_congr"
   ],
   "note": "All well-formed rules."
  },
  {
   "property": "C02",
   "status": "proved",
   "theorems": [
    "WS.Props.C02_sorted",
    "WS.Props.C02_no_duplicates",
    "WS.Props.C02_rule_table"
   ],
   "note": "All histories of all tables, any lawful comparators; comparators of the actual tables shown lawful."
  },
  {
   "property": "C03",
   "status": "proved",
   "theorems": [
    "WS.Props.C03_get_iff",
    "WS.Props.C03_get_error",
    "WS.Props.C03_insert_ok",
    "WS.Props.C03_insert_duplicate",
    "WS.Props.C03_insert_failed",
    "WS.Props.C03_insert_absent",
    "WS.Props.C03_delete_present",
    "WS.Props.C03_delete_absent",
    "WS.Props.C03_flush",
    "WS.Props.C03_filter",
    "WS.Props.C03_counters",
    "WS.Props.C03_seek"
   ],
   "note": "Finite-map laws over all histories."
  },
  {
   "property": "C04",
   "status": "proved",
   "theorems": [
    "WS.Props.C04_ids_unique",
    "WS.Props.C04_get_by_id",
    "WS.Props.C04_get_by_id_error",
    "WS.Props.C04_allocated_fresh",
    "WS.Props.C04_index_complete",
    "WS.Props.C04_wrap_fails_once"
   ],
   "note": "Uniqueness and freshness over all histories with the wrapping counter; C04_wrap_fails_once records that one allocation fails at wrap-around."
  },
  {
   "property": "C05",
   "status": "partial",
   "theorems": [
    "WS.Props.C05_prepend",
    "WS.Props.C05_append",
    "WS.Props.C05_delete",
    "WS.Props.C05_insertBefore_partial",
    "WS.Props.C05_insertBefore_null",
    "WS.Props.C05_insertAfter_partial",
    "WS.Props.C05_insertBefore_stale_broken",
    "WS.Props.C05_insertAfter_stale_broken",
    "WS.Props.C05_table_splice",
    "WS.Props.C05_table_unlink",
    "WS.Props.C05_walk",
    "WS.Props.C05_unique",
    "WS.Props.C05_history",
    "WS.Props.C05_ordered_insert_refines",
    "WS.Props.C05_purge_insert_refines_partial",
    "WS.Props.C05_purge_time_set_corrupts"
   ],
   "note": "prepend, append, delete, table splice/unlink proved with no assumption on stale links; insert_before/after need a NULL stale link at the ends. The full claim is false of the code (C05_insertBefore_stale_broken, C05_purge_time_set_corrupts)."
  },
  {
   "property": "C06",
   "status": "partial",
   "theorems": [
    "WS.Props.C06_cidr_partial",
    "WS.Props.C06_actual_prefix",
    "WS.Props.C06_not_cidr_22",
    "WS.Props.C06_not_cidr_17"
   ],
   "note": "Proved for prefix lengths multiple of 4; exact characterisation of the compared bits for every length; the claim is false of the code for other lengths (C06_not_cidr_22, C06_not_cidr_17)."
  },
  {
   "property": "C07",
   "status": "proved",
   "theorems": [
    "WS.Props.C07_bitmask",
    "WS.Props.C07_bitmask_inexact",
    "WS.Props.C07_narrow_target_ignored"
   ],
   "note": "Same width, whole bytes. C07_narrow_target_ignored records a defect for narrower targets."
  },
  {
   "property": "C08",
   "status": "proved",
   "theorems": [
    "WS.Props.C08_covers_iff",
    "WS.Props.C08_match_iff",
    "WS.Props.C08_inexact_exact",
    "WS.Props.C08_no_wildcards",
    "WS.Props.C08_full_wildcard"
   ],
   "note": "Prefix addresses (C08_*) and, with C07's mask comparison, every shape of stored address: C08_covers_iff states for masked and unmasked rules alike exactly when a rule covers a query."
  },
  {
   "property": "C09",
   "status": "partial",
   "theorems": [
    "WS.Props.C09_sound_partial",
    "WS.Props.C09_returned_rule_in_table",
    "WS.Props.C09_excluded_rule_returned",
    "WS.Props.C09_sound_masked_partial"
   ],
   "note": "Soundness of every returned rule for prefix addresses whose lengths are multiples of 4 (C06) and, with C09_sound_masked_partial, for masked rules of regular shape; for any rule, membership. False of the code for penalty-box exclusion when the rule's key equals the query (C09_excluded_rule_returned)."
  },
  {
   "property": "C10",
   "status": "partial",
   "theorems": [
    "WS.Props.C10_full_query_partial",
    "WS.Props.C10_bitmask_family_partial",
    "WS.Props.C10_any_family_query_partial",
    "WS.Props.C10_terminates_partial",
    "WS.Props.C10_misses_equal_fields",
    "WS.Props.C10_misses_wildcard_family_rule",
    "WS.Props.C10_misses_mid_table_family",
    "WS.Props.C10_diverges",
    "WS.Props.C10_remembers_first",
    "WS.Props.C10_built_terminates_partial",
    "WS.Props.C10_reachable_miss",
    "WS.Props.C10_forgets_wildcard",
    "WS.Props.C10_masked_family_reach_partial",
    "WS.Props.C10_full_query_reach_partial",
    "WS.Props.C10_diverges_reachable"
   ],
   "note": "False of the code in general: four refutations (C10_misses_*, C10_diverges). Proved: best priority among all matching candidates for fully specified queries and same-family rules, masked families (C10_masked_family_reach_partial, C48_bitmask_families), and any-family queries; termination conditions."
  },
  {
   "property": "C11",
   "status": "proved",
   "theorems": [
    "WS.Props.C11_exact_iff",
    "WS.Props.C11_exact_absent",
    "WS.Props.C11_own_key",
    "WS.Props.C11_exact_iff_reach"
   ],
   "note": "Every sorted table; sortedness over histories is C02."
  },
  {
   "property": "C12",
   "status": "partial",
   "theorems": [
    "WS.Props.C12_not_antisymmetric",
    "WS.Props.C12_fewer_wildcards_partial",
    "WS.Props.C12_bitmask_rules_partial",
    "WS.Props.C12_prefix_score",
    "WS.Props.C12_score_not_cidr"
   ],
   "note": "False of the code in general (C12_not_antisymmetric); antisymmetry proved when inexact-field counts differ or both rules have remote bitmasks."
  },
  {
   "property": "C13",
   "status": "partial",
   "theorems": [
    "WS.Props.C13_create_iff",
    "WS.Props.C13_create_error",
    "WS.Props.C13_created_fields",
    "WS.Props.C13_padding_partial",
    "WS.Props.C13_padding_local_partial",
    "WS.Props.C13_padding_wrong",
    "WS.Props.C13_prefix_damaged",
    "WS.Props.C13_masked",
    "WS.Props.C13_table_rules",
    "WS.Props.C13_direction_lost"
   ],
   "note": "Exact acceptance condition, error codes, stored fields, masking, and zeroed wildcard fields over all histories proved. Padding proved for prefix lengths multiple of 4; the claim is false of the code for other lengths (C13_padding_wrong, C13_prefix_damaged), and the direction flags can be stripped by configuration (C13_direction_lost)."
  },
  {
   "property": "C14",
   "status": "partial",
   "theorems": [
    "WS.Props.C14_failed_insert_partial",
    "WS.Props.C14_failed_insert_unchanged_partial",
    "WS.Props.C14_duplicate",
    "WS.Props.C14_evicts_before_failing",
    "WS.Props.C14_action_failure_breaks",
    "WS.Props.C14_upref_failure_marks",
    "WS.Props.C14_insert_succeeds"
   ],
   "note": "That insertions which meet the stated conditions succeed and add exactly the stored form of the rule is proved (C14_insert_succeeds). Unchanged table proved for every failure except eviction of the stalest rule and failing insert actions; both exceptions are shown real (C14_evicts_before_failing, C14_action_failure_breaks), as is the mark left by C14_upref_failure_marks."
  },
  {
   "property": "C15",
   "status": "partial",
   "theorems": [
    "WS.Props.C15_delete_now",
    "WS.Props.C15_delete_deferred",
    "WS.Props.C15_delete_by_key",
    "WS.Props.C15_revival",
    "WS.Props.C15_stays_at_zero",
    "WS.Props.C15_purged_with_connections"
   ],
   "note": "Immediate deletion, deferral, revival, deletion by key proved over all histories. 'Removed exactly when the count reaches zero' is false of the code (C15_stays_at_zero, C15_purged_with_connections)."
  },
  {
   "property": "C16",
   "status": "partial",
   "theorems": [
    "WS.Props.C16_only_expired",
    "WS.Props.C16_only_purgeable",
    "WS.Props.C16_oldest_first_partial",
    "WS.Props.C16_complete_partial",
    "WS.Props.C16_queue_sorted_partial",
    "WS.Props.C16_terminates_partial",
    "WS.Props.C16_purge_diverges",
    "WS.Props.C16_hit_breaks_order",
    "WS.Props.C16_dispatch_keeps_own_rule_partial",
    "WS.Props.C16_dispatch_can_purge_own_rule",
    "WS.Props.C16_expiry_of_inserted"
   ],
   "note": "Only expired rules removed: all histories. Order and completeness: all histories without a hit on the queue's last rule; termination when no expired rule is held. Negations: C16_purge_diverges, C16_hit_breaks_order."
  },
  {
   "property": "C17",
   "status": "partial",
   "theorems": [
    "WS.Props.C17_bound_partial",
    "WS.Props.C17_bound_kept_partial",
    "WS.Props.C17_expiry_set_exceeds",
    "WS.Props.C17_over_limit_stays",
    "WS.Props.C17_insert_evicts"
   ],
   "note": "After a successful insertion the count is at most max(limit, count before); a full queue gives up one rule, the first to expire (C17_insert_evicts). Over-limit tables arise by other calls and stay over the limit (C17_expiry_set_exceeds, C17_over_limit_stays)."
  },
  {
   "property": "C18",
   "status": "partial",
   "theorems": [
    "WS.Props.C18_limit_partial",
    "WS.Props.C18_quiescent_partial",
    "WS.Props.C18_race_at_65535",
    "WS.Props.C18_no_limit_above_65535",
    "WS.Props.C18_spurious_rejection"
   ],
   "note": "Limit and quiescent exactness proved for every thread count and interleaving when the counter cannot reach 65535; C18_race_at_65535, C18_no_limit_above_65535, C18_spurious_rejection record where the claim is false of the code."
  },
  {
   "property": "C19",
   "status": "partial",
   "theorems": [
    "WS.Props.C19_linearizable",
    "WS.Props.C19_increment_saturates",
    "WS.Props.C19_decrement_saturates",
    "WS.Props.C19_in_range",
    "WS.Props.C19_increment_count_partial",
    "WS.Props.C19_zero_misreported",
    "WS.Props.C19_hitcount",
    "WS.Props.C19_connection_count_wraps",
    "WS.Props.C19_connection_count_partial",
    "WS.Props.C19_rule_hits"
   ],
   "note": "Saturating increments/decrements proved for all values and interleavings except the defects recorded as theorems."
  },
  {
   "property": "C20",
   "status": "partial",
   "theorems": [
    "WS.Props.C20_boxed_rejects_partial",
    "WS.Props.C20_released_when_elapsed",
    "WS.Props.C20_zero_duration_never_elapses",
    "WS.Props.C20_elapsed_iff",
    "WS.Props.C20_any_handlers",
    "WS.Props.C20_accept_survives",
    "WS.Props.C20_over_limit_delays_release",
    "WS.Props.C20_commendable_releases_early"
   ],
   "note": "REJECT and staying boxed proved for every dispatch on a held rule, for observing handlers and (C20_any_handlers) for arbitrary handlers that do not touch the box; release proved. 'and not ACCEPT' is false of the code (C20_accept_survives); over-limit and commendable exceptions are witnessed."
  },
  {
   "property": "C21",
   "status": "partial",
   "theorems": [
    "WS.Props.C21_threshold_boxes_partial",
    "WS.Props.C21_one_offence",
    "WS.Props.C21_over_limit_not_boxed"
   ],
   "note": "Boxing iff threshold reached, for every unboxed rule and results not over the connection limit; over the limit the claim is false of the code (C21_over_limit_not_boxed)."
  },
  {
   "property": "C22",
   "status": "proved",
   "theorems": [
    "WS.Props.C22_greenlisted_accepts",
    "WS.Props.C22_box_beats_greenlist",
    "WS.Props.C22_fallthrough_uses_traffic_flags"
   ],
   "note": "Observing handlers; rule in the table or no fallthrough rule. C22_fallthrough_uses_traffic_flags records a defect on the fallthrough path."
  },
  {
   "property": "C23",
   "status": "proved",
   "theorems": [
    "WS.Props.C23_no_verdict_default_policy",
    "WS.Props.C23_verdict_kept",
    "WS.Props.C23_always_decided",
    "WS.Props.C23_dispatch_by_addresses",
    "WS.Props.C23_no_rule_default_policy",
    "WS.Props.C23_invalid_arguments_use_fallback",
    "WS.Props.C23_inited_result_checked",
    "WS.Props.C23_by_id_refuses_bitmask_rules",
    "WS.Props.C23_default_policy_set"
   ],
   "note": "Dispatch by ID, by addresses with and without a rule; refused policies in Props/TableState. C23_invalid_arguments_use_fallback and C23_by_id_refuses_bitmask_rules record defects."
  },
  {
   "property": "C24",
   "status": "proved",
   "theorems": [
    "WS.Props.C24_in_order",
    "WS.Props.C24_fold",
    "WS.Props.C24_stops",
    "WS.Props.C24_error",
    "WS.Props.C24_all_enabled",
    "WS.Props.C24_already_stopped",
    "WS.Props.C24_inhibited",
    "WS.Props.C24_runs_list",
    "WS.Props.C24_which_list"
   ],
   "note": "All handlers, all lists, all six kinds."
  },
  {
   "property": "C25",
   "status": "partial",
   "theorems": [
    "WS.Props.C25_append",
    "WS.Props.C25_prepend",
    "WS.Props.C25_insert_after_partial",
    "WS.Props.C25_insert_after_last_broken",
    "WS.Props.C25_duplicate",
    "WS.Props.C25_missing_anchor",
    "WS.Props.C25_delete",
    "WS.Props.C25_delete_missing",
    "WS.Props.C25_delete_all",
    "WS.Props.C25_unknown_label"
   ],
   "note": "Every edit sequence except insert-after at the tail, which is broken in the code (C25_insert_after_last_broken)."
  },
  {
   "property": "C26",
   "status": "partial",
   "theorems": [
    "WS.Props.C26_delete_runs_list",
    "WS.Props.C26_bulk_visits_all",
    "WS.Props.C26_bulk_stops_at_error",
    "WS.Props.C26_insert_once_partial",
    "WS.Props.C26_delete_once_partial",
    "WS.Props.C26_mark_clearable",
    "WS.Props.C26_bulk_reruns",
    "WS.Props.C26_delete_without_insert"
   ],
   "note": "At most once per lifetime while nobody touches the marks; marks can be cleared through the API (C26_mark_clearable, C26_bulk_reruns); delete actions run without insert actions (C26_delete_without_insert)."
  },
  {
   "property": "C27",
   "status": "partial",
   "theorems": [
    "WS.Props.C27_reserved_insert_refused",
    "WS.Props.C27_not_permitted_only_reserved",
    "WS.Props.C27_reserved_only_from_init_partial",
    "WS.Props.C27_builtin_action_deletable"
   ],
   "note": "Creation of reserved labels refused, refusal only for reserved ones, and reserved objects exist only from initialisation: all histories. Deletion of a built-in action is NOT refused by the code (C27_builtin_action_deletable)."
  },
  {
   "property": "C28",
   "status": "partial",
   "theorems": [
    "WS.Props.C28_flag_updates_linearizable",
    "WS.Props.C28_atomic_update_bits",
    "WS.Props.C28_update_iff",
    "WS.Props.C28_update_effect",
    "WS.Props.C28_box_time",
    "WS.Props.C28_marks_not_protected"
   ],
   "note": "Acceptance condition, resulting word, reported words and atomicity proved; bits 16 and 17 are not protected (C28_marks_not_protected)."
  },
  {
   "property": "C29",
   "status": "proved",
   "theorems": [
    "WS.Props.C29_live_iff_referenced",
    "WS.Props.C29_no_use_after_free",
    "WS.Props.C29_freed_exactly_at_last_drop",
    "WS.Props.C29_freed_once",
    "WS.Props.C29_counts_exact_and_bounded",
    "WS.Props.C29_demo",
    "WS.Props.C29_release_after_delete_crashes",
    "WS.Props.C29_route_drop_reads_freed_event",
    "WS.Props.C29_route_drop_safe_when_event_shared",
    "WS.Props.C29_self_reference_leaks"
   ],
   "note": "All histories of checkouts, insertions, removals and drops in the model, for callers that respect the API; findings recorded as theorems (object_release after delete, route drop reading a freed event's config, self-reference leak)."
  },
  {
   "property": "C30",
   "status": "partial",
   "theorems": [
    "WS.Props.C30_exclusion_partial",
    "WS.Props.C30_exclusion_untimed_partial",
    "WS.Props.C30_grant_partial",
    "WS.Props.C30_writer_timeout_breaks_exclusion",
    "WS.Props.C30_promotion_by_stranger_breaks_exclusion"
   ],
   "note": "Proved for any number of threads and every schedule of caller-correct calls, with deadlines whenever an expiring wait is harmless, and unconditionally without deadlines. The full claim is false of the code: C30_writer_timeout_breaks_exclusion, C30_promotion_by_stranger_breaks_exclusion."
  },
  {
   "property": "C31",
   "status": "partial",
   "theorems": [
    "WS.Props.C31_release_succeeds_partial",
    "WS.Props.C31_counters_partial",
    "WS.Props.C31_nested_holds_block_writers_partial",
    "WS.Props.C31_balanced_is_free_partial",
    "WS.Props.C31_free_lock_is_granted_partial",
    "WS.Props.C31_waiters_wait_for_a_holder_partial",
    "WS.Props.C31_late_grant_cannot_be_released",
    "WS.Props.C31_late_reader_untracked",
    "WS.Props.C31_stranger_releases_a_reader"
   ],
   "note": "Releases by holders always succeed, counters equal the caller's nested holds, nested holds block writers, a balanced history leaves the lock free and grantable, no lost wake-up: same hypotheses as C30. Refutations for waits that expire at the moment of the grant and for strangers: C31_late_grant_cannot_be_released, C31_late_reader_untracked, C31_stranger_releases_a_reader."
  },
  {
   "property": "C32",
   "status": "partial",
   "theorems": [
    "WS.Props.C32_one_reservation_partial",
    "WS.Props.C32_second_attempt_refused_partial",
    "WS.Props.C32_second_attempt_busy_partial",
    "WS.Props.C32_promotion_partial",
    "WS.Props.C32_auto_downgrade_never_happens",
    "WS.Props.C32_timed_out_promotion_leaves_count"
   ],
   "note": "One reservation, second attempts refused with BUSY and no effect, promotion only for the last holder and keeping the hold count: same hypotheses as C30. Findings: AUTO_DOWNGRADE never happens, a timed-out promotion leaves its count behind."
  },
  {
   "property": "C33",
   "status": "partial",
   "theorems": [
    "WS.Props.C33_balanced_partial",
    "WS.Props.C33_success_balanced",
    "WS.Props.C33_session_partial",
    "WS.Props.C33_finding_leaks",
    "WS.Props.C33_finding_over_release",
    "WS.Props.C33_clone_contract",
    "WS.Props.C33_json_contract",
    "WS.Props.C33_exchange",
    "WS.Props.C33_finding_json_init",
    "WS.Props.C33_finding_shutdown",
    "WS.Props.C33_finding_clone",
    "WS.Props.C33_lwip_lock_returned_partial",
    "WS.Props.C33_finding_lwip_lock_kept"
   ],
   "note": "Balanced for every run of 86 of the 104 API functions (C33_balanced_partial, C33_session_partial), for every successful call of all of them (C33_success_balanced), plus contracts of clone, exchange, JSON load and the lwIP callback installer. The unrestricted claim is false: C33_finding_* give failing runs of 18 functions (and of context_free, shutdown, context_clone, config_json_init, install_lwip_filter_callbacks) that leave a lock held or release one they did not take."
  },
  {
   "property": "C34",
   "status": "proved",
   "theorems": [
    "WS.Props.C34_roundtrip",
    "WS.Props.C34_sign",
    "WS.Props.C34_injective",
    "WS.Props.C34_recode"
   ],
   "note": "Full domain."
  },
  {
   "property": "C35",
   "status": "partial",
   "theorems": [
    "WS.Props.C35_to_from",
    "WS.Props.C35_from_to_partial",
    "WS.Props.C35_negative_seconds_fails",
    "WS.Props.C35_too_big_refused",
    "WS.Props.C35_no_overflow_partial",
    "WS.Props.C35_overflow_reachable",
    "WS.Props.C35_add_diff",
    "WS.Props.C35_diff_add"
   ],
   "note": "Round trip t->(s,ns)->t proved for every int64 time. Forward direction proved for s>=0; negation witnesses for negative seconds and for unchecked overflow."
  },
  {
   "property": "C36",
   "status": "proved",
   "theorems": [
    "WS.Props.C36_decode_encode",
    "WS.Props.C36_never_overflows",
    "WS.Props.C36_small_buffer",
    "WS.Props.C36_bufspc_exact",
    "WS.Props.C36_junk_skipped",
    "WS.Props.C36_junk_refused",
    "WS.Props.C36_malformed_padding_accepted"
   ],
   "note": "Round trip, buffer bound for all inputs and outcomes, junk skipping. Malformed padding accepted is recorded as a finding theorem."
  },
  {
   "property": "C37",
   "status": "partial",
   "theorems": [
    "WS.Props.C37_nothing_invented",
    "WS.Props.C37_size_limits",
    "WS.Props.C37_get_bool",
    "WS.Props.C37_starts_empty",
    "WS.Props.C37_is_a_map_partial",
    "WS.Props.C37_every_outcome",
    "WS.Props.C37_reads",
    "WS.Props.C37_get_type",
    "WS.Props.C37_get_returns_last_store",
    "WS.Props.C37_failed_overwrite_loses_value",
    "WS.Props.C37_get_json_wrong_type",
    "WS.Props.C37_negative_zero_not_stored"
   ],
   "note": "Refinement of an abstract map by every call after every history; the ID-exhaustion outcome is characterised (C37_every_outcome) and excluded for histories shorter than 2^32-2 calls. Falsity at ID exhaustion, get_json and -0.0 are finding theorems."
  },
  {
   "property": "C38",
   "status": "proved",
   "theorems": [
    "WS.Props.C38_read_only_frozen",
    "WS.Props.C38_calls_refused",
    "WS.Props.C38_mutability_reported",
    "WS.Props.C38_flush_removes_read_only"
   ],
   "note": "All histories of store/delete/mutability/validator calls, including ID exhaustion. context_flush does drop protected values (finding)."
  },
  {
   "property": "C39",
   "status": "partial",
   "theorems": [
    "WS.Props.C39_validator_invariant_partial",
    "WS.Props.C39_install",
    "WS.Props.C39_rejected_store",
    "WS.Props.C39_set_mutability_not_validated",
    "WS.Props.C39_concurrent_store_not_validated"
   ],
   "note": "Invariant over all sequential histories; false under concurrent validator installation and for validators that inspect the read-only bit (finding theorems)."
  },
  {
   "property": "C40",
   "status": "proved",
   "theorems": [
    "WS.Props.C40_one_to_one",
    "WS.Props.C40_well_formed",
    "WS.Props.C40_calls",
    "WS.Props.C40_calls_short",
    "WS.Props.C40_lookups_agree",
    "WS.Props.C40_lookups_sound",
    "WS.Props.C40_handlers",
    "WS.Props.C40_builtin_case_insensitive",
    "WS.Props.C40_builtin_name_number_name",
    "WS.Props.C40_builtin_number_name_number",
    "WS.Props.C40_case_sensitive",
    "WS.Props.C40_builtin_shadowed",
    "WS.Props.C40_ntop_without_object"
   ],
   "note": "All histories (with other tables competing for IDs). Built-in tables: round trip with the exceptions LINK64/UNSPEC. Findings: registered names are case-sensitive, may shadow built-ins; ntop without object pointer ignores registered families."
  },
  {
   "property": "C41",
   "status": "partial",
   "theorems": [
    "WS.Props.C41_accepted_layout",
    "WS.Props.C41_sane_layout_accepted",
    "WS.Props.C41_accepted_consistent",
    "WS.Props.C41_inconsistent_refused",
    "WS.Props.C41_stored_consistent",
    "WS.Props.C41_event_config_read_back",
    "WS.Props.C41_update_frame",
    "WS.Props.C41_default_read_back",
    "WS.Props.C41_default_update_failed",
    "WS.Props.C41_default_inherited",
    "WS.Props.C41_padding_aligns",
    "WS.Props.C41_size_check_wraps",
    "WS.Props.C41_init_pads_twice",
    "WS.Props.C41_null_update_uninitialised",
    "WS.Props.C41_demo_insert"
   ],
   "note": "Acceptance exactly characterised, accepted configurations consistent, read-back exact. Findings: size check wraps, init pads twice, NULL update uses an uninitialised value."
  },
  {
   "property": "C42",
   "status": "proved",
   "theorems": [
    "WS.Props.C42_delete_frees_label",
    "WS.Props.C42_delete_fails_iff",
    "WS.Props.C42_follow_terminates",
    "WS.Props.C42_no_longer_cycle",
    "WS.Props.C42_subevent_refused",
    "WS.Props.C42_parent_refused",
    "WS.Props.C42_assignment_effect",
    "WS.Props.C42_failed_assignment",
    "WS.Props.C42_chain_of_two",
    "WS.Props.C42_cycle_attempt_refused",
    "WS.Props.C42_self_loop_reachable",
    "WS.Props.C42_self_loop_permanent"
   ],
   "note": "All histories of creation, deletion, assignment and rule insertion."
  },
  {
   "property": "C43",
   "status": "proved",
   "theorems": [
    "WS.Props.C43_event_labels_step",
    "WS.Props.C43_action_labels_step",
    "WS.Props.C43_event_retrievable_iff",
    "WS.Props.C43_long_label_refused",
    "WS.Props.C43_stored_label_length",
    "WS.Props.C43_label_eq_iff",
    "WS.Props.C43_label_swap",
    "WS.Props.C43_label_trans",
    "WS.Props.C43_highest_priority"
   ],
   "note": "Event/action tables over all histories, label order, length limit, priority tracking (Props/TableState)."
  },
  {
   "property": "C44",
   "status": "partial",
   "theorems": [
    "WS.Props.C44_refused_unchanged",
    "WS.Props.C44_exchanged",
    "WS.Props.C44_derived_state",
    "WS.Props.C44_involution_disjoint_partial",
    "WS.Props.C44_involution_derived_partial",
    "WS.Props.C44_not_involution",
    "WS.Props.C44_unrelated_rules_overwritten",
    "WS.Props.C44_purge_queue_disordered"
   ],
   "note": "One exchange: proved for all contexts that obtain the locks. Twice: exact restoration when no rule ID is shared; for a derived (cloned and edited) second context the first is restored exactly and the second up to the state of shared rules. Involution is false of the code (C44_not_involution); further findings C44_unrelated_rules_overwritten, C44_purge_queue_disordered."
  },
  {
   "property": "C45",
   "status": "partial",
   "theorems": [
    "WS.Props.C45_clone_is_copy_partial",
    "WS.Props.C45_clone_settings_partial",
    "WS.Props.C45_clone_at_creation_partial",
    "WS.Props.C45_own_references_partial",
    "WS.Props.C45_refcounts_partial",
    "WS.Props.C45_source_untouched_partial",
    "WS.Props.C45_clone_keeps_partial",
    "WS.Props.C45_source_keeps_partial",
    "WS.Props.C45_fallthrough_shared",
    "WS.Props.C45_idle_limit_lost",
    "WS.Props.C45_remembers_last",
    "WS.Props.C45_family_delete_loses_others",
    "WS.Props.C45_delete_from_clone",
    "WS.Props.C45_family_links_missing",
    "WS.Props.C45_deleted_event_fails",
    "WS.Props.C45_private_resize",
    "WS.Props.C45_private_resize_corrupts"
   ],
   "note": "Clone of every well-formed context (cross-references to objects still in their tables; memory available) proved to succeed and to be a copy up to a renaming to new objects: tables, order, IDs, hit counts, contents, ID index, settings, reference counts; source untouched; independence both ways. False of the code: shared fallthrough rule, idle limit not copied, family back links, sources with deleted-but-referenced events, private-data resize, remembered any-family rule (finding theorems)."
  },
  {
   "property": "C46",
   "status": "partial",
   "theorems": [
    "WS.Props.C46_stack_partial",
    "WS.Props.C46_exactly_once_partial",
    "WS.Props.C46_no_crash_partial",
    "WS.Props.C46_all_empties_partial",
    "WS.Props.C46_all_lifo",
    "WS.Props.C46_registration_order",
    "WS.Props.C46_register_then_clean",
    "WS.Props.C46_pop_in_handler_uses_freed",
    "WS.Props.C46_pop_in_handler_recurses"
   ],
   "note": "All histories with handlers that may register further hooks; plain handlers: exact LIFO order. False of the code when a handler itself pops hooks (C46_pop_in_handler_uses_freed, C46_pop_in_handler_recurses)."
  },
  {
   "property": "C47",
   "status": "partial",
   "theorems": [
    "WS.Props.C47_integer_text",
    "WS.Props.C47_decimal_meaning",
    "WS.Props.C47_int_min_undefined",
    "WS.Props.C47_address_text",
    "WS.Props.C47_address_bounded_partial",
    "WS.Props.C47_zero_length_buffer_overrun",
    "WS.Props.C47_long_ipv4_address_undefined",
    "WS.Props.C47_link64_unsupported",
    "WS.Props.C47_export_exact",
    "WS.Props.C47_export_too_small_partial",
    "WS.Props.C47_export_overruns",
    "WS.Props.C47_export_overruns_by_one",
    "WS.Props.C47_unknown_protocol_undefined",
    "WS.Props.C47_flag_names_round_trip"
   ],
   "note": "Integer text exact and bounded for every int but INT_MIN (undefined). Address text exact (per family) and bounded for non-empty buffers. Rule export gives exactly the JSON object of the specification and stays in the buffer whenever that object fits; too-small buffers are reported and respected for rules without addresses only: findings C47_export_overruns(_by_one) show stores past the end otherwise. Other findings: zero-length buffer, long IPv4 address, unknown protocol number."
  },
  {
   "property": "C48",
   "status": "proved",
   "theorems": [
    "WS.Props.C48_bitmask_families",
    "WS.Props.C48_refcount"
   ],
   "note": "All histories of calls whose insert actions do not fail (failing insert actions: C14_action_failure_breaks)."
  },
  {
   "property": "C49",
   "status": "partial",
   "theorems": [
    "WS.Props.C49_accepted_is_json_partial",
    "WS.Props.C49_json_is_accepted",
    "WS.Props.C49_json_is_accepted_unless_refused",
    "WS.Props.C49_accepted",
    "WS.Props.C49_cut_off_is_accepted",
    "WS.Props.C49_accepts_exactly",
    "WS.Props.C49_cut_off_is_a_beginning",
    "WS.Props.C49_cut_off_ends_in_a_word",
    "WS.Props.C49_string_is_utf8",
    "WS.Props.C49_chunk_independent",
    "WS.Props.C49_too_long_rejected",
    "WS.Props.C49_verdict_chunk_independent",
    "WS.Props.C49_never_faults",
    "WS.Props.C49_error_sticky",
    "WS.Props.C49_only_the_callback",
    "WS.Props.C49_finding_unclosed_accepted",
    "WS.Props.C49_finding_truncated_literal",
    "WS.Props.C49_finding_limit_events",
    "WS.Props.C49_finding_positive_return_ignored"
   ],
   "note": "Proved: exactly which texts are accepted (C49_accepted, C49_accepts_exactly): the JSON texts within the limits and such texts cut off in or after their last number or literal (Spec/JsonCut), each with exactly its events, for every chunking and callback; a cut off text is always the beginning of a JSON value; raw strings accepted iff well-formed UTF-8; independence of chunking; no faults; sticky errors. Partial because the property says only JSON texts are accepted, which the code refutes for the cut off ones (C49_finding_unclosed_accepted, C49_finding_truncated_literal)."
  },
  {
   "property": "C50",
   "status": "proved",
   "theorems": [
    "WS.Props.C50_clone_success_unordered",
    "WS.Props.C50_default_keys_equal",
    "WS.Props.C50_default_order",
    "WS.Props.C50_never_undefined",
    "WS.Props.C50_finite_map",
    "WS.Props.C50_red_black",
    "WS.Props.C50_height",
    "WS.Props.C50_size",
    "WS.Props.C50_get_or_add_result",
    "WS.Props.C50_remove_result",
    "WS.Props.C50_sorted_walk",
    "WS.Props.C50_ordered_walk",
    "WS.Props.C50_clone",
    "WS.Props.C50_clone_error_lost"
   ],
   "note": "For every comparison function that is an order (the default one is proved to be the byte-lexicographic order) and every history of fewer than 2^32-1 calls. Nodes are modelled as trees with paths as zippers (no pointers). Finding: C50_clone_error_lost."
  },
  {
   "property": "C51",
   "status": "proved",
   "theorems": [
    "WS.Props.C51_reports_rule",
    "WS.Props.C51_unknown_trigger",
    "WS.Props.C51_unknown_trigger_any",
    "WS.Props.C51_no_rule_reported"
   ],
   "note": "Found rule, unknown trigger, and no-rule paths; memory for the target is available."
  },
  {
   "property": "C52",
   "status": "proved",
   "theorems": [
    "WS.Props.C52_classified_by_value",
    "WS.Props.C52_fraction_is_no_integer",
    "WS.Props.C52_signed_value",
    "WS.Props.C52_unsigned_value",
    "WS.Props.C52_32_bits",
    "WS.Props.C52_unsigned_wraps",
    "WS.Props.C52_write_signed",
    "WS.Props.C52_write_unsigned",
    "WS.Props.C52_write_then_read"
   ],
   "note": "Model/JsonNum.lean (integer classification, conversion, writing) with the parser of Model/JsonSax.lean; doubles are not modelled."
  },
  {
   "property": "C53",
   "status": "proved",
   "theorems": [
    "WS.Props.C53_written_as_json_string",
    "WS.Props.C53_write_then_read"
   ],
   "note": "json_dump_string for all write callbacks; read back through the parser model of C49."
  },
  {
   "property": "C54",
   "status": "partial",
   "theorems": [
    "WS.Props.C54_number_8_bits",
    "WS.Props.C54_number_16_bits",
    "WS.Props.C54_number_32_bits",
    "WS.Props.C54_out_of_range",
    "WS.Props.C54_number_signed",
    "WS.Props.C54_number_unsigned_partial",
    "WS.Props.C54_unsigned_wraps",
    "WS.Props.C54_string_32_bits",
    "WS.Props.C54_string_16_bits",
    "WS.Props.C54_hex_byte_refused",
    "WS.Props.C54_duration",
    "WS.Props.C54_duration_local",
    "WS.Props.C54_duration_overread",
    "WS.Props.C54_duration_overflow"
   ],
   "note": "Model/ConfNum.lean: strto* with base 0 (ISO C, 64-bit long). Proved in full for 8/16/32-bit and signed 64-bit settings and for durations; unsigned 64-bit values wrap negative numbers (C54_unsigned_wraps, a finding), so that statement is partial. Findings: C54_duration_overread, C54_duration_overflow, C54_hex_byte_refused. convert_double (strtod) is not modelled."
  },
  {
   "property": "C55",
   "status": "proved",
   "theorems": [
    "WS.Props.C55_rules_and_events_untouched",
    "WS.Props.C55_no_rule_or_event_call",
    "WS.Props.C55_rest_the_same"
   ],
   "note": "For every text, chunking, library and memory content; log of calls; documents without rules load the same."
  },
  {
   "property": "C56",
   "status": "partial",
   "theorems": [
    "WS.Props.C56_document_meaning",
    "WS.Props.C56_text_meaning_partial",
    "WS.Props.C56_finding_truncated_config_accepted",
    "WS.Props.C56_finding_prefix_bits_overread",
    "WS.Props.C56_finding_unknown_name_crashes",
    "WS.Props.C56_finding_hex_overread",
    "WS.Props.C56_finding_update_lists_refused",
    "WS.Props.C56_finding_no_version"
   ],
   "note": "Event level: exact equivalence with the independent specification Spec/Config for every tree read in place. Text level: for texts not cut off in or after a number or literal (CutOff, Spec/JsonCut) and tokens read in place. Findings: truncated configurations accepted with the rule dropped, prefix-bits over-read, unknown names crash, documented lists refused."
  },
  {
   "property": "C57",
   "status": "partial",
   "theorems": [
    "WS.Props.C57_export_reloads_partial",
    "WS.Props.C57_one_insertion_partial",
    "WS.Props.C57_finding_label_injection",
    "WS.Props.C57_finding_label_unreadable",
    "WS.Props.C57_finding_ipv6_mask",
    "WS.Props.C57_finding_tcplike",
    "WS.Props.C57_finding_local_socket"
   ],
   "note": "Proved for rules whose families are IPv4/IPv6/link/CAN with prefix (or IPv4 bitmask) addresses and plain labels (Reloadable). Missing: registered custom families, IPv6 bitmasks, local sockets, TCP rules without the tcplike flag, labels with quotes/backslashes/control characters \u2014 for which the findings show the claim false of the code (except custom families) \u2014 and tokens split over chunks."
  },
  {
   "property": "C58",
   "status": "partial",
   "theorems": [
    "WS.Props.C58_long_number_refused",
    "WS.Props.C58_text_gives_its_value",
    "WS.Props.C58_value_is_the_texts_partial",
    "WS.Props.C58_text_without_value_refused",
    "WS.Props.C58_exactly",
    "WS.Props.C58_one_value",
    "WS.Props.C58_first_of_equal_keys_partial",
    "WS.Props.C58_ignored_object_is_merged",
    "WS.Props.C58_ignored_object_replaces_root",
    "WS.Props.C58_ignored_objects_undefined"
   ],
   "note": "Model/JsonDom.lean (json_dom_process and friends over the SAX model). For the abort and use-last policies: exactly what is accepted and with which value (C58_exactly), including texts cut off (C49's finding). With use-first, repeated keys whose value is an array or an object are excluded: C58_ignored_object_is_merged, C58_ignored_object_replaces_root and C58_ignored_objects_undefined show the code wrong there. Numbers of 63 bytes or more that are not integers are refused (C58_long_number_refused). strtod is a parameter; allocation failure is not modelled."
  },
  {
   "property": "C59",
   "status": "partial",
   "theorems": [
    "WS.Props.C59_written_then_read",
    "WS.Props.C59_read_back_exactly",
    "WS.Props.C59_written_in_order",
    "WS.Props.C59_doubles_stay_doubles",
    "WS.Props.C59_infinity_is_not_json",
    "WS.Props.C59_comma_becomes_point",
    "WS.Props.C59_indentation"
   ],
   "note": "All values with UTF-8 strings, distinct keys and integers within their types; floating-point numbers under the hypothesis that snprintf writes a JSON number of at most 60 bytes without an upper-case E from which strtod recovers the value (Writable). Infinities and NaN are written as text that is not JSON (C59_infinity_is_not_json)."
  },
  {
   "property": "C60",
   "status": "partial",
   "theorems": [
    "WS.Props.C60_array_is_a_list_partial",
    "WS.Props.C60_emptied_array_dangles",
    "WS.Props.C60_removal_wraps",
    "WS.Props.C60_failed_removal_destroys"
   ],
   "note": "Proved for allocators whose realloc(p, 0) does not release p, and otherwise for histories in which no removal empties the array; index + count must not wrap; json_value_fini must not fail. Each exception is a finding: C60_emptied_array_dangles (use after release with glibc), C60_removal_wraps, C60_failed_removal_destroys."
  },
  {
   "property": "C61",
   "status": "proved",
   "theorems": [
    "WS.Props.C61_string_kept",
    "WS.Props.C61_string_without_memory",
    "WS.Props.C61_key_survives_colours",
    "WS.Props.C61_integer_kept",
    "WS.Props.C61_compatible_exact",
    "WS.Props.C61_bool_kept"
   ],
   "note": "Byte-level model of JSON_VALUE (inline and allocated). The types float and double are not modelled."
  },
  {
   "property": "C62",
   "status": "partial",
   "theorems": [
    "WS.Props.C62_path_leads_partial",
    "WS.Props.C62_index_wraps",
    "WS.Props.C62_brackets_misread",
    "WS.Props.C62_not_a_number"
   ],
   "note": "Proved for paths whose bracketed parts hold decimal numbers below 2^64; C62_index_wraps and C62_brackets_misread show the claim false for the others."
  },
  {
   "property": "C63",
   "status": "partial",
   "theorems": [
    "WS.Props.C63_unfiltered",
    "WS.Props.C63_library_never_fails",
    "WS.Props.C63_library_error_passes",
    "WS.Props.C63_answer",
    "WS.Props.C63_rule_decides_partial",
    "WS.Props.C63_boxed_refused_partial",
    "WS.Props.C63_no_rule",
    "WS.Props.C63_no_thread_context",
    "WS.Props.C63_teardown_failure",
    "WS.Props.C63_null_dereferenced",
    "WS.Props.C63_examples"
   ],
   "note": "Answer characterised for every callback and event; that errors of the library let packets pass is proved. Partial because the deciding-rule theorems need handlers that only observe, and because a NULL local address or control block is dereferenced (C63_null_dereferenced) and a failed thread teardown drops the packet after the rules accepted it (C63_teardown_failure)."
  },
  {
   "property": "C64",
   "status": "partial",
   "theorems": [
    "WS.Props.C64_asks",
    "WS.Props.C64_asks_iff",
    "WS.Props.C64_decided_by_fitting_rule_partial",
    "WS.Props.C64_fully_specified",
    "WS.Props.C64_no_better_rule_partial",
    "WS.Props.C64_close_wait_not_told",
    "WS.Props.C64_icmp6_is_icmp",
    "WS.Props.C64_dual_stack_shown_as_ip4",
    "WS.Props.C64_shows_tcp_incoming",
    "WS.Props.C64_shows_tcp_outgoing",
    "WS.Props.C64_shows_udp",
    "WS.Props.C64_decided_by_covering_rule_partial"
   ],
   "note": "The question is characterised bit by bit for every layer and event, and the deciding rule covers the traffic (C64_decided_by_covering_rule_partial). Partial: CLOSE_WAIT is not told (C64_close_wait_not_told), ICMPv6 is asked about as ICMP (C64_icmp6_is_icmp), a dual-stack address is shown as IPv4 (C64_dual_stack_shown_as_ip4); 'no better rule' needs the hypotheses of the lookup theorem C10."
  },
  {
   "property": "C65",
   "status": "partial",
   "theorems": [
    "WS.Props.C65_counts_partial",
    "WS.Props.C65_others_unchanged",
    "WS.Props.C65_history_partial",
    "WS.Props.C65_refused_is_counted",
    "WS.Props.C65_interface_rules_leak"
   ],
   "note": "Proved for histories with observing handlers and configurations that leave the counting bits alone. Findings: an accept that is refused for another reason stays counted (C65_refused_is_counted); rules with an interface leak connections (C65_interface_rules_leak)."
  },
  {
   "property": "C66",
   "status": "proved",
   "theorems": [
    "WS.Props.C66_installed",
    "WS.Props.C66_balanced",
    "WS.Props.C66_all_or_nothing",
    "WS.Props.C66_removed",
    "WS.Props.C66_shutdown",
    "WS.Props.C66_no_dangling_context",
    "WS.Props.C66_other_contexts_removed",
    "WS.Props.C66_reentrant_unfiltered",
    "WS.Props.C66_icmp4_argument_left"
   ],
   "note": "Findings: one context's shutdown removes another's callbacks (C66_other_contexts_removed), re-entrant events are not filtered (C66_reentrant_unfiltered), a failed registration in the ICMP or TCP installer leaves the context's lock held (C33_finding_lwip_lock_kept)."
  },
  {
   "property": "C67",
   "status": "partial",
   "theorems": [
    "WS.Props.C67_same_traffic",
    "WS.Props.C67_recreated",
    "WS.Props.C67_private_data_partial",
    "WS.Props.C67_reinserted",
    "WS.Props.C67_finding_boxed_for_good",
    "WS.Props.C67_expired_refused",
    "WS.Props.C67_finding_private_data_shifted",
    "WS.Props.C67_set_wildcard_partial",
    "WS.Props.C67_set_wildcard_refused_in_table",
    "WS.Props.C67_finding_set_wildcard_moves_local"
   ],
   "note": "Key, counts, expiry and flags proved for every rule and table (C67_reinserted, C67_same_traffic); private data only if the settings put no padding in front (C67_finding_private_data_shifted); wildcards only without the one for the remote address (C67_finding_set_wildcard_moves_local). The time of penalty boxing is lost (C67_finding_boxed_for_good); expired rules are refused (C67_expired_refused)."
  },
  {
   "property": "C68",
   "status": "partial",
   "theorems": [
    "WS.Props.C68_tracks",
    "WS.Props.C68_rule_as_target",
    "WS.Props.C68_failure_changes_nothing_partial",
    "WS.Props.C68_finding_uninitialised_results",
    "WS.Props.C68_results_written",
    "WS.Props.C68_finding_first_offence_uncounted"
   ],
   "note": "Counting fails: the first report is counted on neither rule (C68_finding_first_offence_uncounted). Failures leave the table alone unless handlers of the new rule fail or the queue of expiring rules is full (C14); when the lock or the event cannot be had the results gain whatever lay on the stack (C68_finding_uninitialised_results)."
  },
  {
   "property": "C69",
   "status": "partial",
   "theorems": [
    "WS.Props.C69_identities_distinct_partial",
    "WS.Props.C69_nested_for_ever",
    "WS.Props.C69_calls_are_steps",
    "WS.Props.C69_end_is_steps",
    "WS.Props.C69_identities_repeat",
    "WS.Props.C69_same_identity_is_let_in"
   ],
   "note": "Distinctness for fewer than 2^24-1 initialisations without a host identity, and for ever in nested use; C69_identities_repeat shows that the full claim is false beyond that."
  },
  {
   "property": "C70",
   "status": "partial",
   "theorems": [
    "WS.Props.C70_absolute",
    "WS.Props.C70_absolute_refused",
    "WS.Props.C70_relative",
    "WS.Props.C70_relative_exact",
    "WS.Props.C70_no_deadline",
    "WS.Props.C70_deadline_applies",
    "WS.Props.C70_no_deadline_waits",
    "WS.Props.C70_finding_deadline_now",
    "WS.Props.C70_finding_deadline_flag",
    "WS.Props.C70_end_iff_nothing_held_partial",
    "WS.Props.C70_finding_late_reader",
    "WS.Props.C70_new_context",
    "WS.Props.C70_deadline_mark",
    "WS.Props.C70_end_needs_clean"
   ],
   "note": "Findings: the deadline 'now' makes a contended lock call fail fatally; a late reader's context can be destroyed while it holds the lock (C31). The end of a context is under the obligations of C30-C32."
  },
  {
   "property": "C71",
   "status": "partial",
   "theorems": [
    "WS.Props.C71_queries_partial",
    "WS.Props.C71_readonly_partial",
    "WS.Props.C71_readonly_refused",
    "WS.Props.C71_marks_partial",
    "WS.Props.C71_marking"
   ],
   "note": "Under the obligations of C30-C32 (the finding of C31, C70_finding_late_reader, shows the query wrong otherwise)."
  },
  {
   "property": "C72",
   "status": "partial",
   "theorems": [
    "WS.Props.C72_export_is_the_table",
    "WS.Props.C72_export_stays_in_the_buffer",
    "WS.Props.C72_export_completes",
    "WS.Props.C72_retry_partial",
    "WS.Props.C72_too_small_changes_nothing_partial",
    "WS.Props.C72_finding_export_overruns",
    "WS.Props.C72_finding_failed_start_writes",
    "WS.Props.C72_export_reloads_partial",
    "WS.Props.C72_only_the_insertions_partial"
   ],
   "note": "Export: full for clients that empty the buffer when less than the longest rule is left; clients that retry after 'buffer too small' only for rules without addresses (C72_finding_export_overruns: the claim is false otherwise). Reload: for the rules C57 covers."
  },
  {
   "property": "C73",
   "status": "proved",
   "theorems": [
    "WS.Props.C73_forward",
    "WS.Props.C73_backward",
    "WS.Props.C73_there_and_back",
    "WS.Props.C73_start"
   ],
   "note": "For all tables and steps, on the list model of the cursor (the pointer-level list is C11/C12)."
  },
  {
   "property": "C74",
   "status": "partial",
   "theorems": [
    "WS.Props.C74_areas",
    "WS.Props.C74_give_back",
    "WS.Props.C74_no_leak",
    "WS.Props.C74_contents",
    "WS.Props.C74_realloc_contents_partial",
    "WS.Props.C74_realloc_contents_32",
    "WS.Props.C74_realloc_total",
    "WS.Props.C74_realloc_edges",
    "WS.Props.C74_memalign_succeeds",
    "WS.Props.C74_finding_memalign_overflow",
    "WS.Props.C74_finding_memalign_not_power",
    "WS.Props.C74_finding_memalign_offset",
    "WS.Props.C74_finding_realloc_truncates"
   ],
   "note": "Proved for requests with a power-of-two alignment up to 2^15 and sizes that do not overflow; overflow, other alignments, larger alignments and the 64-bit truncation in realloc are findings. The compiler's malloc, free, realloc are the honest-system hypotheses."
  },
  {
   "property": "C75",
   "status": "partial",
   "theorems": [
    "WS.Props.C75_compare",
    "WS.Props.C75_subtract",
    "WS.Props.C75_now",
    "WS.Props.C75_not_early",
    "WS.Props.C75_takes_available",
    "WS.Props.C75_takes_in_time_partial",
    "WS.Props.C75_ends_in_time_partial",
    "WS.Props.C75_trywait",
    "WS.Props.C75_wait",
    "WS.Props.C75_finding_far_deadline",
    "WS.Props.C75_finding_never_ends",
    "WS.Props.C75_finding_16_bit_ticks",
    "WS.Props.C75_finding_overflow",
    "WS.Props.C75_tick_count",
    "WS.Props.C75_finding_clock_64"
   ],
   "note": "Never early: proved. Taking in time and ending in time need a tick rate that divides 10^9 and a deadline within the range of the tick type; far deadlines, 16-bit ticks and the 64-bit clock are findings."
  },
  {
   "property": "C76",
   "status": "partial",
   "theorems": [
    "WS.Props.C76_held_is_not_destroyed_partial",
    "WS.Props.C76_awaited_is_not_destroyed_partial",
    "WS.Props.C76_destroyed_was_free",
    "WS.Props.C76_released_is_destroyed_partial",
    "WS.Props.C76_expired_promotion_blocks_destruction",
    "WS.Props.C76_init_iff",
    "WS.Props.C76_alloc",
    "WS.Props.C76_failed_init_keeps_semaphores"
   ],
   "note": "Refusal of destruction: under the hypotheses of C30 on the history. Destruction of a released lock: histories without deadlines; with an expired promotion it is false (finding). A failing initialisation does not destroy its semaphores (finding)."
  },
  {
   "property": "C77",
   "status": "partial",
   "theorems": [
    "WS.Props.C77_rendered",
    "WS.Props.C77_needed_length",
    "WS.Props.C77_refused",
    "WS.Props.C77_is_json",
    "WS.Props.C77_json_reads_back",
    "WS.Props.C77_json_codes",
    "WS.Props.C77_quotes_are_not_escaped",
    "WS.Props.C77_zero_byte_cuts",
    "WS.Props.C77_json_needs_guessing"
   ],
   "note": "Proved: the text, the length, the bounds of the buffer, reading back of null, truth values, integers, plain strings and JSON trees, the refusals, the translation of the JSON library's codes. Not provable because the code does not do it (findings proved): strings are not escaped, a zero byte cuts a string, a JSON value does not tell the length needed. The fixed-point text of a floating-point number is snprintf's."
  },
  {
   "property": "C78",
   "status": "partial",
   "theorems": [
    "WS.Props.C78_line_partial",
    "WS.Props.C78_failing_output_partial",
    "WS.Props.C78_references",
    "WS.Props.C78_wildcard_goes_to_stdout",
    "WS.Props.C78_bitmask_rules_fail",
    "WS.Props.C78_lost_error",
    "WS.Props.C78_exports_leak",
    "WS.Props.C78_unnamed_flags"
   ],
   "note": "Proved under conditions on the rule (address texts exist, flags have names, no IP or local bit-matching address; wildcard addresses only on standard output): the line, the behaviour under failing output; without conditions: references for rules. The rest is false of the code (findings proved): the star of a wildcard address goes to standard output, IP bit-matching rules cannot be written, a failing protocol output is not reported, an export that fails leaks a family reference, unnamed flags go to standard error."
  },
  {
   "property": "C79",
   "status": "proved",
   "theorems": [
    "WS.Props.C79_get",
    "WS.Props.C79_set",
    "WS.Props.C79_set_succeeds",
    "WS.Props.C79_clear",
    "WS.Props.C79_released_iff",
    "WS.Props.C79_finding_deleted_stays_in_force",
    "WS.Props.C79_finding_namesake"
   ],
   "note": "Histories of create, delete, flush, hold, release, set and clear. Findings: a deleted event stays in force (C79_finding_deleted_stays_in_force), and a later event of the same label is not the one in force (C79_finding_namesake)."
  },
  {
   "property": "C80",
   "status": "partial",
   "theorems": [
    "WS.Props.C80_register_code",
    "WS.Props.C80_register_source",
    "WS.Props.C80_user_error",
    "WS.Props.C80_user_source",
    "WS.Props.C80_name",
    "WS.Props.C80_text",
    "WS.Props.C80_inside",
    "WS.Props.C80_user_success_partial",
    "WS.Props.C80_finding_success_text",
    "WS.Props.C80_result_bits",
    "WS.Props.C80_result_bits_outside"
   ],
   "note": "False of the code for registered success codes: the text of the error of the same number is returned, or a null pointer (C80_finding_success_text). Everything else in the statement is proved."
  },
  {
   "property": "C81",
   "status": "proved",
   "theorems": [
    "WS.Props.C81_accepts_iff",
    "WS.Props.C81_refusal",
    "WS.Props.C81_self",
    "WS.Props.C81_finding_masks_not_compared"
   ],
   "note": "The library's own check of a user-chosen enumeration size is not modelled. Limit: the bit for masks is not compared (C81_finding_masks_not_compared)."
  },
  {
   "property": "C82",
   "status": "partial",
   "theorems": [
    "WS.Props.C82_refused_leaves_nothing",
    "WS.Props.C82_refusal_reason",
    "WS.Props.C82_init_ready",
    "WS.Props.C82_init_failure_partial",
    "WS.Props.C82_finding_uninitialised",
    "WS.Props.C82_finding_threads_leak",
    "WS.Props.C82_example",
    "WS.Props.C82_shutdown_refused",
    "WS.Props.C82_shutdown_keeps_held",
    "WS.Props.C82_shutdown_frees",
    "WS.Props.C82_shutdown_leaves_nothing",
    "WS.Props.C82_fresh_settled",
    "WS.Props.C82_init_then_shutdown",
    "WS.Props.C82_demo",
    "WS.Props.C82_finding_cycle_survives"
   ],
   "note": "Success characterised exactly, refusals leave nothing, shutdown keeps exactly what is held (given no cycle of references). The clause that a late failure leaves nothing is proved for builds without threads unless the table of values or a family table is refused (C82_init_failure_partial); otherwise it is false of the code: C82_finding_uninitialised (unwritten rule table read), C82_finding_threads_leak (with threads nothing is freed). A self-referring event survives shutdown (C82_finding_cycle_survives)."
  },
  {
   "property": "C83",
   "status": "partial",
   "theorems": [
    "WS.Props.C83_dry_run",
    "WS.Props.C83_all_or_nothing",
    "WS.Props.C83_dry_run_feeds",
    "WS.Props.C83_draft",
    "WS.Props.C83_commit_contents",
    "WS.Props.C83_commit_handlers_partial",
    "WS.Props.C83_feeding",
    "WS.Props.C83_init_refuses",
    "WS.Props.C83_oneshot",
    "WS.Props.C83_flush_first",
    "WS.Props.C83_in_place",
    "WS.Props.C83_finding_loaded_events_muted",
    "WS.Props.C83_finding_muted_rules",
    "WS.Props.C83_finding_no_flush_delete_handlers",
    "WS.Props.C83_finding_commit_enables",
    "WS.Props.C83_finding_clone_fails",
    "WS.Props.C83_finding_failed_load_in_place",
    "WS.Props.C83_finding_muted_event",
    "WS.Props.C83_finding_no_flush_no_insert_handlers",
    "WS.Props.C83_finding_policy_lost",
    "WS.Props.C83_finding_error_after_commit",
    "WS.Props.C83_finding_dry_run_runs_handlers",
    "WS.Props.C83_finding_default_event_dangling",
    "WS.Props.C83_copied_table"
   ],
   "note": "Proved for every text, chunking, flag set, context and handler: dry runs leave everything alone, a load on a draft that fails changes nothing, the committed contents, the flush-first rule and the feed discipline (C83_dry_run, _all_or_nothing, _dry_run_feeds, _draft, _commit_contents, _feeding, _init_refuses, _oneshot, _flush_first, _in_place). Handler runs at a commit are proved without NO_FLUSH (C83_commit_handlers_partial). The rest is false of the code and stated as findings: a load in place that fails leaves half of the text loaded; events loaded with a configuration of their own stay muted after a commit; with NO_FLUSH the new rules' insert handlers never run and the kept rules' delete handlers do; a commit loses the default policy, default event and fallthrough rule; a handler that fails makes a load fail after the commit; a commit enables actions the user had inhibited; a context with a deleted event that a rule or the default still refers to cannot be cloned, and the attempt runs delete handlers of rules that stay (C83_finding_clone_fails; the two claims about handlers are for contexts without that)."
  },
  {
   "property": "C84",
   "status": "partial",
   "theorems": [
    "WS.Props.C84_call",
    "WS.Props.C84_document",
    "WS.Props.C84_in_place_partial",
    "WS.Props.C84_commit_partial",
    "WS.Props.C84_rules",
    "WS.Props.C84_no_twins",
    "WS.Props.C84_found",
    "WS.Props.C84_lived",
    "WS.Props.C84_finding_lower_limit_refused",
    "WS.Props.C84_finding_limit_exceeded",
    "WS.Props.C84_add_commit_partial",
    "WS.Props.C84_finding_revival_undone",
    "WS.Props.C84_default_event_partial"
   ],
   "note": "Proved for loads in place and for LOAD_THEN_COMMIT, without NO_FLUSH (C84_commit_partial) and with it (C84_add_commit_partial, if no rule in force is marked as to be deleted), for texts as in C56 (strict JSON, tokens read in place, not cut off in a number or literal) and handlers that leave flags and keys of rules alone; C84_rules, C84_no_twins and C84_found hold without the restriction on texts. C84_lived: the contexts supposed are those a program makes from an empty one by successful calls and loads. Findings: a document that lowers the limit on rules that expire is refused although the limit is lowered; a limit set where there was none is exceeded; with NO_FLUSH and LOAD_THEN_COMMIT a rule brought back by the document is marked as to be deleted again by the commit, with an expiry but outside the queue."
  },
  {
   "property": "C85",
   "status": "partial",
   "theorems": [
    "WS.Props.C85_restored_partial",
    "WS.Props.C85_same_context_partial",
    "WS.Props.C85_committed_partial",
    "WS.Props.C85_finding_export_refused",
    "WS.Props.C85_finding_expiry_lost"
   ],
   "note": "Proved for loads in place and committed loads, any chunking and buffer sizes, every context in the invariant of C84: C85_restored_partial, C85_same_context_partial, C85_committed_partial. Missing: rules the export does not describe completely (Savable: prefix or mask under an address wildcard, wildcard for the parent event; settings that change flags), more than a table can hold (Holdable), handlers that fail or change rules. The full claim is false of the code: C85_finding_export_refused (an export is refused with ITEM_ALREADY_PRESENT and a rule is lost), C85_finding_expiry_lost (the time a rule expires is not exported)."
  },
  {
   "property": "C86",
   "status": "partial",
   "theorems": [
    "WS.Props.C86_decided_partial",
    "WS.Props.C86_search_ends_partial",
    "WS.Props.C86_document_partial",
    "WS.Props.C86_commit_partial",
    "WS.Props.C86_any_family_missed"
   ],
   "note": "Proved for loads in place (C86_document_partial) and committed loads without NO_FLUSH (C86_commit_partial), for every document and every fully known packet, that a dispatch ends as the rules in force say (C86_decided_partial, also for contexts not just loaded, as long as nothing has been charged to the rules), that the rules are those of the document, and that the search ends. Missing: rules for any family, address masks, prefixes that are not a multiple of four bits or longer than the packet's addresses, and rules equal to the packet in every field, for which the search is not right (C09, C10); configurations that add verdicts by themselves; post actions for traffic without a rule; interfering handlers. Finding: with one catch-all rule for each direction, the second is never found by a packet, which is accepted by default although the document rejects it (C86_any_family_missed)."
  },
  {
   "property": "C87",
   "status": "proved",
   "theorems": [
    "WS.Props.C87_no_ban_without_cause",
    "WS.Props.C87_clean_visit",
    "WS.Props.C87_banned",
    "WS.Props.C87_ban_holds",
    "WS.Props.C87_ban_ends",
    "WS.Props.C87_bystander",
    "WS.Props.C87_ban_lost_by_expiry",
    "WS.Props.C87_blind_ban"
   ],
   "note": "Over whole histories. Findings: a ban is forgotten when the rule expires (C87_ban_lost_by_expiry); a ban pronounced while the clock fails never ends (C87_blind_ban)."
  },
  {
   "property": "C88",
   "status": "partial",
   "theorems": [
    "WS.Props.C88_no_fault_partial",
    "WS.Props.C88_references_safe",
    "WS.Props.C88_held_alive_partial",
    "WS.Props.C88_contents_fixed_partial",
    "WS.Props.C88_value_current_partial",
    "WS.Props.C88_reference_current_partial",
    "WS.Props.C88_no_leak_partial",
    "WS.Props.C88_delete_alone_partial",
    "WS.Props.C88_finding_value_after_free",
    "WS.Props.C88_finding_record_after_free",
    "WS.Props.C88_finding_default_null",
    "WS.Props.C88_finding_release_null",
    "WS.Props.C88_finding_unlocked_faults"
   ],
   "note": "The full claim is false of the code (findings): unlocked value getters read, and unlocked record getters count references to, freed objects; the default-event getter follows NULL; releasing may follow a NULL parent table. Proved for the calls that count a reference under the lock without any condition (C88_references_safe), and for all calls if the caller holds the lock around those."
  },
  {
   "property": "C89",
   "status": "partial",
   "theorems": [
    "WS.Props.C89_rules_left",
    "WS.Props.C89_decided_partial",
    "WS.Props.C89_strikes_partial",
    "WS.Props.C89_ban_partial",
    "WS.Props.C89_document_partial",
    "WS.Props.C89_commit_partial"
   ],
   "note": "C89_rules_left holds in full for handlers that only observe. The rest is for rules of the ordinary kind (one family, prefixes of whole nibbles, no masks: C86, the code misses or mis-orders others), rules that never expire (an expiring rule takes its ban with it: C87_ban_lost_by_expiry), reports without connections or commendations (C87 covers these for one rule), and configurations that give no verdicts themselves."
  },
  {
   "property": "C90",
   "status": "partial",
   "theorems": [
    "WS.Props.C90_ledger",
    "WS.Props.C90_limit",
    "WS.Props.C90_over_limit_rejected",
    "WS.Props.C90_rejected_iff",
    "WS.Props.C90_room",
    "WS.Props.C90_within_limit",
    "WS.Props.C90_calls_partial",
    "WS.Props.C90_document_partial",
    "WS.Props.C90_commit_partial",
    "WS.Props.C90_rejected_is_counted"
   ],
   "note": "The ledger, the limit and the refusals over the limit hold for limits up to 65535 (the counter has 16 bits: C18_no_limit_above_65535) and handlers that only observe. C90_rejected_iff and the theorems about loaded configurations are for reports of connections only and rules of the ordinary kind, as in C89. Finding C90_rejected_is_counted: a connection rejected for another reason than the limit (a ban, the default policy) is counted although it never exists, so it uses up room until somebody reports its end."
  },
  {
   "property": "C91",
   "status": "partial",
   "theorems": [
    "WS.Props.C91_lasting",
    "WS.Props.C91_in_order",
    "WS.Props.C91_reload_partial",
    "WS.Props.C91_reload_in_place_partial",
    "WS.Props.C91_refused_reload",
    "WS.Props.C91_served_partial",
    "WS.Props.C91_served_load_partial",
    "WS.Props.C91_reload_ends_bans",
    "WS.Props.C91_reload_forgets_connections"
   ],
   "note": "Proved for documents as in C84, C86, C89 and C90. A committed load works after any traffic; edits and loads in place suppose that the traffic has left the purge queue in order, which traffic about the rule next to expire need not do (C16_hit_breaks_order); if no rule expires it does (C91_lasting). LOAD_THEN_COMMIT with NO_FLUSH is in the histories if the table of bitmask families is within its size (BmFits) and no rule is marked as to be deleted. Refusals: C91_refused_reload holds in full for failures before the commit (C83_finding_error_after_commit for those after it). Findings: loading the configuration in force once more ends every ban (C91_reload_ends_bans) and forgets open connections, so that more than the limit are open (C91_reload_forgets_connections)."
  },
  {
   "property": "C92",
   "status": "partial",
   "theorems": [
    "WS.Props.C92_now",
    "WS.Props.C92_to_timespec",
    "WS.Props.C92_deadline",
    "WS.Props.C92_monotone",
    "WS.Props.C92_two_steps",
    "WS.Props.C92_back",
    "WS.Props.C92_no_clock",
    "WS.Props.C92_builtin_no_clock",
    "WS.Props.C92_before_epoch",
    "WS.Props.C92_failure_ignored",
    "WS.Props.C92_overflow"
   ],
   "note": "Proved for clock readings from the epoch on and delays within the range of the library's times. Findings (theorems): a time before the epoch gives negative nanoseconds (C92_before_epoch); a failing host conversion is reported as success and the deadline is indeterminate (C92_failure_ignored); a delay meaning for ever overflows (C92_overflow). So the full statement is false of the code for times before the epoch and for failing conversions."
  },
  {
   "property": "C93",
   "status": "partial",
   "theorems": [
    "WS.Props.C93_safe",
    "WS.Props.C93_meaning",
    "WS.Props.C93_own",
    "WS.Props.C93_parse",
    "WS.Props.C93_dom",
    "WS.Props.C93_types",
    "WS.Props.C93_not_inited",
    "WS.Props.C93_loader_texts"
   ],
   "note": "Proved but for the loader's messages. Findings (theorems): the code for a parser never started (-24) has no text (C93_not_inited); the loader asks json_error_str, which has no text for the value builder's own code nor for codes of its own callback (C93_loader_texts)."
  },
  {
   "property": "C94",
   "status": "proved",
   "theorems": [
    "WS.Props.C94_parse",
    "WS.Props.C94_never",
    "WS.Props.C94_never_feed"
   ],
   "note": "Allocation succeeds in the model (DESIGN.md), so out of memory is not among the codes."
  }
 ]
}