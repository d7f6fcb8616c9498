{
 "claims": [
  {
   "property": "C01",
   "status": "proved",
   "theorems": [
    "Pyth.Portal.C01_with_blocks_restore_context"
   ],
   "note": ""
  },
  {
   "property": "C02",
   "status": "proved",
   "theorems": [
    "Pyth.Portal.C02_current_is_innermost",
    "Pyth.Portal.C02_best_portal_priority"
   ],
   "note": ""
  },
  {
   "property": "C03",
   "status": "proved",
   "theorems": [
    "Pyth.Portal.C03_exit_only_innermost"
   ],
   "note": ""
  },
  {
   "property": "C04",
   "status": "proved",
   "theorems": [
    "Pyth.Portal.C04_exit_all"
   ],
   "note": ""
  },
  {
   "property": "C05",
   "status": "proved",
   "theorems": [
    "Pyth.Portal.C05_entered_list",
    "Pyth.Portal.C05_noncurrent_list",
    "Pyth.Portal.C05_known_nodup"
   ],
   "note": ""
  },
  {
   "property": "C06",
   "status": "proved",
   "theorems": [
    "Pyth.Portal.C06_counters_invisible"
   ],
   "note": ""
  },
  {
   "property": "C07",
   "status": "proved",
   "theorems": [
    "Pyth.FirstEntry.C07_first_value_wins",
    "Pyth.FirstEntry.C07_first_value_wins_with_failures",
    "Pyth.FirstEntry.C07_effect_of_failed_assignment"
   ],
   "note": ""
  },
  {
   "property": "C08",
   "status": "proved",
   "theorems": [
    "Pyth.FirstEntry.C08_check_p1",
    "Pyth.FirstEntry.C08_check_p0",
    "Pyth.FirstEntry.C08_check_sound",
    "Pyth.FirstEntry.C08_counters",
    "Pyth.FirstEntry.C08_exact"
   ],
   "note": ""
  },
  {
   "property": "C09",
   "status": "proved",
   "theorems": [
    "Pyth.FirstEntry.C09_concurrent_same_value",
    "Pyth.FirstEntry.C09_late_writers",
    "Pyth.FirstEntry.C09_concurrent_different_values_counterexample"
   ],
   "note": "proved as stated: same value, every interleaving and I/O failure; late writers; that different values can overwrite each other is shown by C09_concurrent_different_values_counterexample"
  },
  {
   "property": "C10",
   "status": "proved",
   "theorems": [
    "Pyth.Base32.C10_round_trip",
    "Pyth.Base32.C10_injective",
    "Pyth.Base32.C10_canonical",
    "Pyth.Base32.C10_decode_encode",
    "Pyth.Base32.C10_decode_total",
    "Pyth.Base32.C10_hex_value",
    "Pyth.Base32.C10_case_insensitive"
   ],
   "note": ""
  },
  {
   "property": "C11",
   "status": "proved",
   "theorems": [
    "Pyth.Base32.C11_signature_form",
    "Pyth.Base32.C11_random_signature_form",
    "Pyth.Base32.C11_truncation",
    "Pyth.Base32.C11_length"
   ],
   "note": ""
  },
  {
   "property": "C12",
   "status": "proved",
   "theorems": [
    "Pyth.HashAddr.C12_address_determined",
    "Pyth.HashAddr.C12_address_reveals"
   ],
   "note": ""
  },
  {
   "property": "C13",
   "status": "proved",
   "theorems": [
    "Pyth.HashAddr.C13_shapes_distinct",
    "Pyth.HashAddr.C13_shape_text"
   ],
   "note": ""
  },
  {
   "property": "C14",
   "status": "proved",
   "theorems": [
    "Pyth.ValueAddr.C14_store_then_get",
    "Pyth.ValueAddr.C14_copies_get"
   ],
   "note": ""
  },
  {
   "property": "C15",
   "status": "proved",
   "theorems": [
    "Pyth.ValueAddr.C15_content_integrity"
   ],
   "note": ""
  },
  {
   "property": "C16",
   "status": "proved",
   "theorems": [
    "Pyth.Pure.C16_results_only_grow",
    "Pyth.ValueAddr.C16_values_only_grow"
   ],
   "note": ""
  },
  {
   "property": "C17",
   "status": "proved",
   "theorems": [
    "Pyth.ValueAddr.C17_get_copies",
    "Pyth.ValueAddr.C17_ready_copies"
   ],
   "note": ""
  },
  {
   "property": "C18",
   "status": "partial",
   "theorems": [
    "Pyth.ValueAddr.C18_held_elsewhere_partial",
    "Pyth.ValueAddr.C18_not_found",
    "Pyth.ValueAddr.C18_current_portal_counterexample"
   ],
   "note": "the unrestricted claim is false of the code (a value held only by the current portal is missed when the address is bound to another one, C18_current_portal_counterexample); proved: values held by the address's portal or a noncurrent one are found, and exactly what happens when none holds it"
  },
  {
   "property": "C19",
   "status": "partial",
   "theorems": [
    "Pyth.ValueAddr.C19_ready_then_get_partial",
    "Pyth.ValueAddr.C19_converted_unchecked_counterexample"
   ],
   "note": "the unrestricted claim is false of the code for addresses converted from unchecked ones (C19_converted_unchecked_counterexample); proved for all other addresses"
  },
  {
   "property": "C20",
   "status": "proved",
   "theorems": [
    "Pyth.Pure.C20_address_order",
    "Pyth.Pure.C20_key_order",
    "Pyth.Pure.C20_key_injective"
   ],
   "note": ""
  },
  {
   "property": "C21",
   "status": "proved",
   "theorems": [
    "Pyth.Pure.C21_pack_unpack"
   ],
   "note": ""
  },
  {
   "property": "C22",
   "status": "proved",
   "theorems": [
    "Pyth.Pure.C22_same_address",
    "Pyth.Pure.C22_pack_idempotent"
   ],
   "note": ""
  },
  {
   "property": "C23",
   "status": "proved",
   "theorems": [
    "Pyth.Pure.C23_memoization_transparent",
    "Pyth.Pure.C23_same_outcome"
   ],
   "note": ""
  },
  {
   "property": "C24",
   "status": "proved",
   "theorems": [
    "Pyth.Pure.C24_cached_call",
    "Pyth.Pure.C24_no_check_due"
   ],
   "note": ""
  },
  {
   "property": "C25",
   "status": "proved",
   "theorems": [
    "Pyth.Pure.C25_result_never_changes"
   ],
   "note": ""
  },
  {
   "property": "C26",
   "status": "proved",
   "theorems": [
    "Pyth.Pure.C26_failed_call",
    "Pyth.Pure.C26_failed_call_any"
   ],
   "note": ""
  },
  {
   "property": "C27",
   "status": "proved",
   "theorems": [
    "Pyth.Pure.C27_successful_call",
    "Pyth.Pure.C27_stored_value"
   ],
   "note": ""
  },
  {
   "property": "C28",
   "status": "proved",
   "theorems": [
    "Pyth.Pure.C28_consistency_check",
    "Pyth.Pure.C28_check_succeeds",
    "Pyth.Pure.C28_store_checked"
   ],
   "note": ""
  },
  {
   "property": "C29",
   "status": "proved",
   "theorems": [
    "Pyth.Pure.C29_check_is_all_guards",
    "Pyth.Pure.C29_body_starts_after_guards",
    "Pyth.Pure.C29_body_only_if_guards_hold",
    "Pyth.Pure.C29_rejected_call"
   ],
   "note": ""
  },
  {
   "property": "C30",
   "status": "partial",
   "theorems": [
    "Pyth.Pure.C30_plain_arguments_partial",
    "Pyth.Pure.Ex.C30_counterexample"
   ],
   "note": "the unrestricted claim is false of the code when a call is executed through its address (C30_counterexample: guards get value addresses); proved for calls with plain arguments"
  },
  {
   "property": "C31",
   "status": "proved",
   "theorems": [
    "Pyth.Pure.C31_call_restores_environment",
    "Pyth.Pure.C31_operations_restore_environment"
   ],
   "note": ""
  },
  {
   "property": "C32",
   "status": "proved",
   "theorems": [
    "Pyth.Pure.C32_swarm_list",
    "Pyth.Pure.C32_run_list",
    "Pyth.Pure.C32_run_list_values"
   ],
   "note": ""
  },
  {
   "property": "C33",
   "status": "proved",
   "theorems": [
    "Pyth.Pure.C33_grid_is_product",
    "Pyth.Pure.C33_swarm_grid",
    "Pyth.Pure.C33_run_grid"
   ],
   "note": ""
  },
  {
   "property": "C34",
   "status": "proved",
   "theorems": [
    "Pyth.Waiting.C34_returns_first_seen",
    "Pyth.Waiting.C34_timeout_error",
    "Pyth.Waiting.C34_no_timeout_no_error",
    "Pyth.Waiting.C34_no_timeout_waits",
    "Pyth.Waiting.C34_timeout_ends",
    "Pyth.Waiting.C34_pause_at_least_one_second",
    "Pyth.Waiting.C34_exponential_backoff",
    "Pyth.Waiting.C34_requested_until_returned"
   ],
   "note": ""
  },
  {
   "property": "C35",
   "status": "proved",
   "theorems": [
    "Pyth.Retry.C35_retry_policy",
    "Pyth.Retry.C35_gives_up",
    "Pyth.Retry.C35_offered_again"
   ],
   "note": ""
  },
  {
   "property": "C36",
   "status": "proved",
   "theorems": [
    "Pyth.Swarm.C36_no_lost_requests",
    "Pyth.Swarm.C36_awaited_is_requested",
    "Pyth.Swarm.C36_completable"
   ],
   "note": ""
  },
  {
   "property": "C37",
   "status": "proved",
   "theorems": [
    "Pyth.Swarm.C37_results_correct",
    "Pyth.Swarm.C37_results_never_change",
    "Pyth.Swarm.C37_obtained_values_correct",
    "Pyth.Swarm.C37_only_correct_exceptions"
   ],
   "note": ""
  },
  {
   "property": "C38",
   "status": "partial",
   "theorems": [
    "Pyth.Swarm.C38_settled_partial",
    "Pyth.Swarm.C38_not_executed_again_partial",
    "Pyth.Swarm.Ex.C38_counterexample"
   ],
   "note": "the unrestricted claim is false of the code under concurrency and crashes (C38_counterexample); proved: a settled call never becomes requested again, and a call with a result is never executed again by a worker"
  },
  {
   "property": "C39",
   "status": "proved",
   "theorems": [
    "Pyth.Workers.C39_works_while_recorded",
    "Pyth.Workers.C39_can_start_calls",
    "Pyth.Workers.C39_at_most_one_more_call",
    "Pyth.Workers.C39_no_more_calls",
    "Pyth.Workers.C39_stops",
    "Pyth.Workers.C39_not_blocked",
    "Pyth.Workers.C39_second_program"
   ],
   "note": ""
  },
  {
   "property": "C40",
   "status": "proved",
   "theorems": [
    "Pyth.CallGraph.C40_direct_dependencies",
    "Pyth.CallGraph.C40_order_independent"
   ],
   "note": ""
  },
  {
   "property": "C41",
   "status": "proved",
   "theorems": [
    "Pyth.CallGraph.C41_full_dependencies_are_reachability"
   ],
   "note": ""
  },
  {
   "property": "C42",
   "status": "proved",
   "theorems": [
    "Pyth.Analyzer.C42_external_names_reported",
    "Pyth.Analyzer.C42_unbound_names_reported",
    "Pyth.Analyzer.C42_globals_reported"
   ],
   "note": ""
  },
  {
   "property": "C43",
   "status": "proved",
   "theorems": [
    "Pyth.Analyzer.C43_used_names_occur",
    "Pyth.Analyzer.C43_declared_names_occur",
    "Pyth.Analyzer.C43_packages",
    "Pyth.Analyzer.C43_analysis_ends"
   ],
   "note": ""
  },
  {
   "property": "C44",
   "status": "proved",
   "theorems": [
    "Pyth.Analyzer.C44_bound_names_not_reported",
    "Pyth.Analyzer.C44_unbound_closure_reported"
   ],
   "note": ""
  },
  {
   "property": "C45",
   "status": "proved",
   "theorems": [
    "Pyth.Registry.C45_completed_functions_are_autonomous",
    "Pyth.Registry.C45_strict_functions_use_no_island_function"
   ],
   "note": ""
  },
  {
   "property": "C46",
   "status": "partial",
   "theorems": [
    "Pyth.Analyzer.C46_reported_iff_partial",
    "Pyth.Analyzer.C46_nothing_reported_partial",
    "Pyth.Analyzer.C46_keyword_only_counterexample",
    "Pyth.Analyzer.C46_lambda_counterexample",
    "Pyth.Analyzer.C46_nested_recursion_counterexample",
    "Pyth.Analyzer.C46_dotted_import_counterexample",
    "Pyth.Analyzer.C46_class_counterexample",
    "Pyth.Analyzer.C46_match_counterexample",
    "Pyth.Analyzer.C46_later_binding_counterexample",
    "Pyth.Analyzer.C46_relative_import_counterexample"
   ],
   "note": "the unrestricted claim is false of the code for the syntax listed, one counterexample theorem each; proved: the exact set of reported names for every function (C46_reported_iff_partial) and acceptance for plain parameters with binding before use"
  },
  {
   "property": "C47",
   "status": "proved",
   "theorems": [
    "Pyth.Registry.C47_source_never_changes",
    "Pyth.Registry.C47_one_source_per_name",
    "Pyth.Registry.C47_different_source_rejected",
    "Pyth.Registry.C47_different_pickle_rejected",
    "Pyth.Registry.C47_declared_source_registered"
   ],
   "note": ""
  },
  {
   "property": "C48",
   "status": "proved",
   "theorems": [
    "Pyth.Registry.C48_autonomous_again_iff",
    "Pyth.Registry.C48_pure_again_iff",
    "Pyth.Registry.C48_again_before_execution",
    "Pyth.Registry.Ex.C48_executed_function_counterexample"
   ],
   "note": "proved as stated: the exact condition (iff) under which a second registration succeeds, before and after execution; C48_executed_function_counterexample shows that the condition is needed"
  },
  {
   "property": "C49",
   "status": "partial",
   "theorems": [
    "Pyth.Registry.C49_same_island_same_augmented_source_partial",
    "Pyth.Registry.C49_decorators_of_pure_and_strict_functions_fixed_partial",
    "Pyth.Registry.C49_no_loosely_autonomous_functions_partial",
    "Pyth.Registry.Ex.C49_executed_dependency_counterexample",
    "Pyth.Registry.Ex.C49_two_handles_counterexample"
   ],
   "note": "the unrestricted claim is false of the code (C49_executed_dependency_counterexample); proved: equal islands give equal augmented sources, decorators of pure and strict functions are fixed, history-independence without loosely autonomous functions"
  },
  {
   "property": "C50",
   "status": "partial",
   "theorems": [
    "Pyth.Registry.C50_single_handles_can_be_executed_partial",
    "Pyth.Registry.Ex.C50_second_pure_object_counterexample",
    "Pyth.Registry.Ex.C50_second_autonomous_object_counterexample",
    "Pyth.Registry.Ex.C50_too_early_counterexample"
   ],
   "note": "the unrestricted claim is false of the code for second objects of one function and for executions that come too early (counterexamples); proved for all programs in which every function has one object"
  },
  {
   "property": "C51",
   "status": "partial",
   "theorems": [
    "Pyth.Registry.C51_restored_iff_partial",
    "Pyth.Registry.C51_guards_sorted",
    "Pyth.Registry.C51_conflicting_version_refused",
    "Pyth.Registry.Ex.C51_guard_after_function_counterexample",
    "Pyth.Registry.Ex.C51_guard_of_dependency_counterexample"
   ],
   "note": "the unrestricted claim is false of the code for guards (counterexamples); proved: the exact condition (iff) under which a stored function can be restored where nothing is known, what restoring yields, and that conflicting versions are refused"
  },
  {
   "property": "C52",
   "status": "partial",
   "theorems": [
    "Pyth.Registry.C52_first_augmented_source_partial",
    "Pyth.Registry.C52_augmented_source_partial",
    "Pyth.Registry.C52_guard_order_irrelevant",
    "Pyth.Registry.Ex.C52_frozen_dependencies_counterexample"
   ],
   "note": "the unrestricted claim is false of the code when the island grows after the first completion (C52_frozen_dependencies_counterexample); proved: exact contents and order of the augmented source at the first completion and after it, independence of the order of guards"
  },
  {
   "property": "C53",
   "status": "proved",
   "theorems": [
    "Pyth.Src.C53_trees",
    "Pyth.Src.C53_success_iff",
    "Pyth.Src.C53_same_normal_form",
    "Pyth.Src.C53_rest_preserved",
    "Pyth.Src.C53_keeping_decorators"
   ],
   "note": ""
  },
  {
   "property": "C54",
   "status": "proved",
   "theorems": [
    "Pyth.Src.C54_idempotent_iff",
    "Pyth.Src.C54_source_idempotent_iff",
    "Pyth.Src.C54_two_strings",
    "Pyth.Src.C54_annotated_variables",
    "Pyth.Src.C54_decorator_failures"
   ],
   "note": ""
  },
  {
   "property": "C55",
   "status": "proved",
   "theorems": [
    "Pyth.Src.C55_splitlines_iff",
    "Pyth.Src.C55_clean_iff",
    "Pyth.Src.C55_clean_fails_iff",
    "Pyth.Src.C55_clean_empty",
    "Pyth.Src.C55_first_line_not_indented",
    "Pyth.Src.C55_whitespace_and_line_ends"
   ],
   "note": ""
  },
  {
   "property": "C56",
   "status": "proved",
   "theorems": [
    "Pyth.Pure.C56_logged_once",
    "Pyth.Pure.C56_logged_once_program",
    "Pyth.Pure.C56_logging_point",
    "Pyth.Pure.C56_passing_through",
    "Pyth.Pure.C56_block_failure_logged",
    "Pyth.Pure.C56_call_failure_logged"
   ],
   "note": ""
  },
  {
   "property": "C57",
   "status": "proved",
   "theorems": [
    "Pyth.Portal.C57_blocks_do_not_swallow"
   ],
   "note": ""
  },
  {
   "property": "C58",
   "status": "partial",
   "theorems": [
    "Pyth.Pure.C58_quiet_partial",
    "Pyth.Pure.C58_origin_partial",
    "Pyth.Pure.C58_block_partial",
    "Pyth.Pure.C58_fallback_counterexample",
    "Pyth.Pure.C58_handler_counterexample"
   ],
   "note": "the unrestricted claim is false of the code (fallback lookups and blocks inside an except clause, counterexamples); proved: which operations log nothing, and the origin of every record"
  },
  {
   "property": "C59",
   "status": "partial",
   "theorems": [
    "Pyth.Events.C59_event_logged_partial",
    "Pyth.Events.C59_new_event_succeeds_partial",
    "Pyth.Events.C59_ordinary_names_partial",
    "Pyth.Events.C59_events_are_kept",
    "Pyth.Events.C59_top_level",
    "Pyth.Events.C59_repeated_id_counterexample"
   ],
   "note": "the unrestricted claim is false of the code for an event id used twice on one day (C59_repeated_id_counterexample); proved for all other events"
  },
  {
   "property": "C60",
   "status": "partial",
   "theorems": [
    "Pyth.Events.C60_notebook_partial",
    "Pyth.Events.C60_installed_once_partial",
    "Pyth.Events.C60_handled_while_registered_partial",
    "Pyth.Events.C60_portal_registers_partial",
    "Pyth.Events.C60_hook_lost_counterexample",
    "Pyth.Events.C60_hook_never_restored_counterexample"
   ],
   "note": "the unrestricted claim is false of the code outside notebooks (hook lost, never restored: counterexamples); proved for notebooks, and that the hook is installed once while portals exist"
  },
  {
   "property": "C61",
   "status": "partial",
   "theorems": [
    "Pyth.Output.C61_captured_text",
    "Pyth.Output.C61_originals_partial",
    "Pyth.Output.C61_capture_invisible",
    "Pyth.Output.C61_handler_levels_counterexample",
    "Pyth.Output.C61_last_resort_counterexample"
   ],
   "note": "captured text: proved; that the originals get the same text is false for log messages below a handler's level and for warnings without a handler (counterexamples), proved otherwise"
  },
  {
   "property": "C62",
   "status": "partial",
   "theorems": [
    "Pyth.Output.C62_capture_restores",
    "Pyth.Output.C62_suppress_restores",
    "Pyth.Output.C62_programs_restore",
    "Pyth.Output.C62_suppress_silent_partial",
    "Pyth.Output.C62_suppress_only_logs",
    "Pyth.Output.C62_suppress_log_counterexample",
    "Pyth.Output.C62_creation_time_counterexample"
   ],
   "note": "restoring streams and handlers: proved; silence while suppressing is false for log handlers that exist already, and a capturer restores the streams of its creation time (counterexamples)"
  },
  {
   "property": "C63",
   "status": "proved",
   "theorems": [
    "Pyth.Events.C63_name_is_free",
    "Pyth.Events.C63_free_name_kept",
    "Pyth.Events.C63_taken_name_suffixed",
    "Pyth.Events.C63_search_ends",
    "Pyth.Events.C63_some_suffix_is_free",
    "Pyth.Events.C63_search_is_short"
   ],
   "note": ""
  },
  {
   "property": "C64",
   "status": "proved",
   "theorems": [
    "Pyth.Dates.C64_chronological",
    "Pyth.Dates.C64_injective",
    "Pyth.Dates.C64_format",
    "Pyth.Dates.C64_moments",
    "Pyth.Dates.C64_calendar"
   ],
   "note": ""
  },
  {
   "property": "C65",
   "status": "proved",
   "theorems": [
    "Pyth.Multi.C65_views_isolated",
    "Pyth.Multi.C65_others_invisible",
    "Pyth.Multi.C65_iteration",
    "Pyth.Multi.C65_file_type",
    "Pyth.Multi.C65_shared_parameters"
   ],
   "note": ""
  },
  {
   "property": "C66",
   "status": "partial",
   "theorems": [
    "Pyth.Life.C66_one_instance",
    "Pyth.Life.C66_default_portal_partial",
    "Pyth.Life.C66_after_initialize_counterexample",
    "Pyth.Life.C66_failed_initialisation_counterexample"
   ],
   "note": "the unrestricted claim is false of the code after `initialize` and after a failed first initialisation (counterexamples); proved: always one instance, initialised once otherwise"
  },
  {
   "property": "C67",
   "status": "proved",
   "theorems": [
    "Pyth.Src.C67_function_name",
    "Pyth.Src.C67_no_name_iff",
    "Pyth.Src.C67_other_headers"
   ],
   "note": ""
  },
  {
   "property": "C68",
   "status": "partial",
   "theorems": [
    "Pyth.Life.C68_no_nesting",
    "Pyth.Life.C68_isolated_partial",
    "Pyth.Life.C68_stuck_counterexample"
   ],
   "note": "the unrestricted claim is false of the code if the body clears the portals itself, the constructor raises, or a tester is not entered (C68_stuck_counterexample); proved: no nesting, isolation otherwise"
  },
  {
   "property": "C69",
   "status": "proved",
   "theorems": [
    "Pyth.Aware.C69_rebinds",
    "Pyth.Aware.C69_no_portal_in_pickle",
    "Pyth.Aware.C69_outside_iff",
    "Pyth.Aware.C69_outside",
    "Pyth.Aware.C69_value_addr_outside",
    "Pyth.Aware.C69_address_equality"
   ],
   "note": ""
  },
  {
   "property": "C70",
   "status": "partial",
   "theorems": [
    "Pyth.Src.C70_text_kept_partial",
    "Pyth.Src.C70_blank_lines_in_literals_counterexample",
    "Pyth.Src.C70_blank_lines_ignored"
   ],
   "note": "the unrestricted claim is false of the code (blank lines in multi-line literals are removed, C70_blank_lines_in_literals_counterexample); proved: all other text reaches the parser unchanged"
  },
  {
   "property": "C71",
   "status": "partial",
   "theorems": [
    "Pyth.Registry.C71_names_resolve_partial",
    "Pyth.Registry.C71_library_names_hidden",
    "Pyth.Registry.Ex.C71_decorator_names_counterexample"
   ],
   "note": "the unrestricted claim is false of the code for bare decorator names (C71_decorator_names_counterexample); proved for all other names, and that library names are hidden"
  },
  {
   "property": "C72",
   "status": "partial",
   "theorems": [
    "Pyth.Scan.C72_only_candidates_executed",
    "Pyth.Scan.C72_every_candidate_possible_partial",
    "Pyth.Scan.C72_idle",
    "Pyth.Scan.C72_poison_counterexample"
   ],
   "note": "the unrestricted claim is false of the code if checking one request raises (C72_poison_counterexample); proved otherwise: only candidates are executed, each can be chosen, nothing changes when there is none"
  },
  {
   "property": "C73",
   "status": "proved",
   "theorems": [
    "Pyth.RunRecords.C73_records",
    "Pyth.RunRecords.C73_own_context",
    "Pyth.RunRecords.C73_own_output",
    "Pyth.RunRecords.C73_own_result",
    "Pyth.RunRecords.C73_own_crashes",
    "Pyth.RunRecords.C73_nothing_overwritten",
    "Pyth.RunRecords.C73_length_needed"
   ],
   "note": ""
  },
  {
   "property": "C74",
   "status": "partial",
   "theorems": [
    "Pyth.Construct.C74_registered_iff",
    "Pyth.Construct.C74_records_removed_partial",
    "Pyth.Construct.C74_first_portal_counterexample"
   ],
   "note": "proved: the exact condition (iff) under which the cleanup is registered, and that it then removes all records; the unrestricted claim is false of the code if the first portal is not a swarming portal (C74_first_portal_counterexample)"
  },
  {
   "property": "C75",
   "status": "partial",
   "theorems": [
    "Pyth.Construct.C75_constructed",
    "Pyth.Construct.C75_others_untouched",
    "Pyth.Construct.C75_failed_construction_counterexample",
    "Pyth.Construct.C75_clear_all_partial",
    "Pyth.Construct.C75_cleared_unusable",
    "Pyth.Construct.C75_never_cleared_counterexample"
   ],
   "note": "proved: exactly when a constructor succeeds and what it leaves; clearing works for all programs with valid constructions; the unrestricted claim is false of the code after a failed construction (counterexamples)"
  },
  {
   "property": "C76",
   "status": "partial",
   "theorems": [
    "Pyth.Pure.C76_notebook_partial",
    "Pyth.Pure.C76_notebook_registered",
    "Pyth.Pure.C76_shown",
    "Pyth.Pure.C76_normal_end",
    "Pyth.Pure.C76_script_counterexample"
   ],
   "note": "proved for notebooks, and that exceptions are shown in both; the record is missing in scripts (C76_script_counterexample)"
  },
  {
   "property": "C77",
   "status": "partial",
   "theorems": [
    "Pyth.CrashPath.C77_recorded_partial",
    "Pyth.CrashPath.C77_same_path_iff",
    "Pyth.CrashPath.C77_own_path_partial",
    "Pyth.CrashPath.C77_not_catch_all",
    "Pyth.CrashPath.C77_shared_path_counterexample",
    "Pyth.CrashPath.C77_unsafe_name_counterexample"
   ],
   "note": "proved: exactly which functions share a path (iff) and what is recorded under safe names; the unrestricted claim is false of the code for shared paths and unsafe characters (counterexamples)"
  },
  {
   "property": "C78",
   "status": "partial",
   "theorems": [
    "Pyth.Registry.C78_body_exception",
    "Pyth.Registry.C78_pure_reason",
    "Pyth.Registry.C78_reason_hidden_counterexample"
   ],
   "note": "proved for bodies of all functions and for pure functions; false for autonomous functions that cannot be completed (C78_reason_hidden_counterexample)"
  },
  {
   "property": "C79",
   "status": "partial",
   "theorems": [
    "Pyth.Src.C79_replace_iff",
    "Pyth.Src.C79_only_the_header",
    "Pyth.Src.C79_fresh_names",
    "Pyth.Src.C79_names_injective",
    "Pyth.Src.C79_recursion_through_decorator",
    "Pyth.Src.C79_no_stale_result",
    "Pyth.Src.C79_registration",
    "Pyth.Src.ExecEx.C79_second_definition_counterexample",
    "Pyth.Src.ExecEx.C79_type_parameters_counterexample"
   ],
   "note": "proved for sources that define their name once, without type parameters; false for the others (counterexamples)"
  },
  {
   "property": "C80",
   "status": "partial",
   "theorems": [
    "Pyth.Deco.C80_round_trip_partial",
    "Pyth.Deco.C80_round_trip_iff",
    "Pyth.Deco.C80_strictly_argument",
    "Pyth.Deco.Ex.C80_names_with_escapes_counterexample"
   ],
   "note": "proved: the round trip holds exactly (iff) for plain island names; false for the others (C80_names_with_escapes_counterexample)"
  },
  {
   "property": "C81",
   "status": "partial",
   "theorems": [
    "Pyth.Tree.C81_params_round_trip",
    "Pyth.Tree.C81_worker_params",
    "Pyth.Tree.C81_worker_starts",
    "Pyth.Tree.C81_no_explosion",
    "Pyth.Tree.C81_only_main_writes",
    "Pyth.Tree.C81_default_portal_counterexample"
   ],
   "note": "proved for portals of class SwarmingPortal; the workers of DefaultLocalPortal do nothing (C81_default_portal_counterexample)"
  },
  {
   "property": "C82",
   "status": "proved",
   "theorems": [
    "Pyth.Pure.C82_address_describes_call",
    "Pyth.Pure.C82_rebuilt_address_describes_call",
    "Pyth.Pure.C82_call_is_stored"
   ],
   "note": ""
  },
  {
   "property": "C83",
   "status": "proved",
   "theorems": [
    "Pyth.Pure.C83_result_address_argument",
    "Pyth.Pure.C83_never_the_result"
   ],
   "note": ""
  },
  {
   "property": "C84",
   "status": "partial",
   "theorems": [
    "Pyth.Pure.C84_value_read_back_partial",
    "Pyth.Pure.C84_value_address_counterexample",
    "Pyth.Pure.C84_result_address_counterexample"
   ],
   "note": "Proved for returned values; the statement for address objects is false, shown by two general counterexamples (every reached state)."
  },
  {
   "property": "C85",
   "status": "partial",
   "theorems": [
    "Pyth.Shared.C85_compatible_portals_partial",
    "Pyth.Shared.C85_event_iff_partial",
    "Pyth.Shared.C85_event_written_partial",
    "Pyth.Shared.C85_block_iff_partial",
    "Pyth.Shared.C85_one_record_partial",
    "Pyth.Shared.C85_shared_directory_counterexample",
    "Pyth.Shared.C85_basic_portal_counterexample"
   ],
   "note": "proved: equivalence with portal-free Python for portals that write logs and have different directories, and the exact condition (iff) for one block and for one event; the unrestricted claim is false of the code (two general counterexamples)"
  },
  {
   "property": "C86",
   "status": "partial",
   "theorems": [
    "Pyth.Registry.C86_ordinary_of_any_partial",
    "Pyth.Registry.C86_pure_of_pure_partial",
    "Pyth.Registry.C86_pure_of_pure_same_portal_partial",
    "Pyth.Registry.C86_autonomous_of_autonomous_partial",
    "Pyth.Registry.C86_copy_runs_like_original_partial",
    "Pyth.Registry.C86_stacking_counterexample",
    "Pyth.Registry.C86_other_portal_counterexample",
    "Pyth.Registry.C86_spoiled_pure_function_counterexample"
   ],
   "note": "proved: ordinary/safe over anything (exact condition), pure over pure (same operation as decorating the source), autonomous over autonomous (same function, runs exactly when the original runs); the unrestricted claim is false of the code (three general counterexamples)"
  },
  {
   "property": "C87",
   "status": "partial",
   "theorems": [
    "Pyth.Src.C87_accepted_iff_partial",
    "Pyth.Src.C87_others_refused",
    "Pyth.Src.C87_no_source_refused",
    "Pyth.Src.C87_objects_iff",
    "Pyth.Src.C87_safe_counterexample",
    "Pyth.Src.C87_wrappers_counterexample",
    "Pyth.Src.C87_wrapper_with_varargs_counterexample",
    "Pyth.Src.C87_text_with_varargs_counterexample"
   ],
   "note": "proved: exact condition for function objects and for objects of every kind (C87_objects_iff), refusal of every other kind of object and of functions without source; false of the code for functools.wraps wrappers and for sources given as text (general counterexamples), and @safe() never works as a decorator (C87_safe_counterexample)"
  },
  {
   "property": "C88",
   "status": "partial",
   "theorems": [
    "Pyth.Parts.C88_requests_complete_partial",
    "Pyth.Parts.C88_results_complete_partial",
    "Pyth.Parts.C88_own_portal_partial",
    "Pyth.Parts.C88_one_portal_partial",
    "Pyth.Parts.C88_nothing_missing_partial",
    "Pyth.Parts.C88_runs_the_addressed_call_partial",
    "Pyth.Parts.C88_worker_runs_its_request_partial",
    "Pyth.Parts.C88_stored_stays_partial",
    "Pyth.Parts.C88_moved_argument_counterexample",
    "Pyth.Parts.C88_copied_result_counterexample"
   ],
   "note": "Proved for any number of portals and processes: everything a request or result needs is in its own portal if address objects do not travel between portals (or there is one portal), else in some portal; no lookup ever fails unless address objects travel to processes that do not know all portals. Missing: completeness within each portal when address objects travel \u2014 false of the code (two counterexamples: crash while a result is copied; address argument unpickled elsewhere)."
  },
  {
   "property": "C89",
   "status": "partial",
   "theorems": [
    "Pyth.Parts.C89_results_correct_partial",
    "Pyth.Parts.C89_returned_correct_partial",
    "Pyth.Parts.C89_portals_agree_partial",
    "Pyth.Parts.C89_results_never_change_partial",
    "Pyth.Parts.C89_same_answer_partial",
    "Pyth.Parts.C89_steady_functions_are_pure",
    "Pyth.Parts.C89_calling_functions_are_pure",
    "Pyth.Parts.C89_state_dependent_counterexample"
   ],
   "note": "Proved for any number of portals and processes, interleaved access by access, with crashes: stored and returned results are outcomes of evaluating the call; unique, hence equal in all portals and unchanging, when outcomes are unique, in particular for functions that compute, call, store, fetch, swarm and wait but do not look whether something is ready. Missing: address objects must stay with their portals or every process must know all portals; stability for code that looks at the state is false (counterexample)."
  },
  {
   "property": "C90",
   "status": "partial",
   "theorems": [
    "Pyth.Parts.C90_worker_finishes_partial",
    "Pyth.Parts.C90_request_is_served_partial",
    "Pyth.Parts.C90_no_dead_requests_partial",
    "Pyth.Parts.C90_operation_returns_partial",
    "Pyth.Parts.C90_call_returns_partial",
    "Pyth.Parts.C90_program_ends_partial",
    "Pyth.Parts.C90_get_returns_partial",
    "Pyth.Parts.C90_calling_functions_end"
   ],
   "note": "Proved for any number of portals and processes, interleaved access by access, with crashes: workers, operations and programs finish after finitely many own steps whatever the others do, with an outcome of the evaluation, or with a failed consistency check if a call has two values. Conditions: the evaluation comes to an end whatever answers it gets (Halts), code uses only address objects it has obtained (Lawful). Missing: address objects must stay with their portals or every process must know all portals (otherwise false, C88); waiting in get() without timeout is C97; that a worker ever picks a given request is left to chance in the code (random choice) and not claimed."
  },
  {
   "property": "C91",
   "status": "partial",
   "theorems": [
    "Pyth.Mixed.C91_own_value",
    "Pyth.Mixed.C91_own_result",
    "Pyth.Mixed.C91_fetch_refused_iff",
    "Pyth.Mixed.C91_fetch_elsewhere",
    "Pyth.Mixed.C91_call_refused_iff",
    "Pyth.Mixed.C91_result_elsewhere",
    "Pyth.Mixed.C91_result_nowhere",
    "Pyth.Mixed.C91_extra_portal_fetch_partial",
    "Pyth.Mixed.C91_extra_portal_call_partial",
    "Pyth.Mixed.C91_extra_data_portal_counterexample",
    "Pyth.Mixed.C91_extra_logging_portal_counterexample"
   ],
   "note": "Proved: what the own portal holds is found whatever other portals exist; exactly when a lookup is refused because of another portal's class; an additional empty portal of a sufficient class changes nothing. Missing: additional portals of an insufficient class \u2014 false of the code (two counterexamples)."
  },
  {
   "property": "C92",
   "status": "proved",
   "theorems": [
    "Pyth.Parts.C92_dropped_only_with_result",
    "Pyth.Parts.C92_request_stays",
    "Pyth.Parts.C92_swarm_requests",
    "Pyth.Parts.C92_swarm_list_requests",
    "Pyth.Parts.C92_request_execution_requests",
    "Pyth.Parts.C92_awaited_is_requested",
    "Pyth.Parts.C92_returned_call_is_stored",
    "Pyth.Parts.C92_got_is_stored",
    "Pyth.Parts.C92_ready_is_stored"
   ],
   "note": ""
  },
  {
   "property": "C93",
   "status": "partial",
   "theorems": [
    "Pyth.Parts.C93_swarmed_call_gets_done_partial",
    "Pyth.Parts.C93_swarm_list_gets_done_partial",
    "Pyth.Parts.C93_then_get_returns_partial"
   ],
   "note": "Proved for any number of portals and processes, interleaved access by access, with crashes, from C90 and C92, under the stated fairness assumption (workers choose requests at random, so that a given one is ever chosen is a matter of probability and is assumed). Missing: address objects must stay with their portals or every process must know all portals (otherwise false, C88)."
  },
  {
   "property": "C94",
   "status": "proved",
   "theorems": [
    "Pyth.Describe.C94_values_total",
    "Pyth.Describe.C94_cached_results",
    "Pyth.Describe.C94_queue_size",
    "Pyth.Describe.C94_exceptions",
    "Pyth.Describe.C94_disk_rows",
    "Pyth.Describe.C94_runtime_rows",
    "Pyth.Describe.C94_functions",
    "Pyth.Describe.C94_top_level"
   ],
   "note": ""
  },
  {
   "property": "C95",
   "status": "partial",
   "theorems": [
    "Pyth.Packages.C95_install_partial",
    "Pyth.Packages.C95_install_iff",
    "Pyth.Packages.C95_pip_fails",
    "Pyth.Packages.C95_uninstall_iff",
    "Pyth.Packages.C95_uninstall_partial",
    "Pyth.Packages.C95_other_module_name_counterexample",
    "Pyth.Packages.C95_stale_module_counterexample",
    "Pyth.Packages.C95_still_imported_counterexample"
   ],
   "note": "proved: what holds after normal returns, and exactly (iff) when the functions return normally; that the running program sees the new state is false of the code (modules loaded before: two general counterexamples; a module with another name than its package: one)"
  },
  {
   "property": "C96",
   "status": "proved",
   "theorems": [
    "Pyth.Registry.C96_kinds",
    "Pyth.Registry.C96_after_running",
    "Pyth.Registry.C96_then_fixed",
    "Pyth.Registry.C96_before_running"
   ],
   "note": ""
  },
  {
   "property": "C97",
   "status": "partial",
   "theorems": [
    "Pyth.Parts.C97_joined_call_gets_done_partial",
    "Pyth.Parts.C97_joining_program_ends_partial",
    "Pyth.Parts.C97_get_returns_partial",
    "Pyth.Parts.C97_steady_functions_end",
    "Pyth.Parts.C97_all_workers_wait_counterexample"
   ],
   "note": "Proved for any number of portals and processes, interleaved access by access, with crashes, under fairness for all awaited calls; the claim without it is false (counterexample for every number of workers). Missing: address objects must stay with their portals or every process must know all portals (otherwise false, C88); the length of sleeps is not modelled here (C34, C35)."
  },
  {
   "property": "C98",
   "status": "proved",
   "theorems": [
    "Pyth.Drain.C98_no_request_passed_over",
    "Pyth.Drain.C98_result_arrives",
    "Pyth.Drain.C98_few_executions",
    "Pyth.Drain.C98_starvation_counterexample",
    "Pyth.Drain.C98_uninterrupted_scan"
   ],
   "note": "proved as stated, for finitely many different calls whose check raises no exception (any number of workers and clients, every look a step of its own); for endless inflow the claim is false of the code (C98_starvation_counterexample, for all random numbers), for raising checks C72 shows that it is. Bound 5 + w on executions proved for all histories."
  },
  {
   "property": "C99",
   "status": "partial",
   "theorems": [
    "Pyth.Parts.C99_replies_as_evaluated_partial",
    "Pyth.Parts.C99_alarm_is_true_partial",
    "Pyth.Parts.C99_worker_alarm_is_true_partial",
    "Pyth.Parts.C99_pure_functions_pass_partial",
    "Pyth.Parts.C99_checked_value_was_stored",
    "Pyth.Parts.C99_checked_call_runs",
    "Pyth.Parts.C99_unchecked_value_counterexample"
   ],
   "note": "Proved for any number of portals and processes, interleaved access by access, with crashes and random checks. The theorems about p_consistency_checks = 1 are unconditional. Missing in the others: address objects must stay with their portals or every process must know all portals (otherwise false, C88). The claim about stored values without checks is false (counterexample)."
  },
  {
   "property": "C100",
   "status": "partial",
   "theorems": [
    "Pyth.Registry.C100_stored",
    "Pyth.Registry.C100_loaded",
    "Pyth.Registry.C100_runs_iff_partial",
    "Pyth.Registry.C100_strict_runs_everywhere",
    "Pyth.Registry.C100_known_iff",
    "Pyth.Registry.Ex.C100_dependencies_counterexample",
    "Pyth.Registry.Ex.C100_stored_before_execution_counterexample"
   ],
   "note": "proved: storing and reading (C100_stored, C100_loaded), the exact conditions for executing what was read and for reading where the function is known, and that strictly autonomous functions run everywhere; the unrestricted claim is false of the code (two counterexamples)"
  },
  {
   "property": "C101",
   "status": "partial",
   "theorems": [
    "Pyth.Aware.C101_value_address",
    "Pyth.Aware.C101_follows_context_partial",
    "Pyth.Aware.C101_other_portal_counterexample",
    "Pyth.Aware.C101_deep_copy",
    "Pyth.Aware.C101_refused",
    "Pyth.Aware.C101_deep_copy_outside_counterexample"
   ],
   "note": "partial because the full claim (a copy is bound like the original) is false of the code: counterexamples C101_other_portal_counterexample, C101_deep_copy_outside_counterexample; the exact behaviour of every copy is proved"
  },
  {
   "property": "C102",
   "status": "proved",
   "theorems": [
    "Pyth.Aware.C102_refused_iff",
    "Pyth.Aware.C102_stored_only",
    "Pyth.Aware.C102_read_back",
    "Pyth.Aware.C102_read_elsewhere",
    "Pyth.Aware.C102_read_iff",
    "Pyth.Aware.C102_put"
   ],
   "note": ""
  },
  {
   "property": "C103",
   "status": "partial",
   "theorems": [
    "Pyth.FrameFail.C103_restored_partial",
    "Pyth.FrameFail.C103_enter_failure",
    "Pyth.FrameFail.C103_output_failure",
    "Pyth.FrameFail.C103_log_failure",
    "Pyth.FrameFail.C103_nothing_to_record",
    "Pyth.FrameFail.C103_enclosing",
    "Pyth.FrameFail.C103_enclosing_same",
    "Pyth.FrameFail.C103_call_output_failure",
    "Pyth.FrameFail.C103_stays",
    "Pyth.FrameFail.C103_output_complete",
    "Pyth.FrameFail.C103_captured",
    "Pyth.FrameFail.C103_clean",
    "Pyth.FrameFail.C103_counterexample"
   ],
   "note": "the unrestricted claim is false of the code (C103_counterexample); proved: blocks restore everything if the records of frames and the crash records of portals can be written, whatever else fails (C103_restored_partial), and exactly what stays entered, captured and on the stack when one of these writes fails; for all programs and all failures: the stored output of a call is exactly what was printed during it, nested calls and traceback included (C103_output_complete), and capturers in force get everything printed (C103_captured)"
  },
  {
   "property": "C104",
   "status": "partial",
   "theorems": [
    "Pyth.Connect.C104_local_partial",
    "Pyth.Connect.C104_entered",
    "Pyth.Connect.C104_initialize",
    "Pyth.Connect.C104_default_partial",
    "Pyth.Connect.C104_default_again_counterexample",
    "Pyth.Connect.C104_back_and_forth_counterexample",
    "Pyth.Connect.C104_default_after_initialize_counterexample",
    "Pyth.Connect.C104_first_use"
   ],
   "note": "the claim is false while a portal is entered, for an existing default portal, and for the default portal after initialize(): proved for all histories as counterexamples; the positive part is proved for all histories outside of blocks"
  },
  {
   "property": "C105",
   "status": "partial",
   "theorems": [
    "Pyth.Parts.C105_complete",
    "Pyth.Parts.C105_results_correct",
    "Pyth.Parts.C105_returned_correct",
    "Pyth.Parts.C105_stored_stays",
    "Pyth.Parts.C105_portals_agree",
    "Pyth.Parts.C105_results_never_change",
    "Pyth.Parts.C105_no_false_alarms",
    "Pyth.Parts.C105_dropped_only_with_result",
    "Pyth.Parts.C105_request_stays",
    "Pyth.Parts.C105_swarm_requests",
    "Pyth.Parts.C105_swarm_list_requests",
    "Pyth.Parts.C105_request_execution_requests",
    "Pyth.Parts.C105_returned_call_is_stored",
    "Pyth.Parts.C105_nothing_missing_afterwards",
    "Pyth.Parts.C105_requests_are_served_afterwards",
    "Pyth.Parts.C105_caught_exceptions_counterexample"
   ],
   "note": "the claim about results is false of the code for functions that catch exceptions of nested calls (C105_caught_exceptions_counterexample); proved for all others, and everything else (completeness, nothing lost, nothing broken afterwards) without that restriction on reachable states"
  },
  {
   "property": "C106",
   "status": "partial",
   "theorems": [
    "Pyth.Parts.C106_joined_call_gets_done_partial",
    "Pyth.Parts.C106_swarm_list_gets_done_partial",
    "Pyth.Parts.C106_joining_program_ends_partial",
    "Pyth.Parts.C106_get_returns_partial",
    "Pyth.Parts.C106_nothing_missing_partial",
    "Pyth.Parts.C106_worker_finishes_partial",
    "Pyth.Parts.C106_operation_returns_partial",
    "Pyth.Parts.C106_program_ends_partial",
    "Pyth.Parts.C106_swarmed_call_gets_done_partial"
   ],
   "note": "proved for functions that do not catch exceptions of nested calls (else a failure elsewhere can leave a wrong result, C105_caught_exceptions_counterexample); waiting in addr.get() without a timeout under the fairness assumption of C97 for the awaited calls (without it: C97_all_workers_wait_counterexample)"
  },
  {
   "property": "C107",
   "status": "partial",
   "theorems": [
    "Pyth.Registry.C107_same_state_iff_same_code_partial",
    "Pyth.Registry.C107_same_address_same_code_partial",
    "Pyth.Registry.C107_augmented_source_partial",
    "Pyth.Registry.C107_same_state_same_code_partial",
    "Pyth.Registry.C107_same_state_same_direct_code_partial",
    "Pyth.Registry.Ex.C107_stale_dependency_counterexample",
    "Pyth.Registry.Ex.C107_guard_dependency_counterexample"
   ],
   "note": "first pickling in each session: exact (iff). In general false of the code: functions executed or pickled before something they reach was declared, and guards given by name that use other functions, give equal addresses for different code (counterexamples proved)"
  },
  {
   "property": "C108",
   "status": "partial",
   "theorems": [
    "Pyth.Mutable.C108_stored_never_change",
    "Pyth.Mutable.C108_value_address",
    "Pyth.Mutable.C108_changed_value_counterexample",
    "Pyth.Mutable.C108_fresh_read",
    "Pyth.Mutable.C108_results_right_partial",
    "Pyth.Mutable.C108_call_partial",
    "Pyth.Mutable.C108_guards",
    "Pyth.Mutable.C108_call_changes_nothing",
    "Pyth.Mutable.C108_same_object_twice_counterexample",
    "Pyth.Mutable.C108_guard_changes_counterexample",
    "Pyth.Mutable.C108_address_partial",
    "Pyth.Mutable.C108_background_partial",
    "Pyth.Mutable.C108_swarm_list_counterexample",
    "Pyth.Mutable.C108_kwargs_counterexample",
    "Pyth.Mutable.C108_same_result_object",
    "Pyth.Mutable.C108_changed_result_counterexample"
   ],
   "note": "what is stored: proved without conditions. What calls and addresses return: proved for functions that do not change arguments which can have another name (a function of one argument may change it) and guards that change nothing; false of the code otherwise, and false for address objects that keep a reference to a changed object (six counterexamples proved)"
  },
  {
   "property": "C109",
   "status": "partial",
   "theorems": [
    "Pyth.Threads.C109_locked_partial",
    "Pyth.Threads.C109_whole_commands",
    "Pyth.Threads.C109_one_portal_partial",
    "Pyth.Threads.C109_other_portal_counterexample",
    "Pyth.Threads.C109_enter_counterexample",
    "Pyth.Threads.C109_lost_counterexample"
   ],
   "note": "false of the code without a lock (three counterexamples proved: another thread's portal is found and a block cannot be left; entering one and the same portal raises IndexError; a lost entering); proved at the granularity of single list accesses if blocks of different threads do not overlap, and for overlapping blocks of one portal if threads switch only between whole commands"
  },
  {
   "property": "C110",
   "status": "proved",
   "theorems": [
    "Pyth.AstKw.C110_round_trip",
    "Pyth.AstKw.C110_accepted_iff",
    "Pyth.AstKw.C110_contents",
    "Pyth.AstKw.C110_stable"
   ],
   "note": ""
  },
  {
   "property": "C111",
   "status": "partial",
   "theorems": [
    "Pyth.NodeSig.C111_same_signature_iff",
    "Pyth.NodeSig.C111_one_difference",
    "Pyth.NodeSig.C111_different_computers_partial",
    "Pyth.NodeSig.C111_no_separators_counterexample",
    "Pyth.NodeSig.C111_computers_counterexample"
   ],
   "note": "proved: exact condition for equal signatures, different signatures for one difference and for different hardware addresses with named systems; the unrestricted claim is false of the code (C111_no_separators_counterexample, C111_computers_counterexample)"
  },
  {
   "property": "C112",
   "status": "proved",
   "theorems": [
    "Pyth.ValueAddr.C112_expected_type",
    "Pyth.ValueAddr.C112_not_found",
    "Pyth.ValueAddr.C112_stored"
   ],
   "note": ""
  },
  {
   "property": "C113",
   "status": "proved",
   "theorems": [
    "Pyth.Output.C113_originals",
    "Pyth.Output.C113_only_what_was_said",
    "Pyth.Output.C113_nested_restores",
    "Pyth.Output.C113_nested_captures",
    "Pyth.Output.C113_one_thread_is_nested",
    "Pyth.Output.C113_crossing_counterexample",
    "Pyth.Output.C113_other_threads_counterexample"
   ],
   "note": "proved as stated: for all schedules original streams, no invented output; restoration and exact capture for nested blocks; the counterexamples show that nesting is needed and that captured text includes other threads' output"
  },
  {
   "property": "C114",
   "status": "proved",
   "theorems": [
    "Pyth.Birthday.C114_random_signatures",
    "Pyth.Birthday.C114_addresses",
    "Pyth.Birthday.C114_billion_signatures",
    "Pyth.Birthday.C114_many_addresses",
    "Pyth.Birthday.C114_coincidence_possible"
   ],
   "note": ""
  },
  {
   "property": "C115",
   "status": "proved",
   "theorems": [
    "Pyth.FrameThreads.C115_always",
    "Pyth.FrameThreads.C115_recorded",
    "Pyth.FrameThreads.C115_nested",
    "Pyth.FrameThreads.C115_afterwards",
    "Pyth.FrameThreads.C115_one_thread",
    "Pyth.FrameThreads.C115_crossing_counterexample"
   ],
   "note": "proved as stated: for all schedules the list stays in step, every failure is recorded once under some execution, names are unique, no lasting harm; the right execution for nested schedules (one thread, recursion, a lock); C115_crossing_counterexample shows that nesting is needed"
  },
  {
   "property": "C116",
   "status": "proved",
   "theorems": [
    "Pyth.Noticing.C116_count",
    "Pyth.Noticing.C116_probability",
    "Pyth.Noticing.C116_no_false_alarm",
    "Pyth.Noticing.C116_extremes"
   ],
   "note": "proved: exact number of unnoticed outcomes, probability bound and equality, no false alarms, the extreme cases; counted over all outcomes of random.random() (2^53 equally likely numbers), storage without failures"
  },
  {
   "property": "C117",
   "status": "proved",
   "theorems": [
    "Pyth.Scan.C117_few_candidates",
    "Pyth.Scan.C117_many_candidates",
    "Pyth.Scan.C117_almost_surely",
    "Pyth.Scan.C117_first_scan"
   ],
   "note": "proved for all adversaries; random.randint and random.choice taken as uniform and independent. This justifies the fairness assumption of C93 and C97 for queues with at most 5001 candidates at a time"
  },
  {
   "property": "C118",
   "status": "proved",
   "theorems": [
    "Pyth.Pure.C118_executions_are_attempts",
    "Pyth.Pure.C118_every_execution_attempted",
    "Pyth.Pure.C118_executed_at_most_once",
    "Pyth.Pure.C118_never_again"
   ],
   "note": "one process, arguments are plain values (as in all nested calls of the model), consistency checks off, different data have different hashes; that executions are attempts is proved without the first three restrictions"
  }
 ]
}