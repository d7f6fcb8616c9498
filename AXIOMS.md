# Axioms of the property theorems

| theorem | axioms |
|---|---|
| `Pyth.Portal.C01_with_blocks_restore_context` | propext, Quot.sound |
| `Pyth.Portal.C02_current_is_innermost` | propext, Quot.sound |
| `Pyth.Portal.C02_best_portal_priority` | propext, Quot.sound |
| `Pyth.Portal.C03_exit_only_innermost` | propext, Quot.sound |
| `Pyth.Portal.C04_exit_all` | propext, Quot.sound |
| `Pyth.Portal.C05_entered_list` | propext, Classical.choice, Quot.sound |
| `Pyth.Portal.C05_noncurrent_list` | propext, Quot.sound |
| `Pyth.Portal.C05_known_nodup` | propext, Quot.sound |
| `Pyth.Portal.C06_counters_invisible` | propext, Quot.sound |
| `Pyth.FirstEntry.C07_first_value_wins` | propext, Quot.sound |
| `Pyth.FirstEntry.C07_first_value_wins_with_failures` | propext, Quot.sound |
| `Pyth.FirstEntry.C07_effect_of_failed_assignment` | propext, Quot.sound |
| `Pyth.FirstEntry.C08_check_p1` | propext, Quot.sound |
| `Pyth.FirstEntry.C08_check_p0` | propext, Classical.choice, Quot.sound |
| `Pyth.FirstEntry.C08_check_sound` | propext, Quot.sound |
| `Pyth.FirstEntry.C08_counters` | propext, Quot.sound |
| `Pyth.FirstEntry.C08_exact` | propext, Classical.choice, Quot.sound |
| `Pyth.FirstEntry.C09_concurrent_same_value` | propext, Quot.sound |
| `Pyth.FirstEntry.C09_late_writers` | propext |
| `Pyth.FirstEntry.C09_concurrent_different_values_counterexample` | propext |
| `Pyth.Base32.C10_round_trip` | propext, Classical.choice, Quot.sound |
| `Pyth.Base32.C10_injective` | propext, Classical.choice, Quot.sound |
| `Pyth.Base32.C10_canonical` | propext, Classical.choice, Quot.sound |
| `Pyth.Base32.C10_decode_encode` | propext, Classical.choice, Quot.sound |
| `Pyth.Base32.C10_decode_total` | propext, Classical.choice, Quot.sound |
| `Pyth.Base32.C10_hex_value` | propext, Classical.choice, Quot.sound |
| `Pyth.Base32.C10_case_insensitive` | propext, Classical.choice, Quot.sound |
| `Pyth.Base32.C11_signature_form` | propext, Classical.choice, Quot.sound |
| `Pyth.Base32.C11_random_signature_form` | propext, Classical.choice, Quot.sound |
| `Pyth.Base32.C11_truncation` | propext, Classical.choice, Quot.sound |
| `Pyth.Base32.C11_length` | propext, Classical.choice, Quot.sound |
| `Pyth.HashAddr.C12_address_determined` | propext, Classical.choice, Quot.sound |
| `Pyth.HashAddr.C12_address_reveals` | propext, Classical.choice, Quot.sound |
| `Pyth.HashAddr.C13_shapes_distinct` | propext, Classical.choice, Quot.sound |
| `Pyth.HashAddr.C13_shape_text` | propext, Classical.choice, Quot.sound |
| `Pyth.ValueAddr.C14_store_then_get` | propext, Classical.choice, Quot.sound |
| `Pyth.ValueAddr.C14_copies_get` | propext, Classical.choice, Quot.sound |
| `Pyth.ValueAddr.C15_content_integrity` | propext, Classical.choice, Quot.sound |
| `Pyth.Pure.C16_results_only_grow` | propext, Classical.choice, Quot.sound |
| `Pyth.ValueAddr.C16_values_only_grow` | propext, Classical.choice, Quot.sound |
| `Pyth.ValueAddr.C17_get_copies` | propext, Classical.choice, Quot.sound |
| `Pyth.ValueAddr.C17_ready_copies` | propext, Classical.choice, Quot.sound |
| `Pyth.ValueAddr.C18_held_elsewhere_partial` | propext, Classical.choice, Quot.sound |
| `Pyth.ValueAddr.C18_not_found` | propext, Classical.choice, Quot.sound |
| `Pyth.ValueAddr.C18_current_portal_counterexample` | propext, Classical.choice, Quot.sound |
| `Pyth.ValueAddr.C19_ready_then_get_partial` | propext, Classical.choice, Quot.sound |
| `Pyth.ValueAddr.C19_converted_unchecked_counterexample` | propext, Classical.choice, Quot.sound |
| `Pyth.Pure.C20_address_order` | propext, Classical.choice, Quot.sound |
| `Pyth.Pure.C20_key_order` | propext, Classical.choice, Quot.sound |
| `Pyth.Pure.C20_key_injective` | propext, Classical.choice, Quot.sound |
| `Pyth.Pure.C21_pack_unpack` | propext, Classical.choice, Quot.sound |
| `Pyth.Pure.C22_same_address` | propext, Classical.choice, Quot.sound |
| `Pyth.Pure.C22_pack_idempotent` | propext, Classical.choice, Quot.sound |
| `Pyth.Pure.C23_memoization_transparent` | propext, Classical.choice, Quot.sound |
| `Pyth.Pure.C23_same_outcome` | propext, Classical.choice, Quot.sound |
| `Pyth.Pure.C24_cached_call` | propext, Classical.choice, Quot.sound |
| `Pyth.Pure.C24_no_check_due` | propext, Classical.choice, Quot.sound |
| `Pyth.Pure.C25_result_never_changes` | propext, Classical.choice, Quot.sound |
| `Pyth.Pure.C26_failed_call` | propext, Classical.choice, Quot.sound |
| `Pyth.Pure.C26_failed_call_any` | propext, Classical.choice, Quot.sound |
| `Pyth.Pure.C27_successful_call` | propext, Classical.choice, Quot.sound |
| `Pyth.Pure.C27_stored_value` | propext, Classical.choice, Quot.sound |
| `Pyth.Pure.C28_consistency_check` | propext, Classical.choice, Quot.sound |
| `Pyth.Pure.C28_check_succeeds` | propext, Classical.choice, Quot.sound |
| `Pyth.Pure.C28_store_checked` | propext, Quot.sound |
| `Pyth.Pure.C29_check_is_all_guards` | propext, Classical.choice, Quot.sound |
| `Pyth.Pure.C29_body_starts_after_guards` | propext, Classical.choice, Quot.sound |
| `Pyth.Pure.C29_body_only_if_guards_hold` | propext, Classical.choice, Quot.sound |
| `Pyth.Pure.C29_rejected_call` | propext, Classical.choice, Quot.sound |
| `Pyth.Pure.C30_plain_arguments_partial` | propext, Classical.choice, Quot.sound |
| `Pyth.Pure.Ex.C30_counterexample` | propext, Classical.choice, Quot.sound |
| `Pyth.Pure.C31_call_restores_environment` | propext, Classical.choice, Quot.sound |
| `Pyth.Pure.C31_operations_restore_environment` | propext, Classical.choice, Quot.sound |
| `Pyth.Pure.C32_swarm_list` | propext, Classical.choice, Quot.sound |
| `Pyth.Pure.C32_run_list` | propext, Classical.choice, Quot.sound |
| `Pyth.Pure.C32_run_list_values` | propext, Classical.choice, Quot.sound |
| `Pyth.Pure.C33_grid_is_product` | propext, Classical.choice, Quot.sound |
| `Pyth.Pure.C33_swarm_grid` | propext, Classical.choice, Quot.sound |
| `Pyth.Pure.C33_run_grid` | propext, Classical.choice, Quot.sound |
| `Pyth.Waiting.C34_returns_first_seen` | propext, Classical.choice, Quot.sound |
| `Pyth.Waiting.C34_timeout_error` | propext, Classical.choice, Quot.sound |
| `Pyth.Waiting.C34_no_timeout_no_error` | propext, Classical.choice, Quot.sound |
| `Pyth.Waiting.C34_no_timeout_waits` | propext, Classical.choice, Quot.sound |
| `Pyth.Waiting.C34_timeout_ends` | propext, Classical.choice, Quot.sound |
| `Pyth.Waiting.C34_pause_at_least_one_second` | propext, Classical.choice, Quot.sound |
| `Pyth.Waiting.C34_exponential_backoff` | propext, Classical.choice, Quot.sound |
| `Pyth.Waiting.C34_requested_until_returned` | propext, Classical.choice, Quot.sound |
| `Pyth.Retry.C35_retry_policy` | propext, Classical.choice, Quot.sound |
| `Pyth.Retry.C35_gives_up` | propext, Classical.choice, Quot.sound |
| `Pyth.Retry.C35_offered_again` | propext, Classical.choice, Quot.sound |
| `Pyth.Swarm.C36_no_lost_requests` | propext, Quot.sound |
| `Pyth.Swarm.C36_awaited_is_requested` | propext, Quot.sound |
| `Pyth.Swarm.C36_completable` | propext, Quot.sound |
| `Pyth.Swarm.C37_results_correct` | propext, Quot.sound |
| `Pyth.Swarm.C37_results_never_change` | propext, Quot.sound |
| `Pyth.Swarm.C37_obtained_values_correct` | propext, Quot.sound |
| `Pyth.Swarm.C37_only_correct_exceptions` | propext, Quot.sound |
| `Pyth.Swarm.C38_settled_partial` | propext, Quot.sound |
| `Pyth.Swarm.C38_not_executed_again_partial` | propext, Quot.sound |
| `Pyth.Swarm.Ex.C38_counterexample` | propext |
| `Pyth.Workers.C39_works_while_recorded` | none |
| `Pyth.Workers.C39_can_start_calls` | propext, Classical.choice, Quot.sound |
| `Pyth.Workers.C39_at_most_one_more_call` | propext, Classical.choice, Quot.sound |
| `Pyth.Workers.C39_no_more_calls` | propext, Classical.choice, Quot.sound |
| `Pyth.Workers.C39_stops` | propext, Classical.choice, Quot.sound |
| `Pyth.Workers.C39_not_blocked` | propext, Classical.choice, Quot.sound |
| `Pyth.Workers.C39_second_program` | propext, Classical.choice, Quot.sound |
| `Pyth.CallGraph.C40_direct_dependencies` | propext, Quot.sound |
| `Pyth.CallGraph.C40_order_independent` | propext, Quot.sound |
| `Pyth.CallGraph.C41_full_dependencies_are_reachability` | propext, Classical.choice, Quot.sound |
| `Pyth.Analyzer.C42_external_names_reported` | propext, Classical.choice, Quot.sound |
| `Pyth.Analyzer.C42_unbound_names_reported` | propext, Classical.choice, Quot.sound |
| `Pyth.Analyzer.C42_globals_reported` | propext, Classical.choice, Quot.sound |
| `Pyth.Analyzer.C43_used_names_occur` | propext, Classical.choice, Quot.sound |
| `Pyth.Analyzer.C43_declared_names_occur` | propext, Classical.choice, Quot.sound |
| `Pyth.Analyzer.C43_packages` | propext, Classical.choice, Quot.sound |
| `Pyth.Analyzer.C43_analysis_ends` | propext, Classical.choice, Quot.sound |
| `Pyth.Analyzer.C44_bound_names_not_reported` | propext, Classical.choice, Quot.sound |
| `Pyth.Analyzer.C44_unbound_closure_reported` | propext, Classical.choice, Quot.sound |
| `Pyth.Registry.C45_completed_functions_are_autonomous` | propext, Classical.choice, Quot.sound |
| `Pyth.Registry.C45_strict_functions_use_no_island_function` | propext, Classical.choice, Quot.sound |
| `Pyth.Analyzer.C46_reported_iff_partial` | propext, Classical.choice, Quot.sound |
| `Pyth.Analyzer.C46_nothing_reported_partial` | propext, Classical.choice, Quot.sound |
| `Pyth.Analyzer.C46_keyword_only_counterexample` | propext, Classical.choice, Quot.sound |
| `Pyth.Analyzer.C46_lambda_counterexample` | propext, Classical.choice, Quot.sound |
| `Pyth.Analyzer.C46_nested_recursion_counterexample` | propext, Classical.choice, Quot.sound |
| `Pyth.Analyzer.C46_dotted_import_counterexample` | propext, Classical.choice, Quot.sound |
| `Pyth.Analyzer.C46_class_counterexample` | propext, Classical.choice, Quot.sound |
| `Pyth.Analyzer.C46_match_counterexample` | propext, Classical.choice, Quot.sound |
| `Pyth.Analyzer.C46_later_binding_counterexample` | propext, Classical.choice, Quot.sound |
| `Pyth.Analyzer.C46_relative_import_counterexample` | propext, Classical.choice, Quot.sound |
| `Pyth.Registry.C47_source_never_changes` | propext, Classical.choice, Quot.sound |
| `Pyth.Registry.C47_one_source_per_name` | propext, Classical.choice, Quot.sound |
| `Pyth.Registry.C47_different_source_rejected` | propext, Classical.choice, Quot.sound |
| `Pyth.Registry.C47_different_pickle_rejected` | propext, Classical.choice, Quot.sound |
| `Pyth.Registry.C47_declared_source_registered` | propext, Classical.choice, Quot.sound |
| `Pyth.Registry.C48_autonomous_again_iff` | propext, Classical.choice, Quot.sound |
| `Pyth.Registry.C48_pure_again_iff` | propext, Classical.choice, Quot.sound |
| `Pyth.Registry.C48_again_before_execution` | propext, Classical.choice, Quot.sound |
| `Pyth.Registry.Ex.C48_executed_function_counterexample` | propext, Classical.choice, Quot.sound |
| `Pyth.Registry.C49_same_island_same_augmented_source_partial` | propext, Classical.choice, Quot.sound |
| `Pyth.Registry.C49_decorators_of_pure_and_strict_functions_fixed_partial` | propext, Classical.choice, Quot.sound |
| `Pyth.Registry.C49_no_loosely_autonomous_functions_partial` | propext, Classical.choice, Quot.sound |
| `Pyth.Registry.Ex.C49_executed_dependency_counterexample` | propext, Classical.choice, Quot.sound |
| `Pyth.Registry.Ex.C49_two_handles_counterexample` | propext, Classical.choice, Quot.sound |
| `Pyth.Registry.C50_single_handles_can_be_executed_partial` | propext, Classical.choice, Quot.sound |
| `Pyth.Registry.Ex.C50_second_pure_object_counterexample` | propext, Classical.choice, Quot.sound |
| `Pyth.Registry.Ex.C50_second_autonomous_object_counterexample` | propext, Classical.choice, Quot.sound |
| `Pyth.Registry.Ex.C50_too_early_counterexample` | propext, Classical.choice, Quot.sound |
| `Pyth.Registry.C51_restored_iff_partial` | propext, Classical.choice, Quot.sound |
| `Pyth.Registry.C51_guards_sorted` | propext, Classical.choice, Quot.sound |
| `Pyth.Registry.C51_conflicting_version_refused` | propext, Classical.choice, Quot.sound |
| `Pyth.Registry.Ex.C51_guard_after_function_counterexample` | propext, Classical.choice, Quot.sound |
| `Pyth.Registry.Ex.C51_guard_of_dependency_counterexample` | propext, Classical.choice, Quot.sound |
| `Pyth.Registry.C52_first_augmented_source_partial` | propext, Classical.choice, Quot.sound |
| `Pyth.Registry.C52_augmented_source_partial` | propext, Classical.choice, Quot.sound |
| `Pyth.Registry.C52_guard_order_irrelevant` | propext, Classical.choice, Quot.sound |
| `Pyth.Registry.Ex.C52_frozen_dependencies_counterexample` | propext, Classical.choice, Quot.sound |
| `Pyth.Src.C53_trees` | propext |
| `Pyth.Src.C53_success_iff` | propext, Classical.choice, Quot.sound |
| `Pyth.Src.C53_same_normal_form` | propext, Classical.choice, Quot.sound |
| `Pyth.Src.C53_rest_preserved` | propext, Classical.choice, Quot.sound |
| `Pyth.Src.C53_keeping_decorators` | propext, Classical.choice, Quot.sound |
| `Pyth.Src.C54_idempotent_iff` | propext, Classical.choice, Quot.sound |
| `Pyth.Src.C54_source_idempotent_iff` | propext, Classical.choice, Quot.sound |
| `Pyth.Src.C54_two_strings` | propext |
| `Pyth.Src.C54_annotated_variables` | propext, Classical.choice, Quot.sound |
| `Pyth.Src.C54_decorator_failures` | propext, Classical.choice, Quot.sound |
| `Pyth.Src.C55_splitlines_iff` | propext, Classical.choice, Quot.sound |
| `Pyth.Src.C55_clean_iff` | propext, Quot.sound |
| `Pyth.Src.C55_clean_fails_iff` | propext, Quot.sound |
| `Pyth.Src.C55_clean_empty` | propext, Classical.choice, Quot.sound |
| `Pyth.Src.C55_first_line_not_indented` | propext, Classical.choice, Quot.sound |
| `Pyth.Src.C55_whitespace_and_line_ends` | propext, Classical.choice, Quot.sound |
| `Pyth.Pure.C56_logged_once` | propext, Classical.choice, Quot.sound |
| `Pyth.Pure.C56_logged_once_program` | propext, Classical.choice, Quot.sound |
| `Pyth.Pure.C56_logging_point` | propext, Classical.choice, Quot.sound |
| `Pyth.Pure.C56_passing_through` | propext, Classical.choice, Quot.sound |
| `Pyth.Pure.C56_block_failure_logged` | propext, Classical.choice, Quot.sound |
| `Pyth.Pure.C56_call_failure_logged` | propext, Classical.choice, Quot.sound |
| `Pyth.Portal.C57_blocks_do_not_swallow` | propext, Quot.sound |
| `Pyth.Pure.C58_quiet_partial` | propext, Classical.choice, Quot.sound |
| `Pyth.Pure.C58_origin_partial` | propext, Classical.choice, Quot.sound |
| `Pyth.Pure.C58_block_partial` | propext, Classical.choice, Quot.sound |
| `Pyth.Pure.C58_fallback_counterexample` | propext, Classical.choice, Quot.sound |
| `Pyth.Pure.C58_handler_counterexample` | propext, Classical.choice, Quot.sound |
| `Pyth.Events.C59_event_logged_partial` | propext, Quot.sound |
| `Pyth.Events.C59_new_event_succeeds_partial` | propext, Quot.sound |
| `Pyth.Events.C59_ordinary_names_partial` | propext, Quot.sound |
| `Pyth.Events.C59_events_are_kept` | propext, Quot.sound |
| `Pyth.Events.C59_top_level` | propext, Quot.sound |
| `Pyth.Events.C59_repeated_id_counterexample` | propext, Quot.sound |
| `Pyth.Events.C60_notebook_partial` | propext |
| `Pyth.Events.C60_installed_once_partial` | propext |
| `Pyth.Events.C60_handled_while_registered_partial` | Quot.sound |
| `Pyth.Events.C60_portal_registers_partial` | none |
| `Pyth.Events.C60_hook_lost_counterexample` | none |
| `Pyth.Events.C60_hook_never_restored_counterexample` | propext, Quot.sound |
| `Pyth.Output.C61_captured_text` | propext, Quot.sound |
| `Pyth.Output.C61_originals_partial` | propext, Quot.sound |
| `Pyth.Output.C61_capture_invisible` | propext, Quot.sound |
| `Pyth.Output.C61_handler_levels_counterexample` | propext |
| `Pyth.Output.C61_last_resort_counterexample` | propext |
| `Pyth.Output.C62_capture_restores` | propext |
| `Pyth.Output.C62_suppress_restores` | propext |
| `Pyth.Output.C62_programs_restore` | propext, Quot.sound |
| `Pyth.Output.C62_suppress_silent_partial` | propext, Classical.choice, Quot.sound |
| `Pyth.Output.C62_suppress_only_logs` | propext, Quot.sound |
| `Pyth.Output.C62_suppress_log_counterexample` | propext |
| `Pyth.Output.C62_creation_time_counterexample` | propext |
| `Pyth.Events.C63_name_is_free` | propext, Quot.sound |
| `Pyth.Events.C63_free_name_kept` | propext |
| `Pyth.Events.C63_taken_name_suffixed` | propext, Quot.sound |
| `Pyth.Events.C63_search_ends` | propext, Quot.sound |
| `Pyth.Events.C63_some_suffix_is_free` | propext, Classical.choice, Quot.sound |
| `Pyth.Events.C63_search_is_short` | propext, Classical.choice, Quot.sound |
| `Pyth.Dates.C64_chronological` | propext, Classical.choice, Quot.sound |
| `Pyth.Dates.C64_injective` | propext, Classical.choice, Quot.sound |
| `Pyth.Dates.C64_format` | propext, Classical.choice, Quot.sound |
| `Pyth.Dates.C64_moments` | propext, Classical.choice, Quot.sound |
| `Pyth.Dates.C64_calendar` | propext, Classical.choice, Quot.sound |
| `Pyth.Multi.C65_views_isolated` | propext |
| `Pyth.Multi.C65_others_invisible` | propext, Classical.choice, Quot.sound |
| `Pyth.Multi.C65_iteration` | propext, Quot.sound |
| `Pyth.Multi.C65_file_type` | propext, Quot.sound |
| `Pyth.Multi.C65_shared_parameters` | propext, Quot.sound |
| `Pyth.Life.C66_one_instance` | propext, Quot.sound |
| `Pyth.Life.C66_default_portal_partial` | propext, Classical.choice, Quot.sound |
| `Pyth.Life.C66_after_initialize_counterexample` | propext, Classical.choice, Quot.sound |
| `Pyth.Life.C66_failed_initialisation_counterexample` | propext, Quot.sound |
| `Pyth.Src.C67_function_name` | propext, Classical.choice, Quot.sound |
| `Pyth.Src.C67_no_name_iff` | propext, Classical.choice, Quot.sound |
| `Pyth.Src.C67_other_headers` | propext, Classical.choice, Quot.sound |
| `Pyth.Life.C68_no_nesting` | propext, Quot.sound |
| `Pyth.Life.C68_isolated_partial` | propext, Quot.sound |
| `Pyth.Life.C68_stuck_counterexample` | propext, Quot.sound |
| `Pyth.Aware.C69_rebinds` | propext, Classical.choice, Quot.sound |
| `Pyth.Aware.C69_no_portal_in_pickle` | propext, Quot.sound |
| `Pyth.Aware.C69_outside_iff` | propext, Quot.sound |
| `Pyth.Aware.C69_outside` | propext, Quot.sound |
| `Pyth.Aware.C69_value_addr_outside` | propext, Quot.sound |
| `Pyth.Aware.C69_address_equality` | propext, Classical.choice, Quot.sound |
| `Pyth.Src.C70_text_kept_partial` | propext, Quot.sound |
| `Pyth.Src.C70_blank_lines_in_literals_counterexample` | propext, Classical.choice, Quot.sound |
| `Pyth.Src.C70_blank_lines_ignored` | propext, Classical.choice, Quot.sound |
| `Pyth.Registry.C71_names_resolve_partial` | propext, Classical.choice, Quot.sound |
| `Pyth.Registry.C71_library_names_hidden` | propext, Classical.choice, Quot.sound |
| `Pyth.Registry.Ex.C71_decorator_names_counterexample` | propext, Classical.choice, Quot.sound |
| `Pyth.Scan.C72_only_candidates_executed` | propext, Classical.choice, Quot.sound |
| `Pyth.Scan.C72_every_candidate_possible_partial` | propext, Classical.choice, Quot.sound |
| `Pyth.Scan.C72_idle` | propext, Classical.choice, Quot.sound |
| `Pyth.Scan.C72_poison_counterexample` | propext, Classical.choice, Quot.sound |
| `Pyth.RunRecords.C73_records` | propext, Classical.choice, Quot.sound |
| `Pyth.RunRecords.C73_own_context` | propext, Classical.choice, Quot.sound |
| `Pyth.RunRecords.C73_own_output` | propext, Classical.choice, Quot.sound |
| `Pyth.RunRecords.C73_own_result` | propext, Classical.choice, Quot.sound |
| `Pyth.RunRecords.C73_own_crashes` | propext, Classical.choice, Quot.sound |
| `Pyth.RunRecords.C73_nothing_overwritten` | propext, Classical.choice, Quot.sound |
| `Pyth.RunRecords.C73_length_needed` | propext, Classical.choice, Quot.sound |
| `Pyth.Construct.C74_registered_iff` | propext, Classical.choice, Quot.sound |
| `Pyth.Construct.C74_records_removed_partial` | propext, Classical.choice, Quot.sound |
| `Pyth.Construct.C74_first_portal_counterexample` | propext, Classical.choice, Quot.sound |
| `Pyth.Construct.C75_constructed` | propext, Classical.choice, Quot.sound |
| `Pyth.Construct.C75_others_untouched` | propext, Classical.choice, Quot.sound |
| `Pyth.Construct.C75_failed_construction_counterexample` | propext, Classical.choice, Quot.sound |
| `Pyth.Construct.C75_clear_all_partial` | propext, Classical.choice, Quot.sound |
| `Pyth.Construct.C75_cleared_unusable` | propext, Classical.choice, Quot.sound |
| `Pyth.Construct.C75_never_cleared_counterexample` | propext, Classical.choice, Quot.sound |
| `Pyth.Pure.C76_notebook_partial` | propext, Classical.choice, Quot.sound |
| `Pyth.Pure.C76_notebook_registered` | none |
| `Pyth.Pure.C76_shown` | propext, Classical.choice, Quot.sound |
| `Pyth.Pure.C76_normal_end` | propext, Classical.choice, Quot.sound |
| `Pyth.Pure.C76_script_counterexample` | propext, Classical.choice, Quot.sound |
| `Pyth.CrashPath.C77_recorded_partial` | propext, Classical.choice, Quot.sound |
| `Pyth.CrashPath.C77_same_path_iff` | propext, Classical.choice, Quot.sound |
| `Pyth.CrashPath.C77_own_path_partial` | propext, Classical.choice, Quot.sound |
| `Pyth.CrashPath.C77_not_catch_all` | propext, Classical.choice, Quot.sound |
| `Pyth.CrashPath.C77_shared_path_counterexample` | propext, Classical.choice, Quot.sound |
| `Pyth.CrashPath.C77_unsafe_name_counterexample` | propext, Classical.choice, Quot.sound |
| `Pyth.Registry.C78_body_exception` | propext, Classical.choice, Quot.sound |
| `Pyth.Registry.C78_pure_reason` | propext, Classical.choice, Quot.sound |
| `Pyth.Registry.C78_reason_hidden_counterexample` | propext, Classical.choice, Quot.sound |
| `Pyth.Src.C79_replace_iff` | propext, Classical.choice, Quot.sound |
| `Pyth.Src.C79_only_the_header` | propext, Classical.choice, Quot.sound |
| `Pyth.Src.C79_fresh_names` | propext, Classical.choice, Quot.sound |
| `Pyth.Src.C79_names_injective` | propext, Classical.choice, Quot.sound |
| `Pyth.Src.C79_recursion_through_decorator` | propext, Classical.choice, Quot.sound |
| `Pyth.Src.C79_no_stale_result` | propext, Classical.choice, Quot.sound |
| `Pyth.Src.C79_registration` | propext, Classical.choice, Quot.sound |
| `Pyth.Src.ExecEx.C79_second_definition_counterexample` | propext, Classical.choice, Quot.sound |
| `Pyth.Src.ExecEx.C79_type_parameters_counterexample` | propext, Classical.choice, Quot.sound |
| `Pyth.Deco.C80_round_trip_partial` | propext, Classical.choice, Quot.sound |
| `Pyth.Deco.C80_round_trip_iff` | propext, Classical.choice, Quot.sound |
| `Pyth.Deco.C80_strictly_argument` | propext, Classical.choice, Quot.sound |
| `Pyth.Deco.Ex.C80_names_with_escapes_counterexample` | propext, Classical.choice, Quot.sound |
| `Pyth.Tree.C81_params_round_trip` | propext, Classical.choice, Quot.sound |
| `Pyth.Tree.C81_worker_params` | propext, Classical.choice, Quot.sound |
| `Pyth.Tree.C81_worker_starts` | propext, Classical.choice, Quot.sound |
| `Pyth.Tree.C81_no_explosion` | propext, Classical.choice, Quot.sound |
| `Pyth.Tree.C81_only_main_writes` | propext, Classical.choice, Quot.sound |
| `Pyth.Tree.C81_default_portal_counterexample` | propext, Classical.choice, Quot.sound |
| `Pyth.Pure.C82_address_describes_call` | propext, Classical.choice, Quot.sound |
| `Pyth.Pure.C82_rebuilt_address_describes_call` | propext, Classical.choice, Quot.sound |
| `Pyth.Pure.C82_call_is_stored` | propext, Classical.choice, Quot.sound |
| `Pyth.Pure.C83_result_address_argument` | propext, Classical.choice, Quot.sound |
| `Pyth.Pure.C83_never_the_result` | propext, Classical.choice, Quot.sound |
| `Pyth.Pure.C84_value_read_back_partial` | propext, Classical.choice, Quot.sound |
| `Pyth.Pure.C84_value_address_counterexample` | propext, Classical.choice, Quot.sound |
| `Pyth.Pure.C84_result_address_counterexample` | propext, Classical.choice, Quot.sound |
| `Pyth.Shared.C85_compatible_portals_partial` | propext, Quot.sound |
| `Pyth.Shared.C85_event_iff_partial` | propext, Quot.sound |
| `Pyth.Shared.C85_event_written_partial` | propext, Quot.sound |
| `Pyth.Shared.C85_block_iff_partial` | propext, Quot.sound |
| `Pyth.Shared.C85_one_record_partial` | propext, Quot.sound |
| `Pyth.Shared.C85_shared_directory_counterexample` | propext, Quot.sound |
| `Pyth.Shared.C85_basic_portal_counterexample` | propext, Quot.sound |
| `Pyth.Registry.C86_ordinary_of_any_partial` | propext, Quot.sound |
| `Pyth.Registry.C86_pure_of_pure_partial` | propext, Classical.choice, Quot.sound |
| `Pyth.Registry.C86_pure_of_pure_same_portal_partial` | propext, Classical.choice, Quot.sound |
| `Pyth.Registry.C86_autonomous_of_autonomous_partial` | propext, Classical.choice, Quot.sound |
| `Pyth.Registry.C86_copy_runs_like_original_partial` | propext, Classical.choice, Quot.sound |
| `Pyth.Registry.C86_stacking_counterexample` | propext, Classical.choice, Quot.sound |
| `Pyth.Registry.C86_other_portal_counterexample` | propext, Classical.choice, Quot.sound |
| `Pyth.Registry.C86_spoiled_pure_function_counterexample` | propext, Classical.choice, Quot.sound |
| `Pyth.Src.C87_accepted_iff_partial` | propext, Quot.sound |
| `Pyth.Src.C87_others_refused` | propext |
| `Pyth.Src.C87_no_source_refused` | propext, Quot.sound |
| `Pyth.Src.C87_objects_iff` | propext, Quot.sound |
| `Pyth.Src.C87_safe_counterexample` | propext, Classical.choice, Quot.sound |
| `Pyth.Src.C87_wrappers_counterexample` | propext, Quot.sound |
| `Pyth.Src.C87_wrapper_with_varargs_counterexample` | propext, Classical.choice, Quot.sound |
| `Pyth.Src.C87_text_with_varargs_counterexample` | propext, Classical.choice, Quot.sound |
| `Pyth.Parts.C88_requests_complete_partial` | propext, Classical.choice, Quot.sound |
| `Pyth.Parts.C88_results_complete_partial` | propext, Classical.choice, Quot.sound |
| `Pyth.Parts.C88_own_portal_partial` | propext, Classical.choice, Quot.sound |
| `Pyth.Parts.C88_one_portal_partial` | propext, Classical.choice, Quot.sound |
| `Pyth.Parts.C88_nothing_missing_partial` | propext, Classical.choice, Quot.sound |
| `Pyth.Parts.C88_runs_the_addressed_call_partial` | propext, Classical.choice, Quot.sound |
| `Pyth.Parts.C88_worker_runs_its_request_partial` | propext, Classical.choice, Quot.sound |
| `Pyth.Parts.C88_stored_stays_partial` | propext, Classical.choice, Quot.sound |
| `Pyth.Parts.C88_moved_argument_counterexample` | propext, Classical.choice, Quot.sound |
| `Pyth.Parts.C88_copied_result_counterexample` | propext, Classical.choice, Quot.sound |
| `Pyth.Parts.C89_results_correct_partial` | propext, Classical.choice, Quot.sound |
| `Pyth.Parts.C89_returned_correct_partial` | propext, Classical.choice, Quot.sound |
| `Pyth.Parts.C89_portals_agree_partial` | propext, Classical.choice, Quot.sound |
| `Pyth.Parts.C89_results_never_change_partial` | propext, Classical.choice, Quot.sound |
| `Pyth.Parts.C89_same_answer_partial` | propext, Classical.choice, Quot.sound |
| `Pyth.Parts.C89_steady_functions_are_pure` | propext, Classical.choice, Quot.sound |
| `Pyth.Parts.C89_calling_functions_are_pure` | propext, Classical.choice, Quot.sound |
| `Pyth.Parts.C89_state_dependent_counterexample` | propext, Classical.choice, Quot.sound |
| `Pyth.Parts.C90_worker_finishes_partial` | propext, Classical.choice, Quot.sound |
| `Pyth.Parts.C90_request_is_served_partial` | propext, Classical.choice, Quot.sound |
| `Pyth.Parts.C90_no_dead_requests_partial` | propext, Classical.choice, Quot.sound |
| `Pyth.Parts.C90_operation_returns_partial` | propext, Classical.choice, Quot.sound |
| `Pyth.Parts.C90_call_returns_partial` | propext, Classical.choice, Quot.sound |
| `Pyth.Parts.C90_program_ends_partial` | propext, Classical.choice, Quot.sound |
| `Pyth.Parts.C90_get_returns_partial` | propext, Classical.choice, Quot.sound |
| `Pyth.Parts.C90_calling_functions_end` | propext, Classical.choice, Quot.sound |
| `Pyth.Mixed.C91_own_value` | propext |
| `Pyth.Mixed.C91_own_result` | propext |
| `Pyth.Mixed.C91_fetch_refused_iff` | propext, Classical.choice, Quot.sound |
| `Pyth.Mixed.C91_fetch_elsewhere` | propext, Classical.choice, Quot.sound |
| `Pyth.Mixed.C91_call_refused_iff` | propext, Classical.choice, Quot.sound |
| `Pyth.Mixed.C91_result_elsewhere` | propext, Classical.choice, Quot.sound |
| `Pyth.Mixed.C91_result_nowhere` | propext, Classical.choice, Quot.sound |
| `Pyth.Mixed.C91_extra_portal_fetch_partial` | propext, Classical.choice, Quot.sound |
| `Pyth.Mixed.C91_extra_portal_call_partial` | propext, Classical.choice, Quot.sound |
| `Pyth.Mixed.C91_extra_data_portal_counterexample` | propext, Classical.choice, Quot.sound |
| `Pyth.Mixed.C91_extra_logging_portal_counterexample` | propext, Classical.choice, Quot.sound |
| `Pyth.Parts.C92_dropped_only_with_result` | propext, Classical.choice, Quot.sound |
| `Pyth.Parts.C92_request_stays` | propext, Classical.choice, Quot.sound |
| `Pyth.Parts.C92_swarm_requests` | propext, Classical.choice, Quot.sound |
| `Pyth.Parts.C92_swarm_list_requests` | propext, Classical.choice, Quot.sound |
| `Pyth.Parts.C92_request_execution_requests` | propext, Classical.choice, Quot.sound |
| `Pyth.Parts.C92_awaited_is_requested` | propext, Classical.choice, Quot.sound |
| `Pyth.Parts.C92_returned_call_is_stored` | propext, Classical.choice, Quot.sound |
| `Pyth.Parts.C92_got_is_stored` | propext, Classical.choice, Quot.sound |
| `Pyth.Parts.C92_ready_is_stored` | propext, Classical.choice, Quot.sound |
| `Pyth.Parts.C93_swarmed_call_gets_done_partial` | propext, Classical.choice, Quot.sound |
| `Pyth.Parts.C93_swarm_list_gets_done_partial` | propext, Classical.choice, Quot.sound |
| `Pyth.Parts.C93_then_get_returns_partial` | propext, Classical.choice, Quot.sound |
| `Pyth.Describe.C94_values_total` | propext, Classical.choice, Quot.sound |
| `Pyth.Describe.C94_cached_results` | propext, Classical.choice, Quot.sound |
| `Pyth.Describe.C94_queue_size` | propext, Classical.choice, Quot.sound |
| `Pyth.Describe.C94_exceptions` | propext, Classical.choice, Quot.sound |
| `Pyth.Describe.C94_disk_rows` | propext, Classical.choice, Quot.sound |
| `Pyth.Describe.C94_runtime_rows` | propext, Classical.choice, Quot.sound |
| `Pyth.Describe.C94_functions` | propext, Classical.choice, Quot.sound |
| `Pyth.Describe.C94_top_level` | propext, Classical.choice, Quot.sound |
| `Pyth.Packages.C95_install_partial` | propext, Classical.choice, Quot.sound |
| `Pyth.Packages.C95_install_iff` | propext, Classical.choice, Quot.sound |
| `Pyth.Packages.C95_pip_fails` | propext |
| `Pyth.Packages.C95_uninstall_iff` | propext, Classical.choice, Quot.sound |
| `Pyth.Packages.C95_uninstall_partial` | propext, Classical.choice, Quot.sound |
| `Pyth.Packages.C95_other_module_name_counterexample` | propext, Classical.choice, Quot.sound |
| `Pyth.Packages.C95_stale_module_counterexample` | propext, Classical.choice, Quot.sound |
| `Pyth.Packages.C95_still_imported_counterexample` | propext, Classical.choice, Quot.sound |
| `Pyth.Registry.C96_kinds` | propext |
| `Pyth.Registry.C96_after_running` | propext, Classical.choice, Quot.sound |
| `Pyth.Registry.C96_then_fixed` | propext, Classical.choice, Quot.sound |
| `Pyth.Registry.C96_before_running` | propext, Classical.choice, Quot.sound |
| `Pyth.Parts.C97_joined_call_gets_done_partial` | propext, Classical.choice, Quot.sound |
| `Pyth.Parts.C97_joining_program_ends_partial` | propext, Classical.choice, Quot.sound |
| `Pyth.Parts.C97_get_returns_partial` | propext, Classical.choice, Quot.sound |
| `Pyth.Parts.C97_steady_functions_end` | propext, Classical.choice, Quot.sound |
| `Pyth.Parts.C97_all_workers_wait_counterexample` | propext, Classical.choice, Quot.sound |
| `Pyth.Drain.C98_no_request_passed_over` | propext, Classical.choice, Quot.sound |
| `Pyth.Drain.C98_result_arrives` | propext, Classical.choice, Quot.sound |
| `Pyth.Drain.C98_few_executions` | propext, Classical.choice, Quot.sound |
| `Pyth.Drain.C98_starvation_counterexample` | propext, Classical.choice, Quot.sound |
| `Pyth.Drain.C98_uninterrupted_scan` | propext, Classical.choice, Quot.sound |
| `Pyth.Parts.C99_replies_as_evaluated_partial` | propext, Classical.choice, Quot.sound |
| `Pyth.Parts.C99_alarm_is_true_partial` | propext, Classical.choice, Quot.sound |
| `Pyth.Parts.C99_worker_alarm_is_true_partial` | propext, Classical.choice, Quot.sound |
| `Pyth.Parts.C99_pure_functions_pass_partial` | propext, Classical.choice, Quot.sound |
| `Pyth.Parts.C99_checked_value_was_stored` | propext, Classical.choice, Quot.sound |
| `Pyth.Parts.C99_checked_call_runs` | propext, Classical.choice, Quot.sound |
| `Pyth.Parts.C99_unchecked_value_counterexample` | propext, Classical.choice, Quot.sound |
| `Pyth.Registry.C100_stored` | propext, Classical.choice, Quot.sound |
| `Pyth.Registry.C100_loaded` | propext, Classical.choice, Quot.sound |
| `Pyth.Registry.C100_runs_iff_partial` | propext, Classical.choice, Quot.sound |
| `Pyth.Registry.C100_strict_runs_everywhere` | propext, Classical.choice, Quot.sound |
| `Pyth.Registry.C100_known_iff` | propext, Classical.choice, Quot.sound |
| `Pyth.Registry.Ex.C100_dependencies_counterexample` | propext, Classical.choice, Quot.sound |
| `Pyth.Registry.Ex.C100_stored_before_execution_counterexample` | propext, Classical.choice, Quot.sound |
| `Pyth.Aware.C101_value_address` | propext |
| `Pyth.Aware.C101_follows_context_partial` | propext, Quot.sound |
| `Pyth.Aware.C101_other_portal_counterexample` | propext, Classical.choice, Quot.sound |
| `Pyth.Aware.C101_deep_copy` | propext, Quot.sound |
| `Pyth.Aware.C101_refused` | propext, Quot.sound |
| `Pyth.Aware.C101_deep_copy_outside_counterexample` | propext, Classical.choice, Quot.sound |
| `Pyth.Aware.C102_refused_iff` | propext, Classical.choice, Quot.sound |
| `Pyth.Aware.C102_stored_only` | propext, Quot.sound |
| `Pyth.Aware.C102_read_back` | propext, Quot.sound |
| `Pyth.Aware.C102_read_elsewhere` | propext, Quot.sound |
| `Pyth.Aware.C102_read_iff` | propext, Classical.choice, Quot.sound |
| `Pyth.Aware.C102_put` | propext |
| `Pyth.FrameFail.C103_restored_partial` | propext, Quot.sound |
| `Pyth.FrameFail.C103_enter_failure` | propext, Quot.sound |
| `Pyth.FrameFail.C103_output_failure` | propext, Quot.sound |
| `Pyth.FrameFail.C103_log_failure` | propext, Quot.sound |
| `Pyth.FrameFail.C103_nothing_to_record` | propext, Quot.sound |
| `Pyth.FrameFail.C103_enclosing` | propext, Quot.sound |
| `Pyth.FrameFail.C103_enclosing_same` | propext, Quot.sound |
| `Pyth.FrameFail.C103_call_output_failure` | propext, Quot.sound |
| `Pyth.FrameFail.C103_stays` | propext, Quot.sound |
| `Pyth.FrameFail.C103_output_complete` | propext, Quot.sound |
| `Pyth.FrameFail.C103_captured` | propext, Quot.sound |
| `Pyth.FrameFail.C103_clean` | propext, Quot.sound |
| `Pyth.FrameFail.C103_counterexample` | propext, Quot.sound |
| `Pyth.Connect.C104_local_partial` | propext, Quot.sound |
| `Pyth.Connect.C104_entered` | propext, Quot.sound |
| `Pyth.Connect.C104_initialize` | propext, Quot.sound |
| `Pyth.Connect.C104_default_partial` | propext, Classical.choice, Quot.sound |
| `Pyth.Connect.C104_default_again_counterexample` | propext, Classical.choice, Quot.sound |
| `Pyth.Connect.C104_back_and_forth_counterexample` | propext, Quot.sound |
| `Pyth.Connect.C104_default_after_initialize_counterexample` | propext, Classical.choice, Quot.sound |
| `Pyth.Connect.C104_first_use` | propext, Classical.choice, Quot.sound |
| `Pyth.Parts.C105_complete` | propext, Classical.choice, Quot.sound |
| `Pyth.Parts.C105_results_correct` | propext, Classical.choice, Quot.sound |
| `Pyth.Parts.C105_returned_correct` | propext, Classical.choice, Quot.sound |
| `Pyth.Parts.C105_stored_stays` | propext, Classical.choice, Quot.sound |
| `Pyth.Parts.C105_portals_agree` | propext, Classical.choice, Quot.sound |
| `Pyth.Parts.C105_results_never_change` | propext, Classical.choice, Quot.sound |
| `Pyth.Parts.C105_no_false_alarms` | propext, Classical.choice, Quot.sound |
| `Pyth.Parts.C105_dropped_only_with_result` | propext, Classical.choice, Quot.sound |
| `Pyth.Parts.C105_request_stays` | propext, Classical.choice, Quot.sound |
| `Pyth.Parts.C105_swarm_requests` | propext, Classical.choice, Quot.sound |
| `Pyth.Parts.C105_swarm_list_requests` | propext, Classical.choice, Quot.sound |
| `Pyth.Parts.C105_request_execution_requests` | propext, Classical.choice, Quot.sound |
| `Pyth.Parts.C105_returned_call_is_stored` | propext, Classical.choice, Quot.sound |
| `Pyth.Parts.C105_nothing_missing_afterwards` | propext, Classical.choice, Quot.sound |
| `Pyth.Parts.C105_requests_are_served_afterwards` | propext, Classical.choice, Quot.sound |
| `Pyth.Parts.C105_caught_exceptions_counterexample` | propext, Classical.choice, Quot.sound |
| `Pyth.Parts.C106_joined_call_gets_done_partial` | propext, Classical.choice, Quot.sound |
| `Pyth.Parts.C106_swarm_list_gets_done_partial` | propext, Classical.choice, Quot.sound |
| `Pyth.Parts.C106_joining_program_ends_partial` | propext, Classical.choice, Quot.sound |
| `Pyth.Parts.C106_get_returns_partial` | propext, Classical.choice, Quot.sound |
| `Pyth.Parts.C106_nothing_missing_partial` | propext, Classical.choice, Quot.sound |
| `Pyth.Parts.C106_worker_finishes_partial` | propext, Classical.choice, Quot.sound |
| `Pyth.Parts.C106_operation_returns_partial` | propext, Classical.choice, Quot.sound |
| `Pyth.Parts.C106_program_ends_partial` | propext, Classical.choice, Quot.sound |
| `Pyth.Parts.C106_swarmed_call_gets_done_partial` | propext, Classical.choice, Quot.sound |
| `Pyth.Registry.C107_same_state_iff_same_code_partial` | propext, Classical.choice, Quot.sound |
| `Pyth.Registry.C107_same_address_same_code_partial` | propext, Classical.choice, Quot.sound |
| `Pyth.Registry.C107_augmented_source_partial` | propext, Classical.choice, Quot.sound |
| `Pyth.Registry.C107_same_state_same_code_partial` | propext, Classical.choice, Quot.sound |
| `Pyth.Registry.C107_same_state_same_direct_code_partial` | propext, Classical.choice, Quot.sound |
| `Pyth.Registry.Ex.C107_stale_dependency_counterexample` | propext, Classical.choice, Quot.sound |
| `Pyth.Registry.Ex.C107_guard_dependency_counterexample` | propext, Classical.choice, Quot.sound |
| `Pyth.Mutable.C108_stored_never_change` | propext, Classical.choice, Quot.sound |
| `Pyth.Mutable.C108_value_address` | propext, Classical.choice, Quot.sound |
| `Pyth.Mutable.C108_changed_value_counterexample` | propext, Quot.sound |
| `Pyth.Mutable.C108_fresh_read` | propext, Quot.sound |
| `Pyth.Mutable.C108_results_right_partial` | propext, Classical.choice, Quot.sound |
| `Pyth.Mutable.C108_call_partial` | propext, Classical.choice, Quot.sound |
| `Pyth.Mutable.C108_guards` | propext, Classical.choice, Quot.sound |
| `Pyth.Mutable.C108_call_changes_nothing` | propext, Classical.choice, Quot.sound |
| `Pyth.Mutable.C108_same_object_twice_counterexample` | propext, Quot.sound |
| `Pyth.Mutable.C108_guard_changes_counterexample` | propext, Quot.sound |
| `Pyth.Mutable.C108_address_partial` | propext, Classical.choice, Quot.sound |
| `Pyth.Mutable.C108_background_partial` | propext, Classical.choice, Quot.sound |
| `Pyth.Mutable.C108_swarm_list_counterexample` | propext, Quot.sound |
| `Pyth.Mutable.C108_kwargs_counterexample` | propext, Quot.sound |
| `Pyth.Mutable.C108_same_result_object` | propext, Classical.choice, Quot.sound |
| `Pyth.Mutable.C108_changed_result_counterexample` | propext, Quot.sound |
| `Pyth.Threads.C109_locked_partial` | propext, Quot.sound |
| `Pyth.Threads.C109_whole_commands` | propext, Quot.sound |
| `Pyth.Threads.C109_one_portal_partial` | propext, Quot.sound |
| `Pyth.Threads.C109_other_portal_counterexample` | propext |
| `Pyth.Threads.C109_enter_counterexample` | propext |
| `Pyth.Threads.C109_lost_counterexample` | propext |
| `Pyth.AstKw.C110_round_trip` | propext, Quot.sound |
| `Pyth.AstKw.C110_accepted_iff` | propext |
| `Pyth.AstKw.C110_contents` | propext, Classical.choice, Quot.sound |
| `Pyth.AstKw.C110_stable` | propext, Classical.choice, Quot.sound |
| `Pyth.NodeSig.C111_same_signature_iff` | propext, Classical.choice, Quot.sound |
| `Pyth.NodeSig.C111_one_difference` | propext, Classical.choice, Quot.sound |
| `Pyth.NodeSig.C111_different_computers_partial` | propext, Classical.choice, Quot.sound |
| `Pyth.NodeSig.C111_no_separators_counterexample` | propext, Classical.choice, Quot.sound |
| `Pyth.NodeSig.C111_computers_counterexample` | propext, Classical.choice, Quot.sound |
| `Pyth.ValueAddr.C112_expected_type` | propext, Quot.sound |
| `Pyth.ValueAddr.C112_not_found` | propext, Quot.sound |
| `Pyth.ValueAddr.C112_stored` | propext, Classical.choice, Quot.sound |
| `Pyth.Output.C113_originals` | propext, Quot.sound |
| `Pyth.Output.C113_only_what_was_said` | propext, Quot.sound |
| `Pyth.Output.C113_nested_restores` | propext, Quot.sound |
| `Pyth.Output.C113_nested_captures` | propext, Quot.sound |
| `Pyth.Output.C113_one_thread_is_nested` | propext, Quot.sound |
| `Pyth.Output.C113_crossing_counterexample` | propext, Quot.sound |
| `Pyth.Output.C113_other_threads_counterexample` | propext, Classical.choice, Quot.sound |
| `Pyth.Birthday.C114_random_signatures` | propext, Classical.choice, Quot.sound |
| `Pyth.Birthday.C114_addresses` | propext, Classical.choice, Quot.sound |
| `Pyth.Birthday.C114_billion_signatures` | propext, Classical.choice, Quot.sound |
| `Pyth.Birthday.C114_many_addresses` | propext, Classical.choice, Quot.sound |
| `Pyth.Birthday.C114_coincidence_possible` | propext, Classical.choice, Quot.sound |
| `Pyth.FrameThreads.C115_always` | propext, Quot.sound |
| `Pyth.FrameThreads.C115_recorded` | propext, Quot.sound |
| `Pyth.FrameThreads.C115_nested` | propext, Classical.choice, Quot.sound |
| `Pyth.FrameThreads.C115_afterwards` | propext, Classical.choice, Quot.sound |
| `Pyth.FrameThreads.C115_one_thread` | propext, Quot.sound |
| `Pyth.FrameThreads.C115_crossing_counterexample` | propext |
| `Pyth.Noticing.C116_count` | propext, Classical.choice, Quot.sound |
| `Pyth.Noticing.C116_probability` | propext, Classical.choice, Quot.sound |
| `Pyth.Noticing.C116_no_false_alarm` | propext, Classical.choice, Quot.sound |
| `Pyth.Noticing.C116_extremes` | propext, Classical.choice, Quot.sound |
| `Pyth.Scan.C117_few_candidates` | propext, Classical.choice, Quot.sound |
| `Pyth.Scan.C117_many_candidates` | propext, Classical.choice, Quot.sound |
| `Pyth.Scan.C117_almost_surely` | propext, Classical.choice, Quot.sound |
| `Pyth.Scan.C117_first_scan` | propext, Classical.choice, Quot.sound |
| `Pyth.Pure.C118_executions_are_attempts` | propext, Classical.choice, Quot.sound |
| `Pyth.Pure.C118_every_execution_attempted` | propext, Classical.choice, Quot.sound |
| `Pyth.Pure.C118_executed_at_most_once` | propext, Classical.choice, Quot.sound |
| `Pyth.Pure.C118_never_again` | propext, Classical.choice, Quot.sound |
