# Axioms of the property theorems

Generated by tools/axioms.py from `#print axioms`.

| property | theorem | axioms |
|---|---|---|
| C01 | Opsqueue.C01_chunks_conserved | propext, Classical.choice, Quot.sound |
| C02 | Opsqueue.C02_one_state | propext, Classical.choice, Quot.sound |
| C02 | Opsqueue.C02_lookups_exclusive | propext, Classical.choice, Quot.sound |
| C03 | Opsqueue.C03_terminal_final | propext, Classical.choice, Quot.sound |
| C03 | Opsqueue.C03_gone_forever | propext, Classical.choice, Quot.sound |
| C04 | Opsqueue.C04_completed_means_all_reported | propext, Classical.choice, Quot.sound |
| C05 | Opsqueue.C05_last_completion_completes | propext, Classical.choice, Quot.sound |
| C06 | Opsqueue.C06_stale_completion_harmless | propext, Classical.choice, Quot.sound |
| C06 | Opsqueue.C06_done_le_total | propext, Classical.choice, Quot.sound |
| C07 | Opsqueue.C07_retry_below_budget | propext, Classical.choice, Quot.sound |
| C07 | Opsqueue.C07_fail_at_budget | propext, Classical.choice, Quot.sound |
| C07 | Opsqueue.C07_retries_are_reports | propext, Classical.choice, Quot.sound |
| C07 | Opsqueue.C07_fails_at_exactly_max_one_m | propext, Classical.choice, Quot.sound |
| C07 | Opsqueue.C07_server_uses_its_budget | propext, Quot.sound |
| C07 | Opsqueue.C07_server_fails_at_max_one_m | propext, Classical.choice, Quot.sound |
| C08 | Opsqueue.C08_permanent_failure | propext, Classical.choice, Quot.sound |
| C09 | Opsqueue.C09_cancel_in_progress | propext, Classical.choice, Quot.sound |
| C09 | Opsqueue.C09_cancel_over | propext, Classical.choice, Quot.sound |
| C09 | Opsqueue.C09_cancel_unknown | propext, Classical.choice, Quot.sound |
| C09 | Opsqueue.C09_cancel_in_progress_not_refused | propext, Classical.choice, Quot.sound |
| C09 | Opsqueue.C09_cancel_never_panics | propext, Classical.choice, Quot.sound |
| C10 | Opsqueue.C10_insert_faithful | propext, Classical.choice, Quot.sound |
| C10 | Opsqueue.C10_insert_all_or_nothing | propext, Quot.sound |
| C10 | Opsqueue.C10_batching_unobservable | propext, Quot.sound |
| C10 | Opsqueue.Http.C10_http_insert_direct | propext, Classical.choice, Quot.sound |
| C10 | Opsqueue.Http.C10_http_insert_object_store | propext, Classical.choice, Quot.sound |
| C11 | Opsqueue.C11_atomic | propext, Classical.choice, Quot.sound |
| C11 | Opsqueue.C11_success_is_full_effect | propext, Quot.sound |
| C11 | Opsqueue.C11_atomic_empty_insert | propext, Classical.choice, Quot.sound |
| C12 | Opsqueue.C12_failed_statement_no_effect | propext, Quot.sound |
| C13 | Opsqueue.C13_empty_returned_is_completed | propext, Classical.choice, Quot.sound |
| C13 | Opsqueue.C13_empty_left_in_progress_stuck | propext, Classical.choice, Quot.sound |
| C14 | Opsqueue.C14_status_was_true_at_some_moment | propext, Classical.choice, Quot.sound |
| C14 | Opsqueue.C14_known_never_missed | propext, Classical.choice, Quot.sound |
| C15 | Opsqueue.C15_failed_shows_chunk_partial | propext, Classical.choice, Quot.sound |
| C15 | Opsqueue.C15_dates | propext, Classical.choice, Quot.sound |
| C15 | Opsqueue.C15_refuted_for_backward_clock | propext, Quot.sound |
| C16 | Opsqueue.C16_cleanup_exact | propext, Classical.choice, Quot.sound |
| C17 | Opsqueue.C17_metadata_lifetime | propext, Classical.choice, Quot.sound |
| C18 | Opsqueue.C18_metadata_lookup | propext, Classical.choice, Quot.sound |
| C19 | Opsqueue.C19_prefix_lookup_partial | propext, Classical.choice, Quot.sound |
| C19 | Opsqueue.C19_refuted_for_cancelled | propext, Quot.sound |
| C20 | Opsqueue.C20_counts | propext, Classical.choice, Quot.sound |
| C20 | Opsqueue.C20_finished_counts | propext, Classical.choice, Quot.sound |
| C21 | Opsqueue.C21_attributes_partial | propext, Classical.choice, Quot.sound |
| C21 | Opsqueue.C21_refuted_chunk_size_lost | propext, Classical.choice, Quot.sound |
| C22 | Opsqueue.C22_other_submissions_unaffected | propext, Classical.choice, Quot.sound |
| C23 | Opsqueue.C23_exclusive | propext, Quot.sound |
| C24 | Opsqueue.C24_refuted_by_late_report | propext, Quot.sound |
| C24 | Opsqueue.C24_only_holder_ends_partial | propext, Classical.choice, Quot.sound |
| C24 | Opsqueue.C24_first_holder_partial | propext, Classical.choice, Quot.sound |
| C24 | Opsqueue.C24_nothing_left_after_report_partial | propext, Classical.choice, Quot.sound |
| C25 | Opsqueue.C25_expires | propext, Quot.sound |
| C25 | Opsqueue.C25_notices | propext, Classical.choice, Quot.sound |
| C26 | Opsqueue.C26_retry_at_once | propext, Quot.sound |
| C26 | Opsqueue.C26_refuted_for_repeated_finish | propext |
| C26 | Opsqueue.C26_stays_reserved_partial | propext, Quot.sound |
| C26 | Opsqueue.C26_completed_stays_reserved_partial | propext, Classical.choice, Quot.sound |
| C26 | Opsqueue.C26_failed_stays_reserved_partial | propext, Classical.choice, Quot.sound |
| C26 | Opsqueue.C26_server_retry_at_once | propext, Classical.choice, Quot.sound |
| C27 | Opsqueue.C27_limit_zero_rejected | propext, Quot.sound |
| C27 | Opsqueue.C27_reserves_exactly_partial | propext, Classical.choice, Quot.sound |
| C27 | Opsqueue.C27_refuted_when_fetch_fails | propext, Quot.sound |
| C28 | Opsqueue.C28_takes_the_first_free | propext, Classical.choice, Quot.sound |
| C29 | Opsqueue.C29_oldest | propext, Classical.choice, Quot.sound |
| C29 | Opsqueue.C29_newest | propext, Classical.choice, Quot.sound |
| C30 | Opsqueue.C30_random | propext, Classical.choice, Quot.sound |
| C31 | Opsqueue.C31_prefer_distinct | propext, Classical.choice, Quot.sound |
| C32 | Opsqueue.C32_refuted_overflow | none |
| C32 | Opsqueue.C32_random_order_partial | propext, Classical.choice, Quot.sound |
| C32 | Opsqueue.C32_every_value_occurs | propext, Classical.choice, Quot.sound |
| C33 | Opsqueue.C33_counts_sequential | propext, Quot.sound |
| C33 | Opsqueue.C33_counts_concurrent | propext, Quot.sound |
| C33 | Opsqueue.C33_order_irrelevant | propext, Quot.sound |
| C33 | Opsqueue.C33_no_underflow | propext, Quot.sound |
| C34 | Opsqueue.C34_refuted_by_disconnect | propext, Quot.sound |
| C34 | Opsqueue.C34_orderly_partial | propext, Classical.choice, Quot.sound |
| C34 | Opsqueue.C34_orderly_quiet_partial | propext, Classical.choice, Quot.sound |
| C35 | Opsqueue.C35_disconnect_gives_back | propext, Classical.choice, Quot.sound |
| C35 | Opsqueue.C35_another_consumer_gets_it | propext, Classical.choice, Quot.sound |
| C36 | Opsqueue.C36_refuted_by_lost_wakeup | propext, Classical.choice, Quot.sound |
| C36 | Opsqueue.C36_refuted_by_silent_release | propext, Classical.choice, Quot.sound |
| C36 | Opsqueue.C36_insert_wakes_partial | propext, Quot.sound |
| C36 | Opsqueue.C36_served_when_woken_partial | propext, Classical.choice, Quot.sound |
| C37 | Opsqueue.C37_each_request_answered_or_waiting | propext, Quot.sound |
| C37 | Opsqueue.C37_at_most_one_response | propext, Quot.sound |
| C37 | Opsqueue.C37_reports_get_no_response | propext, Quot.sound |
| C37 | Opsqueue.C37_response_contents | propext, Classical.choice, Quot.sound |
| C37 | Opsqueue.C37_one_answer_per_request | propext, Classical.choice, Quot.sound |
| C38 | Opsqueue.C38_outstanding_nonces_differ | propext, Classical.choice, Quot.sound |
| C38 | Opsqueue.C38_delivered_to_its_call | propext, Classical.choice, Quot.sound |
| C38 | Opsqueue.C38_responses_are_genuine | propext, Classical.choice, Quot.sound |
| C38 | Opsqueue.C38_no_panic | propext, Classical.choice, Quot.sound |
| C38 | Opsqueue.C38_no_panic_with_this_server | propext, Classical.choice, Quot.sound |
| C38 | Opsqueue.C38_connection_loss_partial | propext, Classical.choice, Quot.sound |
| C38 | Opsqueue.C38_calls_in_progress_fail | propext, Classical.choice, Quot.sound |
| C38 | Opsqueue.C38_refuted_call_after_read_error_hangs | propext, Classical.choice, Quot.sound |
| C39 | Opsqueue.C39_client_exactly_when | propext, Classical.choice, Quot.sound |
| C39 | Opsqueue.C39_exactly_when | propext, Classical.choice, Quot.sound |
| C39 | Opsqueue.C39_live_peer_is_kept | propext, Classical.choice, Quot.sound |
| C39 | Opsqueue.C39_silent_peer_is_dropped | propext, Classical.choice, Quot.sound |
| C40 | Opsqueue.C40_undeliverable_chunks_given_back | propext, Classical.choice, Quot.sound |
| C40 | Opsqueue.C40_expired_chunk_given_back | propext, Quot.sound |
| C40 | Opsqueue.C40_reports_arrive_in_order | propext, Classical.choice, Quot.sound |
| C41 | Opsqueue.Http.C41_what_is_retried | propext, Classical.choice, Quot.sound |
| C41 | Opsqueue.Http.C41_plain_calls_partial | propext, Classical.choice, Quot.sound |
| C41 | Opsqueue.Http.C41_cancel_and_lookup_partial | propext, Classical.choice, Quot.sound |
| C41 | Opsqueue.Http.C41_version_once | propext, Classical.choice, Quot.sound |
| C41 | Opsqueue.Http.C41_refuted_for_5xx_on_cancel | propext, Classical.choice, Quot.sound |
| C41 | Opsqueue.Http.C41_refuted_for_undecodable_status | propext, Classical.choice, Quot.sound |
| C42 | Opsqueue.Http.C42_cancel | propext, Classical.choice, Quot.sound |
| C42 | Opsqueue.Http.C42_refusals_are_true | propext, Classical.choice, Quot.sound |
| C42 | Opsqueue.Http.C42_cancel_call | propext, Classical.choice, Quot.sound |
| C42 | Opsqueue.Http.C42_lookup_call | propext, Classical.choice, Quot.sound |
| C42 | Opsqueue.Http.C42_status_call | propext, Classical.choice, Quot.sound |
| C42 | Opsqueue.Http.C42_count_call | propext, Classical.choice, Quot.sound |
| C43 | Opsqueue.Http.C43_refuted_by_lost_response | propext, Classical.choice, Quot.sound |
| C43 | Opsqueue.Http.C43_refuted_by_empty_submission | propext, Classical.choice, Quot.sound |
| C43 | Opsqueue.Http.C43_one_effect_partial | propext, Classical.choice, Quot.sound |
| C44 | Opsqueue.ObjectStore.C44_paths_never_collide | propext, Classical.choice, Quot.sound |
| C44 | Opsqueue.ObjectStore.C44_slashes_collide | propext, Classical.choice, Quot.sound |
| C45 | Opsqueue.ObjectStore.C45_store_succeeds_iff | propext, Classical.choice, Quot.sound |
| C45 | Opsqueue.ObjectStore.C45_retrieve_what_was_stored | propext, Classical.choice, Quot.sound |
| C45 | Opsqueue.ObjectStore.C45_missing_is_error | propext, Classical.choice, Quot.sound |
| C46 | Opsqueue.Python.C46_chunking_roundtrip | propext, Classical.choice, Quot.sound |
| C46 | Opsqueue.Python.C46_bad_size_rejected | propext |
| C46 | Opsqueue.Python.C46_errors_are_raised | propext, Quot.sound |
| C47 | Opsqueue.EndToEnd.C47_results_in_order | propext, Classical.choice, Quot.sound |
| C47 | Opsqueue.EndToEnd.C47_results_only_if_completed | propext, Classical.choice, Quot.sound |
| C48 | Opsqueue.EndToEnd.C48_completed_has_outputs | propext, Classical.choice, Quot.sound |
| C48 | Opsqueue.EndToEnd.C48_outputs_are_results | propext, Classical.choice, Quot.sound |
| C49 | Opsqueue.Python.C49_wait_returns_results | propext, Quot.sound |
| C49 | Opsqueue.Python.C49_wait_raises_on_failure | propext, Quot.sound |
| C49 | Opsqueue.Python.C49_pauses | propext, Classical.choice, Quot.sound |
| C49 | Opsqueue.Python.C49_pauses_double | propext, Quot.sound |
| C49 | Opsqueue.Python.C49_refuted_for_cancelled | propext, Classical.choice, Quot.sound |
| C49 | Opsqueue.Python.C49_refuted | propext, Quot.sound |
| C49 | Opsqueue.Python.C49_refuted_for_unknown | propext, Quot.sound |
| C49 | Opsqueue.Python.C49_wait_ends_partial | propext, Classical.choice, Quot.sound |
| C50 | Opsqueue.C50_submission_ids_lossless | propext, Classical.choice, Quot.sound |
| C50 | Opsqueue.C50_chunk_indexes_lossless | propext, Classical.choice, Quot.sound |
| C51 | Opsqueue.C51_max_submissions_never_overflows | propext, Classical.choice, Quot.sound |
| C52 | Opsqueue.C52_migration_keeps_largest | propext, Classical.choice, Quot.sound |
| C53 | Opsqueue.Python.C53_strategy_roundtrip | propext |
| C53 | Opsqueue.Python.C53_status_shows_all | propext |
| C53 | Opsqueue.Python.C53_status_fields | propext |
| C54 | Opsqueue.Python.C54_refuted_counter_doubles | propext, Classical.choice, Quot.sound |
| C54 | Opsqueue.Python.C54_refuted_never_logs | propext, Classical.choice, Quot.sound |
| C54 | Opsqueue.Python.C54_refuted | propext |
| C54 | Opsqueue.Python.C54_progress_partial | propext, Classical.choice, Quot.sound |
| C55 | Opsqueue.C55_in_order | propext, Quot.sound |
| C55 | Opsqueue.C55_none_lost | propext, Quot.sound |
| C55 | Opsqueue.C55_late_report_harmless | propext, Classical.choice, Quot.sound |
| C56 | Opsqueue.C56_completion_exact | propext, Classical.choice, Quot.sound |
| C57 | Opsqueue.Http.C57_refuted_by_lost_response | propext, Classical.choice, Quot.sound |
| C57 | Opsqueue.Http.C57_cancel_says_so_partial | propext, Classical.choice, Quot.sound |
| C58 | Opsqueue.Http.C58_prefix_call_partial | propext, Classical.choice, Quot.sound |
| C58 | Opsqueue.Http.C58_refuted_for_question_mark | propext, Classical.choice, Quot.sound |
| C59 | Opsqueue.Python.C59_reports_as_due | propext, Classical.choice, Quot.sound |
| C60 | Opsqueue.Python.C60_refuted_by_retrieval | propext, Classical.choice, Quot.sound |
| C60 | Opsqueue.Python.C60_refuted_by_upload | propext, Classical.choice, Quot.sound |
| C60 | Opsqueue.Python.C60_refuted | propext, Classical.choice, Quot.sound |
| C60 | Opsqueue.Python.C60_reported_partial | propext, Classical.choice, Quot.sound |
| C60 | Opsqueue.Python.C60_refuted_for_batches | propext, Classical.choice, Quot.sound |
| C61 | Opsqueue.C61_lives | propext, Classical.choice, Quot.sound |
| C61 | Opsqueue.C61_undisturbed | propext, Classical.choice, Quot.sound |
| C62 | Opsqueue.C62_every_chunk_is_offered | propext, Classical.choice, Quot.sound |
| C62 | Opsqueue.C62_all_work_gets_done | propext, Classical.choice, Quot.sound |
| C63 | Opsqueue.Http.C63_only_what_is_asked | propext, Classical.choice, Quot.sound |
| C63 | Opsqueue.Http.C63_unreadable_is_refused | propext, Classical.choice, Quot.sound |
| C63 | Opsqueue.Http.C63_readable_is_served | propext, Classical.choice, Quot.sound |
| C63 | Opsqueue.Http.C63_lookup_is_served | propext, Classical.choice, Quot.sound |
| C63 | Opsqueue.Http.C63_status_codes | propext, Classical.choice, Quot.sound |
| C63 | Opsqueue.Http.C63_unknown_is_refused | propext, Classical.choice, Quot.sound |
| C63 | Opsqueue.Http.C63_client_error_changes_nothing | propext, Classical.choice, Quot.sound |
| C63 | Opsqueue.Http.C63_every_request_is_answered | propext, Classical.choice, Quot.sound |
| C64 | Opsqueue.Http.C64_reads_are_true | propext, Classical.choice, Quot.sound |
| C64 | Opsqueue.Http.C64_results_are_what_was_answered | propext, Classical.choice, Quot.sound |
| C65 | Opsqueue.Messages.C65_client_messages_arrive | propext, Classical.choice, Quot.sound |
| C65 | Opsqueue.Messages.C65_server_messages_arrive | propext, Classical.choice, Quot.sound |
| C65 | Opsqueue.Messages.C65_messages_are_not_confused | propext, Classical.choice, Quot.sound |
| C65 | Opsqueue.Messages.C65_cut_off_is_refused | propext, Classical.choice, Quot.sound |
| C65 | Opsqueue.Messages.C65_too_deep_is_refused | propext, Classical.choice, Quot.sound |
| C65 | Opsqueue.Messages.C65_only_valid_messages_are_read | propext, Classical.choice, Quot.sound |
| C65 | Opsqueue.Messages.C65_what_the_server_reads | propext, Classical.choice, Quot.sound |
| C65 | Opsqueue.Messages.C65_what_the_consumer_reads | propext, Classical.choice, Quot.sound |
| C65 | Opsqueue.Messages.C65_connection_acts_on_what_was_sent | propext, Classical.choice, Quot.sound |
| C65 | Opsqueue.Messages.C65_unreadable_ends_the_connection | propext, Classical.choice, Quot.sound |
| C66 | Opsqueue.C66_nothing_is_missed | propext, Classical.choice, Quot.sound |
| C66 | Opsqueue.C66_exact_when_undisturbed_partial | propext, Classical.choice, Quot.sound |
| C66 | Opsqueue.C66_full_when_undisturbed_partial | propext, Classical.choice, Quot.sound |
| C66 | Opsqueue.C66_submissions_balance_partial | propext, Classical.choice, Quot.sound |
| C66 | Opsqueue.C66_restart | propext, Quot.sound |
| C66 | Opsqueue.C66_metrics_do_not_interfere | propext, Quot.sound |
| C66 | Opsqueue.C66_refuted_failed_insert | propext, Classical.choice, Quot.sound |
| C66 | Opsqueue.C66_refuted_rolled_back_completion | propext, Classical.choice, Quot.sound |
| C66 | Opsqueue.C66_refuted_late_report | propext, Classical.choice, Quot.sound |
| C67 | Opsqueue.C67_right_when_calculated | propext, Classical.choice, Quot.sound |
| C67 | Opsqueue.C67_between_calculations_partial | propext, Classical.choice, Quot.sound |
| C67 | Opsqueue.C67_refuted | propext, Classical.choice, Quot.sound |
| C67 | Opsqueue.C67_refuted_negative | propext, Quot.sound |
| C68 | Opsqueue.EndToEnd.C68_results_can_always_be_had | propext, Classical.choice, Quot.sound |
| C68 | Opsqueue.EndToEnd.C68_from_the_start | propext, Classical.choice, Quot.sound |
| C69 | Opsqueue.Snowflake.C69_ids_go_up | propext, Quot.sound |
| C69 | Opsqueue.Snowflake.C69_unique_in_a_process | propext, Quot.sound |
| C69 | Opsqueue.Snowflake.C69_id_carries_its_time | propext, Quot.sound |
| C69 | Opsqueue.Snowflake.C69_histories_have_fresh_ids | propext, Quot.sound |
| C69 | Opsqueue.Snowflake.C69_no_needless_failure | propext, Quot.sound |
| C69 | Opsqueue.Snowflake.C69_refuted_clock_set_back | none |
| C69 | Opsqueue.Snowflake.C69_no_ids_after_2039 | propext, Quot.sound |
| C70 | Opsqueue.Retention.C70_record_is_kept | propext, Classical.choice, Quot.sound |
| C70 | Opsqueue.Retention.C70_record_is_removed | propext, Classical.choice, Quot.sound |
| C70 | Opsqueue.Retention.C70_record_goes_in_time | propext, Classical.choice, Quot.sound |
| C71 | Opsqueue.Watchdog.C71_pong_means_recently_checked | propext, Classical.choice, Quot.sound |
| C71 | Opsqueue.Watchdog.C71_pong_if_checked | propext, Quot.sound |
| C71 | Opsqueue.Watchdog.C71_failure_is_shown | propext, Classical.choice, Quot.sound |
| C71 | Opsqueue.Watchdog.C71_shutdown_is_shown | propext, Classical.choice, Quot.sound |
| C71 | Opsqueue.Watchdog.C71_refuted_write_lock | none |
| C72 | Opsqueue.Durability.C72_power_loss_keeps_consistency | propext, Quot.sound |
| C72 | Opsqueue.Durability.C72_safe_after_checkpoint_partial | propext, Classical.choice, Quot.sound |
| C72 | Opsqueue.Durability.C72_refuted_unsynced_commit | propext, Quot.sound |
| C73 | Opsqueue.C73_bounded_work | propext, Classical.choice, Quot.sound |
| C73 | Opsqueue.C73_no_work_before | propext, Classical.choice, Quot.sound |
| C73 | Opsqueue.C73_work_ends | propext, Classical.choice, Quot.sound |
| C73 | Opsqueue.C73_server_bounded_work | propext, Classical.choice, Quot.sound |
| C74 | Opsqueue.Upgrade.C74_schema | propext, Classical.choice, Quot.sound |
| C74 | Opsqueue.Upgrade.C74_what_is_stored | propext, Classical.choice, Quot.sound |
| C74 | Opsqueue.Upgrade.C74_upgrade | propext, Classical.choice, Quot.sound |
| C74 | Opsqueue.Upgrade.C74_interrupted | propext, Classical.choice, Quot.sound |
| C74 | Opsqueue.Upgrade.C74_second_start | propext, Classical.choice, Quot.sound |
| C74 | Opsqueue.Upgrade.C74_newer_database | propext, Quot.sound |
| C74 | Opsqueue.Upgrade.C74_changed_migration | propext, Classical.choice, Quot.sound |
| C74 | Opsqueue.Upgrade.C74_random_order | propext, Classical.choice, Quot.sound |
| C75 | Opsqueue.Server.C75_oldest_first | propext, Classical.choice, Quot.sound |
| C75 | Opsqueue.Server.C75_newest_first | propext, Classical.choice, Quot.sound |
| C75 | Opsqueue.Server.C75_bounded_overtaking | propext, Classical.choice, Quot.sound |
| C75 | Opsqueue.Server.C75_no_starvation | propext, Classical.choice, Quot.sound |
| C75 | Opsqueue.Server.C75_newest_may_starve | propext, Quot.sound |
| C76 | Opsqueue.Python.C76_cancel_tells | propext, Classical.choice, Quot.sound |
| C76 | Opsqueue.Python.C76_lookup_tells | propext, Classical.choice, Quot.sound |
| C76 | Opsqueue.Python.C76_try_stream_tells | propext, Classical.choice, Quot.sound |
| C76 | Opsqueue.Python.C76_wait_tells | propext, Classical.choice, Quot.sound |
| C76 | Opsqueue.Python.C76_classes | propext |
| C76 | Opsqueue.Python.C76_numbers | propext, Classical.choice, Quot.sound |
| C76 | Opsqueue.Python.C76_one_kind | propext, Classical.choice, Quot.sound |
| C76 | Opsqueue.Python.C76_reasons_are_answers | propext, Classical.choice, Quot.sound |
| C76 | Opsqueue.Python.C76_signals_reach_the_caller | propext, Classical.choice, Quot.sound |
| C76 | Opsqueue.Python.C76_reserve_tells | propext, Classical.choice, Quot.sound |
| C76 | Opsqueue.Python.C76_refuted_for_iterators | propext, Classical.choice, Quot.sound |
| C76 | Opsqueue.Python.C76_refuted_for_loop_end | propext |
| C76 | Opsqueue.Python.C76_refuted_for_lost_report | propext |
| C76 | Opsqueue.Python.C76_refuted_for_misuse | propext, Classical.choice, Quot.sound |
| C76 | Opsqueue.Python.C76_refuted | propext, Classical.choice, Quot.sound |
| C76 | Opsqueue.Python.C76_default_strategy_raises | propext, Classical.choice, Quot.sound |
| C76 | Opsqueue.Python.C76_iterator_partial | propext, Classical.choice, Quot.sound |
| C76 | Opsqueue.Python.C76_loop_partial | propext, Quot.sound |
| C77 | Opsqueue.Python.C77_in_order | propext, Classical.choice, Quot.sound |
| C77 | Opsqueue.Python.C77_complete | propext, Classical.choice, Quot.sound |
| C77 | Opsqueue.Python.C77_for_loop | propext, Classical.choice, Quot.sound |
| C77 | Opsqueue.Python.C77_calls_are_answered | propext, Classical.choice, Quot.sound |
| C77 | Opsqueue.Python.C77_refuted_for_cancelled_calls | propext, Classical.choice, Quot.sound |
| C77 | Opsqueue.Python.C77_refuted_for_retries | propext, Classical.choice, Quot.sound |
| C77 | Opsqueue.Python.C77_refuted_for_the_end | propext, Classical.choice, Quot.sound |
| C77 | Opsqueue.Python.C77_refuted | propext, Classical.choice, Quot.sound |
| C77 | Opsqueue.Python.C77_losses_partial | propext, Classical.choice, Quot.sound |
| C78 | Opsqueue.Startup.C78_argument | propext, Classical.choice, Quot.sound |
| C78 | Opsqueue.Startup.C78_at_most_one | propext, Quot.sound |
| C78 | Opsqueue.Startup.C78_told | propext, Quot.sound |
| C78 | Opsqueue.Startup.C78_gives_up | propext, Quot.sound |
| C78 | Opsqueue.Startup.C78_listens | propext, Quot.sound |
| C78 | Opsqueue.Startup.C78_refuted_address_unknown | propext |
| C78 | Opsqueue.Startup.C78_refuted_stale_port | propext |
| C78 | Opsqueue.Startup.C78_refuted_write_failed | propext |
| C78 | Opsqueue.Startup.C78_refuted_full | propext |
| C78 | Opsqueue.Startup.C78_partial | propext, Quot.sound |
| C79 | Opsqueue.Concurrent.C79_every_call_has_code | propext, Quot.sound |
| C79 | Opsqueue.Concurrent.C79_serial | propext, Quot.sound |
| C79 | Opsqueue.Concurrent.C79_real_time | propext, Quot.sound |
| C79 | Opsqueue.Concurrent.C79_seen | propext, Quot.sound |
| C79 | Opsqueue.Concurrent.C79_status | propext, Classical.choice, Quot.sound |
| C79 | Opsqueue.Concurrent.C79_given_back | propext, Classical.choice, Quot.sound |
| C80 | Opsqueue.Pools.C80_in_turn | propext, Classical.choice, Quot.sound |
| C80 | Opsqueue.Pools.C80_bounded_wait | propext, Classical.choice, Quot.sound |
| C80 | Opsqueue.Pools.C80_writer_goes_on | propext, Classical.choice, Quot.sound |
| C80 | Opsqueue.Pools.C80_reader_goes_on_partial | propext, Classical.choice, Quot.sound |
| C80 | Opsqueue.Pools.C80_all_finish_partial | propext, Classical.choice, Quot.sound |
| C80 | Opsqueue.Pools.C80_refuted_fetches_block_each_other | propext, Classical.choice, Quot.sound |
| C80 | Opsqueue.Pools.C80_refuted | propext, Classical.choice, Quot.sound |
| C80 | Opsqueue.Pools.C80_pool_sizes | propext, Classical.choice, Quot.sound |
| C81 | Opsqueue.C81_why_connections_end | propext, Classical.choice, Quot.sound |
| C81 | Opsqueue.C81_refuted_by_cancel | propext, Quot.sound |
| C81 | Opsqueue.C81_refuted_by_failure | propext, Quot.sound |
| C81 | Opsqueue.C81_refuted | propext, Quot.sound |
| C81 | Opsqueue.C81_survives_partial | propext, Classical.choice, Quot.sound |
| C82 | Opsqueue.HttpText.C82_parser_reads_json | propext, Classical.choice, Quot.sound |
| C82 | Opsqueue.HttpText.C82_written_is_read_back | propext, Classical.choice, Quot.sound |
| C82 | Opsqueue.HttpText.C82_times | propext, Classical.choice, Quot.sound |
| C82 | Opsqueue.HttpText.C82_values_arrive | propext, Classical.choice, Quot.sound |
| C82 | Opsqueue.HttpText.C82_answers | propext, Classical.choice, Quot.sound |
| C82 | Opsqueue.HttpText.C82_calls | propext, Classical.choice, Quot.sound |
| C82 | Opsqueue.HttpText.C82_any_json_will_do | propext, Classical.choice, Quot.sound |
| C82 | Opsqueue.HttpText.C82_other_bodies_are_refused | propext, Classical.choice, Quot.sound |
| C83 | Opsqueue.HttpText.C83_short_requests_partial | propext, Classical.choice, Quot.sound |
| C83 | Opsqueue.HttpText.C83_object_store_is_short | propext, Classical.choice, Quot.sound |
| C83 | Opsqueue.HttpText.C83_long_requests_are_refused | propext, Classical.choice, Quot.sound |
| C83 | Opsqueue.HttpText.C83_a_mebibyte_of_chunks_is_too_long | propext, Classical.choice, Quot.sound |
| C83 | Opsqueue.HttpText.C83_refuted_by_a_long_submission | propext, Classical.choice, Quot.sound |
| C84 | Opsqueue.Shutdown.C84_nothing_worse_than_a_crash | propext, Quot.sound |
| C84 | Opsqueue.Shutdown.C84_stopping_takes_half_a_second | propext, Classical.choice, Quot.sound |
| C84 | Opsqueue.Shutdown.C84_stopping_server_still_serves | propext, Quot.sound |
| C84 | Opsqueue.Shutdown.C84_ended_server_does_nothing | propext, Quot.sound |
| C84 | Opsqueue.Shutdown.C84_refuted_a_report_is_lost | propext, Quot.sound |
| C84 | Opsqueue.Shutdown.C84_lost_reports_have_no_effect_partial | propext, Quot.sound |
| C84 | Opsqueue.Shutdown.C84_work_is_offered_again | propext, Classical.choice, Quot.sound |
| C85 | Opsqueue.Reconnect.C85_refuted_misuse | propext, Quot.sound |
| C85 | Opsqueue.Reconnect.C85_refuted_late_failure | propext, Quot.sound |
| C85 | Opsqueue.Reconnect.C85_refuted_two_connect | propext, Quot.sound |
| C85 | Opsqueue.Reconnect.C85_refuted_panic | propext |
| C85 | Opsqueue.Reconnect.C85_one_at_a_time_partial | propext, Classical.choice, Quot.sound |
| C85 | Opsqueue.Reconnect.C85_connection_used | propext, Classical.choice, Quot.sound |
| C85 | Opsqueue.Reconnect.C85_after_a_call | propext, Classical.choice, Quot.sound |
| C85 | Opsqueue.Reconnect.C85_one_error_per_connection | propext, Classical.choice, Quot.sound |
| C85 | Opsqueue.Reconnect.C85_given_up_for_good | propext, Classical.choice, Quot.sound |
| C85 | Opsqueue.Reconnect.C85_outage | propext, Quot.sound |
| C85 | Opsqueue.Reconnect.C85_panics_after_an_error | propext, Classical.choice, Quot.sound |
| C85 | Opsqueue.Reconnect.C85_no_leak | propext |
| C86 | Opsqueue.Recovery.C86_loss_has_a_reason | propext, Classical.choice, Quot.sound |
| C86 | Opsqueue.Recovery.C86_refuted_read_error | propext, Classical.choice, Quot.sound |
| C86 | Opsqueue.Recovery.C86_refuted_unreadable | propext, Classical.choice, Quot.sound |
| C86 | Opsqueue.Recovery.C86_no_hang_partial | propext, Classical.choice, Quot.sound |
| C86 | Opsqueue.Recovery.C86_lost_for_good | propext, Classical.choice, Quot.sound |
| C86 | Opsqueue.Recovery.C86_costs_one_call | propext, Classical.choice, Quot.sound |
| C86 | Opsqueue.Recovery.C86_failures_are_real | propext, Classical.choice, Quot.sound |
| C86 | Opsqueue.Recovery.C86_is_healthy | propext, Classical.choice, Quot.sound |
| C86 | Opsqueue.Recovery.C86_new_connection | propext, Classical.choice, Quot.sound |
| C86 | Opsqueue.Recovery.C86_recovers | propext, Classical.choice, Quot.sound |
| C87 | Opsqueue.C87_server_not_early | propext, Classical.choice, Quot.sound |
| C87 | Opsqueue.C87_consumer_not_early | propext, Classical.choice, Quot.sound |
| C87 | Opsqueue.C87_server_notices | propext, Classical.choice, Quot.sound |
| C87 | Opsqueue.C87_consumer_notices | propext, Classical.choice, Quot.sound |
| C87 | Opsqueue.C87_defaults | propext, Classical.choice, Quot.sound |
| C87 | Opsqueue.C87_refuted_by_stall | propext, Quot.sound |
| C87 | Opsqueue.C87_live_consumer_is_kept_partial | propext, Classical.choice, Quot.sound |
| C87 | Opsqueue.C87_answering_consumer_is_kept | propext, Classical.choice, Quot.sound |
| C88 | Opsqueue.C88_server_keeps_consumer | propext, Classical.choice, Quot.sound |
| C88 | Opsqueue.C88_refuted_by_busy_consumer | propext, Quot.sound |
| C88 | Opsqueue.C88_consumer_keeps_server_partial | propext, Classical.choice, Quot.sound |
| C89 | Opsqueue.Polling.C89_same_wait | propext, Quot.sound |
| C89 | Opsqueue.Polling.C89_producer_learns_partial | propext, Classical.choice, Quot.sound |
| C89 | Opsqueue.Polling.C89_refuted_by_short_retention | propext, Quot.sound |
| C90 | Opsqueue.Interrupt.C90_blocking_call | propext, Classical.choice, Quot.sound |
| C90 | Opsqueue.Interrupt.C90_no_false_alarm | propext, Classical.choice, Quot.sound |
| C90 | Opsqueue.Interrupt.C90_reserve_partial | propext, Classical.choice, Quot.sound |
| C90 | Opsqueue.Interrupt.C90_reserve_short_interval | propext, Classical.choice, Quot.sound |
| C90 | Opsqueue.Interrupt.C90_reserve_honest | propext, Classical.choice, Quot.sound |
| C90 | Opsqueue.Interrupt.C90_refuted_by_empty_answers | propext, Classical.choice, Quot.sound |
| C90 | Opsqueue.Interrupt.C90_refuted | propext, Classical.choice, Quot.sound |
| C90 | Opsqueue.Interrupt.C90_consumer_stops_partial | propext, Classical.choice, Quot.sound |
| C90 | Opsqueue.Interrupt.C90_refuted_by_quick_errors | propext, Classical.choice, Quot.sound |
| C90 | Opsqueue.Interrupt.C90_refuted_by_failed_report | propext, Classical.choice, Quot.sound |
| C91 | Opsqueue.Server.C91_enough_reports | propext, Classical.choice, Quot.sound |
| C91 | Opsqueue.Server.C91_tries_partial | propext, Classical.choice, Quot.sound |
| C91 | Opsqueue.Server.C91_half_the_tries_partial | propext, Classical.choice, Quot.sound |
| C91 | Opsqueue.Server.C91_refuted_by_expiry | propext, Classical.choice, Quot.sound |
| C91 | Opsqueue.Server.C91_refuted_by_lost_reservation | propext, Classical.choice, Quot.sound |
| C92 | Opsqueue.Maintenance.C92_nothing_lingers | propext, Quot.sound |
| C92 | Opsqueue.Maintenance.C92_told_in_time | propext, Classical.choice, Quot.sound |
| C92 | Opsqueue.Maintenance.C92_released_in_time | propext, Quot.sound |
| C93 | Opsqueue.EndToEnd.C93_inputs_never_change | propext, Classical.choice, Quot.sound |
| C93 | Opsqueue.EndToEnd.C93_executions_get_the_input | propext, Classical.choice, Quot.sound |
| C93 | Opsqueue.EndToEnd.C93_without_late_executions_partial | propext, Classical.choice, Quot.sound |
| C93 | Opsqueue.EndToEnd.C93_deterministic_partial | propext, Classical.choice, Quot.sound |
| C93 | Opsqueue.EndToEnd.C93_refuted_by_late_consumer | propext, Classical.choice, Quot.sound |
| C94 | Opsqueue.C94_refuted_without_bound | propext, Quot.sound |
| C94 | Opsqueue.C94_refuted_by_visit | propext, Quot.sound |
| C94 | Opsqueue.C94_one_task_per_request_partial | propext, Quot.sound |
| C94 | Opsqueue.C94_insert_cleans_up_partial | propext, Quot.sound |
| C94 | Opsqueue.C94_harmless | propext, Quot.sound |
| C94 | Opsqueue.C94_refuted_until_an_insert | propext, Quot.sound |
| C94 | Opsqueue.C94_restart_cleans_up | propext, Quot.sound |
| C95 | Opsqueue.C95_answers | propext, Classical.choice, Quot.sound |
| C95 | Opsqueue.C95_as_stored | propext, Classical.choice, Quot.sound |
| C95 | Opsqueue.C95_as_given | propext, Classical.choice, Quot.sound |
| C95 | Opsqueue.C95_retries | propext, Classical.choice, Quot.sound |
| C96 | Opsqueue.C96_refuted_by_panic | propext, Classical.choice, Quot.sound |
| C96 | Opsqueue.C96_consumers_partial | propext, Quot.sound |
| C96 | Opsqueue.C96_reserved | propext, Quot.sound |
| C96 | Opsqueue.C96_reserved_unknown | propext, Quot.sound |
| C96 | Opsqueue.C96_refuted_for_work | propext, Quot.sound |
| C96 | Opsqueue.C96_succeeded | propext, Classical.choice, Quot.sound |
| C96 | Opsqueue.C96_reserved_le | propext, Classical.choice, Quot.sound |
| C96 | Opsqueue.C96_failed | propext, Quot.sound |
| C97 | Opsqueue.Scaling.C97_operations_are_recent | propext, Classical.choice, Quot.sound |
| C97 | Opsqueue.Scaling.C97_chunks_are_recent_partial | propext, Classical.choice, Quot.sound |
| C97 | Opsqueue.Scaling.C97_settles | propext, Classical.choice, Quot.sound |
| C97 | Opsqueue.Scaling.C97_refuted_a_failed_chunk | propext, Classical.choice, Quot.sound |
| C97 | Opsqueue.Scaling.C97_nothing_is_shown_at_first | propext, Classical.choice, Quot.sound |
| C98 | Opsqueue.Mailbox.C98_as_if_without_bound | propext, Classical.choice, Quot.sound |
| C98 | Opsqueue.Mailbox.C98_bounded | propext, Classical.choice, Quot.sound |
| C98 | Opsqueue.Mailbox.C98_reports_are_read | propext, Quot.sound |
| C98 | Opsqueue.Mailbox.C98_nothing_is_lost | propext, Classical.choice, Quot.sound |
| C98 | Opsqueue.Mailbox.C98_in_turn | propext, Classical.choice, Quot.sound |
| C98 | Opsqueue.Mailbox.C98_room_in_turn | propext, Classical.choice, Quot.sound |
| C98 | Opsqueue.Mailbox.C98_no_needless_wait | propext, Classical.choice, Quot.sound |
| C98 | Opsqueue.Mailbox.C98_held_up | propext, Classical.choice, Quot.sound |
| C98 | Opsqueue.Mailbox.C98_enters | propext, Classical.choice, Quot.sound |
| C98 | Opsqueue.Mailbox.C98_is_taken | propext, Quot.sound |
| C98 | Opsqueue.Mailbox.C98_others_go_on | propext, Quot.sound |
| C99 | Opsqueue.C99_stays_sound | propext, Classical.choice, Quot.sound |
| C99 | Opsqueue.C99_own_is_sound | propext, Classical.choice, Quot.sound |
| C99 | Opsqueue.C99_lives | propext, Classical.choice, Quot.sound |
| C99 | Opsqueue.C99_answers | propext, Classical.choice, Quot.sound |
| C99 | Opsqueue.C99_can_be_finished | propext, Classical.choice, Quot.sound |
| C100 | Opsqueue.C100_nothing_is_left_open | propext, Classical.choice, Quot.sound |
| C100 | Opsqueue.C100_one_connection | propext, Classical.choice, Quot.sound |
| C100 | Opsqueue.C100_needs_a_transaction | propext, Quot.sound |
| C101 | Opsqueue.Address.C101_producer_partial | propext, Classical.choice, Quot.sound |
| C101 | Opsqueue.Address.C101_consumer_partial | propext, Classical.choice, Quot.sound |
| C101 | Opsqueue.Address.C101_without_scheme | propext, Classical.choice, Quot.sound |
| C101 | Opsqueue.Address.C101_refuted_http_for_consumers | propext, Classical.choice, Quot.sound |
| C101 | Opsqueue.Address.C101_refuted_other_schemes | propext, Classical.choice, Quot.sound |
| C101 | Opsqueue.Address.C101_refuted_no_scheme_for_both | propext, Classical.choice, Quot.sound |
| C101 | Opsqueue.Address.C101_refuted_slash | propext, Classical.choice, Quot.sound |
| C101 | Opsqueue.Address.C101_refuted | propext, Classical.choice, Quot.sound |
| C102 | Opsqueue.Frames.C102_exactly | propext, Classical.choice, Quot.sound |
| C102 | Opsqueue.Frames.C102_reports_partial | propext, Classical.choice, Quot.sound |
| C102 | Opsqueue.Frames.C102_answers_partial | propext, Classical.choice, Quot.sound |
| C102 | Opsqueue.Frames.C102_six_chunks_partial | propext, Classical.choice, Quot.sound |
| C102 | Opsqueue.Frames.C102_long_reports_are_lost | propext, Classical.choice, Quot.sound |
| C102 | Opsqueue.Frames.C102_long_answers_are_lost | propext, Classical.choice, Quot.sound |
| C102 | Opsqueue.Frames.C102_refuted_by_a_report | propext, Classical.choice, Quot.sound |
| C102 | Opsqueue.Frames.C102_refuted_by_an_answer | propext, Classical.choice, Quot.sound |
| C102 | Opsqueue.Frames.C102_refuted | propext, Classical.choice, Quot.sound |
| C103 | Opsqueue.Durations.C103_exactly | propext, Classical.choice, Quot.sound |
| C103 | Opsqueue.Durations.C103_up_to_a_thousand_years_partial | propext, Classical.choice, Quot.sound |
| C103 | Opsqueue.Durations.C103_zero_heartbeat_interval | propext, Quot.sound |
| C103 | Opsqueue.Durations.C103_long_heartbeat_interval | propext, Quot.sound |
| C103 | Opsqueue.Durations.C103_ends_at_start | propext, Quot.sound |
| C103 | Opsqueue.Durations.C103_refuted | propext, Classical.choice, Quot.sound |
| C103 | Opsqueue.Durations.C103_refuted_in_four_ways | propext, Classical.choice, Quot.sound |
| C104 | Opsqueue.Carrier.C104_written_is_read_back | propext, Classical.choice, Quot.sound |
| C104 | Opsqueue.Carrier.C104_any_text | propext, Classical.choice, Quot.sound |
| C104 | Opsqueue.Carrier.C104_reaches_the_callback | propext, Classical.choice, Quot.sound |
| C104 | Opsqueue.Carrier.C104_request_headers | propext, Classical.choice, Quot.sound |
| C105 | Opsqueue.Streaming.C105_at_most_one_chunk_is_held | propext, Quot.sound |
| C105 | Opsqueue.Streaming.C105_drawn_when_needed | propext, Quot.sound |
| C105 | Opsqueue.Streaming.C105_success_is_complete | propext, Quot.sound |
| C105 | Opsqueue.Streaming.C105_ends | propext, Classical.choice, Quot.sound |
| C105 | Opsqueue.Streaming.C105_failure_has_a_reason | propext |
| C105 | Opsqueue.Streaming.C105_same_chunks | propext, Quot.sound |
| C105 | Opsqueue.Streaming.C105_endless | propext, Classical.choice, Quot.sound |
| C105 | Opsqueue.Streaming.C105_results_of_one_chunk_are_held | propext, Quot.sound |
| C105 | Opsqueue.Streaming.C105_retrieved_when_needed | propext, Quot.sound |
| C105 | Opsqueue.Streaming.C105_same_results | propext, Quot.sound |
| C105 | Opsqueue.Streaming.C105_request_is_answered | propext, Classical.choice, Quot.sound |
| C105 | Opsqueue.Streaming.C105_there_and_back | propext, Quot.sound |
