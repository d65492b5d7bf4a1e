{
 "claims": [
  {
   "property": "C01",
   "status": "proved",
   "theorems": [
    "Opsqueue.C01_chunks_conserved"
   ],
   "note": ""
  },
  {
   "property": "C02",
   "status": "proved",
   "theorems": [
    "Opsqueue.C02_one_state",
    "Opsqueue.C02_lookups_exclusive"
   ],
   "note": ""
  },
  {
   "property": "C03",
   "status": "proved",
   "theorems": [
    "Opsqueue.C03_terminal_final",
    "Opsqueue.C03_gone_forever"
   ],
   "note": ""
  },
  {
   "property": "C04",
   "status": "proved",
   "theorems": [
    "Opsqueue.C04_completed_means_all_reported"
   ],
   "note": ""
  },
  {
   "property": "C05",
   "status": "proved",
   "theorems": [
    "Opsqueue.C05_last_completion_completes"
   ],
   "note": ""
  },
  {
   "property": "C06",
   "status": "proved",
   "theorems": [
    "Opsqueue.C06_stale_completion_harmless",
    "Opsqueue.C06_done_le_total"
   ],
   "note": ""
  },
  {
   "property": "C07",
   "status": "proved",
   "theorems": [
    "Opsqueue.C07_retry_below_budget",
    "Opsqueue.C07_fail_at_budget",
    "Opsqueue.C07_retries_are_reports",
    "Opsqueue.C07_fails_at_exactly_max_one_m",
    "Opsqueue.C07_server_uses_its_budget",
    "Opsqueue.C07_server_fails_at_max_one_m"
   ],
   "note": ""
  },
  {
   "property": "C08",
   "status": "proved",
   "theorems": [
    "Opsqueue.C08_permanent_failure"
   ],
   "note": ""
  },
  {
   "property": "C09",
   "status": "proved",
   "theorems": [
    "Opsqueue.C09_cancel_in_progress",
    "Opsqueue.C09_cancel_over",
    "Opsqueue.C09_cancel_unknown",
    "Opsqueue.C09_cancel_in_progress_not_refused",
    "Opsqueue.C09_cancel_never_panics"
   ],
   "note": ""
  },
  {
   "property": "C10",
   "status": "proved",
   "theorems": [
    "Opsqueue.C10_insert_faithful",
    "Opsqueue.C10_insert_all_or_nothing",
    "Opsqueue.C10_batching_unobservable",
    "Opsqueue.Http.C10_http_insert_direct",
    "Opsqueue.Http.C10_http_insert_object_store"
   ],
   "note": "C10_insert_faithful: effect of the undisturbed insert under a fresh id. C10_insert_all_or_nothing: any faults. C10_batching_unobservable: any batch size."
  },
  {
   "property": "C11",
   "status": "proved",
   "theorems": [
    "Opsqueue.C11_atomic",
    "Opsqueue.C11_success_is_full_effect",
    "Opsqueue.C11_atomic_empty_insert"
   ],
   "note": "C11_atomic covers every call but the insert of an empty submission, in any database; C11_atomic_empty_insert covers that one. Invariants in recovered databases: all other theorems quantify over histories with arbitrary crashes."
  },
  {
   "property": "C12",
   "status": "proved",
   "theorems": [
    "Opsqueue.C12_failed_statement_no_effect"
   ],
   "note": ""
  },
  {
   "property": "C13",
   "status": "proved",
   "theorems": [
    "Opsqueue.C13_empty_returned_is_completed",
    "Opsqueue.C13_empty_left_in_progress_stuck"
   ],
   "note": "Proved for every call that returns an id. C13_empty_left_in_progress_stuck and the example after it show what happens when the process dies between the two transactions of an empty insert: no id is returned and the submission stays in progress until cancelled."
  },
  {
   "property": "C14",
   "status": "proved",
   "theorems": [
    "Opsqueue.C14_status_was_true_at_some_moment",
    "Opsqueue.C14_known_never_missed"
   ],
   "note": "Four arbitrary histories between the reads of one status call."
  },
  {
   "property": "C15",
   "status": "partial",
   "theorems": [
    "Opsqueue.C15_failed_shows_chunk_partial",
    "Opsqueue.C15_dates",
    "Opsqueue.C15_refuted_for_backward_clock"
   ],
   "note": "Proved when the clock does not run backwards within a failure report. C15_refuted_for_backward_clock proves that the full statement is false of the program without that assumption."
  },
  {
   "property": "C16",
   "status": "proved",
   "theorems": [
    "Opsqueue.C16_cleanup_exact"
   ],
   "note": "Includes what happens to records of completed and failed chunks, and (for failed submissions only) the clock assumption of C15."
  },
  {
   "property": "C17",
   "status": "proved",
   "theorems": [
    "Opsqueue.C17_metadata_lifetime"
   ],
   "note": ""
  },
  {
   "property": "C18",
   "status": "proved",
   "theorems": [
    "Opsqueue.C18_metadata_lookup"
   ],
   "note": ""
  },
  {
   "property": "C19",
   "status": "partial",
   "theorems": [
    "Opsqueue.C19_prefix_lookup_partial",
    "Opsqueue.C19_refuted_for_cancelled"
   ],
   "note": "Proved for submissions that are not cancelled. C19_refuted_for_cancelled proves the full statement false of the program."
  },
  {
   "property": "C20",
   "status": "proved",
   "theorems": [
    "Opsqueue.C20_counts",
    "Opsqueue.C20_finished_counts"
   ],
   "note": ""
  },
  {
   "property": "C21",
   "status": "partial",
   "theorems": [
    "Opsqueue.C21_attributes_partial",
    "Opsqueue.C21_refuted_chunk_size_lost"
   ],
   "note": "Prefix, total, metadata, strategic metadata are kept in all states. C21_refuted_chunk_size_lost proves that chunk size and trace carrier are replaced by defaults on completion and failure."
  },
  {
   "property": "C22",
   "status": "proved",
   "theorems": [
    "Opsqueue.C22_other_submissions_unaffected"
   ],
   "note": ""
  },
  {
   "property": "C23",
   "status": "proved",
   "theorems": [
    "Opsqueue.C23_exclusive"
   ],
   "note": ""
  },
  {
   "property": "C24",
   "status": "partial",
   "theorems": [
    "Opsqueue.C24_refuted_by_late_report",
    "Opsqueue.C24_only_holder_ends_partial",
    "Opsqueue.C24_first_holder_partial",
    "Opsqueue.C24_nothing_left_after_report_partial"
   ],
   "note": "The full statement (C24_full) is false of the code and refuted by C24_refuted_by_late_report: the completer does not check that the reporter still holds the reservation, so a late failure report of the first holder ends the second holder's reservation. Proved: only the holder can end a reservation as long as nobody has a stale claim on the chunk (report queued, delayed removal pending, chunk noted on another connection)."
  },
  {
   "property": "C25",
   "status": "proved",
   "theorems": [
    "Opsqueue.C25_expires",
    "Opsqueue.C25_notices"
   ],
   "note": ""
  },
  {
   "property": "C26",
   "status": "partial",
   "theorems": [
    "Opsqueue.C26_retry_at_once",
    "Opsqueue.C26_refuted_for_repeated_finish",
    "Opsqueue.C26_stays_reserved_partial",
    "Opsqueue.C26_completed_stays_reserved_partial",
    "Opsqueue.C26_failed_stays_reserved_partial",
    "Opsqueue.C26_server_retry_at_once"
   ],
   "note": "Proved for a key that is finished at most once while reserved. C26_refuted_for_repeated_finish proves the full statement false: a second delayed finish is overtaken by the first one's removal."
  },
  {
   "property": "C27",
   "status": "partial",
   "theorems": [
    "Opsqueue.C27_limit_zero_rejected",
    "Opsqueue.C27_reserves_exactly_partial",
    "Opsqueue.C27_refuted_when_fetch_fails"
   ],
   "note": "Proved for every request that is answered with chunks, and for limit 0. C27_refuted_when_fetch_fails proves that a request that ends with a database error may leave a chunk reserved that is in no answer."
  },
  {
   "property": "C28",
   "status": "proved",
   "theorems": [
    "Opsqueue.C28_takes_the_first_free"
   ],
   "note": "For a request during which nothing else happens; under interference C27 applies."
  },
  {
   "property": "C29",
   "status": "proved",
   "theorems": [
    "Opsqueue.C29_oldest",
    "Opsqueue.C29_newest"
   ],
   "note": ""
  },
  {
   "property": "C30",
   "status": "proved",
   "theorems": [
    "Opsqueue.C30_random"
   ],
   "note": ""
  },
  {
   "property": "C31",
   "status": "proved",
   "theorems": [
    "Opsqueue.C31_prefer_distinct"
   ],
   "note": ""
  },
  {
   "property": "C32",
   "status": "partial",
   "theorems": [
    "Opsqueue.C32_refuted_overflow",
    "Opsqueue.C32_random_order_partial",
    "Opsqueue.C32_every_value_occurs"
   ],
   "note": "Proved for ids below 2^63 minus the largest index. C32_refuted_overflow proves the full statement false for larger ids (SQLite switches to floating point)."
  },
  {
   "property": "C33",
   "status": "proved",
   "theorems": [
    "Opsqueue.C33_counts_sequential",
    "Opsqueue.C33_counts_concurrent",
    "Opsqueue.C33_order_irrelevant",
    "Opsqueue.C33_no_underflow"
   ],
   "note": ""
  },
  {
   "property": "C34",
   "status": "partial",
   "theorems": [
    "Opsqueue.C34_refuted_by_disconnect",
    "Opsqueue.C34_orderly_partial",
    "Opsqueue.C34_orderly_quiet_partial"
   ],
   "note": "The full statement (C34_full) is false of the program: C34_refuted_by_disconnect. Proved for every history of orderly actions, crashes included; the restrictions are the definition Orderly."
  },
  {
   "property": "C35",
   "status": "proved",
   "theorems": [
    "Opsqueue.C35_disconnect_gives_back",
    "Opsqueue.C35_another_consumer_gets_it"
   ],
   "note": ""
  },
  {
   "property": "C36",
   "status": "partial",
   "theorems": [
    "Opsqueue.C36_refuted_by_lost_wakeup",
    "Opsqueue.C36_refuted_by_silent_release",
    "Opsqueue.C36_insert_wakes_partial",
    "Opsqueue.C36_served_when_woken_partial"
   ],
   "note": "The full statement (C36_full) is false of the program in two ways: C36_refuted_by_lost_wakeup and C36_refuted_by_silent_release. Proved: an insert wakes every request registered as waiting, and a woken request that finds work is answered with it."
  },
  {
   "property": "C37",
   "status": "proved",
   "theorems": [
    "Opsqueue.C37_each_request_answered_or_waiting",
    "Opsqueue.C37_at_most_one_response",
    "Opsqueue.C37_reports_get_no_response",
    "Opsqueue.C37_response_contents",
    "Opsqueue.C37_one_answer_per_request"
   ],
   "note": ""
  },
  {
   "property": "C38",
   "status": "partial",
   "theorems": [
    "Opsqueue.C38_outstanding_nonces_differ",
    "Opsqueue.C38_delivered_to_its_call",
    "Opsqueue.C38_responses_are_genuine",
    "Opsqueue.C38_no_panic",
    "Opsqueue.C38_no_panic_with_this_server",
    "Opsqueue.C38_connection_loss_partial",
    "Opsqueue.C38_calls_in_progress_fail",
    "Opsqueue.C38_refuted_call_after_read_error_hangs"
   ],
   "note": "Everything is proved except that a call started after a read error that leaves the socket usable hangs; C38_refuted_call_after_read_error_hangs proves that. C38_no_panic_with_this_server is about the client and the server connection joined by a socket."
  },
  {
   "property": "C39",
   "status": "proved",
   "theorems": [
    "Opsqueue.C39_client_exactly_when",
    "Opsqueue.C39_exactly_when",
    "Opsqueue.C39_live_peer_is_kept",
    "Opsqueue.C39_silent_peer_is_dropped"
   ],
   "note": ""
  },
  {
   "property": "C40",
   "status": "proved",
   "theorems": [
    "Opsqueue.C40_undeliverable_chunks_given_back",
    "Opsqueue.C40_expired_chunk_given_back",
    "Opsqueue.C40_reports_arrive_in_order"
   ],
   "note": ""
  },
  {
   "property": "C41",
   "status": "partial",
   "theorems": [
    "Opsqueue.Http.C41_what_is_retried",
    "Opsqueue.Http.C41_plain_calls_partial",
    "Opsqueue.Http.C41_cancel_and_lookup_partial",
    "Opsqueue.Http.C41_version_once",
    "Opsqueue.Http.C41_refuted_for_5xx_on_cancel",
    "Opsqueue.Http.C41_refuted_for_undecodable_status"
   ],
   "note": "The full statement (C41_full) is false of the program: cancel and metadata lookup do not retry a 5xx answer (C41_refuted_for_5xx_on_cancel), and the other calls do not retry an undecodable body (C41_refuted_for_undecodable_status). Proved: for each call exactly which failures are retried, that there are at most 101 attempts, and that the outcome of the last attempt is returned; server_version makes one attempt."
  },
  {
   "property": "C42",
   "status": "proved",
   "theorems": [
    "Opsqueue.Http.C42_cancel",
    "Opsqueue.Http.C42_refusals_are_true",
    "Opsqueue.Http.C42_cancel_call",
    "Opsqueue.Http.C42_lookup_call",
    "Opsqueue.Http.C42_status_call",
    "Opsqueue.Http.C42_count_call"
   ],
   "note": ""
  },
  {
   "property": "C43",
   "status": "partial",
   "theorems": [
    "Opsqueue.Http.C43_refuted_by_lost_response",
    "Opsqueue.Http.C43_refuted_by_empty_submission",
    "Opsqueue.Http.C43_one_effect_partial"
   ],
   "note": "The full statement (C43_full) is false of the program: a lost response followed by a retry creates a second submission (C43_refuted_by_lost_response), and so does a database error while an empty submission is being completed (C43_refuted_by_empty_submission). Proved for submissions with chunks if no response is lost and the server does not die during the call."
  },
  {
   "property": "C44",
   "status": "proved",
   "theorems": [
    "Opsqueue.ObjectStore.C44_paths_never_collide",
    "Opsqueue.ObjectStore.C44_slashes_collide"
   ],
   "note": "For all prefixes without a slash, as the property says; C44_slashes_collide shows that the restriction is needed."
  },
  {
   "property": "C45",
   "status": "proved",
   "theorems": [
    "Opsqueue.ObjectStore.C45_store_succeeds_iff",
    "Opsqueue.ObjectStore.C45_retrieve_what_was_stored",
    "Opsqueue.ObjectStore.C45_missing_is_error"
   ],
   "note": ""
  },
  {
   "property": "C46",
   "status": "proved",
   "theorems": [
    "Opsqueue.Python.C46_chunking_roundtrip",
    "Opsqueue.Python.C46_bad_size_rejected",
    "Opsqueue.Python.C46_errors_are_raised"
   ],
   "note": ""
  },
  {
   "property": "C47",
   "status": "proved",
   "theorems": [
    "Opsqueue.EndToEnd.C47_results_in_order",
    "Opsqueue.EndToEnd.C47_results_only_if_completed"
   ],
   "note": "Over a transition system of producers, server, consumers and object store (Model/EndToEnd). Results of operations by a deterministic callback that may raise; prefixes are fresh UUIDs without slash; submission ids are fresh; the serialization format is faithful."
  },
  {
   "property": "C48",
   "status": "proved",
   "theorems": [
    "Opsqueue.EndToEnd.C48_completed_has_outputs",
    "Opsqueue.EndToEnd.C48_outputs_are_results"
   ],
   "note": "Over the same transition system; completions come from consumers of the Python library, all sharing one object store and base path."
  },
  {
   "property": "C49",
   "status": "partial",
   "theorems": [
    "Opsqueue.Python.C49_wait_returns_results",
    "Opsqueue.Python.C49_wait_raises_on_failure",
    "Opsqueue.Python.C49_pauses",
    "Opsqueue.Python.C49_pauses_double",
    "Opsqueue.Python.C49_refuted_for_cancelled",
    "Opsqueue.Python.C49_refuted",
    "Opsqueue.Python.C49_refuted_for_unknown",
    "Opsqueue.Python.C49_wait_ends_partial"
   ],
   "note": "Proved for completed and failed submissions and for the pauses; refuted for cancelled and unknown submissions, on which the wait never ends."
  },
  {
   "property": "C50",
   "status": "proved",
   "theorems": [
    "Opsqueue.C50_submission_ids_lossless",
    "Opsqueue.C50_chunk_indexes_lossless"
   ],
   "note": ""
  },
  {
   "property": "C51",
   "status": "proved",
   "theorems": [
    "Opsqueue.C51_max_submissions_never_overflows"
   ],
   "note": ""
  },
  {
   "property": "C52",
   "status": "proved",
   "theorems": [
    "Opsqueue.C52_migration_keeps_largest"
   ],
   "note": ""
  },
  {
   "property": "C53",
   "status": "proved",
   "theorems": [
    "Opsqueue.Python.C53_strategy_roundtrip",
    "Opsqueue.Python.C53_status_shows_all",
    "Opsqueue.Python.C53_status_fields"
   ],
   "note": ""
  },
  {
   "property": "C54",
   "status": "partial",
   "theorems": [
    "Opsqueue.Python.C54_refuted_counter_doubles",
    "Opsqueue.Python.C54_refuted_never_logs",
    "Opsqueue.Python.C54_refuted",
    "Opsqueue.Python.C54_progress_partial"
   ],
   "note": "Refuted: the counter doubles with every chunk (2^n-1), so the progress message is never logged at all. What remains true is proved as _partial."
  },
  {
   "property": "C55",
   "status": "proved",
   "theorems": [
    "Opsqueue.C55_in_order",
    "Opsqueue.C55_none_lost",
    "Opsqueue.C55_late_report_harmless"
   ],
   "note": ""
  },
  {
   "property": "C56",
   "status": "proved",
   "theorems": [
    "Opsqueue.C56_completion_exact"
   ],
   "note": ""
  },
  {
   "property": "C57",
   "status": "partial",
   "theorems": [
    "Opsqueue.Http.C57_refuted_by_lost_response",
    "Opsqueue.Http.C57_cancel_says_so_partial"
   ],
   "note": "The full statement (C57_full) is false of the program: after a lost response the retry reports NotCancellable(Cancelled) (C57_refuted_by_lost_response). Proved if no response is lost and the server does not die during the call."
  },
  {
   "property": "C58",
   "status": "partial",
   "theorems": [
    "Opsqueue.Http.C58_prefix_call_partial",
    "Opsqueue.Http.C58_refuted_for_question_mark"
   ],
   "note": "The full statement (C58_full) is false of the program: the prefix is put into the URL without encoding (C58_refuted_for_question_mark). Proved for all prefixes without characters that mean something in a URL."
  },
  {
   "property": "C59",
   "status": "proved",
   "theorems": [
    "Opsqueue.Python.C59_reports_as_due"
   ],
   "note": ""
  },
  {
   "property": "C60",
   "status": "partial",
   "theorems": [
    "Opsqueue.Python.C60_refuted_by_retrieval",
    "Opsqueue.Python.C60_refuted_by_upload",
    "Opsqueue.Python.C60_refuted",
    "Opsqueue.Python.C60_reported_partial",
    "Opsqueue.Python.C60_refuted_for_batches"
   ],
   "note": "Refuted: if the input cannot be retrieved or the output cannot be stored there is no report and the chunk stays reserved; proved if the object store works."
  },
  {
   "property": "C61",
   "status": "proved",
   "theorems": [
    "Opsqueue.C61_lives",
    "Opsqueue.C61_undisturbed"
   ],
   "note": "Refinement: the database restricted to one submission id is the image of the record computed by Spec/Machine.lean. Assumes fresh ids and strategic metadata without repeated keys (it is a map in the API)."
  },
  {
   "property": "C62",
   "status": "proved",
   "theorems": [
    "Opsqueue.C62_every_chunk_is_offered",
    "Opsqueue.C62_all_work_gets_done"
   ],
   "note": "Stated as: from every reachable state a given, explicit continuation finishes all work. Not a fairness theorem: what happens if other consumers keep failing is up to them."
  },
  {
   "property": "C63",
   "status": "proved",
   "theorems": [
    "Opsqueue.Http.C63_only_what_is_asked",
    "Opsqueue.Http.C63_unreadable_is_refused",
    "Opsqueue.Http.C63_readable_is_served",
    "Opsqueue.Http.C63_lookup_is_served",
    "Opsqueue.Http.C63_status_codes",
    "Opsqueue.Http.C63_unknown_is_refused",
    "Opsqueue.Http.C63_client_error_changes_nothing",
    "Opsqueue.Http.C63_every_request_is_answered"
   ],
   "note": "Six theorems: only well-formed inserts and cancels write; unreadable requests get 422 or 400; readable ones are served like the client's own; unknown paths and methods get 404 or 405; a 4xx answer means nothing changed; every request is answered unless the server is killed. The bounds of integers inside bodies are not modelled (only those of ids in paths), nor are structs written as JSON arrays."
  },
  {
   "property": "C64",
   "status": "proved",
   "theorems": [
    "Opsqueue.Http.C64_reads_are_true",
    "Opsqueue.Http.C64_results_are_what_was_answered"
   ],
   "note": "For prefixes that contain no character with a meaning in URLs (see C58) and ids below 2^63."
  },
  {
   "property": "C65",
   "status": "proved",
   "theorems": [
    "Opsqueue.Messages.C65_client_messages_arrive",
    "Opsqueue.Messages.C65_server_messages_arrive",
    "Opsqueue.Messages.C65_messages_are_not_confused",
    "Opsqueue.Messages.C65_cut_off_is_refused",
    "Opsqueue.Messages.C65_too_deep_is_refused",
    "Opsqueue.Messages.C65_only_valid_messages_are_read",
    "Opsqueue.Messages.C65_what_the_server_reads",
    "Opsqueue.Messages.C65_what_the_consumer_reads",
    "Opsqueue.Messages.C65_connection_acts_on_what_was_sent",
    "Opsqueue.Messages.C65_unreadable_ends_the_connection"
   ],
   "note": "Down to the bytes: CBOR (RFC 8949) written and read as ciborium does it. Indefinite lengths, tags, floats and byte strings, which the programs never send, are refused by the model. The limit of 126 levels follows from ciborium's recursion limit of 256, which is not in /repo and is an assumption."
  },
  {
   "property": "C66",
   "status": "partial",
   "theorems": [
    "Opsqueue.C66_nothing_is_missed",
    "Opsqueue.C66_exact_when_undisturbed_partial",
    "Opsqueue.C66_full_when_undisturbed_partial",
    "Opsqueue.C66_submissions_balance_partial",
    "Opsqueue.C66_restart",
    "Opsqueue.C66_metrics_do_not_interfere",
    "Opsqueue.C66_refuted_failed_insert",
    "Opsqueue.C66_refuted_rolled_back_completion",
    "Opsqueue.C66_refuted_late_report"
   ],
   "note": "Lower bound for all histories; exact without failing statements and late reports. The full claim is refuted (failed insert, rolled back completion, late report)."
  },
  {
   "property": "C67",
   "status": "partial",
   "theorems": [
    "Opsqueue.C67_right_when_calculated",
    "Opsqueue.C67_between_calculations_partial",
    "Opsqueue.C67_refuted",
    "Opsqueue.C67_refuted_negative"
   ],
   "note": "Exact after every successful calculation; drift in between described exactly. The claim that the gauges are always right is refuted. Gauges are f64 in the code, integers in the model."
  },
  {
   "property": "C68",
   "status": "proved",
   "theorems": [
    "Opsqueue.EndToEnd.C68_results_can_always_be_had",
    "Opsqueue.EndToEnd.C68_from_the_start"
   ],
   "note": "Existence of a continuation from every reachable state (possibility, not fairness of the scheduler): how long an actual consumer takes is not modelled."
  },
  {
   "property": "C69",
   "status": "proved",
   "theorems": [
    "Opsqueue.Snowflake.C69_ids_go_up",
    "Opsqueue.Snowflake.C69_unique_in_a_process",
    "Opsqueue.Snowflake.C69_id_carries_its_time",
    "Opsqueue.Snowflake.C69_histories_have_fresh_ids",
    "Opsqueue.Snowflake.C69_no_needless_failure",
    "Opsqueue.Snowflake.C69_refuted_clock_set_back",
    "Opsqueue.Snowflake.C69_no_ids_after_2039"
   ],
   "note": "The generator is a dependency whose source is not in /repo; its documented algorithm is modelled. C69_refuted_clock_set_back shows that the condition on the clock across restarts is needed; C69_histories_have_fresh_ids discharges the assumption FreshIds of the other theorems."
  },
  {
   "property": "C70",
   "status": "proved",
   "theorems": [
    "Opsqueue.Retention.C70_record_is_kept",
    "Opsqueue.Retention.C70_record_is_removed",
    "Opsqueue.Retention.C70_record_goes_in_time"
   ],
   "note": "For failed submissions under the same condition as C15 and C16 (the clock is not set back in the middle of a failure report). Rounds of the loop have any duration and may fail; other calls come at any time."
  },
  {
   "property": "C71",
   "status": "proved",
   "theorems": [
    "Opsqueue.Watchdog.C71_pong_means_recently_checked",
    "Opsqueue.Watchdog.C71_pong_if_checked",
    "Opsqueue.Watchdog.C71_failure_is_shown",
    "Opsqueue.Watchdog.C71_shutdown_is_shown",
    "Opsqueue.Watchdog.C71_refuted_write_lock"
   ],
   "note": "Durations of checks and lateness of timers are parameters. C71_refuted_write_lock: the check does not notice that somebody else holds the write lock, although a comment in the code says that it does."
  },
  {
   "property": "C72",
   "status": "partial",
   "theorems": [
    "Opsqueue.Durability.C72_power_loss_keeps_consistency",
    "Opsqueue.Durability.C72_safe_after_checkpoint_partial",
    "Opsqueue.Durability.C72_refuted_unsynced_commit"
   ],
   "note": "Proved: consistency after any number of power failures (C72_power_loss_keeps_consistency) and durability of what was there at a successful checkpoint. C72_refuted_unsynced_commit proves the full statement false: with synchronous=NORMAL a commit is not synced."
  },
  {
   "property": "C73",
   "status": "proved",
   "theorems": [
    "Opsqueue.C73_bounded_work",
    "Opsqueue.C73_no_work_before",
    "Opsqueue.C73_work_ends",
    "Opsqueue.C73_server_bounded_work"
   ],
   "note": "Full statement, for finite histories, unending sequences of calls, and the server. 'Has an effect' = the database is changed by the call."
  },
  {
   "property": "C74",
   "status": "proved",
   "theorems": [
    "Opsqueue.Upgrade.C74_schema",
    "Opsqueue.Upgrade.C74_what_is_stored",
    "Opsqueue.Upgrade.C74_upgrade",
    "Opsqueue.Upgrade.C74_interrupted",
    "Opsqueue.Upgrade.C74_second_start",
    "Opsqueue.Upgrade.C74_newer_database",
    "Opsqueue.Upgrade.C74_changed_migration",
    "Opsqueue.Upgrade.C74_random_order"
   ],
   "note": "Full statement. The migrations are transcribed statement by statement; SQLite's behaviour for the kinds of statements they use and sqlx's migrator are modelled (Model/Upgrade). 'What a release can have stored' = anything the constraints of its tables allow. C74_schema compares with the schema in opsqueue_example_database_schema.db (Spec/ExampleSchema is generated from that file); C74_what_is_stored shows that everything reachable in the model of the calls is such content."
  },
  {
   "property": "C75",
   "status": "proved",
   "theorems": [
    "Opsqueue.Server.C75_oldest_first",
    "Opsqueue.Server.C75_newest_first",
    "Opsqueue.Server.C75_bounded_overtaking",
    "Opsqueue.Server.C75_no_starvation",
    "Opsqueue.Server.C75_newest_may_starve"
   ],
   "note": "Assumed: the query takes the waiting chunk for free (it is). For the bound: no fetch is running at the start (for unending runs: no fetch runs forever), and ids of later inserts are higher (C69). C75_newest_may_starve shows that the claim is particular to Oldest."
  },
  {
   "property": "C76",
   "status": "partial",
   "theorems": [
    "Opsqueue.Python.C76_cancel_tells",
    "Opsqueue.Python.C76_lookup_tells",
    "Opsqueue.Python.C76_try_stream_tells",
    "Opsqueue.Python.C76_wait_tells",
    "Opsqueue.Python.C76_classes",
    "Opsqueue.Python.C76_numbers",
    "Opsqueue.Python.C76_one_kind",
    "Opsqueue.Python.C76_reasons_are_answers",
    "Opsqueue.Python.C76_signals_reach_the_caller",
    "Opsqueue.Python.C76_reserve_tells",
    "Opsqueue.Python.C76_refuted_for_iterators",
    "Opsqueue.Python.C76_refuted_for_loop_end",
    "Opsqueue.Python.C76_refuted_for_lost_report",
    "Opsqueue.Python.C76_refuted_for_misuse",
    "Opsqueue.Python.C76_refuted",
    "Opsqueue.Python.C76_default_strategy_raises",
    "Opsqueue.Python.C76_iterator_partial",
    "Opsqueue.Python.C76_loop_partial"
   ],
   "note": "Full statement C76_full refuted (C76_refuted and one theorem for each part): exceptions of the caller's iterator are replaced, the consumer's loop returns instead of raising, a lost report keeps Ctrl-C from ending it, misuse is not always IncorrectUsageError. The other parts hold without restriction; C76_iterator_partial and C76_loop_partial say what holds of those."
  },
  {
   "property": "C77",
   "status": "partial",
   "theorems": [
    "Opsqueue.Python.C77_in_order",
    "Opsqueue.Python.C77_complete",
    "Opsqueue.Python.C77_for_loop",
    "Opsqueue.Python.C77_calls_are_answered",
    "Opsqueue.Python.C77_refuted_for_cancelled_calls",
    "Opsqueue.Python.C77_refuted_for_retries",
    "Opsqueue.Python.C77_refuted_for_the_end",
    "Opsqueue.Python.C77_refuted",
    "Opsqueue.Python.C77_losses_partial"
   ],
   "note": "Full statement C77_full refuted in all three parts: a cancelled __anext__ loses a chunk, calling again after an error skips the chunk, a call after the end panics. Order, single delivery and answers hold without restriction (C77_in_order, C77_calls_are_answered), completeness for callers who wait and a store that answers (C77_complete, C77_for_loop); C77_losses_partial bounds what can be lost."
  },
  {
   "property": "C78",
   "status": "partial",
   "theorems": [
    "Opsqueue.Startup.C78_argument",
    "Opsqueue.Startup.C78_at_most_one",
    "Opsqueue.Startup.C78_told",
    "Opsqueue.Startup.C78_gives_up",
    "Opsqueue.Startup.C78_listens",
    "Opsqueue.Startup.C78_refuted_address_unknown",
    "Opsqueue.Startup.C78_refuted_stale_port",
    "Opsqueue.Startup.C78_refuted_write_failed",
    "Opsqueue.Startup.C78_refuted_full",
    "Opsqueue.Startup.C78_partial"
   ],
   "note": "Full statement C78_full refuted (C78_refuted_full, and one theorem for each cause): an unknown local address leaves the pipe open, a failed write or a failure while serving leave the parent without the port. C78_partial says what holds otherwise; C78_argument, C78_at_most_one, C78_told and C78_gives_up hold without restriction."
  },
  {
   "property": "C79",
   "status": "proved",
   "theorems": [
    "Opsqueue.Concurrent.C79_every_call_has_code",
    "Opsqueue.Concurrent.C79_serial",
    "Opsqueue.Concurrent.C79_real_time",
    "Opsqueue.Concurrent.C79_seen",
    "Opsqueue.Concurrent.C79_status",
    "Opsqueue.Concurrent.C79_given_back"
   ],
   "note": "C79_seen carries whatever is proved of all histories over to what readers see at any moment of a concurrent execution. Trusted: SQLite's isolation (readers see the last committed state)."
  },
  {
   "property": "C80",
   "status": "partial",
   "theorems": [
    "Opsqueue.Pools.C80_in_turn",
    "Opsqueue.Pools.C80_bounded_wait",
    "Opsqueue.Pools.C80_writer_goes_on",
    "Opsqueue.Pools.C80_reader_goes_on_partial",
    "Opsqueue.Pools.C80_all_finish_partial",
    "Opsqueue.Pools.C80_refuted_fetches_block_each_other",
    "Opsqueue.Pools.C80_refuted",
    "Opsqueue.Pools.C80_pool_sizes"
   ],
   "note": "In order and bounded wait hold for both pools, progress for the writer; for the readers progress holds while there are fewer fetches than connections (C80_reader_goes_on_partial, C80_all_finish_partial) and fails otherwise, for every size of the pool (C80_refuted_fetches_block_each_other)."
  },
  {
   "property": "C81",
   "status": "partial",
   "theorems": [
    "Opsqueue.C81_why_connections_end",
    "Opsqueue.C81_refuted_by_cancel",
    "Opsqueue.C81_refuted_by_failure",
    "Opsqueue.C81_refuted",
    "Opsqueue.C81_survives_partial"
   ],
   "note": "The reasons are exactly known (C81_why_connections_end). One of them is a submission that stops being in progress while a chunk of it is being reserved, so that the full statement is false (C81_refuted, by a cancel and by another consumer's report); C81_survives_partial excludes that."
  },
  {
   "property": "C82",
   "status": "proved",
   "theorems": [
    "Opsqueue.HttpText.C82_parser_reads_json",
    "Opsqueue.HttpText.C82_written_is_read_back",
    "Opsqueue.HttpText.C82_times",
    "Opsqueue.HttpText.C82_values_arrive",
    "Opsqueue.HttpText.C82_answers",
    "Opsqueue.HttpText.C82_calls",
    "Opsqueue.HttpText.C82_any_json_will_do",
    "Opsqueue.HttpText.C82_other_bodies_are_refused"
   ],
   "note": "Texts, times, values, whole calls over texts (C82_calls reduces them to the calls over trees of the other properties), arbitrary bodies at the server (400 and 422 are not told apart: the real choice depends on which error is met first). UTF-8 is not modelled."
  },
  {
   "property": "C83",
   "status": "partial",
   "theorems": [
    "Opsqueue.HttpText.C83_short_requests_partial",
    "Opsqueue.HttpText.C83_object_store_is_short",
    "Opsqueue.HttpText.C83_long_requests_are_refused",
    "Opsqueue.HttpText.C83_a_mebibyte_of_chunks_is_too_long",
    "Opsqueue.HttpText.C83_refuted_by_a_long_submission"
   ],
   "note": "False of the code: bodies of more than 2 MiB are refused (C83_refuted_by_a_long_submission); C83_short_requests_partial has the hypothesis that the request is no longer than that, C83_object_store_is_short and C83_a_mebibyte_of_chunks_is_too_long say when."
  },
  {
   "property": "C84",
   "status": "partial",
   "theorems": [
    "Opsqueue.Shutdown.C84_nothing_worse_than_a_crash",
    "Opsqueue.Shutdown.C84_stopping_takes_half_a_second",
    "Opsqueue.Shutdown.C84_stopping_server_still_serves",
    "Opsqueue.Shutdown.C84_ended_server_does_nothing",
    "Opsqueue.Shutdown.C84_refuted_a_report_is_lost",
    "Opsqueue.Shutdown.C84_lost_reports_have_no_effect_partial",
    "Opsqueue.Shutdown.C84_work_is_offered_again"
   ],
   "note": "Time and safety proved; the part about reports is false of the code (C84_refuted_a_report_is_lost). C84_lost_reports_have_no_effect_partial: a lost report changes nothing, so that its chunk is offered again (C84_work_is_offered_again)."
  },
  {
   "property": "C85",
   "status": "partial",
   "theorems": [
    "Opsqueue.Reconnect.C85_refuted_misuse",
    "Opsqueue.Reconnect.C85_refuted_late_failure",
    "Opsqueue.Reconnect.C85_refuted_two_connect",
    "Opsqueue.Reconnect.C85_refuted_panic",
    "Opsqueue.Reconnect.C85_one_at_a_time_partial",
    "Opsqueue.Reconnect.C85_connection_used",
    "Opsqueue.Reconnect.C85_after_a_call",
    "Opsqueue.Reconnect.C85_one_error_per_connection",
    "Opsqueue.Reconnect.C85_given_up_for_good",
    "Opsqueue.Reconnect.C85_outage",
    "Opsqueue.Reconnect.C85_panics_after_an_error",
    "Opsqueue.Reconnect.C85_no_leak"
   ],
   "note": "The full statement C85_full is false of the code (C85_refuted_misuse, C85_refuted_late_failure, C85_refuted_two_connect, C85_refuted_panic). C85_one_at_a_time_partial: with one call at a time it holds, apart from misuse. The other theorems say which connection a call uses, what is left after it, and that outages of any length are waited out."
  },
  {
   "property": "C86",
   "status": "partial",
   "theorems": [
    "Opsqueue.Recovery.C86_loss_has_a_reason",
    "Opsqueue.Recovery.C86_refuted_read_error",
    "Opsqueue.Recovery.C86_refuted_unreadable",
    "Opsqueue.Recovery.C86_no_hang_partial",
    "Opsqueue.Recovery.C86_lost_for_good",
    "Opsqueue.Recovery.C86_costs_one_call",
    "Opsqueue.Recovery.C86_failures_are_real",
    "Opsqueue.Recovery.C86_is_healthy",
    "Opsqueue.Recovery.C86_new_connection",
    "Opsqueue.Recovery.C86_recovers"
   ],
   "note": "The full statement C86_full is false of the code (C86_refuted_read_error, C86_refuted_unreadable: a call waits forever while the client says it is healthy). C86_no_hang_partial: no call hangs on a connection that is lost as a whole. C86_costs_one_call, C86_recovers, C86_new_connection: what the loss costs and how the client recovers. C86_failures_are_real: no false alarms. C86_loss_has_a_reason: the task of a connection that is in use ends only because of the network, the server or missed heartbeats."
  },
  {
   "property": "C87",
   "status": "partial",
   "theorems": [
    "Opsqueue.C87_server_not_early",
    "Opsqueue.C87_consumer_not_early",
    "Opsqueue.C87_server_notices",
    "Opsqueue.C87_consumer_notices",
    "Opsqueue.C87_defaults",
    "Opsqueue.C87_refuted_by_stall",
    "Opsqueue.C87_live_consumer_is_kept_partial",
    "Opsqueue.C87_answering_consumer_is_kept"
   ],
   "note": "C87_server_notices, C87_consumer_notices, C87_server_not_early, C87_consumer_not_early: both bounds, on both ends. The claim about live consumers, C87_full, is false of the code (C87_refuted_by_stall); C87_live_consumer_is_kept_partial and C87_answering_consumer_is_kept hold if the server is not late by too much."
  },
  {
   "property": "C88",
   "status": "partial",
   "theorems": [
    "Opsqueue.C88_server_keeps_consumer",
    "Opsqueue.C88_refuted_by_busy_consumer",
    "Opsqueue.C88_consumer_keeps_server_partial"
   ],
   "note": "The server's side is proved (C88_server_keeps_consumer). The consumer's side, C88_full, is false of the code with the default configuration (C88_refuted_by_busy_consumer); C88_consumer_keeps_server_partial holds if the server answers now and then, or has pauses in what it receives."
  },
  {
   "property": "C89",
   "status": "partial",
   "theorems": [
    "Opsqueue.Polling.C89_same_wait",
    "Opsqueue.Polling.C89_producer_learns_partial",
    "Opsqueue.Polling.C89_refuted_by_short_retention"
   ],
   "note": "C89_producer_learns_partial: the bound, given that the record has to be kept until then. Without that condition (C89_full) the claim is false of the code: C89_refuted_by_short_retention."
  },
  {
   "property": "C90",
   "status": "partial",
   "theorems": [
    "Opsqueue.Interrupt.C90_blocking_call",
    "Opsqueue.Interrupt.C90_no_false_alarm",
    "Opsqueue.Interrupt.C90_reserve_partial",
    "Opsqueue.Interrupt.C90_reserve_short_interval",
    "Opsqueue.Interrupt.C90_reserve_honest",
    "Opsqueue.Interrupt.C90_refuted_by_empty_answers",
    "Opsqueue.Interrupt.C90_refuted",
    "Opsqueue.Interrupt.C90_consumer_stops_partial",
    "Opsqueue.Interrupt.C90_refuted_by_quick_errors",
    "Opsqueue.Interrupt.C90_refuted_by_failed_report"
   ],
   "note": "C90_blocking_call, C90_no_false_alarm, C90_reserve_honest and C90_reserve_short_interval hold as stated. For the check interval of release builds reserving need not end (C90_refuted_by_empty_answers, C90_refuted), nor the consumer's loop (C90_refuted_by_quick_errors, C90_refuted_by_failed_report); C90_reserve_partial and C90_consumer_stops_partial hold without these disturbances."
  },
  {
   "property": "C91",
   "status": "partial",
   "theorems": [
    "Opsqueue.Server.C91_enough_reports",
    "Opsqueue.Server.C91_tries_partial",
    "Opsqueue.Server.C91_half_the_tries_partial",
    "Opsqueue.Server.C91_refuted_by_expiry",
    "Opsqueue.Server.C91_refuted_by_lost_reservation"
   ],
   "note": "C91_enough_reports holds for the reports. The number of tries can be smaller (C91_refuted_by_expiry; C91_refuted_by_lost_reservation: no try at all). C91_tries_partial: true if no consumer reports an expired reservation; C91_half_the_tries_partial: with expiry at least half of the tries, if no reserve request was cut short."
  },
  {
   "property": "C92",
   "status": "proved",
   "theorems": [
    "Opsqueue.Maintenance.C92_nothing_lingers",
    "Opsqueue.Maintenance.C92_told_in_time",
    "Opsqueue.Maintenance.C92_released_in_time"
   ],
   "note": "Assumes that a pass does all that is due; moka and tokio leave some of it for the next passes if there are hundreds of entries."
  },
  {
   "property": "C93",
   "status": "partial",
   "theorems": [
    "Opsqueue.EndToEnd.C93_inputs_never_change",
    "Opsqueue.EndToEnd.C93_executions_get_the_input",
    "Opsqueue.EndToEnd.C93_without_late_executions_partial",
    "Opsqueue.EndToEnd.C93_deterministic_partial",
    "Opsqueue.EndToEnd.C93_refuted_by_late_consumer"
   ],
   "note": "C93_inputs_never_change and C93_executions_get_the_input hold as stated. Results can change (C93_refuted_by_late_consumer). C93_deterministic_partial: they do not if the callback is deterministic; C93_without_late_executions_partial: only an execution of the chunk itself changes its output."
  },
  {
   "property": "C94",
   "status": "partial",
   "theorems": [
    "Opsqueue.C94_refuted_without_bound",
    "Opsqueue.C94_refuted_by_visit",
    "Opsqueue.C94_one_task_per_request_partial",
    "Opsqueue.C94_insert_cleans_up_partial",
    "Opsqueue.C94_harmless",
    "Opsqueue.C94_refuted_until_an_insert",
    "Opsqueue.C94_restart_cleans_up"
   ],
   "note": "C94_refuted_without_bound: n consumers that come and go while nothing is inserted leave n waiting tasks. Partial: never more tasks than requests (C94_one_task_per_request_partial), every insert ends those left behind before (C94_insert_cleans_up_partial); they change nothing else (C94_harmless)."
  },
  {
   "property": "C95",
   "status": "proved",
   "theorems": [
    "Opsqueue.C95_answers",
    "Opsqueue.C95_as_stored",
    "Opsqueue.C95_as_given",
    "Opsqueue.C95_retries"
   ],
   "note": "C95_answers: the ids in the answers are those of Model/Server. C95_as_stored, C95_as_given: chunk and submission as in the backlog and as inserted. C95_retries: the retries shown."
  },
  {
   "property": "C96",
   "status": "partial",
   "theorems": [
    "Opsqueue.C96_refuted_by_panic",
    "Opsqueue.C96_consumers_partial",
    "Opsqueue.C96_reserved",
    "Opsqueue.C96_reserved_unknown",
    "Opsqueue.C96_refuted_for_work",
    "Opsqueue.C96_succeeded",
    "Opsqueue.C96_reserved_le",
    "Opsqueue.C96_failed"
   ],
   "note": "Refuted in full: a panic of a connection's task leaves the gauge of consumers too high (C96_refuted_by_panic). C96_consumers_partial: the gauge is the number of open connections plus the panics since the start of the process. The rest of the property is proved: C96_reserved, C96_succeeded, C96_reserved_le, C96_failed. C96_refuted_for_work: the gauge of reserved chunks counts completed chunks for a second."
  },
  {
   "property": "C97",
   "status": "partial",
   "theorems": [
    "Opsqueue.Scaling.C97_operations_are_recent",
    "Opsqueue.Scaling.C97_chunks_are_recent_partial",
    "Opsqueue.Scaling.C97_settles",
    "Opsqueue.Scaling.C97_refuted_a_failed_chunk",
    "Opsqueue.Scaling.C97_nothing_is_shown_at_first"
   ],
   "note": "Refuted in full: a failed chunk takes one off the gauge although its whole submission leaves the backlog (C97_refuted_a_failed_chunk). C97_chunks_are_recent_partial: the gauge of chunks is a recent number less the chunks that failed since. Proved for the gauge of operations (C97_operations_are_recent) and for both when nobody calls anything (C97_settles). C97_nothing_is_shown_at_first: for five seconds after a start nothing of the backlog is shown."
  },
  {
   "property": "C98",
   "status": "proved",
   "theorems": [
    "Opsqueue.Mailbox.C98_as_if_without_bound",
    "Opsqueue.Mailbox.C98_bounded",
    "Opsqueue.Mailbox.C98_reports_are_read",
    "Opsqueue.Mailbox.C98_nothing_is_lost",
    "Opsqueue.Mailbox.C98_in_turn",
    "Opsqueue.Mailbox.C98_room_in_turn",
    "Opsqueue.Mailbox.C98_no_needless_wait",
    "Opsqueue.Mailbox.C98_held_up",
    "Opsqueue.Mailbox.C98_enters",
    "Opsqueue.Mailbox.C98_is_taken",
    "Opsqueue.Mailbox.C98_others_go_on"
   ],
   "note": "Assumes that tokio's channel gives room in turn. The stop of the server, at which reports are lost, is C84."
  },
  {
   "property": "C99",
   "status": "proved",
   "theorems": [
    "Opsqueue.C99_stays_sound",
    "Opsqueue.C99_own_is_sound",
    "Opsqueue.C99_lives",
    "Opsqueue.C99_answers",
    "Opsqueue.C99_can_be_finished"
   ],
   "note": "That earlier releases left sound databases is not proved: their code is not in the repository. C74 has the upgrade of the tables."
  },
  {
   "property": "C100",
   "status": "proved",
   "theorems": [
    "Opsqueue.C100_nothing_is_left_open",
    "Opsqueue.C100_one_connection",
    "Opsqueue.C100_needs_a_transaction"
   ],
   "note": "Trusts SQLite's savepoints as documented and sqlx's names for them. A task that is dropped halfway is in C79."
  },
  {
   "property": "C101",
   "status": "partial",
   "theorems": [
    "Opsqueue.Address.C101_producer_partial",
    "Opsqueue.Address.C101_consumer_partial",
    "Opsqueue.Address.C101_without_scheme",
    "Opsqueue.Address.C101_refuted_http_for_consumers",
    "Opsqueue.Address.C101_refuted_other_schemes",
    "Opsqueue.Address.C101_refuted_no_scheme_for_both",
    "Opsqueue.Address.C101_refuted_slash",
    "Opsqueue.Address.C101_refuted"
   ],
   "note": "The full C101 is refuted for consumers with http or https (C101_refuted_http_for_consumers) and for both with a slash at the end (C101_refuted_slash). It is proved without a scheme, for producers with http and https, and for consumers with ws and wss. How the url and http crates read URLs is trusted."
  },
  {
   "property": "C102",
   "status": "partial",
   "theorems": [
    "Opsqueue.Frames.C102_exactly",
    "Opsqueue.Frames.C102_reports_partial",
    "Opsqueue.Frames.C102_answers_partial",
    "Opsqueue.Frames.C102_six_chunks_partial",
    "Opsqueue.Frames.C102_long_reports_are_lost",
    "Opsqueue.Frames.C102_long_answers_are_lost",
    "Opsqueue.Frames.C102_refuted_by_a_report",
    "Opsqueue.Frames.C102_refuted_by_an_answer",
    "Opsqueue.Frames.C102_refuted"
   ],
   "note": "The full C102 is refuted by reports (C102_refuted_by_a_report) and by answers (C102_refuted_by_an_answer) of more than 16 MiB. Proved: exactly those of at most 16 MiB arrive, reports and answers of bounded contents are shorter, and answers of up to six chunks always are. tungstenite's default limit is trusted."
  },
  {
   "property": "C103",
   "status": "partial",
   "theorems": [
    "Opsqueue.Durations.C103_exactly",
    "Opsqueue.Durations.C103_up_to_a_thousand_years_partial",
    "Opsqueue.Durations.C103_zero_heartbeat_interval",
    "Opsqueue.Durations.C103_long_heartbeat_interval",
    "Opsqueue.Durations.C103_ends_at_start",
    "Opsqueue.Durations.C103_refuted",
    "Opsqueue.Durations.C103_refuted_in_four_ways"
   ],
   "note": "The full C103 is refuted by a heartbeat interval of zero (C103_refuted). Proved: the exact set of durations with which the server works whatever happens (C103_exactly), and what the others do. When the libraries panic is trusted, from their documentation."
  },
  {
   "property": "C104",
   "status": "proved",
   "theorems": [
    "Opsqueue.Carrier.C104_written_is_read_back",
    "Opsqueue.Carrier.C104_any_text",
    "Opsqueue.Carrier.C104_reaches_the_callback",
    "Opsqueue.Carrier.C104_request_headers"
   ],
   "note": "Which headers OpenTelemetry takes up in the server, and what it writes in the dictionary there, is not modelled: the theorems begin with the recorded dictionary, and end with the headers of the request."
  },
  {
   "property": "C105",
   "status": "proved",
   "theorems": [
    "Opsqueue.Streaming.C105_at_most_one_chunk_is_held",
    "Opsqueue.Streaming.C105_drawn_when_needed",
    "Opsqueue.Streaming.C105_success_is_complete",
    "Opsqueue.Streaming.C105_ends",
    "Opsqueue.Streaming.C105_failure_has_a_reason",
    "Opsqueue.Streaming.C105_same_chunks",
    "Opsqueue.Streaming.C105_endless",
    "Opsqueue.Streaming.C105_results_of_one_chunk_are_held",
    "Opsqueue.Streaming.C105_retrieved_when_needed",
    "Opsqueue.Streaming.C105_same_results",
    "Opsqueue.Streaming.C105_request_is_answered",
    "Opsqueue.Streaming.C105_there_and_back"
   ],
   "note": "Memory is counted in operations that are held; what the serialization format, the object store client or the interpreter keep beside them is not modelled."
  }
 ]
}