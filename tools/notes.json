{
 "C10": {
  "note": "C10_insert_faithful: effect of the undisturbed insert under a fresh id. C10_insert_all_or_nothing: any faults. C10_batching_unobservable: any batch size."
 },
 "C11": {
  "note": "C11_atomic covers every call but the insert of an empty submission, in any database; C11_atomic_empty_insert covers that one. Invariants in recovered databases: all other theorems quantify over histories with arbitrary crashes."
 },
 "C13": {
  "note": "Proved for every call that returns an id. C13_empty_left_in_progress_stuck and the example after it show what happens when the process dies between the two transactions of an empty insert: no id is returned and the submission stays in progress until cancelled."
 },
 "C14": {
  "note": "Four arbitrary histories between the reads of one status call."
 },
 "C15": {
  "note": "Proved when the clock does not run backwards within a failure report. C15_refuted_for_backward_clock proves that the full statement is false of the program without that assumption."
 },
 "C16": {
  "note": "Includes what happens to records of completed and failed chunks, and (for failed submissions only) the clock assumption of C15."
 },
 "C19": {
  "note": "Proved for submissions that are not cancelled. C19_refuted_for_cancelled proves the full statement false of the program."
 },
 "C21": {
  "note": "Prefix, total, metadata, strategic metadata are kept in all states. C21_refuted_chunk_size_lost proves that chunk size and trace carrier are replaced by defaults on completion and failure."
 },
 "C24": {
  "note": "The full statement (C24_full) is false of the code and refuted by C24_refuted_by_late_report: the completer does not check that the reporter still holds the reservation, so a late failure report of the first holder ends the second holder's reservation. Proved: only the holder can end a reservation as long as nobody has a stale claim on the chunk (report queued, delayed removal pending, chunk noted on another connection)."
 },
 "C26": {
  "note": "Proved for a key that is finished at most once while reserved. C26_refuted_for_repeated_finish proves the full statement false: a second delayed finish is overtaken by the first one's removal."
 },
 "C27": {
  "note": "Proved for every request that is answered with chunks, and for limit 0. C27_refuted_when_fetch_fails proves that a request that ends with a database error may leave a chunk reserved that is in no answer."
 },
 "C28": {
  "note": "For a request during which nothing else happens; under interference C27 applies."
 },
 "C32": {
  "note": "Proved for ids below 2^63 minus the largest index. C32_refuted_overflow proves the full statement false for larger ids (SQLite switches to floating point)."
 },
 "C38": {
  "note": "Everything is proved except that a call started after a read error that leaves the socket usable hangs; C38_refuted_call_after_read_error_hangs proves that. C38_no_panic_with_this_server is about the client and the server connection joined by a socket."
 },
 "C34": {
  "note": "The full statement (C34_full) is false of the program: C34_refuted_by_disconnect. Proved for every history of orderly actions, crashes included; the restrictions are the definition Orderly."
 },
 "C36": {
  "note": "The full statement (C36_full) is false of the program in two ways: C36_refuted_by_lost_wakeup and C36_refuted_by_silent_release. Proved: an insert wakes every request registered as waiting, and a woken request that finds work is answered with it."
 },
 "C41": {
  "note": "The full statement (C41_full) is false of the program: cancel and metadata lookup do not retry a 5xx answer (C41_refuted_for_5xx_on_cancel), and the other calls do not retry an undecodable body (C41_refuted_for_undecodable_status). Proved: for each call exactly which failures are retried, that there are at most 101 attempts, and that the outcome of the last attempt is returned; server_version makes one attempt."
 },
 "C43": {
  "note": "The full statement (C43_full) is false of the program: a lost response followed by a retry creates a second submission (C43_refuted_by_lost_response), and so does a database error while an empty submission is being completed (C43_refuted_by_empty_submission). Proved for submissions with chunks if no response is lost and the server does not die during the call."
 },
 "C57": {
  "note": "The full statement (C57_full) is false of the program: after a lost response the retry reports NotCancellable(Cancelled) (C57_refuted_by_lost_response). Proved if no response is lost and the server does not die during the call."
 },
 "C58": {
  "note": "The full statement (C58_full) is false of the program: the prefix is put into the URL without encoding (C58_refuted_for_question_mark). Proved for all prefixes without characters that mean something in a URL."
 },
 "C44": {
  "note": "For all prefixes without a slash, as the property says; C44_slashes_collide shows that the restriction is needed."
 },
 "C49": {
  "note": "Proved for completed and failed submissions and for the pauses; refuted for cancelled and unknown submissions, on which the wait never ends."
 },
 "C54": {
  "note": "Refuted: the counter doubles with every chunk (2^n-1), so the progress message is never logged at all. What remains true is proved as _partial."
 },
 "C60": {
  "note": "Refuted: if the input cannot be retrieved or the output cannot be stored there is no report and the chunk stays reserved; proved if the object store works."
 },
 "C47": {
  "note": "Over a transition system of producers, server, consumers and object store (Model/EndToEnd). Results of operations by a deterministic callback that may raise; prefixes are fresh UUIDs without slash; submission ids are fresh; the serialization format is faithful."
 },
 "C48": {
  "note": "Over the same transition system; completions come from consumers of the Python library, all sharing one object store and base path."
 },
 "C61": {
  "note": "Refinement: the database restricted to one submission id is the image of the record computed by Spec/Machine.lean. Assumes fresh ids and strategic metadata without repeated keys (it is a map in the API)."
 },
 "C62": {
  "note": "Stated as: from every reachable state a given, explicit continuation finishes all work. Not a fairness theorem: what happens if other consumers keep failing is up to them."
 },
 "C63": {
  "note": "Six theorems: only well-formed inserts and cancels write; unreadable requests get 422 or 400; readable ones are served like the client's own; unknown paths and methods get 404 or 405; a 4xx answer means nothing changed; every request is answered unless the server is killed. The bounds of integers inside bodies are not modelled (only those of ids in paths), nor are structs written as JSON arrays."
 },
 "C64": {
  "note": "For prefixes that contain no character with a meaning in URLs (see C58) and ids below 2^63."
 },
 "C65": {
  "note": "Down to the bytes: CBOR (RFC 8949) written and read as ciborium does it. Indefinite lengths, tags, floats and byte strings, which the programs never send, are refused by the model. The limit of 126 levels follows from ciborium's recursion limit of 256, which is not in /repo and is an assumption."
 },
 "C66": {
  "note": "Lower bound for all histories; exact without failing statements and late reports. The full claim is refuted (failed insert, rolled back completion, late report)."
 },
 "C67": {
  "note": "Exact after every successful calculation; drift in between described exactly. The claim that the gauges are always right is refuted. Gauges are f64 in the code, integers in the model."
 },
 "C68": {
  "note": "Existence of a continuation from every reachable state (possibility, not fairness of the scheduler): how long an actual consumer takes is not modelled."
 },
 "C69": {
  "note": "The generator is a dependency whose source is not in /repo; its documented algorithm is modelled. C69_refuted_clock_set_back shows that the condition on the clock across restarts is needed; C69_histories_have_fresh_ids discharges the assumption FreshIds of the other theorems."
 },
 "C70": {
  "note": "For failed submissions under the same condition as C15 and C16 (the clock is not set back in the middle of a failure report). Rounds of the loop have any duration and may fail; other calls come at any time."
 },
 "C71": {
  "note": "Durations of checks and lateness of timers are parameters. C71_refuted_write_lock: the check does not notice that somebody else holds the write lock, although a comment in the code says that it does."
 },
 "C72": {
  "note": "Proved: consistency after any number of power failures (C72_power_loss_keeps_consistency) and durability of what was there at a successful checkpoint. C72_refuted_unsynced_commit proves the full statement false: with synchronous=NORMAL a commit is not synced."
 },
 "C73": {
  "note": "Full statement, for finite histories, unending sequences of calls, and the server. 'Has an effect' = the database is changed by the call."
 },
 "C74": {
  "note": "Full statement. The migrations are transcribed statement by statement; SQLite's behaviour for the kinds of statements they use and sqlx's migrator are modelled (Model/Upgrade). 'What a release can have stored' = anything the constraints of its tables allow. C74_schema compares with the schema in opsqueue_example_database_schema.db (Spec/ExampleSchema is generated from that file); C74_what_is_stored shows that everything reachable in the model of the calls is such content."
 },
 "C75": {
  "note": "Assumed: the query takes the waiting chunk for free (it is). For the bound: no fetch is running at the start (for unending runs: no fetch runs forever), and ids of later inserts are higher (C69). C75_newest_may_starve shows that the claim is particular to Oldest."
 },
 "C76": {
  "note": "Full statement C76_full refuted (C76_refuted and one theorem for each part): exceptions of the caller's iterator are replaced, the consumer's loop returns instead of raising, a lost report keeps Ctrl-C from ending it, misuse is not always IncorrectUsageError. The other parts hold without restriction; C76_iterator_partial and C76_loop_partial say what holds of those."
 },
 "C77": {
  "note": "Full statement C77_full refuted in all three parts: a cancelled __anext__ loses a chunk, calling again after an error skips the chunk, a call after the end panics. Order, single delivery and answers hold without restriction (C77_in_order, C77_calls_are_answered), completeness for callers who wait and a store that answers (C77_complete, C77_for_loop); C77_losses_partial bounds what can be lost."
 },
 "C78": {
  "note": "Full statement C78_full refuted (C78_refuted_full, and one theorem for each cause): an unknown local address leaves the pipe open, a failed write or a failure while serving leave the parent without the port. C78_partial says what holds otherwise; C78_argument, C78_at_most_one, C78_told and C78_gives_up hold without restriction."
 },
 "C79": {
  "note": "C79_seen carries whatever is proved of all histories over to what readers see at any moment of a concurrent execution. Trusted: SQLite's isolation (readers see the last committed state)."
 },
 "C80": {
  "note": "In order and bounded wait hold for both pools, progress for the writer; for the readers progress holds while there are fewer fetches than connections (C80_reader_goes_on_partial, C80_all_finish_partial) and fails otherwise, for every size of the pool (C80_refuted_fetches_block_each_other)."
 },
 "C81": {
  "note": "The reasons are exactly known (C81_why_connections_end). One of them is a submission that stops being in progress while a chunk of it is being reserved, so that the full statement is false (C81_refuted, by a cancel and by another consumer's report); C81_survives_partial excludes that."
 },
 "C82": {
  "note": "Texts, times, values, whole calls over texts (C82_calls reduces them to the calls over trees of the other properties), arbitrary bodies at the server (400 and 422 are not told apart: the real choice depends on which error is met first). UTF-8 is not modelled."
 },
 "C83": {
  "note": "False of the code: bodies of more than 2 MiB are refused (C83_refuted_by_a_long_submission); C83_short_requests_partial has the hypothesis that the request is no longer than that, C83_object_store_is_short and C83_a_mebibyte_of_chunks_is_too_long say when."
 },
 "C84": {
  "note": "Time and safety proved; the part about reports is false of the code (C84_refuted_a_report_is_lost). C84_lost_reports_have_no_effect_partial: a lost report changes nothing, so that its chunk is offered again (C84_work_is_offered_again)."
 },
 "C85": {
  "note": "The full statement C85_full is false of the code (C85_refuted_misuse, C85_refuted_late_failure, C85_refuted_two_connect, C85_refuted_panic). C85_one_at_a_time_partial: with one call at a time it holds, apart from misuse. The other theorems say which connection a call uses, what is left after it, and that outages of any length are waited out."
 },
 "C86": {
  "note": "The full statement C86_full is false of the code (C86_refuted_read_error, C86_refuted_unreadable: a call waits forever while the client says it is healthy). C86_no_hang_partial: no call hangs on a connection that is lost as a whole. C86_costs_one_call, C86_recovers, C86_new_connection: what the loss costs and how the client recovers. C86_failures_are_real: no false alarms. C86_loss_has_a_reason: the task of a connection that is in use ends only because of the network, the server or missed heartbeats."
 },
 "C87": {
  "note": "C87_server_notices, C87_consumer_notices, C87_server_not_early, C87_consumer_not_early: both bounds, on both ends. The claim about live consumers, C87_full, is false of the code (C87_refuted_by_stall); C87_live_consumer_is_kept_partial and C87_answering_consumer_is_kept hold if the server is not late by too much."
 },
 "C88": {
  "note": "The server's side is proved (C88_server_keeps_consumer). The consumer's side, C88_full, is false of the code with the default configuration (C88_refuted_by_busy_consumer); C88_consumer_keeps_server_partial holds if the server answers now and then, or has pauses in what it receives."
 },
 "C89": {
  "note": "C89_producer_learns_partial: the bound, given that the record has to be kept until then. Without that condition (C89_full) the claim is false of the code: C89_refuted_by_short_retention."
 },
 "C90": {
  "note": "C90_blocking_call, C90_no_false_alarm, C90_reserve_honest and C90_reserve_short_interval hold as stated. For the check interval of release builds reserving need not end (C90_refuted_by_empty_answers, C90_refuted), nor the consumer's loop (C90_refuted_by_quick_errors, C90_refuted_by_failed_report); C90_reserve_partial and C90_consumer_stops_partial hold without these disturbances."
 },
 "C91": {
  "note": "C91_enough_reports holds for the reports. The number of tries can be smaller (C91_refuted_by_expiry; C91_refuted_by_lost_reservation: no try at all). C91_tries_partial: true if no consumer reports an expired reservation; C91_half_the_tries_partial: with expiry at least half of the tries, if no reserve request was cut short."
 },
 "C92": {
  "note": "Assumes that a pass does all that is due; moka and tokio leave some of it for the next passes if there are hundreds of entries."
 },
 "C93": {
  "note": "C93_inputs_never_change and C93_executions_get_the_input hold as stated. Results can change (C93_refuted_by_late_consumer). C93_deterministic_partial: they do not if the callback is deterministic; C93_without_late_executions_partial: only an execution of the chunk itself changes its output."
 },
 "C94": {
  "note": "C94_refuted_without_bound: n consumers that come and go while nothing is inserted leave n waiting tasks. Partial: never more tasks than requests (C94_one_task_per_request_partial), every insert ends those left behind before (C94_insert_cleans_up_partial); they change nothing else (C94_harmless)."
 },
 "C95": {
  "note": "C95_answers: the ids in the answers are those of Model/Server. C95_as_stored, C95_as_given: chunk and submission as in the backlog and as inserted. C95_retries: the retries shown."
 },
 "C96": {
  "note": "Refuted in full: a panic of a connection's task leaves the gauge of consumers too high (C96_refuted_by_panic). C96_consumers_partial: the gauge is the number of open connections plus the panics since the start of the process. The rest of the property is proved: C96_reserved, C96_succeeded, C96_reserved_le, C96_failed. C96_refuted_for_work: the gauge of reserved chunks counts completed chunks for a second."
 },
 "C97": {
  "note": "Refuted in full: a failed chunk takes one off the gauge although its whole submission leaves the backlog (C97_refuted_a_failed_chunk). C97_chunks_are_recent_partial: the gauge of chunks is a recent number less the chunks that failed since. Proved for the gauge of operations (C97_operations_are_recent) and for both when nobody calls anything (C97_settles). C97_nothing_is_shown_at_first: for five seconds after a start nothing of the backlog is shown."
 },
 "C98": {
  "note": "Assumes that tokio's channel gives room in turn. The stop of the server, at which reports are lost, is C84."
 },
 "C99": {
  "note": "That earlier releases left sound databases is not proved: their code is not in the repository. C74 has the upgrade of the tables."
 },
 "C100": {
  "note": "Trusts SQLite's savepoints as documented and sqlx's names for them. A task that is dropped halfway is in C79."
 },
 "C101": {
  "note": "The full C101 is refuted for consumers with http or https (C101_refuted_http_for_consumers) and for both with a slash at the end (C101_refuted_slash). It is proved without a scheme, for producers with http and https, and for consumers with ws and wss. How the url and http crates read URLs is trusted."
 },
 "C102": {
  "note": "The full C102 is refuted by reports (C102_refuted_by_a_report) and by answers (C102_refuted_by_an_answer) of more than 16 MiB. Proved: exactly those of at most 16 MiB arrive, reports and answers of bounded contents are shorter, and answers of up to six chunks always are. tungstenite's default limit is trusted."
 },
 "C103": {
  "note": "The full C103 is refuted by a heartbeat interval of zero (C103_refuted). Proved: the exact set of durations with which the server works whatever happens (C103_exactly), and what the others do. When the libraries panic is trusted, from their documentation."
 },
 "C104": {
  "note": "Which headers OpenTelemetry takes up in the server, and what it writes in the dictionary there, is not modelled: the theorems begin with the recorded dictionary, and end with the headers of the request."
 },
 "C105": {
  "note": "Memory is counted in operations that are held; what the serialization format, the object store client or the interpreter keep beside them is not modelled."
 }
}