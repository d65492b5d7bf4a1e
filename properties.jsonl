{"id": "C01", "title": "No chunk is ever lost, duplicated or invented", "statement": "While a submission of n chunks is in progress, each of the chunk indexes 0..n-1 is either still waiting in the backlog (exactly once) or has been completed, never both and never neither; no chunk outside 0..n-1 ever appears; and the reported chunks_done is exactly the number of indexes no longer in the backlog.", "quantifier": "every history of insert / complete / fail / cancel / cleanup calls, with any of their SQL statements failing and the server crashing at any statement, all sizes", "why_tests_cant": "The counter and the rows are updated by different SQL statements; only an invariant over all histories, fault points and crash points shows they never drift apart.", "anchors": ["opsqueue/src/common/chunk.rs complete_chunk_raw, retry_or_fail_chunk, insert_many_chunks, skip_remaining_chunks", "opsqueue/src/common/submission.rs insert_submission"]}
{"id": "C02", "title": "A submission is in at most one state", "statement": "At every moment a submission id is reported in at most one of the states in progress, completed, failed, cancelled, whichever table is consulted.", "quantifier": "every history, fault and crash point; every submission id", "why_tests_cant": "Moving a submission is an INSERT in one table and a DELETE in another; a test sees only the end of a successful call.", "anchors": ["opsqueue/src/common/submission.rs complete_submission_raw, fail_submission_raw, cancel_submission_raw, insert_submission"]}
{"id": "C03", "title": "Terminal states are final", "statement": "Once the status of a submission is completed, failed or cancelled, no later complete, fail, cancel or insert call changes it (including its timestamps, culprit chunk and counts); the only thing that can happen to it is removal by the age-based cleanup, after which it never comes back. One exception, the one of C15: if the clock was set back while the submission failed, so that its failed chunk is dated before it, the cleanup can remove the chunk alone, and asking for the status is then an error.", "quantifier": "every continuation of every history that reaches a terminal state", "why_tests_cant": "Quantifies over all continuations, including racing late reports from consumers.", "anchors": ["opsqueue/src/common/submission.rs submission_status, cancel_submission, cleanup_old", "opsqueue/src/common/chunk.rs complete_chunk, retry_or_fail_chunk"]}
{"id": "C04", "title": "Completed means every chunk was reported complete", "statement": "A submission is reported Completed only if, for every one of its chunks, some complete-chunk call for that chunk was made after it was inserted; and its chunks_total is the number of chunks it was inserted with.", "quantifier": "every history, fault and crash point", "why_tests_cant": "Soundness of completion must hold for every interleaving of reports, duplicates and failures.", "anchors": ["opsqueue/src/common/chunk.rs complete_chunk", "opsqueue/src/common/submission.rs maybe_complete_submission"]}
{"id": "C05", "title": "The last completion completes the submission", "statement": "If every remaining backlog chunk of an in-progress submission is reported complete (in any order, each at least once, with no failures in between), the submission is reported Completed right after the last of these calls.", "quantifier": "every in-progress submission in every reachable state, every order and multiplicity of reports", "why_tests_cant": "All permutations of reports on submissions of any size.", "anchors": ["opsqueue/src/common/chunk.rs complete_chunk", "opsqueue/src/common/submission.rs maybe_complete_submission"]}
{"id": "C06", "title": "Duplicate, stale and bogus completion reports are harmless", "statement": "A complete-chunk call for a chunk that is not in the backlog (already completed, failed, skipped, never existed, or belonging to a terminal submission) leaves the whole database unchanged; in particular chunks_done never exceeds chunks_total.", "quantifier": "every reachable state, every chunk id", "why_tests_cant": "The bug this guards against (upstream issue 76) appeared only under rare races.", "anchors": ["opsqueue/src/common/chunk.rs complete_chunk_raw"]}
{"id": "C07", "title": "Retry budget is exact", "statement": "With max_chunk_retries = m, a failure report on a backlog chunk which has already failed r times keeps the chunk in the backlog with r+1 recorded failures when r+1 < m, and permanently fails the submission when r+1 >= m; so a chunk fails the submission at exactly its max(1,m)-th failure report, and nothing else about the submission changes before that.", "quantifier": "every m, every history of failure reports on a chunk, interleaved with reports on other chunks", "why_tests_cant": "Boundary (>= versus >) and interaction with other chunks for all m.", "anchors": ["opsqueue/src/common/chunk.rs retry_or_fail_chunk"]}
{"id": "C08", "title": "Permanent failure empties the backlog and names the culprit", "statement": "When a submission fails permanently its status is Failed with the failing chunk's index, the failure message and the input of that chunk retrievable, all its other backlog chunks are marked skipped, none of its chunks remains in the backlog, and chunks already completed stay completed.", "quantifier": "every reachable state in which a failure report exhausts the budget", "why_tests_cant": "Multi-table move for submissions of any size with any subset of chunks completed.", "anchors": ["opsqueue/src/common/submission.rs fail_submission_notx", "opsqueue/src/common/chunk.rs move_chunk_to_failed_chunks, skip_remaining_chunks"]}
{"id": "C09", "title": "Cancel is exact and never panics", "statement": "cancel on an in-progress submission makes it Cancelled with its chunks_done preserved and empties its backlog; on a completed, failed or cancelled one it returns the not-cancellable error carrying that very status and changes nothing; on an unknown id it returns not-found and changes nothing; the internal panic branch is unreachable.", "quantifier": "every reachable state, every id, every SQL fault", "why_tests_cant": "The panic branch depends on cross-table consistency in all reachable states.", "anchors": ["opsqueue/src/common/submission.rs cancel_submission, cancel_submission_notx, cancel_submission_raw"]}
{"id": "C10", "title": "Insert is all-or-nothing and faithful", "statement": "insert_submission either leaves the database exactly as it was (and reports an error) or adds one in-progress submission whose backlog is exactly the given chunk contents at indexes 0..n-1 in order with zero recorded failures, together with exactly its metadata; batching the rows by 1000 has no observable effect.", "quantifier": "every list of chunk contents of any length, every metadata map, every fault point", "why_tests_cant": "Partial inserts only show at a fault inside the transaction; batching boundaries for all lengths.", "anchors": ["opsqueue/src/common/submission.rs insert_submission, insert_submission_from_chunks", "opsqueue/src/common/chunk.rs insert_many_chunks"]}
{"id": "C11", "title": "Crash atomicity", "statement": "If the server process is killed at any point inside any call, the database found at restart is the one before the call, or the one after one of the call's transactions; for every call except inserting an empty submission that means before or after the whole call. All invariants hold in the recovered database.", "quantifier": "every call, every statement at which the crash happens (including during commit), every reachable state", "why_tests_cant": "Crash points inside transactions cannot be enumerated by tests.", "anchors": ["opsqueue/src/db/mod.rs Connection::transaction", "opsqueue/src/common/submission.rs insert_submission_from_chunks", "opsqueue/src/common/chunk.rs complete_chunk, retry_or_fail_chunk"]}
{"id": "C12", "title": "A failed database statement never leaves partial effects", "statement": "If any SQL statement of a call fails, the call's transaction has no effect at all.", "quantifier": "every call, every statement, every reachable state", "why_tests_cant": "Fault points times states.", "anchors": ["opsqueue/src/db/mod.rs Connection::transaction", "opsqueue/src/common/submission.rs", "opsqueue/src/common/chunk.rs"]}
{"id": "C13", "title": "An empty submission completes immediately", "statement": "Inserting a submission with zero chunks returns an id whose status is Completed.", "quantifier": "every reachable state; every fault/crash outcome", "why_tests_cant": "The completion happens in a second transaction, so the claim depends on faults and crashes between the two.", "anchors": ["opsqueue/src/common/submission.rs insert_submission_from_chunks"]}
{"id": "C14", "title": "Status reads never miss or mix up a live submission", "statement": "submission_status, whose table reads happen one by one while writers keep committing, returns a status that the submission really had at some moment during the call; in particular it never returns None for a submission that existed when the call began and was not cleaned up.", "quantifier": "every interleaving of committed writes with the up to five reads of the call", "why_tests_cant": "Needs all interleavings of concurrent writers with the reads; the read order is essential.", "anchors": ["opsqueue/src/common/submission.rs submission_status"]}
{"id": "C15", "title": "A failed submission's status always shows its failed chunk", "statement": "Asking for the status of a failed submission never ends in a missing-row database error: as long as the failed submission is kept, the row of the chunk that made it fail is kept too.", "quantifier": "every history (the cleanup deletes failed submissions and failed chunks by separate timestamps)", "why_tests_cant": "Depends on the two timestamps and the cleanup cutoff in all histories.", "anchors": ["opsqueue/src/common/submission.rs submission_status, fail_submission_notx, cleanup_old", "opsqueue/src/common/chunk.rs get_chunk_failed"]}
{"id": "C16", "title": "Cleanup removes exactly the old terminal submissions and nothing in progress", "statement": "cleanup_old(t) removes exactly the completed/failed/cancelled submissions whose end time is before t (with their metadata), keeps all the others, and does not touch submissions or chunks that are neither failed nor completed: in-progress submissions, their backlog, progress counters and metadata are unchanged. (A failed submission whose failed chunk is dated before it, because the clock was set back in between, can lose the chunk first: it is kept, with its metadata, but asking for its status is an error, see C15.)", "quantifier": "every reachable state, every cutoff", "why_tests_cant": "For all states and cutoffs; seven DELETE statements must agree.", "anchors": ["opsqueue/src/common/submission.rs cleanup_old"]}
{"id": "C17", "title": "Metadata lives exactly as long as its submission", "statement": "Strategic metadata rows exist only for submissions currently known in some state, one value per key, and a known submission's metadata is exactly what it was inserted with, in every state it passes through.", "quantifier": "every history, fault and crash point", "why_tests_cant": "Metadata has no foreign key; only the histories keep it consistent.", "anchors": ["opsqueue/src/common/submission.rs insert_submission_metadata_raw, cleanup_old, submission_status"]}
{"id": "C18", "title": "Lookup by strategic metadata is sound, complete and bounded", "statement": "The lookup returns exactly the ids, in increasing order, of the in-progress submissions having all the given key/value pairs, when there are at most max_submissions of them, and otherwise the too-many error carrying max_submissions; the empty query matches all in-progress submissions.", "quantifier": "every database state, every query map, every max_submissions", "why_tests_cant": "For all join widths and sizes, with the LIMIT max+1 trick.", "anchors": ["opsqueue/src/common/submission.rs lookup_ids_by_strategic_metadata, lookup_ids_by_strategic_metadata_query", "opsqueue/src/common/mod.rs MaxSubmissions"]}
{"id": "C19", "title": "Lookup by prefix finds a submission with that prefix", "statement": "lookup_id_by_prefix returns an id only of a submission with exactly that prefix, and returns some id whenever a submission with that prefix is known in any state.", "quantifier": "every reachable state, every prefix", "why_tests_cant": "All states a submission can be in.", "anchors": ["opsqueue/src/common/submission.rs lookup_id_by_prefix"]}
{"id": "C20", "title": "Counts are exact", "statement": "count_submissions, count_submissions_completed, count_submissions_failed and the backlog count equal the number of submissions having these states and the number of not yet finished chunks of in-progress submissions; the backlog ops estimate is the sum over those chunks of their submission's chunk size. (Counted as failed are also the submissions whose status cannot be shown because their failed chunk has been removed, see C15.)", "quantifier": "every reachable state", "why_tests_cant": "The join/sum must agree with per-submission progress in all reachable states.", "anchors": ["opsqueue/src/common/submission.rs count_submissions*", "opsqueue/src/common/chunk.rs count_chunks, count_ops_in_backlog_estimate"]}
{"id": "C21", "title": "Submission attributes survive state changes", "statement": "The prefix, total number of chunks, user metadata, strategic metadata, chunk size and trace carrier given at insertion are reported unchanged in every later state of the submission.", "quantifier": "every history", "why_tests_cant": "Each transition copies columns by hand in a separate SQL statement.", "anchors": ["opsqueue/src/common/submission.rs complete_submission_raw, fail_submission_raw, cancel_submission_raw"]}
{"id": "C22", "title": "Calls about one submission never affect another", "statement": "complete, fail and cancel calls for one submission leave the status, backlog, retries and metadata of every other submission unchanged.", "quantifier": "every state, every pair of submissions", "why_tests_cant": "Frame property for all states.", "anchors": ["opsqueue/src/common/submission.rs", "opsqueue/src/common/chunk.rs"]}
{"id": "C23", "title": "A reservation is exclusive", "statement": "After a successful reservation of a chunk, no other reservation of this chunk succeeds until that reservation is finished, released by disconnect, purged, or expires.", "quantifier": "every history of reserver calls and time steps after the reservation", "why_tests_cant": "Concurrency property over all schedules.", "anchors": ["opsqueue/src/consumer/dispatcher/reserver.rs Reserver::try_reserve, finish_reservation, purge_pending_removals"]}
{"id": "C24", "title": "Only the holder ends a reservation", "statement": "A chunk held by one consumer stays reserved for that consumer until that consumer itself reports on it, disconnects, or its own reservation expires; actions of other consumers cannot end it.", "quantifier": "every schedule of several consumers, reports, expiries and disconnects", "why_tests_cant": "Needs interleavings of late reports and expiries.", "anchors": ["opsqueue/src/consumer/server/mod.rs Completer::handle_message", "opsqueue/src/consumer/server/state.rs ConsumerState::drop", "opsqueue/src/consumer/dispatcher/mod.rs finish_reservation"]}
{"id": "C25", "title": "Expired reservations are released and announced once", "statement": "A reservation that is not finished within the configured time stops being effective at that time, the chunk becomes reservable again, and the consumer holding it is sent exactly one expiry notice for it; reservations ended in another way never produce a notice.", "quantifier": "every history of reserver operations and clock advances", "why_tests_cant": "All timings.", "anchors": ["opsqueue/src/consumer/dispatcher/reserver.rs Reserver::new eviction_listener, run_pending_tasks"]}
{"id": "C26", "title": "A finished chunk stays reserved long enough", "statement": "After a completion or permanent failure the chunk remains reserved for at least one second (unless its reservation expires first), so a reader still using an older snapshot cannot hand it out again; a chunk put back for retry is reservable at once.", "quantifier": "every history of reserver operations and clock advances", "why_tests_cant": "All timings and interleavings.", "anchors": ["opsqueue/src/consumer/dispatcher/reserver.rs finish_reservation, purge_pending_removals", "opsqueue/src/consumer/server/mod.rs handle_message"]}
{"id": "C27", "title": "Reserving returns at most the requested number of distinct, free, real chunks", "statement": "A reserve request with limit n>0 returns at most n chunks, pairwise distinct, each of them in the backlog snapshot and not reserved by anyone just before it was taken, and each of them reserved for the requester afterwards; no other chunk gets reserved by the call; limit 0 is rejected without side effects.", "quantifier": "every backlog, strategy, reservation state, limit, and every interleaving of other consumers' actions between the rows", "why_tests_cant": "All interleavings with concurrent reservers.", "anchors": ["opsqueue/src/consumer/dispatcher/mod.rs fetch_and_reserve_chunks, reserve_chunk", "opsqueue/src/consumer/server/state.rs fetch_and_reserve_chunks"]}
{"id": "C28", "title": "Reserving is exhaustive", "statement": "Without interference a reserve request returns exactly the first n chunks of the strategy's order that are free; in particular it returns fewer than n only if it took every free chunk of the backlog, and nothing only if there is no free chunk.", "quantifier": "every backlog, strategy, reservation state, limit", "why_tests_cant": "All sizes and reservation patterns.", "anchors": ["opsqueue/src/consumer/dispatcher/mod.rs fetch_and_reserve_chunks", "opsqueue/src/consumer/strategy.rs build_query"]}
{"id": "C29", "title": "Oldest and Newest are what they say", "statement": "With Oldest (Newest) chunks are handed out in ascending (descending) order of their submission id, and every free chunk appears exactly once.", "quantifier": "every backlog and reservation state", "why_tests_cant": "Sorting law for all inputs.", "anchors": ["opsqueue/src/consumer/strategy.rs build_query_snippet_returning_chunks"]}
{"id": "C30", "title": "Random only reorders", "statement": "For every random offset the Random strategy yields every free chunk exactly once: first those whose random_order is at least the offset, then the rest.", "quantifier": "every backlog, reservation state and offset", "why_tests_cant": "For all offsets, including values at the extremes.", "anchors": ["opsqueue/src/consumer/strategy.rs push_random_order_query"]}
{"id": "C31", "title": "PreferDistinct ranks submissions by in-flight counts", "statement": "With nested PreferDistinct keys k1,k2,... chunks are handed out so that submissions with the lexicographically smaller vector of in-flight counts of their values for k1,k2,... come first (no value or no in-flight chunk counting as smallest), ties following the underlying strategy; every free chunk of the backlog appears exactly once.", "quantifier": "every nesting, backlog, metadata and in-flight counts", "why_tests_cant": "Left joins could drop or duplicate rows; for all inputs.", "anchors": ["opsqueue/src/consumer/strategy.rs build_query_snippet_returning_submission_ids, MetaKeysIter"]}
{"id": "C32", "title": "random_order is a fair 16-bit spread", "statement": "The stored random_order of a chunk or submission is always in 0..65535, its computation never overflows a signed 64-bit integer for ids and indexes the system can hold, and any 65536 consecutive chunk indexes of a submission get pairwise different values.", "quantifier": "all submission ids and chunk indexes", "why_tests_cant": "Arithmetic over the full 63-bit range.", "anchors": ["opsqueue/migrations/20250803174028_better_random_order_formula.up.sql", "opsqueue/migrations/20260803133844_add_random_order_index_to_submissions.up.sql"]}
{"id": "C33", "title": "In-flight counters count exactly", "statement": "Starting from empty, after any sequence of increments and decrements in which no decrement of a (key,value) exceeds its increments so far, the counter of each (key,value) is increments minus decrements, absent when zero, and the whole structure is empty iff everything is balanced; concurrent increments and decrements may be applied in any order with the same result; counters never underflow.", "quantifier": "all sequences and interleavings at the granularity of map operations", "why_tests_cant": "Concurrent map with removal of empty fields.", "anchors": ["opsqueue/src/consumer/dispatcher/metastate.rs MetaState::increment, decrement, MetaStateField"]}
{"id": "C34", "title": "In-flight counts equal the chunks actually reserved", "statement": "For every metadata key/value the in-flight count used by PreferDistinct equals the number of currently reserved chunks whose submission has that value.", "quantifier": "every schedule of reservations, reports, expiries and disconnects", "why_tests_cant": "Needs every release path; several paths release without decrementing.", "anchors": ["opsqueue/src/consumer/dispatcher/mod.rs insert_metadata, remove_metadata, finish_reservation, finish_reservations_sync"]}
{"id": "C35", "title": "Disconnecting gives the work back", "statement": "When a consumer's connection ends, every chunk it had reserved through a reserve response and not yet reported is immediately reservable by others.", "quantifier": "every history of the connection", "why_tests_cant": "All histories of reservations and reports before the disconnect.", "anchors": ["opsqueue/src/consumer/server/state.rs Drop for ConsumerState"]}
{"id": "C36", "title": "A waiting consumer is woken when work is available", "statement": "A reserve request that found nothing is answered once a chunk is available for it.", "quantifier": "every interleaving of inserts, releases and waiting requests", "why_tests_cant": "Lost wake-ups only appear in specific interleavings.", "anchors": ["opsqueue/src/consumer/server/conn.rs handle_incoming_client_message", "opsqueue/src/producer/server.rs insert_submission"]}
{"id": "C37", "title": "Every reserve request is answered exactly once with its own nonce", "statement": "On a connection, each reserve request gets at most one response, carrying the request's nonce; requests that are not answered are still waiting; complete and fail messages get no response.", "quantifier": "every sequence of client messages, outcomes and wake-ups", "why_tests_cant": "All interleavings of retries and new requests on a connection.", "anchors": ["opsqueue/src/consumer/server/conn.rs handle_incoming_client_message"]}
{"id": "C38", "title": "A client delivers each response to the request it belongs to", "statement": "In the consumer client a response is delivered to the call that sent the request with the same nonce and to no other; nonces of outstanding requests are pairwise different; with a server that answers each request at most once, the unknown-nonce panic is never reached; when the connection ends every outstanding call fails instead of hanging.", "quantifier": "every interleaving of concurrent requests, responses and connection loss", "why_tests_cant": "Concurrency.", "anchors": ["opsqueue/src/consumer/client.rs InFlightRequests, background_task, sync_request"]}
{"id": "C39", "title": "Heartbeats detect a dead peer in bounded time and never drop a live one", "statement": "With max_missable_heartbeats = m, a connection on which no message arrives is closed at heartbeat tick number m+2 and not before; a connection on which a message arrives at least once in any m+1 consecutive ticks is never closed for missed heartbeats.", "quantifier": "every m and every sequence of ticks and messages", "why_tests_cant": "Unbounded sequences.", "anchors": ["opsqueue/src/consumer/server/conn.rs beat_heart, handle_incoming_msg", "opsqueue/src/consumer/client.rs background_task"]}
{"id": "C40", "title": "Reserved chunks nobody waits for are given back", "statement": "If the response to a reserve request arrives after its caller has gone away, the client reports each of the contained chunks back to the server exactly once; and an expiry notice for a chunk is answered with exactly one give-back report for it, after any report on that chunk already sent.", "quantifier": "every response content and message order", "why_tests_cant": "Cancellation races.", "anchors": ["opsqueue/src/consumer/client.rs background_task"]}
{"id": "C41", "title": "Producer retries are bounded and only for transient failures", "statement": "A producer call is attempted at most 101 times, stops at the first success or non-transient error and returns that outcome; transient means connection failure, timeout, body decode failure, or a 5xx answer.", "quantifier": "every sequence of attempt outcomes, every endpoint", "why_tests_cant": "Unbounded outcome sequences.", "anchors": ["opsqueue/src/producer/client.rs retry_policy, is_ephemeral"]}
{"id": "C42", "title": "Cancel and lookup outcomes survive the HTTP round trip", "statement": "What the server-side operation decided (success, not found, not cancellable with the very status, too many matches with the limit) is exactly what the producer client reports for it.", "quantifier": "every operation outcome", "why_tests_cant": "All outcomes with arbitrary payloads.", "anchors": ["opsqueue/src/producer/server.rs cancel_submission, lookup_submission_ids_by_strategic_metadata", "opsqueue/src/producer/client.rs cancel_submission, lookup_submission_ids_by_strategic_metadata"]}
{"id": "C43", "title": "Inserting a submission happens at most once per producer call", "statement": "One successful insert call on the producer client creates exactly one submission.", "quantifier": "every sequence of network outcomes", "why_tests_cant": "Lost responses followed by a retry.", "anchors": ["opsqueue/src/producer/client.rs insert_submission"]}
{"id": "C44", "title": "Chunk objects never collide", "statement": "Different (prefix, index, input/output) triples are stored under different object-store paths, for the prefixes the producer generates.", "quantifier": "all prefixes without a slash, all indexes, both directions", "why_tests_cant": "Injectivity of a string format over an infinite domain.", "anchors": ["opsqueue/src/object_store/mod.rs chunk_path, ChunkType::fmt"]}
{"id": "C45", "title": "Chunks come back as stored, in order", "statement": "Storing a stream of n chunk contents succeeds with count n and retrieving n chunks then yields the same contents in the same order, whatever is stored or retrieved under other prefixes or the other direction; if the source stream or a put fails, an error is returned.", "quantifier": "every list of contents, every store state, every interleaving with other prefixes", "why_tests_cant": "All lengths and interleavings.", "anchors": ["opsqueue/src/object_store/mod.rs store_chunks, retrieve_chunks"]}
{"id": "C46", "title": "Chunking and unchunking are inverse", "statement": "Splitting a sequence of operations into chunks of size k>0, encoding, decoding and flattening gives the original sequence; there are ceil(n/k) chunks, all of size k but possibly the last, none empty; k<=0 is rejected.", "quantifier": "every sequence, every k, every serialization format that round-trips sequences", "why_tests_cant": "All lengths and sizes.", "anchors": ["libs/opsqueue_python/python/opsqueue/producer.py _chunk_iterator, _unchunk_iterator", "libs/opsqueue_python/python/opsqueue/common.py encode_chunk, decode_chunk"]}
{"id": "C47", "title": "Results arrive in the order of the operations", "statement": "If a submission of operations ops run by consumers applying f completes, the producer iterating over its results gets exactly [f(op) for op in ops], however chunks were distributed, retried or executed more than once.", "quantifier": "every ops, f deterministic, every schedule of chunk executions including duplicates and failures", "why_tests_cant": "End-to-end over all schedules.", "anchors": ["libs/opsqueue_python/python/opsqueue/producer.py run_submission", "libs/opsqueue_python/python/opsqueue/consumer.py run_each_op", "libs/opsqueue_python/src/consumer.rs complete_chunk_gilless"]}
{"id": "C48", "title": "A completed submission has all its outputs in the object store", "statement": "Whenever a submission inserted through the object store is reported Completed, the output object of each of its chunks is present in the object store.", "quantifier": "every schedule, crash of consumers between storing and reporting", "why_tests_cant": "Order of two effects on different systems, for all crash points.", "anchors": ["libs/opsqueue_python/src/consumer.rs complete_chunk_gilless", "opsqueue/src/common/chunk.rs complete_chunk"]}
{"id": "C49", "title": "Waiting for a submission ends once it is over", "statement": "The producer's blocking wait returns the results if the submission completes, raises if it fails, polls with non-decreasing pauses of at most 5 seconds meanwhile, and does not wait forever on a submission that can never complete any more.", "quantifier": "every sequence of observed statuses", "why_tests_cant": "Unbounded polling sequences.", "anchors": ["libs/opsqueue_python/src/producer.rs stream_completed_submission_chunks, maybe_stream_completed_submission"]}
{"id": "C50", "title": "Identifiers convert losslessly or are rejected", "statement": "Submission ids and chunk indexes convert to and from 64-bit signed and unsigned integers without loss; exactly the values outside 0..2^63-1 are rejected.", "quantifier": "all 64-bit values", "why_tests_cant": "2^64 values.", "anchors": ["opsqueue/src/common/submission.rs SubmissionId conversions", "opsqueue/src/common/chunk.rs ChunkIndex conversions"]}
{"id": "C51", "title": "The lookup maximum never overflows", "statement": "Every accepted max_submissions value m satisfies 0 < m and m+1 fits in a signed 64-bit integer, exactly the values 1..2^63-2 are accepted, and max+1 used as SQL LIMIT is positive.", "quantifier": "all 64-bit values", "why_tests_cant": "2^64 values; boundary.", "anchors": ["opsqueue/src/common/mod.rs MaxSubmissions::new", "opsqueue/src/common/submission.rs lookup_ids_by_strategic_metadata"]}
{"id": "C52", "title": "The metadata primary-key migration keeps one value per key", "statement": "After the migration each (submission,key) that had values has exactly one row, holding the largest of its former values, and no other rows exist; data without duplicates is unchanged.", "quantifier": "every pre-migration table content", "why_tests_cant": "All table contents.", "anchors": ["opsqueue/migrations/20260717143000_submission_metadata_pk_by_key.up.sql"]}
{"id": "C53", "title": "Strategies and statuses survive the Python boundary", "statement": "Converting a strategy from Python to Rust and back is the identity, and the status shown in Python carries the same state, counts, ids and failure as the Rust status.", "quantifier": "every strategy of any nesting, every status", "why_tests_cant": "Recursive type of unbounded depth.", "anchors": ["libs/opsqueue_python/src/common.rs Strategy conversions, SubmissionStatus conversions"]}
{"id": "C54", "title": "Consumer progress count", "statement": "The number of processed chunks the Python consumer logs equals the number of chunks it processed.", "quantifier": "every number of processed chunks", "why_tests_cant": "Cumulative bookkeeping across loop iterations of unbounded length.", "anchors": ["libs/opsqueue_python/src/consumer.rs run_per_chunk, compute_chunk_outcome"]}
{"id": "C55", "title": "Reports of one consumer are applied in the order they were sent", "statement": "The database sees the complete/fail reports in the order in which they were put into the server's queue, each at most once; after a completion of a chunk its later expiry give-back has no effect.", "quantifier": "every interleaving of several consumers' reports", "why_tests_cant": "All interleavings.", "anchors": ["opsqueue/src/consumer/server/mod.rs Completer::run, handle_message", "opsqueue/src/consumer/server/state.rs complete_chunk, fail_chunk"]}
{"id": "C56", "title": "A completion report has exactly its effect", "statement": "An undisturbed complete-chunk call for a backlog chunk removes exactly that chunk from the backlog, stores its output under its id, and increases chunks_done of its submission by one, or, if it was the last one, makes the submission Completed with the attributes it had; nothing else about it changes.", "quantifier": "every reachable database, every backlog chunk, every output and clock reading", "why_tests_cant": "Tests check single chunks in small submissions; the claim is about every reachable state and all other rows of the database.", "anchors": ["opsqueue/src/common/chunk.rs: db::complete_chunk, db::complete_chunk_raw", "opsqueue/src/common/submission.rs: db::maybe_complete_submission"]}
{"id": "C57", "title": "A cancel call that cancelled a submission says so", "statement": "If a submission is in progress and nobody else acts on it, a cancel call of the producer client never reports that it is unknown or cannot be cancelled: it cancels it and reports success, or it reports a failure and leaves it in progress.", "quantifier": "every submission in progress, every sequence of network outcomes and database faults during the call", "why_tests_cant": "Depends on which of up to 101 attempts lose their request or response.", "anchors": ["opsqueue/src/producer/client.rs cancel_submission", "opsqueue/src/producer/server.rs cancel_submission"]}
{"id": "C58", "title": "Lookup by prefix over HTTP finds what the server has for that prefix", "statement": "For every prefix string, the producer client's lookup by prefix returns exactly what the server's lookup of that very string yields.", "quantifier": "every prefix string, every reachable server state", "why_tests_cant": "Tests use a few harmless prefixes; the claim ranges over all strings, including those with characters that mean something in a URL.", "anchors": ["opsqueue/src/producer/client.rs lookup_submission_id_by_prefix", "opsqueue/src/producer/server.rs lookup_submission_id_by_prefix"]}
{"id": "C59", "title": "The consumer loop reports what the callback did", "statement": "The consumer's run loop makes exactly one report for every chunk it gives to the callback, in order: complete with the returned bytes, or fail with the text of the exception; ordinary exceptions and connection errors do not end the loop, while exceptions that are not Exceptions, SystemErrors and interrupts do.", "quantifier": "every sequence of rounds: reservations, callback results, reporting errors", "why_tests_cant": "Unbounded sequences of rounds with every combination of results and errors.", "anchors": ["libs/opsqueue_python/src/consumer.rs run_per_chunk, compute_chunk_outcome"]}
{"id": "C60", "title": "No reserved chunk is forgotten by its consumer", "statement": "For every chunk that the consumer's run loop reserves it sends the server a report (complete or fail) on that chunk before it asks for the next one, whatever the object store and the callback do.", "quantifier": "every state and every failure of the object store, every callback", "why_tests_cant": "All failure points of an external system.", "anchors": ["libs/opsqueue_python/src/consumer.rs run_per_chunk, reserve_and_retrieve_chunks, complete_chunk_gilless", "libs/opsqueue_python/src/common.rs Chunk::from_internal"]}
{"id": "C61", "title": "Each submission has a life of its own, described by a small machine", "statement": "After every history of calls, crashes and failing statements included, everything the service shows about a submission (status, backlog, stored outputs, failures and skip marks, strategic metadata) is what a small state machine says that has seen only how much of each call about this submission happened and the cleanups: all of a call that was undisturbed or returned successfully, nothing of one that returned an error; and without faults the answer of every call is a function of that machine's state. Calls about other submissions never matter.", "quantifier": "every history of insert, complete, fail, cancel and cleanup calls with fresh ids, every fault, every crash point, every submission id", "why_tests_cant": "It is a refinement between the database programs and a specification over all histories and fault placements.", "anchors": ["opsqueue/src/common/submission.rs db", "opsqueue/src/common/chunk.rs db"]}
{"id": "C62", "title": "Work can always be finished, whatever happened before", "statement": "After any history of the server (producers, consumers, disconnects, crashes and restarts, expired reservations, late or duplicate reports), the following always works: let the server deal with the reports that have arrived, wait for the reservation time-out, connect a new consumer and let it reserve as many chunks as there are and report each complete. It is offered every chunk in the backlog exactly once; after its reports are dealt with the backlog is empty, its outputs are stored, and every submission that was in progress and has chunks is completed (or failed, if a failure report about one of its chunks had already arrived). So no history leaves a chunk that is neither finished nor obtainable, or a submission that cannot end.", "quantifier": "all histories of the server with any number of producers and consumers, any time-out, retry limit, strategy of the new consumer, outputs and times", "why_tests_cant": "a lost or stuck chunk would show up only after a particular interleaving of fetches, reports, crashes and expiries; a test runs a few of them", "anchors": ["opsqueue/src/consumer/dispatcher/mod.rs: fetch_and_reserve_chunks, finish_reservation", "opsqueue/src/consumer/dispatcher/reserver.rs: try_reserve, finish_reservation", "opsqueue/src/consumer/server/mod.rs: Completer::handle_message", "opsqueue/src/common/chunk.rs: complete_chunk, retry_or_fail_chunk"]}
{"id": "C63", "title": "The producer's HTTP interface acts only on requests it can read, and answers all of them", "statement": "A request to the producer's HTTP interface changes what is stored only in two ways: a POST to /producer/submissions whose body is a well-formed insert request inserts exactly what the body says (its fields by name, in whatever order and among whatever others, or by position; of a name of strategic metadata that is given several times, the last value), and a POST to /producer/submissions/cancel/<id> with a decimal id below 2^63 cancels that submission. Bodies that are JSON but not well-formed requests get 422, path segments that are not ids get 400, unknown paths or methods get 404 or 405, and none of them change anything; no 4xx answer ever goes with a change. Every request is answered unless the server is killed while handling it.", "quantifier": "all methods, paths, bodies (JSON trees), database states, statement failures and crash points", "why_tests_cant": "The set of malformed paths and bodies is unbounded, and combinations with database failures cannot be enumerated.", "anchors": ["opsqueue/src/producer/server.rs: ServerState::build_router, insert_submission, cancel_submission, submission_status, lookup_submission_ids_by_strategic_metadata", "opsqueue/src/producer/common.rs: InsertSubmission, ChunkContents", "opsqueue/src/common/submission.rs: SubmissionId (Deserialize)"]}
{"id": "C64", "title": "A read by the producer client never returns something false", "statement": "Whatever statements fail in the database, whatever requests or responses are lost, and whatever other clients do meanwhile: what a count, status, prefix lookup or metadata lookup call of the producer client returns was true when its last attempt reached the server. In particular a failure is never turned into an answer such as 'no such submission' or an empty list.", "quantifier": "all read calls, all histories, all interleavings of other clients' calls between the attempts, all statement failures, crashes and lost messages (but nobody except the server answers)", "why_tests_cant": "Requires all combinations of failures on up to 101 attempts with arbitrary concurrent changes.", "anchors": ["opsqueue/src/producer/client.rs: count_submissions, get_submission, lookup_submission_id_by_prefix, lookup_submission_ids_by_strategic_metadata", "opsqueue/src/producer/server.rs: submission_status, lookup_submission_id_by_prefix, lookup_submission_ids_by_strategic_metadata, submissions_count"]}
{"id": "C65", "title": "Consumer and server understand each other's messages, and nothing else", "statement": "Every message a consumer sends (requests to reserve, complete and fail reports) is read by the server as exactly that message, and every message the server sends (answers with chunks, expiry notices, the initial configuration) is read by the consumer as exactly that message, byte for byte on the wire, whatever ids, contents, metadata and texts it carries. Two different messages never have the same bytes, a message that was cut off is refused, and bytes that are not a message end the connection rather than being taken for something else. A selection strategy nested more than 126 levels deep is refused by the server.", "quantifier": "all messages whose numbers fit the types of the protocol, all byte strings received, all sequences of messages on a connection", "why_tests_cant": "The space of messages (nested strategies, arbitrary bytes, 63-bit ids, Unicode texts) and of corrupted byte strings is unbounded.", "anchors": ["opsqueue/src/consumer/common.rs: ClientToServerMessage, ServerToClientMessage, Envelope, SyncServerToClientResponse, ConsumerConfig", "opsqueue/src/consumer/strategy.rs: Strategy", "opsqueue/src/common/chunk.rs: Chunk, ChunkId, ChunkIndex", "opsqueue/src/consumer/server/conn.rs: ConsumerConn::run, handle_incoming_msg"]}
{"id": "C66", "title": "The counters of the metrics endpoint count what happened", "statement": "As long as the server process lives, the counters for submissions inserted, completed, failed and cancelled and for chunks inserted, completed, failed and retried go up exactly once each time one of these things happens, so that inserted minus completed, failed and cancelled is the change in the number of submissions in progress. A restart sets them to zero, and counting never changes what is stored. (In the code nothing is ever missed, but calls that were rolled back and late reports are counted too.)", "quantifier": "all sequences of calls, metric refreshes and restarts, all failures of statements", "why_tests_cant": "Requires every history and every point of failure inside the transactions around which the counters are incremented.", "anchors": ["opsqueue/src/prometheus.rs: SUBMISSIONS_TOTAL_COUNTER and the other counters", "opsqueue/src/common/submission.rs: insert_submission, complete_submission_raw, cancel_submission_raw, fail_submission_raw", "opsqueue/src/common/chunk.rs: complete_chunk, retry_or_fail_chunk, move_chunk_to_failed_chunks"]}
{"id": "C67", "title": "The backlog gauges show the work there is", "statement": "The gauges on which scaling decisions are based show the number of chunks that are not done over all submissions in progress, and the number of operations in them. (In the code this is so right after every successful periodic calculation; in between the gauges do not follow insertions and completions, and the chunk gauge can become negative.)", "quantifier": "all histories of calls with failures, refreshes and restarts", "why_tests_cant": "The gauge is compared with the statuses of all submissions after every possible history.", "anchors": ["opsqueue/src/prometheus.rs: calculate_scaling_metrics, periodically_calculate_scaling_metrics", "opsqueue/src/common/chunk.rs: count_chunks, count_ops_in_backlog_estimate, move_chunk_to_failed_chunks"]}
{"id": "C68", "title": "The results of a submission in progress can always be had", "statement": "Whatever happened before (crashes of the server, lost connections, failed uploads, chunks that were handed out and never came back), a submission in progress whose operations can be executed is never stuck: unless a failure report for one of its chunks has already reached the server, the ordinary working of server and consumers, without anybody's intervention, can complete it, and the producer that asks then gets the results of all its operations, in order.", "quantifier": "all histories of producers, server, consumers and object store, all submissions in progress, all serializations and callbacks", "why_tests_cant": "It says of every reachable state of the whole system that a continuation exists; a test only sees the states it constructs.", "anchors": ["opsqueue/src/consumer/server/state.rs: run_fetch, complete_chunk", "opsqueue/src/consumer/dispatcher/mod.rs: Dispatcher::fetch_and_reserve_chunks, finish_reservation", "opsqueue/src/consumer/client.rs: OuterClient", "libs/opsqueue_python/src/consumer.rs: run_per_chunk", "libs/opsqueue_python/python/opsqueue/producer.py: ProducerClient.blocking_stream_completed_submission"]}
{"id": "C69", "title": "Submission ids are never repeated and are in order of creation", "statement": "The ids given to submissions go up: no id is given twice, sorting by id is sorting by creation, and the time an id carries is the time at which it was made. Within a process this holds whatever the clock does (a clock that is set back makes the call fail); across restarts it holds if the clock is not set back while the server is down. From September 2039 on no ids can be made.", "quantifier": "all numbers of processes, all sequences of calls in them, all clock readings", "why_tests_cant": "Uniqueness is a statement about all pairs of ids ever made, under every behaviour of the clock, including exhausted sequence numbers and restarts.", "anchors": ["opsqueue/src/common/submission.rs: ID_GENERATOR, SubmissionId::new, SubmissionId::system_time"]}
{"id": "C70", "title": "The record of a finished submission is kept for the configured time, and no longer", "statement": "After a submission has ended, its status can be asked for, and does not change, during max_submission_age, whatever else happens; after that time it is gone for good after the next successful round of the cleanup, which comes within a minute plus the duration of a round as long as the server runs and its database works. (For failed submissions this is about those whose failed chunk is not dated before them; all are like that unless the clock was set back, see C15.)", "quantifier": "all histories of timed calls, with failing cleanups and restarts; all submissions; all ages", "why_tests_cant": "It concerns every moment of every history and every interleaving of the cleanup loop with other calls; the intervals are too long for tests.", "anchors": ["opsqueue/src/common/submission.rs: periodically_cleanup_old, cleanup_old", "opsqueue/app/main.rs: async_main"]}
{"id": "C71", "title": "The health endpoint tells the truth of a moment ago", "statement": "GET /ping answers \"pong\" only if the most recently finished check of the database succeeded, at most ten seconds plus the duration of a check ago; a server whose checks fail says so from then on, as it does before its first check; after a shutdown has begun it stops saying \"pong\" within the duration of a check.", "quantifier": "all interleavings of checks, sleeps, the shutdown and requests, all check results and durations", "why_tests_cant": "The claim bounds the age of the answer in every interleaving of the watchdog with requests and the shutdown.", "anchors": ["opsqueue/src/server.rs: ping, app_watchdog", "opsqueue/src/db/mod.rs: DBPools::check_health", "opsqueue/app/main.rs: async_main"]}
{"id": "C72", "title": "What was acknowledged survives a power failure", "statement": "After a power failure of the machine, everything the server had acknowledged is still there. (In the code: the database is consistent, as if only some of the calls had been made, and everything that was there at the last successful checkpoint, normally a tenth of a second ago, is still there; what was acknowledged after it can be lost.)", "quantifier": "all histories of calls, checkpoints (successful or not) and power failures, all amounts of the log that survive", "why_tests_cant": "A power failure can come between any two writes to the disk; tests do not cut the power.", "anchors": ["opsqueue/src/db/mod.rs: db_options, DBPools::periodically_checkpoint_wal, perform_explicit_wal_checkpoint, open_and_setup"]}
{"id": "C73", "title": "The work on a submission ends", "statement": "When a chunk is allowed m failures (max_chunk_retries), at most max(1, m) reports per chunk of a submission ever have an effect, however often its chunks are handed out, reports are repeated, calls fail or the server restarts. So a submission on which, as long as it is in progress, sooner or later another report has an effect, does not stay in progress for ever.", "quantifier": "all histories (and all unending sequences) of calls with fresh ids, all faults, restarts and clocks; all histories of a server", "why_tests_cant": "It is a statement about all reports in histories of any length, and about sequences that never end.", "anchors": ["opsqueue/src/common/chunk.rs: complete_chunk, retry_or_fail_chunk, fail_chunk", "opsqueue/src/common/submission.rs: maybe_complete_submission, insert_submission", "opsqueue/src/consumer/server/conn.rs, opsqueue/src/consumer/server/mod.rs: Completer"]}
{"id": "C74", "title": "An upgrade keeps everything", "statement": "A server opens a database that any earlier release left behind, with whatever that release can have stored in it. Afterwards its tables, columns, constraints and indexes are those of the database the queries were checked against at compile time, no row is lost and no value of a row changed, columns a row did not have are empty, and each submission has for each key of its strategic metadata the largest value it had. If the process dies during the upgrade, any number of times, the next start ends with exactly the same database. A further start changes nothing; so does the start of this release on a database of a newer one. A database whose recorded migrations are not the ones of this release is refused.", "quantifier": "all earlier releases (prefixes of the list of migrations), all contents their tables allow, all crash points, all repetitions", "why_tests_cant": "Tests start with an empty database; the contents and the points at which an upgrade can be interrupted are unbounded.", "anchors": ["opsqueue/migrations/*.sql", "opsqueue/src/db/mod.rs: open_and_setup, ensure_db_migrated", "opsqueue/src/lib.rs: MIGRATOR", "opsqueue/opsqueue_example_database_schema.db"]}
{"id": "C75", "title": "Who waits longest is served first, and is served", "statement": "While a chunk waits in the backlog, a consumer that asks for the oldest work is never handed a chunk of a newer submission, whatever the other consumers, the producers and the clock do in the meantime (and one that asks for the newest is never handed one of an older). If all consumers ask for the oldest work, the number of chunks handed out while a chunk waits is at most the number of free chunks of submissions that are not newer, plus one for every time one of those is given back. So if work keeps being handed out and chunks that are not newer are eventually no longer given back, the chunk does not wait forever. With Newest it can.", "quantifier": "all histories of the whole server with any number of consumers, connections, restarts and expiries, finite and unending; all chunks", "why_tests_cant": "Fairness is a statement about every interleaving, and the absence of starvation one about unending runs.", "anchors": ["opsqueue/src/consumer/strategy.rs: Strategy::build_query", "opsqueue/src/consumer/dispatcher/mod.rs: fetch_and_reserve_chunks, reserve_chunk", "opsqueue/src/consumer/dispatcher/reserver.rs: try_reserve"]}
{"id": "C76", "title": "Exceptions of the Python client tell what happened", "statement": "A call of the Python producer or consumer that does not succeed raises an exception from which its cause can be told. Cancelling a submission that is over raises SubmissionNotCancellableError with the status that get_submission_status shows, cancelling an unknown one SubmissionNotFoundError with its id; a lookup with too many matches raises TooManyMatchingSubmissionsError with the limit; asking or waiting for results raises SubmissionFailedError with the submission and the failed chunk, or SubmissionNotCompletedYetError. These are raised exactly if the server's last answer said so. An exception raised by a signal handler, by the caller's iterator, or by a callback and not an Exception, reaches the caller as it is and ends the call. Wrong arguments raise IncorrectUsageError. Everything else is an OpsqueueInternalError, and every exception is of exactly one of these kinds.", "quantifier": "all calls, arguments, histories of the server, network and object-store failures, signals and exceptions of the caller's code", "why_tests_cant": "The combinations of call, point of failure and cause are unbounded, and most of the failures cannot be provoked in a test.", "anchors": ["libs/opsqueue_python/src/errors.rs", "libs/opsqueue_python/src/producer.rs", "libs/opsqueue_python/src/consumer.rs: reserve_chunks, run_per_chunk, complete_chunk_gilless", "libs/opsqueue_python/src/common.rs: run_unless_interrupted", "libs/opsqueue_python/python/opsqueue/exceptions.py", "libs/opsqueue_python/python/opsqueue/consumer.py: run_each_chunk_raw, reserve_chunks"]}
{"id": "C77", "title": "Results arrive once, in order and completely", "statement": "The iterator over the results of a completed submission (blocking or asynchronous) gives the output of the first chunk to the call that is answered first, the next one to the next, and so on, then says that there are no more, however many calls are made at once and however they are scheduled. No result comes twice, each call is answered once, and every call that somebody waits for is answered. Once a call is told that there are no more results, all results were given to calls, and later calls are told the same; a chunk that could not be read can be asked for again.", "quantifier": "all numbers of chunks, all contents, all interleavings of calls, cancellations and failures of the object store", "why_tests_cant": "Order and completeness must hold for every schedule of concurrent calls, cancelled calls and store failures.", "anchors": ["libs/opsqueue_python/src/producer.rs: PyChunksIter, PyChunksAsyncIter", "libs/opsqueue_python/src/async_util.rs", "opsqueue/src/object_store/mod.rs: retrieve_chunks"]}
{"id": "C78", "title": "The bound port reaches the parent process", "statement": "A parent process that starts the server with --report-bound-port-pipe can block on reading two bytes from the pipe: while the server is serving it reads the port the server listens on, as a big-endian number, and then the end of the file; if the server cannot start it reads the end of the file and nothing else. The argument must be a file descriptor, -1 stands for none. Binding is tried eleven times.", "quantifier": "all arguments, all numbers of failing attempts to bind and serve, all failures of the operating system", "why_tests_cant": "Which of the attempts fail, and how, cannot be chosen in a test; a parent that waits forever is not observed in finite time.", "anchors": ["opsqueue/src/config.rs: parse_report_bound_port_fd, ReportBoundPortPipe, BoundPortPipe", "opsqueue/src/server.rs: serve_producer_and_consumer, retry_policy"]}
{"id": "C79", "title": "Calls made at the same time act as if made one after another", "statement": "Tasks of the server call the functions that insert, complete, fail, cancel and clean up at the same time, wait for the one writing connection, read, give up waiting, are dropped in the middle, or the process dies and is started again. At every moment what readers see is the outcome of the calls that got the connection, one after the other in the order in which they got it, and every call that returned has returned what it returns at its place in that order. A call that had returned before another was made comes before it. A task that has the connection needs finitely many statements until it gives it back. A status call, which reads several tables while all this goes on, returns what was true at one of the moments of its reads.", "quantifier": "all numbers of tasks and calls, all interleavings of their statements, all failing statements, all points where a task is dropped or the process dies", "why_tests_cant": "A test runs one interleaving; there are exponentially many, and the dropping of a task in the middle of a transaction cannot be placed.", "anchors": ["opsqueue/src/db/mod.rs: DBPools, Pool, db_connect_write_pool, Connection::transaction", "opsqueue/src/db/conn.rs: WriterConnection, ReaderConnection", "opsqueue/src/common/submission.rs: db", "opsqueue/src/common/chunk.rs: db"]}
{"id": "C80", "title": "Calls that wait for a database connection get it in turn", "statement": "Every call of the server that needs a connection to the database (inserting, cancelling, reporting, status, lookups, counts, reserving, and the background tasks) gets one, however many calls are made at the same time: those who asked first are served first, a waiting call waits for a bounded number of steps of those before it, and there is never a set of calls that wait for each other until they time out.", "quantifier": "all sizes of the pool of connections for reading, all calls and numbers of statements, all interleavings, calls that are dropped or time out at any moment", "why_tests_cant": "A circular wait appears only for particular interleavings of as many calls as there are connections; that there is none must be shown for all.", "anchors": ["opsqueue/src/db/mod.rs: DBPools, Pool::acquire, db_connect_read_pool, db_connect_write_pool", "opsqueue/src/consumer/dispatcher/mod.rs: fetch_and_reserve_chunks, join_chunk_with_submission_info", "opsqueue/src/config.rs: max_read_pool_size", "opsqueue/src/producer/server.rs", "opsqueue/src/consumer/server/mod.rs: Completer::handle_message"]}
{"id": "C81", "title": "What ends a consumer's connection", "statement": "The connection of a consumer ends only because the consumer closes it, the network or the disk fails, or the server stops. In particular no call of a producer and no report of another consumer ends it, and a reserve request is not left without an answer because of them.", "quantifier": "all histories of actions of any number of consumers and producers, interleaved at any point of a running reserve request, and all actions after them", "why_tests_cant": "The connection is lost only if a submission stops being in progress between two particular database queries of a reserve request; a test would have to hit that moment, and absence of other reasons must be shown for every state and action.", "anchors": ["opsqueue/src/consumer/dispatcher/mod.rs: fetch_and_reserve_chunks, join_chunk_with_submission_info", "opsqueue/src/consumer/server/state.rs: Drop for ConsumerState", "opsqueue/src/consumer/server/conn.rs: ConsumerConn::run"]}
{"id": "C82", "title": "What producer and server write to each other is read as it was meant", "statement": "The bodies of requests and answers are JSON texts as defined by RFC 8259, times in them are RFC 3339 texts. Whatever values a producer sends (strings with any characters, any bytes, numbers of 64 bits, times to the nanosecond, any metadata) arrive at the server as they were, and so do the server's answers at the producer. The server accepts every JSON text that means a request, whoever wrote it, and whatever is in fields it does not know, and refuses everything else with a 4xx status and without changing anything.", "quantifier": "all texts, all trees of JSON, all moments in time, all requests and answers with numbers in range, all sequences of attempts, network failures, interference of proxies, and histories of the server", "why_tests_cant": "Escapes, surrogate pairs, leading zeros, leap years, fractions of seconds, nesting and numbers at the edge of 64 bits combine in infinitely many ways; that a text has only one meaning, and that no refused text has an effect, are statements about all texts.", "anchors": ["opsqueue/src/producer/client.rs: insert_submission, get_submission, lookup_submissions_by_strategic_metadata", "opsqueue/src/producer/server.rs: insert_submission, lookup_submissions_by_strategic_metadata", "opsqueue/src/producer/common.rs: InsertSubmission, ChunkContents", "opsqueue/src/common/submission.rs: SubmissionStatus, Submission"]}
{"id": "C83", "title": "Any submission can be inserted", "statement": "If nothing goes wrong on the way, inserting a submission with at least one chunk succeeds, however many chunks it has and however large their contents and metadata are.", "quantifier": "all submissions whose numbers fit their types, contents and metadata of any size, all histories of the server", "why_tests_cant": "A limit on sizes is only found by a test that happens to exceed it, and that there is no other limit concerns all submissions.", "anchors": ["opsqueue/src/producer/server.rs: build_router, insert_submission", "opsqueue/src/server.rs: build_router", "opsqueue/src/producer/client.rs: insert_submission, is_ephemeral"]}
{"id": "C84", "title": "The server can be stopped", "statement": "A server that is asked to stop (Ctrl-C, or the end of one of its background tasks) ends half a second later, whatever it is in the middle of. Stopping does no more harm than a crash: every call has happened completely or not at all, and after the next start all chunks that were not finished are offered again. Reports of consumers that had arrived when it was asked to stop are still carried out.", "quantifier": "all histories of the server with any number of stops, kills and starts, all orders in which the completer and the connections notice that the server stops, all moments within requests", "why_tests_cant": "Which of several ready branches a select takes is random, so that a test may see the reports carried out many times before it sees them lost; what is left in memory and in the database depends on the moment at which each task notices the stop.", "anchors": ["opsqueue/app/main.rs: async_main", "opsqueue/src/consumer/server/mod.rs: Completer::run", "opsqueue/src/consumer/server/conn.rs: ConsumerConn::run, graceful_shutdown", "opsqueue/src/consumer/server/state.rs: complete_chunk, fail_chunk"]}
{"id": "C85", "title": "A consumer's connection is kept while it works and replaced when it does not", "statement": "A consumer client connects when it is first used, keeps the connection between calls, and makes a new one when the old one has failed, trying as long as it takes, so that an outage of the network or of the server costs at most failed calls. A connection over which nothing has failed is not given up, because all chunks reserved over it would be given to other consumers. No call panics.", "quantifier": "all histories of calls on one consumer client, one at a time or at the same time in any interleaving, all ways in which each can end or be interrupted, all moments at which connections fail, all numbers of failed attempts to connect", "why_tests_cant": "The connection is shared between calls through a cell that each call reads and writes several times, so that what goes wrong depends on the interleaving of those accesses and on the moment of the failure.", "anchors": ["opsqueue/src/consumer/client.rs: OuterClient, ensure_initialized, initialize, is_healthy, retry_policy, reserve_chunks, complete_chunk, fail_chunk"]}
{"id": "C86", "title": "A consumer recovers from the loss of its connection", "statement": "When the connection of a consumer is lost (closed by the server, broken, or silent for too long), every call that uses it comes to an end instead of waiting forever, and the client connects again by itself: if the loss was noticed by missing heartbeats, the next call connects at once; otherwise at most one later call fails and the one after it connects again. A call fails only if its message could not be sent or the connection is lost.", "quantifier": "all histories of calls on one consumer client and of events on all its connections, in any interleaving, all kinds of calls, all moments of the loss, all numbers of failed attempts to connect", "why_tests_cant": "Whether a call can wait forever depends on where it is when the connection is lost (before it has a nonce, before its message is sent, while it waits) and on how the connection is lost; a test sees a few of these moments and cannot tell waiting forever from waiting long.", "anchors": ["opsqueue/src/consumer/client.rs: OuterClient, Client, background_task, sync_request, async_request, InFlightRequests, is_healthy"]}
{"id": "C87", "title": "The loss of the other end is noticed in time, and not too early", "statement": "With heartbeat interval p and max_missable_heartbeats m, the server closes a connection at the latest m + 2 intervals after it last heard from the consumer (plus the time by which the server itself is late), and a consumer notices in the same time that the server is gone; with the default configuration within 50 seconds. Neither gives up earlier than that after the last frame it handled. A consumer that sends something at least once per interval is not dropped.", "quantifier": "all intervals, all numbers of missable heartbeats, all timed histories of ticks, frames received, requests handled for any length of time, notices of expiry and calls, on either end", "why_tests_cant": "Heartbeats take tens of seconds; tests use one timing, while the claim depends on when frames arrive relative to ticks, on how long requests take, and on ticks that pile up meanwhile.", "anchors": ["opsqueue/src/consumer/server/conn.rs: ConsumerConn::run, beat_heart, handle_incoming_msg", "opsqueue/src/consumer/client.rs: background_task", "opsqueue/src/config.rs: heartbeat_interval, max_missable_heartbeats"]}
{"id": "C88", "title": "A connection between a live server and a live consumer is kept", "statement": "If the server and the consumer are both alive and on time and the network delivers frames quickly compared with the heartbeat interval, neither end ever closes the connection because of missed heartbeats, whatever the consumer does with it.", "quantifier": "all intervals and numbers of missable heartbeats, all bounds on lateness and network delay, all timed histories of both ends that fit together through the network", "why_tests_cant": "It is about the interplay of two timers in two processes over any length of time and any pattern of requests and reports; a test runs one pattern for a short time.", "anchors": ["opsqueue/src/consumer/server/conn.rs: ConsumerConn::run, beat_heart, handle_incoming_msg, handle_incoming_client_message", "opsqueue/src/consumer/client.rs: background_task, async_request"]}
{"id": "C89", "title": "A producer that waits for a submission learns of its end soon", "statement": "A producer that waits for the results of a submission gets them (or the failure) at most 5 seconds, two requests and the lateness of a timer after the submission is completed (or fails); for a wait that has been short so far, at most about as long again as it has waited. This needs the server to keep the record of the end until then, that is, a max_submission_age longer than that. (For failed submissions this is about those whose failed chunk is not dated before them; all are like that unless the clock was set back, see C15.)", "quantifier": "all timed histories of calls of the server and rounds of its cleanup loop, all moments at which the wait begins and the submission ends, all durations of the requests, all retention times", "why_tests_cant": "The delay depends on where in the doubling pauses the submission ends and on how the cleanup falls between two polls; a test tries one timing.", "anchors": ["libs/opsqueue_python/src/producer.rs: stream_completed_submission_chunks, maybe_stream_completed_submission, SUBMISSION_POLLING_INTERVAL", "opsqueue/src/common/submission.rs: periodically_cleanup_old", "opsqueue/src/config.rs: max_submission_age"]}
{"id": "C90", "title": "Ctrl-C ends the calls of the Python client", "statement": "A blocking call of the Python client ends at most one signal check interval after an interrupt (Ctrl-C); so does reserving chunks, and the loop of a consumer ends soon after as well: after two intervals, plus the time it takes to interrupt the callback and to report the chunk. Nothing is interrupted without a signal.", "quantifier": "all moments of the signal, all durations and results of requests, callbacks and reports, any number of rounds, both check intervals", "why_tests_cant": "Whether a signal is noticed depends on where it falls between many short waits, each of which starts its own check; a test tries a few moments and waits for a bounded time.", "anchors": ["libs/opsqueue_python/src/common.rs: run_unless_interrupted, check_signals_in_background, SIGNAL_CHECK_INTERVAL", "libs/opsqueue_python/src/consumer.rs: block_unless_interrupted, sleep_unless_interrupted, reserve_chunks_gilless, run_per_chunk, compute_chunk_outcome"]}
{"id": "C91", "title": "A submission is given up only after its chunk has been tried often enough", "statement": "When a submission has failed permanently, the chunk because of which it failed has been handed to consumers at least max(1, max_chunk_retries) times. Consumers report a failure once for each time they are handed the chunk, and once for each time they are told that their reservation has expired. In any case at least that many failure reports on that chunk have arrived.", "quantifier": "all histories of the server: any number of consumers and submissions, all orders of requests, reports, expiries, database errors, disconnects and crashes, all retry limits and reservation times", "why_tests_cant": "Tries are counted over the lifetime of a submission, through restarts, expiries and lost connections of several consumers; a test tries a few orders.", "anchors": ["opsqueue/src/config.rs: max_chunk_retries", "opsqueue/src/common/chunk.rs: retry_or_fail_chunk", "opsqueue/src/consumer/server/mod.rs: Completer::run", "opsqueue/src/consumer/dispatcher/reserver.rs: Reserver", "opsqueue/src/consumer/client.rs: background_task (ChunkReservationExpired)"]}
{"id": "C92", "title": "Reservations end in time", "statement": "A consumer that neither completes, fails nor gives back a chunk is told that its reservation has expired: not before the reservation time has passed, at most a little later (two maintenance passes, 10 ms and the lateness of the timer), and once. The reservation of a finished chunk is removed at most a second and as much later. No reservation and no pending removal is kept longer than that, so the memory they use does not grow with the age of the server.", "quantifier": "all histories of the reserver in time: all moments of reservations, reports, passes and sleeps, any number of keys and consumers, all reservation times, as long as the server has not been asked to stop", "why_tests_cant": "The maintenance runs next to everything else, every 10 ms and for the lifetime of the server; tests call it by hand.", "anchors": ["opsqueue/src/consumer/dispatcher/reserver.rs: run_pending_tasks_periodically, run_pending_tasks, purge_pending_removals", "opsqueue/src/consumer/dispatcher/mod.rs: run_pending_tasks_periodically", "opsqueue/src/consumer/server/mod.rs: run_background"]}
{"id": "C93", "title": "Inputs and results do not change", "statement": "From the moment a submission is known to the server its input chunks are in the object store and never change, and every execution of a chunk gets the input the producer had for it. The results of a completed submission do not change either: whoever reads them, and whenever, gets the same bytes.", "quantifier": "all histories of producers, server, consumers and object store together, with crashes, expired reservations, repeated executions and late writes; all callbacks, also those whose result is not determined by the input", "why_tests_cant": "A change needs a consumer that is slower than its reservation and ends after another one has completed the submission; the orders in which this can happen are not enumerable.", "anchors": ["libs/opsqueue_python/src/consumer.rs: complete_chunk_gilless", "opsqueue/src/object_store/mod.rs: store_chunk, retrieve_chunk, chunk_path", "libs/opsqueue_python/src/producer.rs: insert_submission_chunks, maybe_stream_completed_submission"]}
{"id": "C94", "title": "The server keeps nothing for consumers that have gone", "statement": "When no consumer is connected, nothing in the server works on behalf of one: what consumers asked for before they disconnected does not keep using resources of the server.", "quantifier": "all histories of connections, requests, disconnections, inserts and crashes, however long", "why_tests_cant": "What is left behind by one connection is too little to be seen; it is the sum over an unbounded history that matters.", "anchors": ["opsqueue/src/consumer/server/conn.rs: handle_incoming_client_message, run", "opsqueue/src/producer/server.rs: insert_submission"]}
{"id": "C95", "title": "A consumer gets what the producer gave", "statement": "Every chunk that the server sends to a consumer carries the content that the producer gave for its index, and comes with the submission it belongs to: the same id, prefix, number of chunks, chunk size, metadata, strategic metadata and trace carrier as given at the insert. The submission is in progress at some moment while the request is tried, and the number of retries shown is at most the number of failures reported for the chunk and leaves at least one try.", "quantifier": "all histories of any number of producers and consumers with all interleavings of their calls, disconnections, expiries, faults of the database and crashes; all submissions, strategies and limits", "why_tests_cant": "Between the query of a chunk and the query of its submission other calls may run, and several fetches run at once; that no combination mixes up chunks, contents and submissions must hold for each interleaving.", "anchors": ["opsqueue/src/consumer/dispatcher/mod.rs: fetch_and_reserve_chunks, reserve_chunk, join_chunk_with_submission_info", "opsqueue/src/consumer/server/state.rs: fetch_and_reserve_chunks", "opsqueue/src/consumer/server/conn.rs: run, handle_incoming_client_message", "opsqueue/src/common/submission.rs: get_submission"]}
{"id": "C96", "title": "The metrics tell how many consumers are connected and how many chunks are reserved", "statement": "At each moment the gauge of connected consumers is the number of open consumer connections. The gauge of reserved chunks is the number of chunks that were reserved at the last pass of the maintenance. The counter of successful reservations goes up by one for each chunk that becomes reserved and at no other time, so it is at least the number of chunks reserved. The counter of failed reservations goes up by one only for a chunk that is already reserved, which is then not reserved again and not sent.", "quantifier": "all histories of any number of producers and consumers with all interleavings of their calls, disconnections, panics of connections, expiries, maintenance passes, faults of the database and crashes; all positive times to live", "why_tests_cant": "Whether gauge and reality agree depends on every way in which a connection or a reservation can begin and end, in each order; tests look at a few of them.", "anchors": ["opsqueue/src/consumer/server/mod.rs: ws_accept_handler", "opsqueue/src/consumer/dispatcher/reserver.rs: try_reserve, run_pending_tasks", "opsqueue/src/prometheus.rs: describe_metrics"]}
{"id": "C97", "title": "The backlog gauges are never long out of date", "statement": "Once the server has run for a while without faults of the calculation of the metrics, each of the two backlog gauges (chunks and operations) shows what was left to do at some moment that is at most five seconds, the lateness of a timer and the duration of two calculations ago, however busy the queue is and whatever happens between the queries and the gauges. If nobody calls anything for that long, both are exactly right, so an idle queue shows zero.", "quantifier": "all databases that any history leaves, all interleavings of calls, crashes, restarts and steps of the periodic calculation, all durations of calculations and latenesses of timers", "why_tests_cant": "The calculation is not atomic with the calls of others, which also change the gauge; how old a value can be depends on every place where the loop can be and every order of the calls around it.", "anchors": ["opsqueue/src/prometheus.rs: calculate_scaling_metrics, periodically_calculate_scaling_metrics", "opsqueue/app/main.rs: main"]}
{"id": "C98", "title": "A slow database holds consumers up, but loses none of their reports", "statement": "However slowly the database takes them, there are never more than 1024 reports in the server's mailbox, and at most one more per open connection waits for room. Each report that the server reads is taken exactly once, those of one consumer in the order in which they were sent; nothing is lost while the process lives. Messages leave the mailbox in the order in which they entered it, and connections get room in the order in which they began to wait, and only if there is none do they wait. Apart from waiting the server behaves as if the mailbox had no bound. While its report waits, a connection does nothing else, and its end goes unnoticed.", "quantifier": "all histories of any number of consumers and producers with all interleavings of their steps, faults and crashes; all capacities", "why_tests_cant": "It takes more than a thousand reports in flight to reach the bound, and then the order in which tasks are woken and run matters; tests see few of these orders.", "anchors": ["opsqueue/src/consumer/server/mod.rs: Completer::new, Completer::run", "opsqueue/src/consumer/server/state.rs: complete_chunk, fail_chunk", "opsqueue/src/consumer/server/conn.rs: run"]}
{"id": "C99", "title": "A server goes on with the database it finds", "statement": "A server starts with a database that makes sense (each submission has one status, each chunk is in one place, the counts agree), whoever wrote it: this release before a restart, or an earlier one that did not store chunk sizes or the number of chunks done before a failure. Whatever calls follow, with whatever faults, the database goes on making sense, and what it shows about each submission, old or new, is what follows from what it showed at the start and the calls since. A submission that was in progress at the start, with chunks to do, completes as the same submission when those chunks are reported complete, and keeps the outputs it had.", "quantifier": "all sound databases, all histories of calls with all faults, all points of these histories, all submissions", "why_tests_cant": "Tests start with an empty database and do short sequences of calls; what a database may contain that earlier releases filled for months is unbounded.", "anchors": ["opsqueue/src/common/submission.rs: db", "opsqueue/src/common/chunk.rs: db", "opsqueue/src/db/mod.rs: open_and_setup", "opsqueue/migrations/*.sql"]}
{"id": "C100", "title": "No call leaves a transaction open", "statement": "All calls that write share one connection. After a call has returned, with success or an error, whatever failed on the way, the connection is in no transaction: what a successful call changed is committed, what a failed one changed is undone, and the next call on the connection starts afresh. This holds although the statements open savepoints of their own inside of the transactions, some of which are never released because only the first row of the statement's result is read.", "quantifier": "all calls, all databases, all faults at all statements, all sequences of calls on one connection; whether or not the rest of a statement is run after its first row", "why_tests_cant": "Tests look at the database through the same connection, which sees what is not committed; whether something stays open depends on which statement fails.", "anchors": ["opsqueue/src/db/mod.rs: Connection::transaction", "opsqueue/src/common/chunk.rs: db::{complete_chunk, retry_or_fail_chunk, move_chunk_to_failed_chunks, skip_remaining_chunks}", "opsqueue/src/common/submission.rs: db::{insert_submission_from_chunks, maybe_complete_submission, complete_submission_raw, cancel_submission, cleanup_old}"]}
{"id": "C101", "title": "The address leads to the server", "statement": "An address with the scheme http or https, or without one, with or without a slash at its end, leads a producer client and a consumer client to the server at that host, port and path: the producer's requests are for the endpoints of the calls, the consumer's connection for the consumer endpoint, and both are encrypted exactly if the scheme is https.", "quantifier": "all hosts, ports and paths made of ordinary characters, all calls", "why_tests_cant": "The tests use one form of address, without scheme and path. The two clients build their URLs in different ways.", "anchors": ["opsqueue/src/producer/client.rs: Client::new", "opsqueue/src/consumer/client.rs: Client::new", "opsqueue/src/server.rs: build_router", "libs/opsqueue_python/python/opsqueue/producer.py: ProducerClient.__init__", "libs/opsqueue_python/python/opsqueue/consumer.py: ConsumerClient.__init__"]}
{"id": "C102", "title": "A message of any size arrives", "statement": "Every request and every report that a consumer sends reaches the server, and every answer of the server reaches the consumer, whatever the size of the failure text, of the contents and of the metadata, and however many chunks were asked for. (In the code: exactly those of at most 16 MiB.)", "quantifier": "all requests and reports of consumers; all histories of the server and all answers in them, for all submissions that producers can insert", "why_tests_cant": "Tests use short texts and few chunks; the size of an answer depends on the metadata of all submissions in it and on how many chunks a consumer asks for.", "anchors": ["opsqueue/src/consumer/server/mod.rs: ws_accept_handler", "opsqueue/src/consumer/server/conn.rs: ConsumerConn::run", "opsqueue/src/consumer/client.rs: Client::new, background_task", "opsqueue/src/consumer/common.rs: Envelope, SyncServerToClientResponse"]}
{"id": "C103", "title": "The server works with the durations it was given", "statement": "With all durations that the command line accepts for --reservation-expiration, --heartbeat-interval and --max-submission-age, the server keeps running, and a consumer that connects keeps its connection until it leaves. (In the code: exactly if the heartbeat interval is not zero, and none of them is absurdly long.)", "quantifier": "all values of the three durations, all histories of connections, messages, heartbeat ticks and cleanup rounds, all readings of the clocks", "why_tests_cant": "Tests use the default durations; the failures are panics of date and time arithmetic at particular values, in a task whose end nobody notices.", "anchors": ["opsqueue/src/config.rs: Config", "opsqueue/app/main.rs: async_main", "opsqueue/src/consumer/server/conn.rs: ConsumerConn::new, handle_incoming_msg", "opsqueue/src/consumer/dispatcher/reserver.rs: Reserver::new", "opsqueue/src/common/submission.rs: periodically_cleanup_old"]}
{"id": "C104", "title": "The trace context of a submission reaches its consumers", "statement": "The trace context recorded when a submission is inserted is what every callback that executes one of its chunks gets, entry for entry, whatever characters are in it. A text in the database that is not a dictionary of strings counts as an empty context and never stops a chunk. On the way to the server the context of the producer is in the headers of the insert request.", "quantifier": "all trace contexts (dictionaries of strings), all texts in the database, all histories of the server and all chunks sent to consumers", "why_tests_cant": "Tests use one or two contexts in plain ASCII; the claim is for all strings (quotes, control characters, other scripts) and all histories between the insertion and the callback.", "anchors": ["opsqueue/src/tracing.rs: context_to_json, json_to_carrier", "opsqueue/src/producer/client.rs: insert_submission", "libs/opsqueue_python/src/common.rs: Chunk::from_internal", "libs/opsqueue_python/python/opsqueue/consumer.py: _trace_context_from_chunk"]}
{"id": "C105", "title": "Operations and results are streamed", "statement": "While a submission is uploaded, the client never holds more operations than one chunk has: it draws an operation from the caller's iterable only when all full chunks before it are stored, so that endless or very long iterables are uploaded in constant memory. An upload succeeds only if the iterable ended without an exception and everything in it is stored, in chunks that are the same as if all operations had been known before. While results are iterated over, a chunk is retrieved only when the caller has got all results of the chunks before it and asks for another one, and what the caller gets is the same as if all chunks had been retrieved before.", "quantifier": "all iterables (finite, endless, raising), all chunk sizes, serialization formats and outcomes of storing and retrieving chunks, all moments of an upload and all ways of using the iterator", "why_tests_cant": "A test draws from a few short iterables and looks at the final result; when each operation is drawn, for iterables of any length and with a failure anywhere, is a statement about every prefix of every run.", "anchors": ["libs/opsqueue_python/python/opsqueue/producer.py: _chunk_iterator, _unchunk_iterator", "libs/opsqueue_python/src/producer.rs: insert_submission_chunks", "opsqueue/src/object_store/mod.rs: store_chunks, retrieve_chunks"]}
