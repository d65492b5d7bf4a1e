# Formal model of channable/opsqueue in Lean 4 — design

## 1. Layout

```
properties.jsonl    the properties, in English
lean/Verif/Model/   the model, function by function, each definition citing /repo
lean/Verif/Spec/    small independent specifications the property theorems refer to
lean/Verif/Proofs/  helper lemmas and invariants (not part of what is claimed)
lean/Verif/Props/   the property theorems, one file per group, each with a
                    concrete non-trivial instance (`example`) beside it
MANIFEST.json       property -> theorems (generated by tools/manifest.py)
AXIOMS.md           theorem -> axioms (generated by tools/axioms.py)
seeded/             wrong programs the theorems were tested against
```

Conventions. `Cxx_...` is a theorem of property Cxx. Where the code does not have a property, the English
statement is kept in Lean as `Cxx_full : Prop`, its negation is proved from a concrete witness or for a whole
class of histories (`Cxx_refuted...`), and what remains true is proved as `Cxx_..._partial`.

## 2. The model

* **Database** (`Model/Types`, `Model/Sql`, `Model/Statements`): the eight SQLite tables are lists of
  rows; primary keys are enforced by the insert statement functions, which
  return a constraint error on conflict. An SQL *program* is a function of a
  world `(fault oracle, database)`. Before every statement (and at `BEGIN` and
  `COMMIT`) one symbol of the oracle is consumed: `ok`, `fail` (the statement
  returns an error), `crash` (the process dies before the statement) or
  `crashLate` (it dies after it). `transaction` restores the snapshot taken at
  `BEGIN` on error and on crash. Theorems quantify over all oracles, so over all
  fault points and crash points.
* **Operations** (`Model/Programs`, `Model/Query`): every function of
  `submission::db` and `chunk::db` as a program over that monad, statement by
  statement, in the order of the Rust code. Clock readings and generated ids are parameters.
* **Histories** (`Model/System`): `step` runs one public call; a history is a
  list of calls, each with its own oracle; writers are serialised because the
  writer pool has exactly one connection (db/mod.rs 487-495). That every
  interleaving of their statements is such a history is C79 (`Model/Concurrent`). Who waits for which
  connection is `Model/Pools` (C80).
* **Reserver** (`Model/Reserver`): the moka cache with time-to-live, its removal listener, delayed
  finishes, the clock as a parameter of each call.
* **In-flight counters** (`Model/MetaState`): the calls, and the same calls split into the steps that are
  atomic under the locks of the two levels of `DashMap`.
* **Strategies** (`Model/Strategy`): the queries of strategy.rs as sorted lists of rows.
* **Server** (`Model/Server`): one transition system of connections, fetches (row by row, each row
  tested against the reserver at its own time), the completer queue, delayed releases, crashes and restarts
  of the process, disconnects. Everything that can interleave in the program is a step of its own.
* **Connection** (`Model/Conn`), **consumer client** (`Model/Client`): message loops with nonces, heartbeats (in time: `Model/Heartbeat`); making and
  giving up connections (`Model/Reconnect`).
* **Producer HTTP** (`Model/Http`, `Model/Wire`, `Model/Decimal`): URLs, routes, JSON documents as
  trees, status codes, retries; the network is a parameter per attempt. The texts of the trees and of times in them
  (`Model/JsonText`, `Model/Rfc3339`) and what happens to texts that are none (`Model/HttpText`) are modelled on top of
  that; a call over texts equals the call over trees (C82).
* **Object store** (`Model/ObjectStore`), **Python layer** (`Model/Python`; waiting in time: `Model/Polling`; interrupts: `Model/Interrupt`; maintenance of the reserver in time: `Model/Maintenance`), tasks that outlive their connection (`Model/Leftover`), the values in the answers to consumers (`Model/Delivery`), the metrics of the consumer side (`Model/ConsumerGauges`), the loop of the backlog gauges in time (`Model/Scaling`), the bounded mailbox of the completer (`Model/Mailbox`), transactions and savepoints as SQLite has them (`Model/Savepoints`), addresses (`Model/Address`), the size of messages (`Model/Frames`), the durations of the configuration
  (`Model/Durations`), trace carriers (`Model/Carrier`; not what OpenTelemetry makes of them), when operations and results are
  drawn (`Model/Streaming`; memory is counted in operations, not in bytes).
* **End to end** (`Model/EndToEnd`): the server's transition system together with producers, consumers and
  one object store; all interleavings, crashes, lost consumers and producers, repeated executions.
* **Opening a database** (`Model/Upgrade`): the migrations as lists of statements, run on databases with rows; the
  migrator, which may die around every migration.
* **Identifiers** (`Model/Ids`, `Model/Snowflake`), one **migration** in detail (`Model/Migration`), finite maps
  (`Model/Map`).

## 3. Per-property plan

| id | modelled part | proof |
|----|----|----|
| C01 C02 | database + operations | invariant `Inv` over all histories, every oracle |
| C03 | histories | preservation of terminal rows per call; induction on the continuation |
| C04 | histories | invariant relating done indexes to the reports in the history |
| C05 | histories | induction on the list of reports with a decreasing set of backlog indexes |
| C06 C07 C08 C56 | single calls on states satisfying `Inv`, and server histories | exact effect of each program |
| C09 | `cancel_submission` | case analysis on the status; panic shown unreachable |
| C10 | `insert_submission` | exact effect; batching by induction on the list of rows; also through HTTP |
| C11 C12 | oracle semantics | every outcome is pre-state or one of the committed states |
| C13 | `insert_submission_from_chunks` | every call that returns an id; the crash between the two transactions is shown beside it |
| C14 | `submission_status` as a sequence of reads on a growing history | monotone movement between tables |
| C15 | `submission_status`, cleanup | holds for a non-decreasing clock (`_partial`); witness otherwise |
| C16 | `cleanup_old` | exact effect |
| C17 | histories | invariant |
| C18 C19 C20 | queries | filter/sort/limit laws; C19 has a counterexample for cancelled submissions |
| C21 | histories | attribute preservation; witness for chunk size and trace carrier |
| C22 | single calls | frame lemmas |
| C23 C25 C26 | Reserver with clock, server | invariants on reserver and server histories |
| C24 | server machine | witness of the violation, `_partial` theorem for schedules without stale reports |
| C27 C28 | server machine | induction over the row stream of a request |
| C29 C30 C31 | strategy queries | permutation + sortedness |
| C32 | generated column | arithmetic |
| C33 | MetaState | refinement to a counter function, interleavings of atomic steps |
| C34 | server machine | witnesses of leak and double decrement, `_partial` for orderly histories |
| C35 | server machine | effect of disconnect |
| C36 | server machine | witnesses (insert between look and wait; release without wake-up), `_partial` for inserts after registration |
| C37 | connection machine | invariant on nonces |
| C38 C40 | client machine | invariants |
| C39 | heartbeat counter | induction on tick/message sequences |
| C41 C42 C43 C57 C58 | HTTP client/server | induction on attempts, round trip of documents by cases; refutations by lost responses and unencoded prefixes |
| C44 C45 | object store | injectivity of the path, round trip by induction |
| C46 | Python layer | batching lemmas |
| C47 C48 | end-to-end machine | one invariant over all participants: what is stored where, what was handed out, what was executed and reported; composed with C46 |
| C49 | polling loop | induction; composition with C03 for the cancelled submission |
| C50 C51 C52 C53 | conversions, migration | arithmetic, list lemmas, structural induction |
| C54 | loop bookkeeping | refuted: count after n chunks is 2^n-1 |
| C55 | completer queue | FIFO induction |
| C59 C60 | consumer loop | induction on the rounds; C60 refuted by object store failures |
| C61 | the calls, against `Spec/Machine.lean` | refinement: the rows about one id are the image of a record; every effect commutes with restricting the tables to one id |
| C62 | the server model; the continuation (catch up, time-out, connect, request, undisturbed fetch, report all) is an explicit list of actions in `Spec/Server.lean` | draining the mailbox by induction, `reservedAt ≤ now` as invariant so that nothing stays reserved past the time-out, C28 for the fetch, the records of C61 for the effect of the reports. |
| C63 | Model/Http (routes, handlers, extractors; repeated names by `lastOfEach`), Model/Wire (decoders), Model/Decimal; well-formed requests described without the decoders in Spec/Endpoints | Each decoder shown to accept exactly the described trees (Proofs/Endpoints); inversion of the routing table; `C11_atomic` for 4xx answers; termination without a kill by composition over the SQL programs (Proofs/Alive) |
| C64 | Model/Http with faults at every statement, lost messages and other clients' calls before each attempt | A successful read under faults equals the fault-free read (`Faithful`), combined with C18, C20 and the JSON round trips, for the last attempt given by `call_spec` |
| C65 | Model/Cbor: bytes of CBOR trees, reader with ciborium's recursion budget; Model/Messages: trees of all messages in both directions, with the bounds of their numbers | Reading what was written gives the tree and the rest (induction over trees); no proper prefix can be read; the depth of a message is that of its strategy times two plus a constant, compared with the budget; lifted to sequences of events of Model/Conn |
| C66 | Model/Metrics: the functions of submission.rs and chunk.rs with the counters they increment, in a monad over database and counters that does not roll counters back; a server with calls, refreshes and restarts | The metered programs store what the plain ones do (simulation); each call is classified by its effect and its ticks; what happened is read off the statuses before and after (Spec/Metrics); sums by induction over the history. The full claim is refuted by a failed insert, a rolled back completion and a late report |
| C67 | the two queries of `calculate_scaling_metrics`; gauges as integers (f64 in the code) | The join is summed per submission; the invariant gives chunks in the backlog = total - done; drift between refreshes by monotonicity of the ticks. The full claim is refuted |
| C68 | the whole system of C45–C47 and the schedule of C62 | The schedule of C62 is carried out by consumers of the end-to-end model: a fresh connection gets every chunk (C62), the chunk that was handed out has the input of its insert, executing and sending it makes the completion report; then C47 gives the results |
| C69 | the generator of ids (documented algorithm of the crate), clock readings as parameters | Each call moves (millisecond, sequence) up lexicographically and the id is their concatenation; induction over calls and over processes |
| C70 | the cleanup loop with the durations and faults of its rounds, interleaved with all other calls | Induction over the continuation: a cleanup keeps what it must (C16, C11), other calls keep final states (C03); the last round before the present is late enough |
| C71 | flag, watchdog loop, shutdown and clock as a transition system with deadlines | Invariant that locates the last finished check and bounds its age; invariant on the phases after a cancellation |
| C72 | the database file: visible state, synced state, unsynced calls | Invariant: visible and synced state are runs of histories that are a sublist of the calls and extend each other; then C03 |
| C73 | the database calls and the server, as for C01-C12 | Measure: the sum over the chunks of the backlog of what is left of their budgets; every report that has an effect makes it smaller, nothing but the insert makes it larger |
| C74 | the 13 migrations as data, the SQL statements they consist of run on tables with rows, sqlx's migrator with a crash before, in or after each migration | A checker that runs statements on schemas only, proved sound for every content; it is evaluated on the list of migrations. Effects on rows by induction over the statements; restarts by induction over the list |
| C75 | the whole server (Model/Server), as for C34-C45 | Invariant: a running fetch has the waiting chunk still before it, behind rows that are not newer. Bound: the free chunks that are not newer than it are a potential that every hand-out lowers and only giving back raises; unending runs by contradiction with the bound. Starvation with Newest: a loop of states, by induction |
| C76 | classes of exceptions, conversion of errors, every call of the Python clients with signals (Model/Exceptions, Model/PyCalls) on top of the calls of Model/Http | By cases on errors; composed with C42 and C64 for what the server answered; loops by induction. Full statement refuted: exceptions of iterators, the end of the consumer's loop, misuse |
| C77 | the iterators over results: calls as tasks waiting for the lock of a stream, cancelled calls, failures of the store (Model/Iterators) | Invariant over events: the n-th taking gives chunk n, what callers got is a sublist of what was taken. Full statement refuted: cancelled calls lose chunks, a failed chunk is skipped, panics after the end |
| C78 | the argument, the pipe and the attempts to bind and serve, with every answer of the operating system (Model/Startup) | Numerals as in C64; invariant over the attempts: nothing done yet, or the first known address told and the pipe closed. Full statement refuted for an unknown local address, a failed write and a failure after serving |
| C79 | tasks that run the calls statement by statement on one writing connection, with readers, dropped tasks and crashes (Model/Concurrent) | Every program of the model is given as code made of single statements; equality of the two by composition. Invariant over events: the committed database is that of the calls so far, the open connection is that of the running call after its statements so far |
| C80 | the pools with their queues, and for every call when it takes connections and gives them back (Model/Pools) | Invariant: who holds the writer never waits, only a fetch holds one reader while it waits for another. The steps left of those before a waiting call never grow; counting holders gives progress while there are more connections than fetches, and a state without progress for every size of the pool otherwise (refuted) |
| C81 | the server machine; a connection can end at any moment, also in the middle of a fetch | Case analysis of the actions gives the three reasons. Invariant while no submission stops being in progress: the rows a fetch still deals with are of submissions in progress. The full statement is refuted by a cancel and by a failure reported by another consumer |
| C82 | Model/JsonText (serde_json's writer and reader), Model/Rfc3339 (chrono's), Model/HttpText (axum's `Json` extractor around Model/Http); the grammar of RFC 8259 as an inductive relation and the calendar in closed form in Spec/JsonText and Spec/Times | Reader: soundness by induction on its fuel, completeness by induction on the grammar; writer: induction on the tree, with the reader's completeness as round trip. Calls: the retry loop over texts and over trees agree state by state; that every number in an answer has 64 bits is an invariant of the tables (Proofs/Fits) |
| C83 | as C82, with axum's default limit on the size of a body | C82 and C10 for short requests; lower bound of the length of a text by induction on the chunks; the full statement is refuted by a request with a chunk of one mebibyte |
| C84 | Model/Shutdown: the server machine with a process that is running, stopping or ended; completer and connections notice the stop in any order | Simulation: every event is an action of the server machine or none, so its theorems apply (C62 for offering the work again); induction for the time. The statement about reports is refuted: the completer may notice the stop first |
| C85 | Model/Reconnect: the cell with the connection and the calls on it, one step for each access to the cell | Invariant of histories with one call at a time; induction on the history for why a connection is given up. The full statement is refuted four times: by misuse, by a late failure, by two calls that connect, by a panic |
| C86 | Model/Recovery: Model/Reconnect with a Model/Client for each connection; how a call ends and whether a connection is healthy follow from what happened on the connection | Invariant that ties the calls of the client to those of its connections; the theorems of C38 and C85 are carried over to the composition. The full statement is refuted for connections that end by halves (a read error that leaves the socket open, a message that cannot be read) |
| C87 | Model/Heartbeat: the events of Model/Conn and Model/Client with times; tokio's interval (first tick at once, `Burst`, `reset`), a loop that can be occupied and late | Invariant on the deadline of the timer in terms of the last frame handled, generic in the two ends. The claim about live consumers is refuted for a server that is slow (ticks pile up); partial under a bound on the time a frame waits |
| C88 | Model/Heartbeat for both ends, with the frames each puts on the wire and takes from it; the network is a relation between them | Ping, pong and the theorems of C87 give the server's side. The consumer's side is refuted by a consumer that keeps reporting; partial if the server has pauses or answers |
| C89 | Model/Polling: the loop of C49 with the times of its requests, against a timed history of the server with the cleanup loop of C70 | The pause is never longer than the time waited so far plus 10 ms; the first look after the end decides. Refuted for a retention time shorter than the pauses; partial otherwise |
| C90 | Model/Interrupt: a wait with its own check for signals, `reserve_chunks_gilless` and `run_per_chunk` built from such waits and the callback, with times | When a check notices a signal, by induction on its rounds; then by induction on the rounds of the loops. Refuted for waits that are all shorter than the check interval, and for a failing report; partial otherwise |
| C91 | Model/Server with its history of answers, reports and notices of expiry | A submission fails only after as many fail calls as the limit says, which are reports that arrived in order (C55); a notice of expiry belongs to a reservation, and a reservation to an answer or a request that was cut short, by an invariant. Refuted for expired reservations; partial otherwise |
| C92 | Model/Maintenance: the loop of `run_pending_tasks_periodically` with times, next to any use of the reserver | Invariant: the last pass is not long ago, and no entry was due at that time; with C25 for the notices |
| C93 | Model/EndToEnd: all participants and the object store | The invariant of C48, and which steps write which objects (paths are injective, C44). Refuted for results when a consumer is late and its callback is not deterministic; partial otherwise |
| C94 | Model/Leftover: Model/Server with the tasks whose connection has ended | Refuted by a family of histories, one for each number of tasks; a measure (requests being tried, waiting, to be retried, left behind) that only a request increases, and that loses the tasks left behind at every insert |
| C95 | Model/Delivery: Model/Server with the values in the answers (the row tried last and the pairs collected, per connection) | Induction over the history: what a running fetch has collected consists of rows of the backlog when it began and of submissions read since; the answers without values are those of Model/Server; provenance of rows (prov_run, C21) and retries (retries_run) on top |
| C96 | Model/ConsumerGauges: Model/Server with the gauges and counters of the consumer side, and panics of the tasks of connections | Partial (refuted by a panic): induction over the history with the number of open connections as a sum; the entries of the cache after a pass have not expired, so their number is that of the reserved chunks; a chunk becomes reserved only in try_reserve (newly_reserved) |
| C97 | Model/Scaling: the loop of the backlog gauges in time, with each query and each gauge a step of its own next to the calls of others | Partial (refuted by a failed chunk): induction over the history with the time by which each gauge is set next, and with the moment at which the value in hand was read; the number of rows is the sum over the submissions (backlog_sum, operations_sum) |
| C98 | Model/Mailbox: Model/Server with a bounded mailbox, connections that wait for room in it, and those that have got room and have not used it yet | Refinement of Model/Server (a report arrives there when it enters the mailbox); invariant: who waits is open and does nothing else, the mailbox is full if anybody waits, the reports of each connection in order; induction over the rest of the history for the turns |
| C99 | The calls of Model/System on any database that is sound (Spec/Inherited), not only on an empty one; the machine of C61 started in the middle | The record of each submission is read off the sound database; the induction of C61 over the calls, from there; soundness is the invariant of the calls |
| C100 | Model/Savepoints: the calls with SQLite's stack of savepoints, sqlx's nested transactions and the SAVEPOINT and RELEASE lines of the texts, some of which are not run | Simulation of Model/Programs: inside of a transaction a program leaves at most savepoints on the stack that the end of the transaction does not look for; by composition over the programs |
| C101 | Model/Address: the URLs that both clients make of the address, and how the libraries below them take these apart | By induction over the text of the address; the full claim is refuted for consumers with http or https and for a slash at the end |
| C102 | Model/Frames: the limit on the size of a frame when reading, around the bytes of Model/Messages | Bounds on the length of a message, by induction over its tree, compared with the length of the JSON of the insert request; the full claim is refuted by a long report and by a long answer |
| C103 | Model/Durations: what is done with the three durations that can panic, and which task a panic ends | Invariant of the connections over all histories; the exact set of durations with which nothing panics; the full claim is refuted by a heartbeat interval of zero |
| C104 | Model/Carrier: writing and reading the dictionary as JSON, and as headers, on Model/JsonText; Model/Delivery for the way to the consumer | From C82 (JSON texts are read back) and C95 (a consumer gets what was given) |
| C105 | Model/Streaming: the iterators of an upload and of a download as machines that make one request at a time, on the formats of Model/Python | Invariants over all steps (what is drawn = what is stored ++ what is held); agreement with the list functions of C46; progress by induction over the batches |

## 4. Trusted base

* Lean's kernel (4.33.0). No axioms are added; there is no `sorry`, `admit`, `native_decide` or `bv_decide`.
  Every theorem depends on a subset of `propext`, `Classical.choice`, `Quot.sound`; `AXIOMS.md` lists them per
  theorem. Concrete instances are checked by `decide +kernel`.
* That the definitions in `Model/` say what the cited lines of /repo do. This was done by reading; nothing
  connects the Rust text and the Lean text mechanically.
* Behaviour of what the code is built on, as far as it uses it:
  * SQLite: statements are atomic, transactions are atomic and survive the end of the process (for power failures see
    `Model/Durability`, C72), a reader sees a committed state, the
    writer pool of size one gives its connection to one task at a time; generated columns as in their formulas; `ON CONFLICT`,
    `RETURNING`, `ORDER BY`, `LIMIT`, `GROUP BY`, `MAX` as documented; rows a query does not order come in any order
    (the model's order is one of them where a theorem does not depend on it).
  * `ALTER TABLE`, `CREATE` and `DROP` as in `Model/Upgrade`; sqlx's migrator runs a migration and records it in one
    transaction (migrations are never marked `no-transaction` in /repo).
  * sqlx: a pool is fair (first come, first served: its default); `transaction` rolls back on error; `query!` with
    several statements runs all of them; a pool hands a connection to one user at a time.
  * moka: as in the header of `Model/Reserver`: an expired entry is not visible, its listener runs once.
  * DashMap: each entry operation is atomic under its shard lock.
  * tokio: channels are FIFO, a bounded one gives room in turn, `select!` picks any ready branch, `Notify::notify_waiters` wakes those registered.
  * Panics of the libraries (`Model/Durations`): moka refuses a time to live of more than 1000 years, `tokio::time::interval` a period
    of zero, `Instant` and chrono's `DateTime` panic when a sum or difference is out of their range.
  * tungstenite: after a protocol error or close the stream yields nothing more (`Event` in `Model/Client`). It sends a message as
    one frame and, when reading, refuses frames of more than 16 MiB (the default of `max_frame_size`, also with axum; nothing in /repo
    changes it).
  * snowflaked: the algorithm in `Model/Snowflake` (it gives `FreshIds` if the clock is not set back while the server is
    down, C69); UUIDv7 prefixes are unique and contain no slash.
  * reqwest, axum, the `url` crate, `http::Uri` and serde as in `Model/Http`, `Model/Address` and `Model/Wire`: bodies arrive as sent,
    fields given twice are refused, fields may be given by position in an array, of an entry of a map given twice the last
    value counts. serde_json and chrono as in `Model/JsonText` and `Model/Rfc3339` (their sources are not in /repo): 64-bit
    integers, years before 0 and after 9999 with a sign. What a request's type does not name is passed over without a limit
    on nesting, and escapes in it need not be pairs of surrogates (`Json.unreadable`); the limit of 127 levels does not
    show, for no type in a request is deep. Whether a bad body gets 400 (as not JSON) or 422 (as JSON of another shape)
    depends on which error serde_json meets first; `withJson` decides it by the whole text, so C82 says "400 or 422". axum refuses bodies of more
    than 2 MiB (its default; nothing in /repo changes it).
  * ciborium: writes RFC 8949 with definite lengths and shortest heads, reads it with a recursion limit of 256, ignores
    what follows the first value (its source is not in /repo; the limit is what version 0.2 documents).
  * `object_store`: `Path::from`, `put`, `get` as in the header of `Model/ObjectStore`.
  * Python: generators, `itertools.batched`, exceptions as in `Model/Python`.

## 5. What is not modelled

* Histograms and the counter of skipped chunks (prometheus.rs), tracing and OpenTelemetry carriers (a carrier is an
  opaque string), logging (but see C54).
* Configuration parsing (config.rs, but see C78), the order in which app/main.rs starts its tasks (stopping is modelled in
  `Model/Shutdown`, C84), signals other than Ctrl-C (the process dies), TCP, TLS.
* Indexes, query plans, retries on a locked database; pragmas other than those that matter for C72.
* Time spent: timeouts appear as nondeterministic failures, delays between retries are counted only.
* UTF-8 of JSON texts (they are lists of characters, only their length in bytes is computed); the plain texts of axum's own
  refusals; the websocket messages are modelled to the byte (C65), the frames around
  them are not.
* PyO3 beyond the conversion of arguments and errors (C76), the GIL, asyncio; Python tracing; the multiprocessing behaviour of the consumer.
* Down migrations (never run by the server). The up migrations are modelled in `Model/Upgrade` (C74), on tables of rows;
  the models of the calls have their own representation of the tables after all migrations; `fileOf` (Spec/Stored)
  connects the two. The final schema is compared with `opsqueue_example_database_schema.db` (C74_schema; the Lean
  form of that file is written by `tools/schema.py`). CHECK constraints, STRICT
  typing of columns declared ANY and AUTOINCREMENT counters do not occur in the migrations.
* `chunk_contents` sizes and memory limits, `usize` overflow except where a definition says so.

## 6. Where the code differs from its documentation or from what one would expect

Each is visible in a theorem or in an example beside one; line numbers are in the comments of the definitions.

1. `complete_chunk` swallows every error of its transaction and answers Ok; the metric is incremented anyway.
2. Lookup by prefix ignores cancelled submissions (C19).
3. Chunk size and trace carrier are lost when a submission ends (C21).
4. `cleanup_old` also deletes records of completed chunks of submissions in progress; the failed chunk's row may be
   deleted before its submission's when the clock runs backwards between them (C15, C16).
5. An empty submission is completed in a second transaction: after a crash in between it stays in progress until
   cancelled, and an error there leads to a retry and a duplicate (C13, C43).
6. The in-flight counters are never decremented for chunks given back by a disconnect; two racing finishes
   decrement twice (C34).
7. A fetch that fails after reserving a chunk leaves it reserved until its time-to-live ends (C27).
8. The client's `healthy` flag is not cleared on a read error; a call after a read error that leaves the socket usable
   hangs; a panic of the background task (unknown nonce, unparsable message) leaves calls hanging (C38).
9. The completer does not check that the reporter holds the reservation: a late report of a former holder
   ends the reservation of the present one (C24).
10. `retries + 1 >= max`: a budget of 0 and one of 1 both fail at the first failure (C07).
11. A blocking wait on a cancelled or unknown submission never ends (C49).
12. A retried producer insert may create a second submission (C43); a retried cancel reports NotCancellable
    although it cancelled (C57); 5xx answers to cancel and lookup are not retried, undecodable bodies are retried
    for some calls and not for others (C41).
13. The Python consumer's progress counter is 2^n-1 after n chunks, so the progress message never appears (C54).
14. Results of a submission inserted directly are read from the object store under the prefix "".
15. If one object of a batch cannot be retrieved, or an output cannot be stored, no report is made; the chunks stay
    reserved until their time-to-live ends (C60).
16. A wake-up can be lost: insert between look and wait, and releases that do not notify (C36).
17. The prefix in the lookup URL is not encoded (C58).
18. `random_order` overflows for ids near 2^63 (C32). `MaxSubmissions` accepts up to 2^63-2 (C51).
19. A key finished twice with delay is released by the first removal (C26).
20. An expiry give-back counts as a failure of the chunk and uses up its retry budget.
21. Disconnecting with a queued completion releases the reservation before the completion is applied.
22. The client decodes `count` as 32 bits while the server sends 64 (C42, visible in the statement).
23. Prefixes with slashes can share objects (C44).
24. `submission_status` may end in a missing-row error when cleanup runs between its reads.
25. A strategy nested more than 126 levels deep cannot be sent: the server fails to read it and drops the connection (C65).
26. The counters of the metrics endpoint also count inserts that failed, completions, failures and cancellations that
    were rolled back, and reports of chunks that are not in the backlog (C66).
27. The backlog gauge of chunks is decremented when a chunk fails but not when it completes, is skipped or is inserted;
    it is right only just after a refresh and can be negative (C67). The sum of operations ignores submissions
    without a chunk size (from before the migration that added it), which are shown as having chunk size 1 elsewhere.
28. If the clock is set back while the server is down (or the server restarts within a millisecond) an id can be given a
    second time; in 2039 the generator of ids starts to panic (C69).
29. The health check only reads: it does not notice that somebody else holds the write lock, although the comment at
    `check_health` says that it does (C71).
30. Commits are not synced (`synchronous=NORMAL`): a power failure can take acknowledged submissions and completions with
    it, up to the last checkpoint (C72).
31. `run_per_chunk` gives back the exception that ended it instead of raising it, and `run_each_chunk` drops it: after
    Ctrl-C a consumer's `run_each_*` returns as if all were well; so it does at once if the callback is not
    callable. If the failure of the chunk cannot be reported, Ctrl-C does not even end the loop (C76).
32. Exceptions of the producer's iterator of chunks (Ctrl-C, an error of the serialization) and failed uploads all become
    `ChunksStorageError("Failed to read chunk element from stream/iterator")`, without the cause (C76).
33. `IncorrectUsageError` is documented as the base of all misuse. `ChunkSizeIsZeroError` is not one, negative ids and
    limits raise `OverflowError`, `ChunkCountIsZeroError` is never raised, and the default strategy of `reserve_chunks`
    is a class and not an instance, so that the default raises `TypeError` (C76).
34. Giving up an awaited `__anext__` (a timeout, say) does not end its task, which takes the next chunk and drops it: the
    result is lost without an error. After an error of the store the iterator goes on with the next chunk. A call after the
    end panics instead of saying again that there is nothing (C77).
35. If `local_addr` fails, the pipe for the port is neither written nor closed while the server serves: the parent
    process waits. If writing fails, only a warning is logged. If `axum::serve` failed (today's axum never does), the next
    attempt would listen without telling its port (C78).
36. A fetch holds a connection for reading while it waits for a second one, for each chunk it reserves. As many fetches at the
    same time as there are connections (`--max-read-pool-size`, for which the documentation advises the number of consumers;
    all waiting consumers are woken at once by an insert) block each other, and everybody else who reads, until sqlx's
    30 seconds are over; then the chunks stay reserved as in 7. With one connection every fetch that finds something fails (C80).
37. `join_chunk_with_submission_info` expects the submission of a chunk it has just read to be in progress. If the submission is
    cancelled, or fails because of a report of another consumer, in between, the task of the connection panics: the consumer's
    connection is lost, its request is not answered, all its chunks go back, and what the fetch had collected so far, also
    of other submissions, stays reserved until it expires. The same happens on a database error there (C81).
38. axum refuses bodies of more than 2 MiB and nothing in the server raises that limit. A byte of a chunk takes two to four
    characters in the JSON of a request, so inserting chunks of a total of one mebibyte or more directly always fails, with
    status 413, which the client does not try again and does not explain. Submissions whose chunks are in the object store
    are affected only if their metadata has some hundred kilobytes (C83).
39. When the server stops, the completer ends as soon as it notices, also if reports are waiting (up to 1024). They are lost,
    although the consumers' calls have returned without error: the work is done again after the next start (C84).
40. The consumer client gives up its connection after any error, also after the misuse `reserve_chunks(0)`, which the server
    refused over a connection that works (the comment on the type says "on low-level failures"). All chunks that the consumer
    has reserved go to others, while it still works on them (C85).
41. The consumer client is not safe for concurrent calls, although it takes `&self`: a call that fails late throws away the
    connection that others have made since; two calls that connect at the same time close each other's connection; and a call
    panics at `expect` when another one fails between its check and its use of the connection (C85).
42. After a read error that leaves the socket open, or a message that cannot be decoded (the background task panics), the consumer
    client has a connection from which nothing is read any more but which says it is healthy. `reserve_chunks` over it waits
    forever and no new connection is made; only giving up the call (Ctrl-C) ends it, and the next one hangs again (C86).
43. The timer of the heartbeats catches up on the ticks it has missed. If handling one message takes the server longer than
    `max_missable_heartbeats + 1` intervals (40 seconds by default), it may find all these ticks due and drop a consumer whose
    frames are waiting in the socket; `select!` chooses at random (C87). Before the initialization message is received the
    consumer has no timer at all: a server that accepts the connection and says nothing is waited for forever. A
    heartbeat interval of zero is accepted by the command line and makes the task of every connection panic.
44. The server resets its timer when it receives something, and pings only when the timer ticks; it does not answer reports.
    The consumer counts the intervals in which it *receives* nothing. So a consumer that reserves many chunks at once and
    reports one at least every 10 seconds is sent nothing, and drops a connection that works 50 seconds after its last
    reservation; all the chunks it still has go to others. (The comment on `heartbeat_interval` says that messages sent reset
    the timer and the counter too, which would prevent this.) `run_per_chunk` is not affected, because it reserves one chunk
    at a time; `reserve_chunks` is (C88).
45. If `max_submission_age` is shorter than the pauses between two polls of a waiting producer (5 seconds), a submission can be
    completed and its record removed between two polls. The producer then waits forever, because an unknown submission counts as
    one that is not completed yet (C89). The command line accepts any duration. The same happens, with any retention time, to a
    producer that is cut off from the server or suspended for that long.
46. Every wait of the Python client starts a new check for signals, which first sleeps for the check interval (one second in
    release builds). A sequence of shorter waits is never interrupted. When the server's database fails it answers every
    reservation with an empty list at once; the consumer sleeps for half a second and asks again, and does not notice Ctrl-C
    however often this is repeated. The same holds for `run_per_chunk` if every reservation fails at once (the inputs cannot be
    read from the object store): it goes through the whole backlog without a pause. In debug builds (100 ms) only the
    second happens (C90).
47. Ctrl-C while the callback runs raises `KeyboardInterrupt` in it. The chunk is reported as failed, which uses up one of
    its retries, also if the signal came before the chunk was reserved. If that report fails because the connection is lost, the
    error of the report replaces the interrupt and the consumer goes on (C90).
48. The server counts failure reports, not tries. If a chunk takes longer than its reservation the client reports its failure by
    itself ("Reservation expired"), and the consumer reports again if its callback then raises an exception (or, to the same
    effect, another report of failure). A single try that is slow and fails uses up two of the `max_chunk_retries` (C91).
49. If an error of the database ends a reserve request after a chunk has been reserved, the reservation stays until it expires.
    The consumer is then told of the expiry of a reservation of which it has never heard, and its client reports the failure of
    the chunk. A submission can thus fail because of a chunk that has never been handed out (C91).
50. A consumer whose reservation has expired is not stopped, and stores its output when it is done. If another consumer has
    completed the chunk in the meantime this replaces the output, possibly after the producer was told that the submission is
    completed, or while it reads the results. The report that follows is ignored by the server, but the object has changed. With a
    callback whose results are not determined by its input the producer sees different results at different times (C93).
    A chunk itself is always the result of one execution.
51. Nothing removes objects from the object store: inputs and outputs stay when the record of the submission is cleaned up, and so
    do the inputs of insertions that failed half-way (C93 relies on this: results once there are always there).
52. A reserve request that finds nothing spawns a task that waits for the next insert (conn.rs 242-255). Nothing ends the task when
    the connection ends. While nothing is inserted, every consumer that connects, asks and goes away leaves a task (with its copy of
    the request) behind; there is no bound (C94). The next insert ends all that have started waiting.
53. (C96) The gauge of connected consumers goes up at the start of a connection's task and down at its end (consumer/server/mod.rs 121, 140), but a panic of the task skips the end: each cancellation that lands between the query of a chunk and that of its submission leaves the gauge one too high until the process ends (`C96_refuted_by_panic`; `C96_consumers_partial` says exactly by how much). And the gauge of reserved chunks, described as the chunks being worked on, counts chunks that are already completed for the second in which their reservation is kept (`C96_refuted_for_work`).
54. (C97) A chunk that fails for good takes one off the gauge of chunks in the backlog (chunk.rs, `move_chunk_to_failed_chunks`), but its submission fails with it and takes all its chunks out of the backlog: until the next calculation the gauge shows a number that was never right (`C97_refuted_a_failed_chunk`). And as the loop sleeps first (prometheus.rs 232-235), a server that is started with a backlog shows none for five seconds (`C97_nothing_is_shown_at_first`), which an autoscaler takes for an empty queue.
55. (C98) While the completer is slow and its mailbox full, a connection that has read a report waits for room and does nothing else: it answers no request, sends and counts no heartbeats, and does not notice that its consumer has gone, whose chunks stay reserved until they expire (`C98_held_up`).
56. (C100) The `RELEASE SAVEPOINT` lines at the end of `move_chunk_to_failed_chunks` and `complete_submission_raw` (chunk.rs 469, submission.rs 951) are not run when there is a row: `fetch_one` stops at it. Inside of a transaction this does no harm (`C100_nothing_is_left_open`). But `move_chunk_to_failed_chunks` is public and takes connections without a transaction as well; called on one, as its test does, it opens a transaction that nobody closes, and all later calls on the connection fail (`C100_needs_a_transaction`).
57. (C101) No address with a scheme is good for both clients. `http://localhost:3999`, which the README names and the documentation of both Python clients ("URL at which the opsqueue binary can be reached") suggests, leads a consumer to a host called `http` (consumer/client.rs 265-269 prepends `ws://` to all that does not begin with `ws://` or `wss://`), and as connecting is tried for ever the consumer hangs without an error (`C101_refuted_http_for_consumers`). `ws://localhost:3999` makes a producer panic, and so does `HTTP://…` (`C101_refuted_other_schemes`). With a slash at the end of the address all paths begin with two slashes, and the server answers 404 to everything (`C101_refuted_slash`); a cancel call, which expects a document in a 404, tries a hundred times before it gives up.
58. (C102) A frame of more than 16 MiB is an error of the socket to whoever reads it (tungstenite's default, for client and server).
    * A failure text of that size (the text of a Python exception is sent in full) ends the connection of its consumer. The failure is
      not counted: the chunk goes back and is handed out again, for as long as it fails in this way, and the retry limit never
      counts (`C102_long_reports_are_lost`).
    * An answer contains the metadata of the submission once per chunk. A submission with 500 kB of metadata, which a producer can
      insert, makes the answer to a consumer that asks for 34 chunks too long (`C102_refuted_by_an_answer`). The consumer loses its
      connection, all reservations with it, connects again and asks again, without end. Answers of up to six chunks always fit
      (`C102_six_chunks_partial`), so the Python loop, which asks for one (libs/opsqueue_python/src/consumer.rs 371), is safe.
59. (C103) The durations of the command line are not checked.
    * `--heartbeat-interval 0s`, which one might give to turn heartbeats off, makes `tokio::time::interval` panic in the task of every
      connection. The server starts, says that it is healthy, takes submissions, and no consumer can ever connect
      (`C103_zero_heartbeat_interval`). Nothing but the panics in the log shows it.
    * An interval of 2^63 seconds or more ends a connection with its first message (`C103_long_heartbeat_interval`).
    * More than 1000 years for `--reservation-expiration` and more than about 264000 years for `--max-submission-age` ("keep for ever")
      end the server at its start with a panic (`C103_ends_at_start`).
