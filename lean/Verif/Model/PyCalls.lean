import Verif.Model.Python

/-!
# The calls of the Python clients, and the exceptions they raise

Models the methods of `ProducerClient` and `ConsumerClient`: `libs/opsqueue_python/src/producer.rs`, `src/consumer.rs`
and the Python classes around them (`python/opsqueue/producer.py`, `consumer.py`). Results are what the caller sees: a
value, or an exception. What the Rust clients return is a parameter here (see `Model/Http.lean` for the producer).
-/

namespace Opsqueue.Python

/-- Leaving the extension: the error of a `CPyResult` becomes an exception (src/errors.rs 216-233). -/
def raising {α : Type} (r : Except RustErr α) : Except Exn α :=
  match r with
  | .ok a => .ok a
  | .error e => .error (toPy e)

/-- `run_unless_interrupted`, src/common.rs 567-577: the future runs until it has a result, or until
`check_signals_in_background` (579-596) finds that a signal handler raised `interrupt`. -/
def unlessInterrupted {α : Type} (interrupt : Option Exn) (r : Except RustErr α) : Except RustErr α :=
  match interrupt with
  | some e => .error (.fatal e)
  | none => r

/-! ## Arguments -/

/-- A Python `int` as a `u64` or `usize` argument (PyO3; signatures of src/common.rs 38, 75 and src/consumer.rs 101). -/
def extractUnsigned (n : Int) : Except Exn Nat :=
  if n < 0 ∨ 2 ^ 64 ≤ n then .error ⟨.overflowError, .message "int too big to convert"⟩ else .ok n.toNat

/-- `SubmissionId(n)` and `ChunkIndex(n)`, src/common.rs 34-46, 71-78. -/
def newId (n : Int) : Except Exn Nat :=
  match extractUnsigned n with
  | .error e => .error e
  | .ok m => raising (if m < 2 ^ 63 then .ok m else .error .tryFromInt)

/-- The `strategy` argument of `reserve_chunks` and `run_per_chunk` (PyO3; src/consumer.rs 102, 172): an instance of
`Strategy`, or something else. `Strategy.Newest`, the default of `reserve_chunks` in python/opsqueue/consumer.py
124-126, is something else: it is the class of the values `Strategy.Newest()`. -/
inductive StrategyArg where
  | strategy (s : PyStrategy)
  | newestClass
  | other

/-- Extraction of the argument. -/
def StrategyArg.extract : StrategyArg → Except Exn PyStrategy
  | .strategy s => .ok s
  | .newestClass => .error ⟨.typeError, .message "'type' object cannot be converted to 'Strategy'"⟩
  | .other => .error ⟨.typeError, .message "object cannot be converted to 'Strategy'"⟩

/-- `ProducerClient(…)` and `ConsumerClient(…)`: `ObjectStoreClient::new`, src/producer.rs 58-78, src/consumer.rs
60-80, opsqueue/src/object_store/mod.rs 151-205. `url`: the URL can be parsed; `store`: there is a store for it. -/
def newClient (url store : Bool) : Except Exn Unit :=
  raising (if url then (if store then .ok () else .error .objectStoreUrl) else .error .urlParse)

/-! ## Producer -/

/-- The calls that only ask the server: `server_version`, `count_submissions`, `cancel_submission`,
`lookup_submission_id_by_prefix`, `lookup_submission_ids_by_strategic_metadata`, `insert_submission_direct`,
src/producer.rs 96-156, 195-284. `r`: what the call of the Rust client returns. -/
def producerCall (interrupt : Option Exn) (r : Except Http.ClientErr Http.Result) : Except Exn Http.Result :=
  raising (unlessInterrupted interrupt (r.mapError .producer))

/-- `get_submission_status`, src/producer.rs 169-187: the status is converted. -/
def getStatus (interrupt : Option Exn) (r : Except Http.ClientErr (Option SubmissionStatus)) :
    Except Exn (Option PyStatus) :=
  match raising (unlessInterrupted interrupt (r.mapError .producer)) with
  | .error e => .error e
  | .ok st => .ok (st.map PyStatus.ofRust)

/-- One round of the upload: what others store meanwhile, what the iterator of chunks does (src/producer.rs 309-315:
an exception of its `__next__`, or of the conversion to bytes, becomes the error of the stream), how the `put` ends. -/
structure Upload where
  others : List ObjectStore.Write := []
  item : Except Exn Bytes
  put : ObjectStore.PutResult := .ok

/-- `store_chunks` (opsqueue/src/object_store/mod.rs 213-247) as in `ObjectStore.storeFrom`, with the source of the
error. -/
def uploadFrom (base : List Char) (pfx : String) : Nat → List Upload → ObjectStore.Store →
    Except RustErr Nat × ObjectStore.Store
  | i, [], s => (.ok i, s)
  | i, r :: rs, s =>
    let s := ObjectStore.writes base s r.others
    match r.item with
    | .error e => (.error (.chunksStorage pfx .input (.iterator e)), s)
    | .ok content =>
      match ObjectStore.storeChunk base s ⟨pfx, i, .input, content⟩ r.put with
      | (.error _, s) => (.error (.chunksStorage pfx .input (.upload i)), s)
      | (.ok _, s) => uploadFrom base pfx (i + 1) rs s

/-- `insert_submission_chunks`, src/producer.rs 292-348: first the upload, then the insert, each of them possibly
interrupted. `insert n`: what the Rust client returns for the insert of `n` chunks. -/
def insertChunks (base : List Char) (pfx : String) (uploads : List Upload) (s : ObjectStore.Store)
    (interrupt1 interrupt2 : Option Exn) (insert : Nat → Except Http.ClientErr SubmissionId) :
    Except Exn SubmissionId :=
  raising (match unlessInterrupted interrupt1 (uploadFrom base pfx 0 uploads s).1 with
    | .error e => .error e
    | .ok n => unlessInterrupted interrupt2 ((insert n).mapError .producer))

/-- `insert_submission`, python/opsqueue/producer.py 141-165: `_chunk_iterator` (395-403) checks the size when it is
called. -/
def insertSubmission (chunkSize : Int) (base : List Char) (pfx : String) (uploads : List Upload)
    (s : ObjectStore.Store) (interrupt1 interrupt2 : Option Exn)
    (insert : Nat → Except Http.ClientErr SubmissionId) : Except Exn SubmissionId :=
  if chunkSize ≤ 0 then .error ⟨.chunkSizeIsZero, .message "Chunk size must be a positive integer"⟩
  else insertChunks base pfx uploads s interrupt1 interrupt2 insert

/-- `maybe_stream_completed_submission`, src/producer.rs 542-571, with the errors in full; see `maybeStream`. The value
is the prefix and the number of the chunks to stream. -/
def maybeStreamOrErr : Except Http.ClientErr (Option SubmissionStatus) → Except RustErr (Option (String × Nat))
  | .error e => .error (.producer e)
  | .ok st =>
    match maybeStream (.ok st) with
    | some (.stream pfx n) => .ok (some (pfx, n))
    | some (.failed s c) => .error (.submissionFailed s c)
    | some .error | none => .ok none

/-- `try_stream_completed_submission_chunks`, src/producer.rs 356-381. -/
def tryStreamPy (interrupt : Option Exn) (id : SubmissionId)
    (answer : Except Http.ClientErr (Option SubmissionStatus)) : Except Exn (String × Nat) :=
  raising (unlessInterrupted interrupt (match maybeStreamOrErr answer with
    | .error e => .error e
    | .ok none => .error (.notCompletedYet id)
    | .ok (some x) => .ok x))

/-- The loop of `stream_completed_submission_chunks`, src/producer.rs 510-540, with the errors in full; see `waitLoop`.
`none`: not over after `fuel` rounds. -/
def waitOrErr (answers : Nat → Except Http.ClientErr (Option SubmissionStatus)) : Nat → Nat →
    Option (Except RustErr (String × Nat))
  | 0, _ => none
  | fuel + 1, i =>
    match maybeStreamOrErr (answers i) with
    | .error e => some (.error e)
    | .ok (some x) => some (.ok x)
    | .ok none => waitOrErr answers fuel (i + 1)

/-- `blocking_stream_completed_submission_chunks`, src/producer.rs 445-464: `none` while the call has not returned.
`interrupt`: an exception raised by a signal handler, after `fuel` rounds at the latest. -/
def waitPy (interrupt : Option Exn) (answers : Nat → Except Http.ClientErr (Option SubmissionStatus)) (fuel : Nat) :
    Option (Except Exn (String × Nat)) :=
  match interrupt with
  | some e => some (raising (.error (.fatal e)))
  | none => (waitOrErr answers fuel 0).map raising

/-! ## Consumer -/

/-- One round of `reserve_chunks_gilless`, src/consumer.rs 260-272. -/
structure ReserveRound where
  interrupt : Option Exn := none
  result : Except RustErr (List PyChunk)
  sleepInterrupt : Option Exn := none

/-- The loop of `reserve_chunks_gilless`, src/consumer.rs 247-273: ask until there is a chunk. `none`: still asking
after these rounds. -/
def reserveLoop : List ReserveRound → Option (Except RustErr (List PyChunk))
  | [] => none
  | r :: rs =>
    match unlessInterrupted r.interrupt r.result with
    | .error e => some (.error e)
    | .ok [] =>
      match r.sleepInterrupt with
      | some e => some (.error (.fatal e))
      | none => reserveLoop rs
    | .ok chunks => some (.ok chunks)

/-- `reserve_chunks`, python/opsqueue/consumer.py 124-139 and src/consumer.rs 98-114. `rounds max`: what happens when
asking for `max` chunks. -/
def reserveChunks (max : Int) (strategy : StrategyArg) (rounds : Nat → List ReserveRound) :
    Option (Except Exn (List PyChunk)) :=
  match extractUnsigned max with
  | .error e => some (.error e)
  | .ok m =>
    match strategy.extract with
    | .error e => some (.error e)
    | .ok _ => (reserveLoop (rounds m)).map raising

/-- `complete_chunk`, src/consumer.rs 121-146 and 275-314. `put`: how storing the output ends; `sent`: what the Rust
client returns. -/
def completeChunkPy (interrupt : Option Exn) (pfx : Option String) (i : ChunkIndex) (put : ObjectStore.PutResult)
    (sent : Except ConsumerErr Unit) : Except Exn Unit :=
  raising (unlessInterrupted interrupt (match pfx with
    | none => sent.mapError .consumer
    | some p =>
      match put with
      | .failed _ => .error (.storage p i .output)
      | .ok => sent.mapError .consumer))

/-- `fail_chunk`, src/consumer.rs 153-168 and 316-336. -/
def failChunkPy (interrupt : Option Exn) (sent : Except ConsumerErr Unit) : Except Exn Unit :=
  raising (unlessInterrupted interrupt (sent.mapError .consumer))

/-- `run_per_chunk`, src/consumer.rs 168-219, for the given rounds. It does not return a `Result` but a `CError`, so
that the exception is not raised but becomes the returned value (`IntoPyObject for CError`, src/errors.rs 235-246).
`none`: still running. The outer result is for the extraction of the argument. -/
def runPerChunkPy (strategy : StrategyArg) (callable : Bool) (es : List Surroundings) : Option (Except Exn Exn) :=
  match strategy.extract with
  | .error e => some (.error e)
  | .ok _ =>
    if callable then (runPerChunk es).closed.map .ok
    else some (.ok ⟨.typeError, .message "Expected `fun` parameter to be __call__-able"⟩)

/-- `run_each_chunk_raw`, python/opsqueue/consumer.py 107-122 (and so `run_each_chunk`, `run_each_op`, 56-105): the
returned value is dropped. -/
def runEachChunkRaw (strategy : StrategyArg) (callable : Bool) (es : List Surroundings) : Option (Except Exn Unit) :=
  match runPerChunkPy strategy callable es with
  | none => none
  | some (.error e) => some (.error e)
  | some (.ok _) => some (.ok ())

end Opsqueue.Python
