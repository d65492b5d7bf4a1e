import Verif.Model.ObjectStore
import Verif.Model.Conn
import Verif.Model.Exceptions

/-!
# The Python client

Models the parts of `libs/opsqueue_python` (Rust extension in `src`, Python package in `python/opsqueue`) that do
something of their own: splitting operations into chunks and joining results, waiting for the end of a submission,
and the consumer loop. The conversions are in `Model/PyTypes.lean`, the exceptions in `Model/Exceptions.lean`.
-/

namespace Opsqueue.Python

/-! ## Chunks of operations (python/opsqueue/producer.py and common.py) -/

/-- Some Python exception. -/
structure PyErr where
  text : String
deriving DecidableEq, Repr

/-- `SerializationFormat`, python/opsqueue/common.py 9-12, on chunks of operations (values of type `α`). `dumps` and
`loads` may raise; `loads` may yield something that is not a sequence (`none`). -/
structure Format (α : Type) where
  dumps : List α → Except PyErr Bytes
  loads : Bytes → Except PyErr (Option (List α))

/-- `encode_chunk`, python/opsqueue/common.py 32-35. -/
def encodeChunk {α} (f : Format α) (chunk : List α) : Except PyErr Bytes := f.dumps chunk

/-- `decode_chunk`, python/opsqueue/common.py 38-45: an assertion fails if the result is not a sequence. -/
def decodeChunk {α} (f : Format α) (chunk : Bytes) : Except PyErr (List α) :=
  match f.loads chunk with
  | .error e => .error e
  | .ok none => .error ⟨"AssertionError"⟩
  | .ok (some ops) => .ok ops

/-- The loop of `itertools.batched(ops, k)`; `fuel` bounds the number of batches. -/
def batchedLoop {α} (k : Nat) : Nat → List α → List (List α)
  | 0, _ => []
  | _, [] => []
  | fuel + 1, ops => ops.take k :: batchedLoop k fuel (ops.drop k)

/-- `itertools.batched(ops, k)` for `k ≥ 1` (used in python/opsqueue/producer.py 402). Simplification: the iterable of
operations is finite and iterating over it does not raise. -/
def batched {α} (k : Nat) (ops : List α) : List (List α) := batchedLoop k ops.length ops

/-- `_chunk_iterator`, python/opsqueue/producer.py 395-403. `none`: `ChunkSizeIsZeroError`. Otherwise what the
iterator yields, one after the other. -/
def chunkIterator {α} (f : Format α) (chunkSize : Int) (ops : List α) : Option (List (Except PyErr Bytes)) :=
  if chunkSize ≤ 0 then none else some ((batched chunkSize.toNat ops).map (encodeChunk f))

/-- `_unchunk_iterator`, python/opsqueue/producer.py 406-412: what it yields, and the exception that ends it, if
any. -/
def unchunkIterator {α} (f : Format α) : List (Except PyErr Bytes) → List α × Option PyErr
  | [] => ([], none)
  | .error e :: _ => ([], some e)
  | .ok chunk :: chunks =>
    match decodeChunk f chunk with
    | .error e => ([], some e)
    | .ok ops =>
      let rest := unchunkIterator f chunks
      (ops ++ rest.1, rest.2)

/-- `[op_callback(op) for op in chunk_ops]`, python/opsqueue/consumer.py 72-73. -/
def callEach {α} (callback : α → Except PyErr α) : List α → Except PyErr (List α)
  | [] => .ok []
  | op :: ops =>
    match callback op with
    | .error e => .error e
    | .ok r =>
      match callEach callback ops with
      | .error e => .error e
      | .ok rs => .ok (r :: rs)

/-- `raw_chunk_callback` of `run_each_chunk` with the `chunk_callback` of `run_each_op`,
python/opsqueue/consumer.py 72-105. Simplification: tracing is left out. -/
def rawCallback {α} (f : Format α) (callback : α → Except PyErr α) (input : Bytes) : Except PyErr Bytes :=
  match decodeChunk f input with
  | .error e => .error e
  | .ok ops =>
    match callEach callback ops with
    | .error e => .error e
    | .ok results => encodeChunk f results

/-! ## Waiting for the end of a submission (src/producer.rs) -/

/-- The result of one `get_submission` call: an `InternalProducerClientError`, or the answer of the server. -/
abbrev Answer := Except Unit (Option SubmissionStatus)

/-- The result of waiting: an iterator over the output chunks stored under a prefix, the exception
`SubmissionFailed`, or an internal error. -/
inductive Waited where
  | stream (pfx : String) (count : Nat)
  | failed (s : PyFailed) (c : PyChunkFailed)
  | error
deriving DecidableEq, Repr

/-- `maybe_stream_completed_submission`, src/producer.rs 542-571. `none`: `Ok(None)`. -/
def maybeStream : Answer → Option Waited
  | .error _ => some .error
  | .ok (some (.completed s)) => some (.stream (s.pfx.getD "") s.chunksTotal)
  | .ok (some (.failed s c)) => some (.failed (PyFailed.ofRust s) (PyChunkFailed.ofRust c))
  | .ok _ => none

/-- `SUBMISSION_POLLING_INTERVAL` in milliseconds, src/producer.rs 31. -/
def pollingInterval : Nat := 5000

/-- The pause after the pause `interval`, src/producer.rs 535-538. -/
def nextInterval (interval : Nat) : Nat :=
  if interval < pollingInterval then min (interval * 2) pollingInterval else interval

/-- The loop of `stream_completed_submission_chunks`, src/producer.rs 510-540: at most `fuel` rounds, of which the
`i`-th gets the answer `answers i`. The result is the list of pauses (in milliseconds) and how the wait ended (`none`:
it did not end within the rounds). -/
def waitLoop (answers : Nat → Answer) : Nat → Nat → Nat → List Nat × Option Waited
  | 0, _, _ => ([], none)
  | fuel + 1, i, interval =>
    match maybeStream (answers i) with
    | some w => ([], some w)
    | none =>
      let rest := waitLoop answers fuel (i + 1) (nextInterval interval)
      (interval :: rest.1, rest.2)

/-- `stream_completed_submission_chunks`, src/producer.rs 510-540, for `fuel` rounds. -/
def waitCompleted (answers : Nat → Answer) (fuel : Nat) : List Nat × Option Waited := waitLoop answers fuel 0 10

/-- `try_stream_completed_submission_chunks`, src/producer.rs 356-381: `none` is the exception
`SubmissionNotCompletedYetError`. -/
def tryStream (answer : Answer) : Option Waited := maybeStream answer

/-! ## The consumer (src/consumer.rs) -/

/-- `Chunk` of the extension, src/common.rs 210-222. Simplification: without metadata and trace carrier. -/
structure PyChunk where
  submissionId : SubmissionId
  chunkIndex : ChunkIndex
  inputContent : Bytes
  retries : Nat
  submissionPrefix : Option String
deriving DecidableEq, Repr

/-- The id of the chunk (src/consumer.rs 289, 328). -/
def PyChunk.id (c : PyChunk) : ChunkId := ⟨c.submissionId, c.chunkIndex⟩

/-- How `from_internal` can go wrong. -/
inductive Unreadable where
  | retrieval
  | panic
deriving DecidableEq, Repr

/-- `Chunk::from_internal`, src/common.rs 235-268. `reachable = false`: the object store does not answer. -/
def fromInternal (base : List Char) (store : ObjectStore.Store) (reachable : Bool) (c : ChunkRow) (s : Submission) :
    Except Unreadable PyChunk :=
  match c.inputContent with
  | some bytes => .ok
      { submissionId := c.submissionId, chunkIndex := c.chunkIndex, inputContent := bytes, retries := c.retries
        submissionPrefix := none }
  | none =>
    match s.pfx with
    | none => .error .panic
    | some pfx =>
      if reachable then
        match ObjectStore.retrieveChunk base store pfx c.chunkIndex .input with
        | .error _ => .error .retrieval
        | .ok bytes => .ok
            { submissionId := c.submissionId, chunkIndex := c.chunkIndex, inputContent := bytes, retries := c.retries
              submissionPrefix := some pfx }
      else .error .retrieval

/-- The ways the consumer loop can be disturbed: by a fatal exception (`KeyboardInterrupt` while waiting, `CError(L)`)
or by any Rust error (`CError(R)`): of the connection, of the object store. A panic (`PanicException`) ends the loop
like a fatal exception. -/
inductive LoopErr where
  | fatal (e : Exn)
  | rust
deriving DecidableEq, Repr

/-- What the callback does with a chunk: returns bytes or raises (returning something else counts as a `TypeError`,
src/consumer.rs 389-392). -/
inductive Called where
  | returned (output : Bytes)
  | raised (e : Exn) (text : String)
deriving DecidableEq, Repr

/-- A report of the loop: `complete_chunk_gilless` or `fail_chunk_gilless` for a chunk (src/consumer.rs 275-336). -/
inductive Sent where
  | complete (c : PyChunk) (output : Bytes)
  | fail (c : PyChunk) (text : String)
deriving DecidableEq, Repr

/-- What the surroundings of the loop do in one round: the result of `reserve_chunks_gilless(1)` (247-273), the
callback, and the results of the reports. -/
structure Surroundings where
  reserved : Except LoopErr (List PyChunk)
  call : PyChunk → Called
  reported : PyChunk → Except LoopErr Unit

/-- `usize::MAX` on a 64-bit machine. -/
def usizeMax : Nat := 2 ^ 64 - 1

/-- `saturating_add`. -/
def satAdd (a b : Nat) : Nat := min (a + b) usizeMax

/-- What the loop did: the reports it made, the numbers it logged as "Processed {} chunks", and the number of chunks
it has dealt with completely. `processed` is a ghost. -/
structure Trace where
  sent : List Sent := []
  logged : List Nat := []
  processed : Nat := 0
deriving DecidableEq, Repr

/-- The exception with which `compute_chunk_outcome` returns after reporting a failure, src/consumer.rs 443-455: one
that is not an `Exception`, or a `SystemError`. -/
def fatalOf : Called → Option Exn
  | .returned _ => none
  | .raised x _ => if ¬ x.isA .exception ∨ x.isA .systemError then some x else none

/-- The `for` loop of `compute_chunk_outcome`, src/consumer.rs 378-464. -/
def chunkLoop (e : Surroundings) : List PyChunk → Nat → Trace → Except LoopErr Nat × Trace
  | [], done, t => (.ok done, t)
  | c :: cs, done, t =>
    let report := match e.call c with
      | .returned out => Sent.complete c out
      | .raised _ text => Sent.fail c text
    let t := { t with sent := t.sent ++ [report] }
    match e.reported c with
    | .error err => (.error err, t)
    | .ok _ =>
      match fatalOf (e.call c) with
      | some x => (.error (.fatal x), t)
      | none =>
        let done := satAdd done 1
        let t := { t with
          processed := t.processed + 1
          logged := if done % 50 = 0 then t.logged ++ [done] else t.logged }
        chunkLoop e cs done t

/-- `compute_chunk_outcome`, src/consumer.rs 355-466. -/
def computeChunkOutcome (e : Surroundings) (done : Nat) (t : Trace) : Except LoopErr Nat × Trace :=
  match e.reserved with
  | .error err => (.error err, t)
  | .ok chunks => chunkLoop e chunks done t

/-- The loop of `run_per_chunk`, src/consumer.rs 193-218, for the given rounds: the counter `done_count`, and the
exception with which the loop has returned, if it has. -/
structure Running where
  done : Nat := 0
  trace : Trace := {}
  closed : Option Exn := none
deriving DecidableEq, Repr

/-- One round of `run_per_chunk`, src/consumer.rs 195-217. -/
def round (r : Running) (e : Surroundings) : Running :=
  if r.closed.isSome then r
  else match computeChunkOutcome e r.done r.trace with
    | (.ok done, t) => { r with done := satAdd r.done done, trace := t }
    | (.error (.fatal x), t) => { r with trace := t, closed := some x }
    | (.error .rust, t) => { r with trace := t }

/-- `run_per_chunk`, src/consumer.rs 170-219, for the given rounds. -/
def runPerChunk (es : List Surroundings) : Running := es.foldl round {}

/-- `reserve_and_retrieve_chunks`, src/consumer.rs 338-352, after the reservation: the chunks are retrieved one after
the other, the first error ends it. -/
def retrieveAll (base : List Char) (store : ObjectStore.Store) (reachable : ChunkId → Bool) :
    List (ChunkRow × Submission) → Except Unreadable (List PyChunk)
  | [] => .ok []
  | (c, s) :: rest =>
    match fromInternal base store (reachable c.key) c s with
    | .error e => .error e
    | .ok chunk =>
      match retrieveAll base store reachable rest with
      | .error e => .error e
      | .ok chunks => .ok (chunk :: chunks)

/-- `complete_chunk_gilless`, src/consumer.rs 275-314: first the output is stored (if the input came from the object
store), then the completion is reported. The result is the message for the server, if it comes that far. -/
def completeChunk (base : List Char) (store : ObjectStore.Store) (put : ObjectStore.PutResult) (c : PyChunk)
    (output : Bytes) : Option Conn.Report × ObjectStore.Store :=
  match c.submissionPrefix with
  | none => (some (.complete c.id (some output)), store)
  | some pfx =>
    match ObjectStore.storeChunk base store ⟨pfx, c.chunkIndex, .output, output⟩ put with
    | (.ok _, store) => (some (.complete c.id none), store)
    | (.error _, store) => (none, store)

/-- One chunk from its reservation to the message for the server: `reserve_and_retrieve_chunks` (src/consumer.rs
338-352, limit 1), the callback, `complete_chunk_gilless` or `fail_chunk_gilless` (378-457). `none`: there is no
message, `run_per_chunk` goes on with the next reservation (212-217) or ends. -/
def dealWith (base : List Char) (store : ObjectStore.Store) (reachable : Bool) (put : ObjectStore.PutResult)
    (call : PyChunk → Called) (c : ChunkRow) (s : Submission) : Option Conn.Report :=
  match retrieveAll base store (fun _ => reachable) [(c, s)] with
  | .ok [chunk] =>
    match call chunk with
    | .returned output => (completeChunk base store put chunk output).1
    | .raised _ text => some (.fail chunk.id text)
  | _ => none

end Opsqueue.Python
