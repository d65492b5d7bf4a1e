import Verif.Model.Server
import Verif.Model.Python

/-!
# Producers, server, consumers and object store together

The transition system of `Model/Server.lean`, together with producers and consumers that use the Python library
(`Model/Python.lean`) and one object store (`Model/ObjectStore.lean`). Every step of every participant can interleave
with every other step in any order; the server can crash at any point inside a database call, a producer or a consumer
can stop forever after any of its steps.

Simplifications: producers and consumers are configured with the same object store and base path. A consumer is not
followed as such, only the chunks given to consumers (`handed`) and the executions of the callback on them (`jobs`).
These are never removed: a consumer may retrieve, execute, store and report a chunk any number of times, in any order,
at any time after it was given out, on any connection, which covers every behaviour of the consumer loop and more.
Completions of chunks come from these consumers only, and submissions with a prefix come from these producers only.
-/

namespace Opsqueue.EndToEnd
open ObjectStore (Store PutResult)
open Python (PyChunk)
open Server (ConnId)

/-- A running `insert_submission_chunks`, libs/opsqueue_python/src/producer.rs 289-347: the prefix (309), all the
contents that the iterator would yield, the number of chunks stored so far, and whether a `put` has failed. -/
structure Task where
  pfx : String
  contents : List Bytes
  done : Nat := 0
  aborted : Bool := false
deriving DecidableEq, Repr

/-- A chunk that a consumer has read (`reserve_and_retrieve_chunks`, libs/opsqueue_python/src/consumer.rs 338-352)
and, after the output was dealt with, the message for the server (275-314). -/
structure Job where
  chunk : PyChunk
  ready : Option Conn.Report := none
deriving DecidableEq, Repr

/-- Everything. `rows`: the chunk that a connection is joining with its submission (dispatcher/mod.rs 226-229).
`handed`: the chunks given to consumers, with their submissions (dispatcher/mod.rs 306-324). -/
structure World where
  server : Server.State
  store : Store := []
  rows : Map ConnId ChunkRow := []
  handed : List (ChunkRow × Submission) := []
  tasks : List Task := []
  jobs : List Job := []

/-- One step of somebody. -/
inductive Ev where
  /-- anything in the server (or a failure report), see `allowed` -/
  | server (a : Server.Action)
  /-- a producer starts to insert a submission -/
  | start (pfx : String) (contents : List Bytes)
  /-- the `k`-th producer stores its next chunk -/
  | upload (k : Nat) (put : PutResult)
  /-- the request of the `k`-th producer reaches the server, which gives it the id `a.id`; retries of the request
  are further such steps -/
  | submit (k : Nat) (a : SubmissionDb.InsertArgs) (now : Time) (o : List Fault)
  /-- a consumer reads the `k`-th chunk handed out -/
  | take (k : Nat) (reachable : Bool)
  /-- the callback returns the `i`-th of its possible results for the `k`-th job, and the consumer stores it -/
  | finish (k i : Nat) (put : PutResult)
  /-- the message of the `k`-th job reaches the server -/
  | send (k : Nat) (c : ConnId)

/-- The actions of the server that happen by themselves, or by failure reports and direct submissions: not the
completions (`send` instead) and not the submissions with a prefix (`submit` instead). -/
def allowed : Server.Action → Bool
  | .report _ (.complete _ _) => false
  | .producer (.insert a _ _) => a.pfx.isNone
  | _ => true

/-- The chunk a `.row` action reserves: the row read by the query, dispatcher/mod.rs 226-228. -/
def rowsAfter (w : World) : Server.Action → Map ConnId ChunkRow
  | .row c => match w.server.conn c with
    | some k => match k.fetching with
      | some f => match f.joining, f.rows with
        | none, row :: _ => w.rows.set c row
        | _, _ => w.rows
      | none => w.rows
    | none => w.rows
  | _ => w.rows

/-- The chunk and submission that a `.join` action yields, dispatcher/mod.rs 306-324. -/
def handedBy (w : World) : Server.Action → List (ChunkRow × Submission)
  | .join c => match w.server.conn c, w.rows.get c with
    | some k, some row => match k.fetching with
      | some f => match f.joining with
        | some id => match (SubmissionDb.getSubmission id.submissionId ⟨[], w.server.db⟩).1 with
          | .ok s => [(row, s)]
          | _ => []
        | none => []
      | none => []
    | _, _ => []
  | _ => []

/-- An action of the server. -/
def serve (w : World) (a : Server.Action) : World :=
  { w with server := Server.step w.server a, rows := rowsAfter w a, handed := w.handed ++ handedBy w a }

/-- One round of `store_chunks` (object_store/mod.rs 213-247) in `insert_submission_chunks`
(libs/opsqueue_python/src/producer.rs 311-324). -/
def upload (base : List Char) (w : World) (k : Nat) (t : Task) (put : PutResult) : World :=
  match t.contents[t.done]?, t.aborted with
  | some content, false =>
    match ObjectStore.storeChunk base w.store ⟨t.pfx, t.done, .input, content⟩ put with
    | (.ok _, store) => { w with store, tasks := w.tasks.set k { t with done := t.done + 1 } }
    | (.error _, store) => { w with store, tasks := w.tasks.set k { t with aborted := true } }
  | _, _ => w

/-- The request of `insert_submission_chunks`, libs/opsqueue_python/src/producer.rs 328-338, as it arrives in
`insert_submission` (producer/server.rs 184-215): `SeeObjectStorage` with the prefix and the number of chunks. -/
def request (t : Task) (a : SubmissionDb.InsertArgs) : SubmissionDb.InsertArgs :=
  { a with pfx := some t.pfx, contents := List.replicate t.done none }

/-- One step. `callback` gives the possible results of the consumer's callback (none: it raises), for each input
(`compute_chunk_outcome`, libs/opsqueue_python/src/consumer.rs 355-466). Impossible steps do nothing. The prefix of a
new submission is a fresh UUID (libs/opsqueue_python/src/producer.rs 309): it was not used before and has no slash. -/
def step (base : List Char) (callback : Bytes → List Bytes) (w : World) : Ev → World
  | .server a => if allowed a then serve w a else w
  | .start pfx contents =>
    if pfx.toList.contains '/' || w.tasks.any (fun t => t.pfx == pfx) then w
    else { w with tasks := w.tasks ++ [{ pfx, contents }] }
  | .upload k put => match w.tasks[k]? with
    | some t => upload base w k t put
    | none => w
  | .submit k a now o => match w.tasks[k]? with
    | some t =>
      if t.done = t.contents.length && !t.aborted then serve w (.producer (.insert (request t a) now o)) else w
    | none => w
  | .take k reachable => match w.handed[k]? with
    | some (row, s) => match Python.fromInternal base w.store reachable row s with
      | .ok chunk => { w with jobs := w.jobs ++ [{ chunk }] }
      | .error _ => w
    | none => w
  | .finish k i put => match w.jobs[k]? with
    | some job => match (callback job.chunk.inputContent)[i]? with
      | some output =>
        let r := Python.completeChunk base w.store put job.chunk output
        { w with store := r.2, jobs := w.jobs.set k { job with ready := r.1 } }
      | none => w
    | none => w
  | .send k c => match w.jobs[k]? with
    | some job => match job.ready with
      | some r => serve w (.report c r)
      | none => w
    | none => w

/-- Nothing has happened yet. -/
def init (ttl maxRetries : Nat) : World := { server := Server.init ttl maxRetries }

/-- A history, from a state on. -/
def exec (base : List Char) (callback : Bytes → List Bytes) (w : World) (h : List Ev) : World :=
  h.foldl (step base callback) w

/-- A history from the start. -/
def run (base : List Char) (callback : Bytes → List Bytes) (ttl maxRetries : Nat) (h : List Ev) : World :=
  exec base callback (init ttl maxRetries) h

/-- The next output chunk, as the iterator over the outputs gives it to Python: `retrieve_chunks`
(object_store/mod.rs 307-326), `PyChunksIter` (libs/opsqueue_python/src/producer.rs 577-622). -/
def readOutput (base : List Char) (store : Store) (pfx : String) (i : Nat) : Except Python.PyErr Bytes :=
  match ObjectStore.retrieveChunk base store pfx i .output with
  | .ok b => .ok b
  | .error _ => .error ⟨"ChunkRetrievalError"⟩

/-- What a producer gets when it polls for the results of a submission and iterates over them:
`try_stream_completed_submission_chunks` or `stream_completed_submission_chunks` (libs/opsqueue_python/src/producer.rs
356-381 and 510-571) and `PyChunksIter` (577-622), with `_unchunk_iterator` (python/opsqueue/producer.py 406-412).
`answer` is the answer to the status request, `stores i` the object store when the `i`-th output is read. `none`: there
is no stream of results. -/
def results {α} (F : Python.Format α) (base : List Char) (answer : Python.Answer) (stores : Nat → Store) :
    Option (List α × Option Python.PyErr) :=
  match Python.maybeStream answer with
  | some (.stream pfx count) =>
    some (Python.unchunkIterator F ((List.range count).map fun i => readOutput base (stores i) pfx i))
  | _ => none

end Opsqueue.EndToEnd
