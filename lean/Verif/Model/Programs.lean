import Verif.Model.Statements

/-!
# The functions of `submission::db` and `chunk::db`

Each function is the sequence of its statements, in the order of the Rust code. Clock readings
(`Utc::now()`) and the generated id (`SubmissionId::new()`) are parameters. Not modelled: metrics
and tracing.
-/

namespace Opsqueue
open Sql

/-- Errors of functions that may also panic inside a transaction (a panic drops, i.e. rolls back,
the transaction). -/
inductive OrPanic (ε : Type) where
  | err (e : ε)
  | panicked
deriving DecidableEq, Repr

namespace ChunkDb

/-- The loop of `insert_many_chunks`, opsqueue/src/common/chunk.rs 572-596: one INSERT per
`rowsPerQuery` rows (`rowsPerQuery = n + 1`). -/
def insertBatches (n : Nat) (rows : List ChunkRow) : Sql DbErr Unit :=
  match rows with
  | [] => pure ()
  | r :: rs => do
    stmt (Stmt.insertChunks ((r :: rs).take (n + 1)))
    insertBatches n (rs.drop n)
termination_by rows.length
decreasing_by simp; omega

/-- `insert_many_chunks` with `ROWS_PER_QUERY = 1000`, chunk.rs 572-596. -/
def insertManyChunks (rows : List ChunkRow) : Sql DbErr Unit := insertBatches 999 rows

/-- `skip_remaining_chunks`, chunk.rs 604-628. -/
def skipRemainingChunks (id : SubmissionId) (now : Time) : Sql DbErr Unit := do
  stmt (Stmt.insertSkippedSelect id now)
  stmt (Stmt.deleteChunksOf id)

/-- `move_chunk_to_failed_chunks`, chunk.rs 450-482. -/
def moveChunkToFailedChunks (cid : ChunkId) (failure : String) (now : Time) : Sql DbErr Unit := do
  stmt (Stmt.insertChunkFailedSelect cid failure now)
  stmt (Stmt.deleteChunk cid)

/-- `complete_chunk_raw`, chunk.rs 346-389. -/
def completeChunkRaw (cid : ChunkId) (output : Content) (now : Time) : Sql DbErr (Option Int) := do
  stmt (Stmt.insertChunkCompletedSelect cid output now)
  stmt (Stmt.deleteChunk cid)
  stmt (Stmt.bumpChunksDone cid.submissionId)

/-- `get_chunk_failed`, chunk.rs 544-564. -/
def getChunkFailed (cid : ChunkId) : Sql DbErr ChunkFailed :=
  query (Stmt.selectChunkFailed cid)

/-- `get_chunk`, chunk.rs 490-509. -/
def getChunk (cid : ChunkId) : Sql DbErr ChunkRow :=
  query (Stmt.selectChunk cid)

/-- `get_chunk_completed`, chunk.rs 517-536. -/
def getChunkCompleted (cid : ChunkId) : Sql DbErr ChunkCompletedRow :=
  query (Stmt.selectChunkCompleted cid)

end ChunkDb

namespace SubmissionDb

/-- `insert_submission_raw`, opsqueue/src/common/submission.rs 345-366. -/
def insertSubmissionRaw (s : SubmissionRow) : Sql DbErr Unit :=
  stmt (Stmt.insertSubmission s)

/-- `insert_submission_metadata_raw`, submission.rs 373-397. -/
def insertSubmissionMetadataRaw (id : SubmissionId) : StrategicMetadata → Sql DbErr Unit
  | [] => pure ()
  | (k, v) :: rest => do
    stmt (Stmt.insertMetadata ⟨id, k, v⟩)
    insertSubmissionMetadataRaw id rest

/-- `insert_submission`, submission.rs 400-431. -/
def insertSubmission (s : SubmissionRow) (strategic : StrategicMetadata) (chunks : List ChunkRow) :
    Sql DbErr Unit :=
  transaction id do
    insertSubmissionRaw s
    insertSubmissionMetadataRaw s.id strategic
    ChunkDb.insertManyChunks chunks

/-- `get_submission`, submission.rs 505-541. -/
def getSubmission (id : SubmissionId) : Sql (E DbErr SubmissionNotFound) Submission := do
  let row ← mapErr E.L (query fun db => .ok (Stmt.selectSubmission id db))
  match row with
  | none => throw (.R ⟨id⟩)
  | some s => pure s

/-- `complete_submission_raw`, submission.rs 936-969: `RowNotFound` of the DELETE … RETURNING
becomes `SubmissionNotFound`. -/
def completeSubmissionRaw (id : SubmissionId) (now : Time) :
    Sql (E DbErr SubmissionNotFound) Unit := do
  mapErr E.L (stmt (Stmt.insertCompletedSelect id now))
  let row ← mapErr E.L (stmt (Stmt.deleteSubmission id))
  match row with
  | none => throw (.R ⟨id⟩)
  | some _ => pure ()

/-- `maybe_complete_submission`, submission.rs 822-839. -/
def maybeCompleteSubmission (id : SubmissionId) (now : Time) :
    Sql (E DbErr SubmissionNotFound) Bool :=
  transaction E.L do
    let s ← getSubmission id
    if s.chunksDone = s.chunksTotal then
      completeSubmissionRaw id now
      pure true
    else
      pure false

/-- `Chunk::new` for the i-th content, submission.rs 465-473 and chunk.rs 225-235. -/
def mkChunks (id : SubmissionId) (contents : List Content) : List ChunkRow :=
  contents.zipIdx.map fun (c, i) =>
    { submissionId := id, chunkIndex := i, inputContent := c, retries := 0 }

/-- The arguments of `insert_submission_from_chunks`, the generated id and the trace carrier
(submission.rs 445-464). -/
structure InsertArgs where
  id : SubmissionId
  pfx : Option String := none
  contents : List Content
  metadata : Option Metadata := none
  strategic : StrategicMetadata := []
  chunkSize : Int := 1
  otel : String := "{}"
deriving DecidableEq, Repr

/-- The `Submission` record built in submission.rs 455-464. -/
def InsertArgs.row (a : InsertArgs) : SubmissionRow :=
  { id := a.id, pfx := a.pfx, chunksTotal := a.contents.length, chunksDone := 0,
    metadata := a.metadata, otel := a.otel, chunkSize := some a.chunkSize }

/-- `insert_submission_from_chunks`, submission.rs 445-497. -/
def insertSubmissionFromChunks (a : InsertArgs) (now : Time) : Sql DbErr SubmissionId := do
  insertSubmission a.row a.strategic (mkChunks a.id a.contents)
  if a.contents.length = 0 then
    matchRes (maybeCompleteSubmission a.id now) fun
      | .error (.L e) => throw e
      | .error (.R _) => pure a.id
      | .ok _ => pure a.id
  else
    pure a.id

/-- `submission_status`, submission.rs 660-811 (when run on one connection inside a transaction;
see `statusReads` in `Model/Query.lean` for the concurrent case). -/
def submissionStatus (id : SubmissionId) : Sql DbErr (Option SubmissionStatus) := do
  let r1 ← query fun db => .ok (Stmt.selectSubmission id db)
  match r1 with
  | some s => pure (some (.inProgress s))
  | none => do
    let r2 ← query fun db => .ok (Stmt.selectCompleted id db)
    match r2 with
    | some s => pure (some (.completed s))
    | none => do
      let r3 ← query fun db => .ok (Stmt.selectFailed id db)
      match r3 with
      | some s => do
        let c ← ChunkDb.getChunkFailed ⟨s.id, s.failedChunkId⟩
        pure (some (.failed s c))
      | none => do
        let r4 ← query fun db => .ok (Stmt.selectCancelled id db)
        match r4 with
        | some s => pure (some (.cancelled s))
        | none => pure none

/-- `cancel_submission_raw`, submission.rs 903-932. -/
def cancelSubmissionRaw (id : SubmissionId) (now : Time) :
    Sql (E DbErr SubmissionNotFound) Unit := do
  mapErr E.L (stmt (Stmt.insertCancelledSelect id now))
  let row ← mapErr E.L (stmt (Stmt.deleteSubmission id))
  match row with
  | none => throw (.R ⟨id⟩)
  | some _ => pure ()

/-- `cancel_submission_notx`, submission.rs 893-900. -/
def cancelSubmissionNotx (id : SubmissionId) (now1 now2 : Time) :
    Sql (E DbErr SubmissionNotFound) Unit := do
  cancelSubmissionRaw id now1
  mapErr E.L (ChunkDb.skipRemainingChunks id now2)

/-- The error type `E![DatabaseError, SubmissionNotFound, SubmissionNotCancellable]` of
`cancel_submission` (submission.rs 857), or a panic (submission.rs 868). -/
abbrev CancelErr := OrPanic (E DbErr (E SubmissionNotFound SubmissionNotCancellable))

/-- `cancel_submission`, submission.rs 853-886. -/
def cancelSubmission (id : SubmissionId) (now1 now2 : Time) : Sql CancelErr Unit :=
  transaction (fun e => .err (.L e)) <|
    matchRes (cancelSubmissionNotx id now1 now2) fun
      | .ok () => pure ()
      | .error (.L e) => throw (.err (.L e))
      | .error (.R nf) =>
        matchRes (submissionStatus id) fun
          | .ok none => throw (.err (.R (.L nf)))
          | .ok (some (.inProgress _)) => throw .panicked
          | .ok (some (.completed s)) => throw (.err (.R (.R (.completed s))))
          | .ok (some (.failed s c)) => throw (.err (.R (.R (.failed s c))))
          | .ok (some (.cancelled s)) => throw (.err (.R (.R (.cancelled s))))
          | .error e => throw (.err (.L e))

/-- `fail_submission_raw`, submission.rs 972-1000 (`fetch_one` turns no row into RowNotFound). -/
def failSubmissionRaw (id : SubmissionId) (failedChunk : ChunkIndex) (now : Time) :
    Sql DbErr Unit := do
  stmt (Stmt.insertFailedSelect id failedChunk now)
  let row ← stmt (Stmt.deleteSubmission id)
  match row with
  | none => throw .rowNotFound
  | some _ => pure ()

/-- `fail_submission_notx`, submission.rs 1027-1042. The three `Utc::now()` readings are
`now1 now2 now3`. -/
def failSubmissionNotx (id : SubmissionId) (failedChunk : ChunkIndex) (failure : String)
    (now1 now2 now3 : Time) : Sql DbErr Unit := do
  failSubmissionRaw id failedChunk now1
  ChunkDb.moveChunkToFailedChunks ⟨id, failedChunk⟩ failure now2
  ChunkDb.skipRemainingChunks id now3

/-- `fail_submission`, submission.rs 1008-1020 (only used by tests; not reachable through the
server). -/
def failSubmission (id : SubmissionId) (failedChunk : ChunkIndex) (failure : String)
    (now1 now2 now3 : Time) : Sql DbErr Unit :=
  transaction (fun e => e) (failSubmissionNotx id failedChunk failure now1 now2 now3)

/-- `cleanup_old`, submission.rs 1092-1168. -/
def cleanupOld (t : Time) : Sql DbErr Unit :=
  transaction (fun e => e) do
    stmt (Stmt.deleteMetadataOfOldCompleted t)
    stmt (Stmt.deleteMetadataOfOldFailed t)
    stmt (Stmt.deleteMetadataOfOldCancelled t)
    stmt (Stmt.deleteOldCompleted t)
    stmt (Stmt.deleteOldFailed t)
    stmt (Stmt.deleteOldCancelled t)
    stmt (Stmt.deleteOldChunksCompleted t)
    stmt (Stmt.deleteOldChunksFailed t)

end SubmissionDb

namespace ChunkDb

/-- The error type of `complete_chunk` (chunk.rs 316). -/
abbrev CompleteErr := E DbErr (E SubmissionNotFound ChunkNotFound)

/-- The transaction inside `complete_chunk`, chunk.rs 317-334. -/
def completeChunkTx (cid : ChunkId) (output : Content) (now1 now2 : Time) :
    Sql CompleteErr Int :=
  transaction E.L do
    let work ← mapErr E.L (completeChunkRaw cid output now1)
    let _ ← mapErr (fun | .L e => .L e | .R e => .R (.L e))
      (SubmissionDb.maybeCompleteSubmission cid.submissionId now2)
    pure (decodeChunkSize work)

/-- `complete_chunk`, chunk.rs 312-338: the transaction's result is discarded. -/
def completeChunk (cid : ChunkId) (output : Content) (now1 now2 : Time) : Sql CompleteErr Unit :=
  matchRes (completeChunkTx cid output now1 now2) fun _ => pure ()

/-- `retry_or_fail_chunk`, chunk.rs 397-442. -/
def retryOrFailChunk (cid : ChunkId) (failure : String) (maxRetries : Nat)
    (now1 now2 now3 : Time) : Sql DbErr Bool :=
  transaction (fun e => e) do
    let retries ← stmt (Stmt.bumpRetries cid)
    if retries ≥ maxRetries then
      SubmissionDb.failSubmissionNotx cid.submissionId cid.chunkIndex failure now1 now2 now3
      pure true
    else
      pure false

end ChunkDb
end Opsqueue
