import Verif.Model.Sql

/-!
# The SQL statements

One pure function `DB → Except DbErr (α × DB)` per SQL statement of `submission::db` and
`chunk::db`. A multi-statement `query!` is the sequence of its statements (its SAVEPOINT/RELEASE
lines are dropped: these functions only run inside a transaction, so they have no effect of their
own; `Model/Savepoints.lean` has them, and C100 that they make no difference).
-/

namespace Opsqueue
namespace Stmt

/-- `INSERT` of a list of rows into a table with primary key `key`: the statement fails with a
constraint error, and inserts nothing, when a key is already present or occurs twice. -/
def insertRows {ρ κ : Type} [DecidableEq κ] (key : ρ → κ) (rows tbl : List ρ) :
    Except DbErr (List ρ) :=
  if (∀ r ∈ rows, key r ∉ tbl.map key) ∧ (rows.map key).Nodup then .ok (tbl ++ rows)
  else .error .constraint

/-- INSERT INTO submissions … VALUES, opsqueue/src/common/submission.rs 349-363. -/
def insertSubmission (s : SubmissionRow) (db : DB) : Except DbErr (Unit × DB) := do
  let t ← insertRows SubmissionRow.id [s] db.submissions
  pure ((), { db with submissions := t })

/-- INSERT INTO submissions_metadata … VALUES, submission.rs 379-393. -/
def insertMetadata (m : MetaRow) (db : DB) : Except DbErr (Unit × DB) := do
  let t ← insertRows MetaRow.pk [m] db.submissionsMetadata
  pure ((), { db with submissionsMetadata := t })

/-- INSERT INTO chunks … VALUES (one batch), opsqueue/src/common/chunk.rs 582-592
(and 293-304 `insert_chunk`). -/
def insertChunks (rows : List ChunkRow) (db : DB) : Except DbErr (Unit × DB) := do
  let t ← insertRows ChunkRow.key rows db.chunks
  pure ((), { db with chunks := t })

/-- The strategic metadata of a submission as selected by the
`json_group_object(metadata_key, metadata_value)` sub-select, submission.rs 519-522. -/
def strategicOf (id : SubmissionId) (db : DB) : StrategicMetadata :=
  (db.submissionsMetadata.filter (·.submissionId == id)).map fun m => (m.key, m.value)

/-- SELECT … FROM submissions WHERE id = $1 (fetch_optional), submission.rs 509-526 and 668-698. -/
def selectSubmission (id : SubmissionId) (db : DB) : Option Submission :=
  (db.submissions.find? (·.id == id)).map fun r =>
    { id := r.id, pfx := r.pfx, chunksTotal := r.chunksTotal, chunksDone := r.chunksDone,
      chunkSize := decodeChunkSize r.chunkSize, metadata := r.metadata,
      strategic := strategicOf r.id db, otel := r.otel }

/-- SELECT … FROM submissions_completed WHERE id = $1, submission.rs 700-730. -/
def selectCompleted (id : SubmissionId) (db : DB) : Option SubmissionCompleted :=
  (db.submissionsCompleted.find? (·.id == id)).map fun r =>
    { id := r.id, pfx := r.pfx, chunksTotal := r.chunksTotal,
      chunkSize := decodeChunkSize r.chunkSize, metadata := r.metadata,
      strategic := strategicOf r.id db, completedAt := r.completedAt, otel := r.otel }

/-- SELECT … FROM submissions_failed WHERE id = $1, submission.rs 732-764. -/
def selectFailed (id : SubmissionId) (db : DB) : Option SubmissionFailed :=
  (db.submissionsFailed.find? (·.id == id)).map fun r =>
    { id := r.id, pfx := r.pfx, chunksTotal := r.chunksTotal, chunksDone := r.chunksDone,
      chunkSize := decodeChunkSize r.chunkSize, metadata := r.metadata,
      strategic := strategicOf r.id db, failedAt := r.failedAt,
      failedChunkId := r.failedChunkId, otel := r.otel }

/-- SELECT … FROM submissions_cancelled WHERE id = $1, submission.rs 776-806. -/
def selectCancelled (id : SubmissionId) (db : DB) : Option SubmissionCancelled :=
  (db.submissionsCancelled.find? (·.id == id)).map fun r =>
    { id := r.id, pfx := r.pfx, chunksTotal := r.chunksTotal, chunksDone := r.chunksDone,
      metadata := r.metadata, strategic := strategicOf r.id db, cancelledAt := r.cancelledAt }

/-- SELECT … FROM chunks_failed WHERE submission_id = $1 AND chunk_index = $2 (fetch_one),
chunk.rs 544-564. -/
def selectChunkFailed (cid : ChunkId) (db : DB) : Except DbErr ChunkFailed :=
  match db.chunksFailed.find? (·.key == cid) with
  | none => .error .rowNotFound
  | some r => .ok { submissionId := r.submissionId, chunkIndex := r.chunkIndex,
                    inputContent := r.inputContent, failure := r.failure, failedAt := r.failedAt }

/-- SELECT … FROM chunks (fetch_one), chunk.rs 490-509. -/
def selectChunk (cid : ChunkId) (db : DB) : Except DbErr ChunkRow :=
  match db.chunks.find? (·.key == cid) with
  | none => .error .rowNotFound
  | some r => .ok r

/-- SELECT … FROM chunks_completed (fetch_one), chunk.rs 517-536. -/
def selectChunkCompleted (cid : ChunkId) (db : DB) : Except DbErr ChunkCompletedRow :=
  match db.chunksCompleted.find? (·.key == cid) with
  | none => .error .rowNotFound
  | some r => .ok r

/-- INSERT INTO submissions_completed … SELECT … FROM submissions WHERE id = $2,
submission.rs 946-948. `chunk_size` and `otel_trace_carrier` are not copied and get their column
defaults (NULL and "{}"). -/
def insertCompletedSelect (id : SubmissionId) (now : Time) (db : DB) : Except DbErr (Unit × DB) := do
  let rows := (db.submissions.filter (·.id == id)).map fun r =>
    ({ id := r.id, pfx := r.pfx, chunksTotal := r.chunksTotal, metadata := r.metadata,
       completedAt := now, otel := "{}", chunkSize := none } : CompletedRow)
  let t ← insertRows CompletedRow.id rows db.submissionsCompleted
  pure ((), { db with submissionsCompleted := t })

/-- INSERT INTO submissions_failed … SELECT … FROM submissions WHERE id = $3,
submission.rs 981-983. -/
def insertFailedSelect (id : SubmissionId) (failedChunk : ChunkIndex) (now : Time) (db : DB) :
    Except DbErr (Unit × DB) := do
  let rows := (db.submissions.filter (·.id == id)).map fun r =>
    ({ id := r.id, pfx := r.pfx, chunksTotal := r.chunksTotal, chunksDone := some r.chunksDone,
       metadata := r.metadata, failedAt := now, failedChunkId := failedChunk,
       otel := "{}", chunkSize := none } : FailedRow)
  let t ← insertRows FailedRow.id rows db.submissionsFailed
  pure ((), { db with submissionsFailed := t })

/-- INSERT INTO submissions_cancelled … SELECT … FROM submissions WHERE id = $2,
submission.rs 911-913. -/
def insertCancelledSelect (id : SubmissionId) (now : Time) (db : DB) : Except DbErr (Unit × DB) := do
  let rows := (db.submissions.filter (·.id == id)).map fun r =>
    ({ id := r.id, pfx := r.pfx, chunksTotal := r.chunksTotal, chunksDone := r.chunksDone,
       metadata := r.metadata, cancelledAt := now } : CancelledRow)
  let t ← insertRows CancelledRow.id rows db.submissionsCancelled
  pure ((), { db with submissionsCancelled := t })

/-- DELETE FROM submissions WHERE id = $3 RETURNING *, submission.rs 915, 950, 985; the result is
the optional first returned row (`fetch_optional`). -/
def deleteSubmission (id : SubmissionId) (db : DB) : Except DbErr (Option SubmissionRow × DB) :=
  .ok (db.submissions.find? (·.id == id),
       { db with submissions := db.submissions.filter (fun r => !(r.id == id)) })

/-- INSERT INTO chunks_completed … SELECT … FROM chunks WHERE …, chunk.rs 354-357. -/
def insertChunkCompletedSelect (cid : ChunkId) (output : Content) (now : Time) (db : DB) :
    Except DbErr (Unit × DB) := do
  let rows := (db.chunks.filter (·.key == cid)).map fun r =>
    ({ submissionId := r.submissionId, chunkIndex := r.chunkIndex, outputContent := output,
       completedAt := now } : ChunkCompletedRow)
  let t ← insertRows ChunkCompletedRow.key rows db.chunksCompleted
  pure ((), { db with chunksCompleted := t })

/-- DELETE FROM chunks WHERE submission_id = … AND chunk_index = … RETURNING … (`fetch_one`),
chunk.rs 359-361 and 465. -/
def deleteChunk (cid : ChunkId) (db : DB) : Except DbErr (Unit × DB) :=
  match db.chunks.find? (·.key == cid) with
  | none => .error .rowNotFound
  | some _ => .ok ((), { db with chunks := db.chunks.filter (fun r => !(r.key == cid)) })

/-- UPDATE submissions SET chunks_done = chunks_done + 1 WHERE id = $1 RETURNING chunk_size
(`fetch_one`), chunk.rs 382-388. -/
def bumpChunksDone (id : SubmissionId) (db : DB) : Except DbErr (Option Int × DB) :=
  match db.submissions.find? (·.id == id) with
  | none => .error .rowNotFound
  | some r => .ok (r.chunkSize, { db with submissions := db.submissions.map fun r =>
      if r.id == id then { r with chunksDone := r.chunksDone + 1 } else r })

/-- UPDATE chunks SET retries = retries + 1 WHERE … RETURNING retries (`fetch_one`),
chunk.rs 410-420. -/
def bumpRetries (cid : ChunkId) (db : DB) : Except DbErr (Nat × DB) :=
  match db.chunks.find? (·.key == cid) with
  | none => .error .rowNotFound
  | some r => .ok (r.retries + 1, { db with chunks := db.chunks.map fun r =>
      if r.key == cid then { r with retries := r.retries + 1 } else r })

/-- INSERT INTO chunks_failed … SELECT … FROM chunks WHERE … (skipped defaults to false),
chunk.rs 461-463. -/
def insertChunkFailedSelect (cid : ChunkId) (failure : String) (now : Time) (db : DB) :
    Except DbErr (Unit × DB) := do
  let rows := (db.chunks.filter (·.key == cid)).map fun r =>
    ({ submissionId := r.submissionId, chunkIndex := r.chunkIndex, inputContent := r.inputContent,
       failure := failure, failedAt := now, skipped := false } : ChunkFailedRow)
  let t ← insertRows ChunkFailedRow.key rows db.chunksFailed
  pure ((), { db with chunksFailed := t })

/-- INSERT INTO chunks_failed … SELECT …, '', 1, … FROM chunks WHERE submission_id = $2,
chunk.rs 613-615. -/
def insertSkippedSelect (id : SubmissionId) (now : Time) (db : DB) : Except DbErr (Unit × DB) := do
  let rows := (db.chunks.filter (·.submissionId == id)).map fun r =>
    ({ submissionId := r.submissionId, chunkIndex := r.chunkIndex, inputContent := r.inputContent,
       failure := "", failedAt := now, skipped := true } : ChunkFailedRow)
  let t ← insertRows ChunkFailedRow.key rows db.chunksFailed
  pure ((), { db with chunksFailed := t })

/-- DELETE FROM chunks WHERE submission_id = $3, chunk.rs 617. -/
def deleteChunksOf (id : SubmissionId) (db : DB) : Except DbErr (Unit × DB) :=
  .ok ((), { db with chunks := db.chunks.filter (fun r => !(r.submissionId == id)) })

/-- DELETE FROM submissions_metadata WHERE submission_id IN (SELECT id FROM submissions_completed
WHERE completed_at < $1), submission.rs 1100-1108. -/
def deleteMetadataOfOldCompleted (t : Time) (db : DB) : Except DbErr (Unit × DB) :=
  .ok ((), { db with submissionsMetadata := db.submissionsMetadata.filter fun m =>
    !(((db.submissionsCompleted.filter (fun r => decide (r.completedAt < t))).map (·.id)).contains
        m.submissionId) })

/-- Same for submissions_failed, submission.rs 1109-1117. -/
def deleteMetadataOfOldFailed (t : Time) (db : DB) : Except DbErr (Unit × DB) :=
  .ok ((), { db with submissionsMetadata := db.submissionsMetadata.filter fun m =>
    !(((db.submissionsFailed.filter (fun r => decide (r.failedAt < t))).map (·.id)).contains
        m.submissionId) })

/-- Same for submissions_cancelled, submission.rs 1118-1126. -/
def deleteMetadataOfOldCancelled (t : Time) (db : DB) : Except DbErr (Unit × DB) :=
  .ok ((), { db with submissionsMetadata := db.submissionsMetadata.filter fun m =>
    !(((db.submissionsCancelled.filter (fun r => decide (r.cancelledAt < t))).map (·.id)).contains
        m.submissionId) })

/-- DELETE FROM submissions_completed WHERE completed_at < $1, submission.rs 1129-1134. -/
def deleteOldCompleted (t : Time) (db : DB) : Except DbErr (Unit × DB) :=
  .ok ((), { db with submissionsCompleted :=
    db.submissionsCompleted.filter (fun r => !decide (r.completedAt < t)) })

/-- DELETE FROM submissions_failed WHERE failed_at < $1, submission.rs 1135-1140. -/
def deleteOldFailed (t : Time) (db : DB) : Except DbErr (Unit × DB) :=
  .ok ((), { db with submissionsFailed :=
    db.submissionsFailed.filter (fun r => !decide (r.failedAt < t)) })

/-- DELETE FROM submissions_cancelled WHERE cancelled_at < $1, submission.rs 1141-1146. -/
def deleteOldCancelled (t : Time) (db : DB) : Except DbErr (Unit × DB) :=
  .ok ((), { db with submissionsCancelled :=
    db.submissionsCancelled.filter (fun r => !decide (r.cancelledAt < t)) })

/-- DELETE FROM chunks_completed WHERE completed_at < $1, submission.rs 1148-1153. -/
def deleteOldChunksCompleted (t : Time) (db : DB) : Except DbErr (Unit × DB) :=
  .ok ((), { db with chunksCompleted :=
    db.chunksCompleted.filter (fun r => !decide (r.completedAt < t)) })

/-- DELETE FROM chunks_failed WHERE failed_at < $1, submission.rs 1154-1159. -/
def deleteOldChunksFailed (t : Time) (db : DB) : Except DbErr (Unit × DB) :=
  .ok ((), { db with chunksFailed :=
    db.chunksFailed.filter (fun r => !decide (r.failedAt < t)) })

end Stmt
end Opsqueue
