/-!
# Data types: ids, rows, tables

Models the data types of `opsqueue/src/common/submission.rs`,
`opsqueue/src/common/chunk.rs`, `opsqueue/src/common/errors.rs` and the tables of
`opsqueue/migrations/`.
-/

namespace Opsqueue

/-- Wall clock readings (`chrono::Utc::now()`), stored by SQLite as `julianday(...)`.
Simplification: any linear order would do; natural numbers stand for instants, and
the (monotone) conversion to a julian day number is the identity. -/
abbrev Time := Nat

/-- `Vec<u8>`. -/
abbrev Bytes := List UInt8

/-- `chunk::Content = Option<Vec<u8>>`, opsqueue/src/common/chunk.rs 195-197. -/
abbrev Content := Option Bytes

/-- `submission::Metadata = Vec<u8>`, opsqueue/src/common/submission.rs 20-22. -/
abbrev Metadata := Bytes

/-- `SubmissionId(u63)`, opsqueue/src/common/submission.rs 23. Simplification: an unbounded
natural number here; the 63-bit range and its conversions are modelled in `Model/Ids.lean`. -/
abbrev SubmissionId := Nat

/-- `ChunkIndex(u63)` / `ChunkCount`, opsqueue/src/common/chunk.rs 16 (same simplification). -/
abbrev ChunkIndex := Nat

/-- `ChunkId`, opsqueue/src/common/chunk.rs 162-193. -/
structure ChunkId where
  submissionId : SubmissionId
  chunkIndex : ChunkIndex
deriving DecidableEq, Repr

/-- `StrategicMetadataMap = FxHashMap<String, i64>`, opsqueue/src/common/mod.rs 14-15. The map is
the list of its entries in (arbitrary) iteration order. -/
abbrev StrategicMetadata := List (String × Int)

/-- `Submission` / a row of table `submissions`.
opsqueue/src/common/submission.rs 154-164, migrations 20240704100242 (id … metadata),
20241122175706 (otel_trace_carrier), 20250416081453 (chunk_size, nullable).
The generated column `random_order` is computed in `Model/Strategy.lean`. -/
structure SubmissionRow where
  id : SubmissionId
  pfx : Option String
  chunksTotal : Nat
  chunksDone : Nat
  metadata : Option Metadata
  otel : String
  chunkSize : Option Int
deriving DecidableEq, Repr

/-- Row of `submissions_completed` (same migrations; submission.rs 172-183). -/
structure CompletedRow where
  id : SubmissionId
  pfx : Option String
  chunksTotal : Nat
  metadata : Option Metadata
  completedAt : Time
  otel : String
  chunkSize : Option Int
deriving DecidableEq, Repr

/-- Row of `submissions_failed` (same migrations, 20260429173300 adds the nullable chunks_done;
submission.rs 185-202). -/
structure FailedRow where
  id : SubmissionId
  pfx : Option String
  chunksTotal : Nat
  chunksDone : Option Nat
  metadata : Option Metadata
  failedAt : Time
  failedChunkId : ChunkIndex
  otel : String
  chunkSize : Option Int
deriving DecidableEq, Repr

/-- Row of `submissions_cancelled` (migration 20260225164600; submission.rs 204-214). -/
structure CancelledRow where
  id : SubmissionId
  pfx : Option String
  chunksTotal : Nat
  chunksDone : Nat
  metadata : Option Metadata
  cancelledAt : Time
deriving DecidableEq, Repr

/-- Row of `chunks` (migration 20240704100449; chunk.rs 199-206). -/
structure ChunkRow where
  submissionId : SubmissionId
  chunkIndex : ChunkIndex
  inputContent : Content
  retries : Nat
deriving DecidableEq, Repr

/-- Row of `chunks_completed` (migration 20240704100449; chunk.rs 208-215). -/
structure ChunkCompletedRow where
  submissionId : SubmissionId
  chunkIndex : ChunkIndex
  outputContent : Content
  completedAt : Time
deriving DecidableEq, Repr

/-- Row of `chunks_failed` (migration 20240704100449; chunk.rs 217-223). -/
structure ChunkFailedRow where
  submissionId : SubmissionId
  chunkIndex : ChunkIndex
  inputContent : Content
  failure : String
  failedAt : Time
  skipped : Bool
deriving DecidableEq, Repr

/-- Row of `submissions_metadata` (migrations 20250104155558, 20260717143000). -/
structure MetaRow where
  submissionId : SubmissionId
  key : String
  value : Int
deriving DecidableEq, Repr

/-- The primary key `(submission_id, chunk_index)` of the three chunk tables
(migration 20240704100449). -/
def ChunkRow.key (c : ChunkRow) : ChunkId := ⟨c.submissionId, c.chunkIndex⟩
/-- Primary key of `chunks_completed` (migration 20240704100449). -/
def ChunkCompletedRow.key (c : ChunkCompletedRow) : ChunkId := ⟨c.submissionId, c.chunkIndex⟩
/-- Primary key of `chunks_failed` (migration 20240704100449). -/
def ChunkFailedRow.key (c : ChunkFailedRow) : ChunkId := ⟨c.submissionId, c.chunkIndex⟩
/-- Primary key `(submission_id, metadata_key)` of `submissions_metadata`
(migration 20260717143000). -/
def MetaRow.pk (m : MetaRow) : SubmissionId × String := (m.submissionId, m.key)

/-- The database: one list of rows per table (opsqueue/migrations/*.sql, final schema). -/
structure DB where
  submissions : List SubmissionRow := []
  submissionsCompleted : List CompletedRow := []
  submissionsFailed : List FailedRow := []
  submissionsCancelled : List CancelledRow := []
  chunks : List ChunkRow := []
  chunksCompleted : List ChunkCompletedRow := []
  chunksFailed : List ChunkFailedRow := []
  submissionsMetadata : List MetaRow := []
deriving DecidableEq, Repr

/-- The empty, freshly migrated database (db/mod.rs 458 `ensure_db_migrated`). -/
def DB.empty : DB := {}

/-- `E<L, R>`, opsqueue/src/common/errors.rs 63-71. -/
inductive E (L R : Type) where
  | L (l : L)
  | R (r : R)
deriving DecidableEq, Repr

/-- `sqlx::Error` / `DatabaseError` (errors.rs 19-22): an I/O-like failure injected by the fault
oracle, `RowNotFound` from `fetch_one`, or a primary-key constraint violation. -/
inductive DbErr where
  | io
  | rowNotFound
  | constraint
deriving DecidableEq, Repr

/-- `SubmissionNotFound(id)`, errors.rs 35-37. -/
structure SubmissionNotFound where
  id : SubmissionId
deriving DecidableEq, Repr

/-- `ChunkNotFound(id)`, errors.rs 31-33. -/
structure ChunkNotFound where
  id : ChunkId
deriving DecidableEq, Repr

/-- `Submission` as returned by `get_submission` (submission.rs 154-164): the row, its
chunk size with NULL decoded to the default 1 (chunk.rs 55-69), plus the metadata map. -/
structure Submission where
  id : SubmissionId
  pfx : Option String
  chunksTotal : Nat
  chunksDone : Nat
  chunkSize : Int
  metadata : Option Metadata
  strategic : StrategicMetadata
  otel : String
deriving DecidableEq, Repr

/-- `SubmissionCompleted`, submission.rs 172-183. -/
structure SubmissionCompleted where
  id : SubmissionId
  pfx : Option String
  chunksTotal : Nat
  chunkSize : Int
  metadata : Option Metadata
  strategic : StrategicMetadata
  completedAt : Time
  otel : String
deriving DecidableEq, Repr

/-- `SubmissionFailed`, submission.rs 185-202. -/
structure SubmissionFailed where
  id : SubmissionId
  pfx : Option String
  chunksTotal : Nat
  chunksDone : Option Nat
  chunkSize : Int
  metadata : Option Metadata
  strategic : StrategicMetadata
  failedAt : Time
  failedChunkId : ChunkIndex
  otel : String
deriving DecidableEq, Repr

/-- `SubmissionCancelled`, submission.rs 204-214. -/
structure SubmissionCancelled where
  id : SubmissionId
  pfx : Option String
  chunksTotal : Nat
  chunksDone : Nat
  metadata : Option Metadata
  strategic : StrategicMetadata
  cancelledAt : Time
deriving DecidableEq, Repr

/-- `ChunkFailed`, chunk.rs 217-223. -/
structure ChunkFailed where
  submissionId : SubmissionId
  chunkIndex : ChunkIndex
  inputContent : Content
  failure : String
  failedAt : Time
deriving DecidableEq, Repr

/-- `SubmissionStatus`, submission.rs 216-222. -/
inductive SubmissionStatus where
  | inProgress (s : Submission)
  | completed (s : SubmissionCompleted)
  | failed (s : SubmissionFailed) (c : ChunkFailed)
  | cancelled (s : SubmissionCancelled)
deriving DecidableEq, Repr

/-- `SubmissionNotCancellable`, errors.rs 41-47. -/
inductive SubmissionNotCancellable where
  | completed (s : SubmissionCompleted)
  | failed (s : SubmissionFailed) (c : ChunkFailed)
  | cancelled (s : SubmissionCancelled)
deriving DecidableEq, Repr

/-- `ChunkSize::default()` = 1 and decoding of a NULL column to it, chunk.rs 53-69. -/
def decodeChunkSize : Option Int → Int
  | some n => n
  | none => 1

end Opsqueue
