import Verif.Model.Upgrade
import Verif.Model.Types

/-!
# The database of the calls, as rows of tables

The models of the calls (`Model/Types`) have one structure per table. Here the same contents as rows of the tables that
the migrations make. Used by `C74`.
-/

namespace Opsqueue.Upgrade

/-- A nullable column. -/
def nullable (f : α → Val) : Option α → Val
  | none => .null
  | some a => f a

/-- A number. -/
def num (n : Nat) : Val := .int n

/-- The rows of a table. `day` is `julianday(..)`. -/
def rowsOf (day : Time → Nat) (db : DB) (table : String) : List Row :=
  if table = "submissions" then db.submissions.map fun s =>
    [("id", num s.id), ("prefix", nullable .text s.pfx), ("chunks_total", num s.chunksTotal),
     ("chunks_done", num s.chunksDone), ("metadata", nullable .blob s.metadata), ("otel_trace_carrier", .text s.otel),
     ("chunk_size", nullable .int s.chunkSize)]
  else if table = "submissions_completed" then db.submissionsCompleted.map fun s =>
    [("id", num s.id), ("prefix", nullable .text s.pfx), ("chunks_total", num s.chunksTotal),
     ("metadata", nullable .blob s.metadata), ("completed_at", .real (day s.completedAt)),
     ("otel_trace_carrier", .text s.otel), ("chunk_size", nullable .int s.chunkSize)]
  else if table = "submissions_failed" then db.submissionsFailed.map fun s =>
    [("id", num s.id), ("prefix", nullable .text s.pfx), ("chunks_total", num s.chunksTotal),
     ("metadata", nullable .blob s.metadata), ("failed_chunk_id", num s.failedChunkId), ("failed_at", .real (day s.failedAt)),
     ("otel_trace_carrier", .text s.otel), ("chunk_size", nullable .int s.chunkSize),
     ("chunks_done", nullable num s.chunksDone)]
  else if table = "submissions_cancelled" then db.submissionsCancelled.map fun s =>
    [("id", num s.id), ("prefix", nullable .text s.pfx), ("chunks_total", num s.chunksTotal),
     ("chunks_done", num s.chunksDone), ("metadata", nullable .blob s.metadata), ("cancelled_at", .real (day s.cancelledAt))]
  else if table = "chunks" then db.chunks.map fun c =>
    [("submission_id", num c.submissionId), ("chunk_index", num c.chunkIndex),
     ("input_content", nullable .blob c.inputContent), ("retries", num c.retries)]
  else if table = "chunks_completed" then db.chunksCompleted.map fun c =>
    [("submission_id", num c.submissionId), ("chunk_index", num c.chunkIndex),
     ("output_content", nullable .blob c.outputContent), ("completed_at", .real (day c.completedAt))]
  else if table = "chunks_failed" then db.chunksFailed.map fun c =>
    [("submission_id", num c.submissionId), ("chunk_index", num c.chunkIndex),
     ("input_content", nullable .blob c.inputContent), ("failure", .text c.failure), ("failed_at", .real (day c.failedAt)),
     ("skipped", num c.skipped.toNat)]
  else if table = "submissions_metadata" then db.submissionsMetadata.map fun m =>
    [("submission_id", num m.submissionId), ("metadata_key", .text m.key), ("metadata_value", .int m.value)]
  else []

/-- The database as a file: what opening no file at all gives, filled with the rows. -/
def fileOf (sums : Nat → Nat) (day : Time → Nat) (db : DB) : Database :=
  let fresh := (openDb sums [] {}).2
  { fresh with tables := fresh.tables.map fun t => { t with rows := rowsOf day db t.decl.name } }

end Opsqueue.Upgrade
