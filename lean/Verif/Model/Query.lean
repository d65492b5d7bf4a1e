import Verif.Model.System

/-!
# Read-only calls

Lookups, counts and the concurrent version of `submission_status`.
-/

namespace Opsqueue
open Sql

namespace SubmissionDb

/-- `get_submission_strategic_metadata`, opsqueue/src/common/submission.rs 550-567. -/
def getStrategicMetadata (id : SubmissionId) : Sql DbErr StrategicMetadata :=
  query fun db => .ok (Stmt.strategicOf id db)

/-- The `UNION ALL` of `lookup_id_by_prefix`, submission.rs 581-588. -/
def prefixRows (pfx : String) (db : DB) : List SubmissionId :=
  (db.submissions.filter (·.pfx == some pfx)).map (·.id) ++
  (db.submissionsCompleted.filter (·.pfx == some pfx)).map (·.id) ++
  (db.submissionsFailed.filter (·.pfx == some pfx)).map (·.id)

/-- `lookup_id_by_prefix`, submission.rs 575-592 (`fetch_optional` takes the first row).
Simplification: which of several rows comes first is up to SQLite; the model takes the first one in
table order. -/
def lookupIdByPrefix (pfx : String) : Sql DbErr (Option SubmissionId) :=
  query fun db => .ok (prefixRows pfx db).head?

/-- The rows of one `INNER JOIN submissions_metadata AS s{i}` for submission `id`,
submission.rs 640-646. -/
def joinRows (db : DB) (id : SubmissionId) (kv : String × Int) : List MetaRow :=
  db.submissionsMetadata.filter fun m =>
    m.submissionId == id && m.key == kv.1 && m.value == kv.2

/-- The joined rows for one submission: one output row per combination of joined rows. -/
def joinAll (db : DB) (id : SubmissionId) : StrategicMetadata → List SubmissionId
  | [] => [id]
  | kv :: rest => (joinRows db id kv).flatMap fun _ => joinAll db id rest

/-- Insertion into a sorted list, used to model `ORDER BY` (submission.rs 614, 648). -/
def orderedInsert {α : Type} (le : α → α → Bool) (a : α) : List α → List α
  | [] => [a]
  | b :: l => if le a b then a :: b :: l else b :: orderedInsert le a l

/-- `ORDER BY` (submission.rs 614, 648; consumer/strategy.rs 92-197): the rows, sorted. Rows that
compare equal keep their order (in SQLite their order is unspecified). -/
def orderBy {α : Type} (le : α → α → Bool) : List α → List α
  | [] => []
  | a :: l => orderedInsert le a (orderBy le l)

/-- `lookup_ids_by_strategic_metadata_query`, submission.rs 632-651, and the special case for an
empty map, 609-615 (which `joinAll` covers: no join). -/
def matchingIds (kvs : StrategicMetadata) (limit : Nat) (db : DB) : List SubmissionId :=
  (orderBy (fun a b => decide (a ≤ b)) (db.submissions.flatMap fun s => joinAll db s.id kvs)).take
    limit

/-- `TooManyMatchingSubmissions(max)`, opsqueue/src/common/errors.rs 49-53. -/
structure TooManyMatchingSubmissions where
  max : Nat
deriving DecidableEq, Repr

/-- `lookup_ids_by_strategic_metadata`, submission.rs 599-628. The conversion of the limit to
`i64` is in `Model/Ids.lean`. -/
def lookupIdsByStrategicMetadata (kvs : StrategicMetadata) (max : Nat) :
    Sql (E DbErr TooManyMatchingSubmissions) (List SubmissionId) := do
  let ids ← mapErr E.L (query fun db => .ok (matchingIds kvs (max + 1) db))
  if ids.length > max then throw (.R ⟨max⟩) else pure ids

/-- `count_submissions`, submission.rs 1050-1055. -/
def countSubmissions : Sql DbErr Nat := query fun db => .ok db.submissions.length

/-- `count_submissions_completed`, submission.rs 1063-1068. -/
def countSubmissionsCompleted : Sql DbErr Nat := query fun db => .ok db.submissionsCompleted.length

/-- `count_submissions_failed`, submission.rs 1076-1081. -/
def countSubmissionsFailed : Sql DbErr Nat := query fun db => .ok db.submissionsFailed.length

/-- `submission_status` (submission.rs 660-811) on a reader connection that is not in a
transaction: each of its queries sees its own snapshot. `d1 … d5` are the databases seen by the
queries on submissions, submissions_completed, submissions_failed, chunks_failed and
submissions_cancelled (the last two are exclusive). -/
def statusReads (id : SubmissionId) (d1 d2 d3 d4 d5 : DB) :
    Except DbErr (Option SubmissionStatus) :=
  match Stmt.selectSubmission id d1 with
  | some s => .ok (some (.inProgress s))
  | none =>
    match Stmt.selectCompleted id d2 with
    | some s => .ok (some (.completed s))
    | none =>
      match Stmt.selectFailed id d3 with
      | some s =>
        match Stmt.selectChunkFailed ⟨s.id, s.failedChunkId⟩ d4 with
        | .ok c => .ok (some (.failed s c))
        | .error e => .error e
      | none =>
        match Stmt.selectCancelled id d5 with
        | some s => .ok (some (.cancelled s))
        | none => .ok none

end SubmissionDb

namespace ChunkDb

/-- `count_chunks`, opsqueue/src/common/chunk.rs 636-642. -/
def countChunks : Sql DbErr Nat := query fun db => .ok db.chunks.length

/-- `count_chunks_completed`, chunk.rs 650-656. -/
def countChunksCompleted : Sql DbErr Nat := query fun db => .ok db.chunksCompleted.length

/-- `count_chunks_failed`, chunk.rs 664-670. -/
def countChunksFailed : Sql DbErr Nat := query fun db => .ok db.chunksFailed.length

/-- `count_ops_in_backlog_estimate`, chunk.rs 681-683: SUM(chunk_size) over chunks INNER JOIN
submissions (NULLs are skipped by SUM). Simplification: exact integers instead of `f64`. -/
def countOpsInBacklogEstimate : Sql DbErr Int := query fun db => .ok <|
  (db.chunks.flatMap fun c =>
    (db.submissions.filter (fun s => c.submissionId == s.id)).map fun s => s.chunkSize.getD 0).sum

end ChunkDb
end Opsqueue
