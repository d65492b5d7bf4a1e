import Verif.Model.Query

/-!
# Observations

What a user of the API can see of a database: results of fault-free read-only calls, and the
backlog. The property theorems of `Props/` are stated in these terms.
-/

namespace Opsqueue

deriving instance DecidableEq for Except

/-- The answer of an (undisturbed) `submission_status` call. -/
def statusAt (db : DB) (id : SubmissionId) : Res DbErr (Option SubmissionStatus) :=
  (SubmissionDb.submissionStatus id ⟨[], db⟩).1

/-- The answer of an undisturbed `get_chunk` call: the backlog entry of a chunk. -/
def chunkAt (db : DB) (cid : ChunkId) : Res DbErr ChunkRow := (ChunkDb.getChunk cid ⟨[], db⟩).1

/-- The answer of an undisturbed `get_chunk_completed` call. -/
def chunkCompletedAt (db : DB) (cid : ChunkId) : Res DbErr ChunkCompletedRow :=
  (ChunkDb.getChunkCompleted cid ⟨[], db⟩).1

/-- The answer of an undisturbed `get_chunk_failed` call. -/
def chunkFailedAt (db : DB) (cid : ChunkId) : Res DbErr ChunkFailed :=
  (ChunkDb.getChunkFailed cid ⟨[], db⟩).1

/-- The `skipped` mark of a failed chunk. -/
def skippedAt (db : DB) (cid : ChunkId) : Option Bool :=
  (db.chunksFailed.find? (fun c => c.submissionId == cid.submissionId && c.chunkIndex == cid.chunkIndex)).map
    (·.skipped)

/-- The answer of an undisturbed `get_submission_strategic_metadata` call. -/
def strategicAt (db : DB) (id : SubmissionId) : Res DbErr StrategicMetadata :=
  (SubmissionDb.getStrategicMetadata id ⟨[], db⟩).1

/-- How many backlog entries there are for a chunk. -/
def backlogCount (db : DB) (cid : ChunkId) : Nat :=
  (db.chunks.filter (fun c => c.submissionId == cid.submissionId && c.chunkIndex == cid.chunkIndex)).length

/-- How many backlog entries a submission has. -/
def backlogSize (db : DB) (id : SubmissionId) : Nat :=
  (db.chunks.filter (fun c => c.submissionId == id)).length

/-- The history contains a complete-chunk call for `cid` at which it left the backlog. -/
def CompletedIn (ops : List Op) (cid : ChunkId) : Prop :=
  ∃ pre out t1 t2 o post, ops = pre ++ .complete cid out t1 t2 o :: post ∧
    backlogCount (run pre) cid = 1 ∧ backlogCount (run (pre ++ [.complete cid out t1 t2 o])) cid = 0

/-- Statuses that end the life of a submission. -/
def SubmissionStatus.Terminal : SubmissionStatus → Prop
  | .inProgress _ => False
  | _ => True

/-- The prefix shown in a status. -/
def SubmissionStatus.pfx : SubmissionStatus → Option String
  | .inProgress s => s.pfx
  | .completed s => s.pfx
  | .failed s _ => s.pfx
  | .cancelled s => s.pfx

/-- The number of chunks shown in a status. -/
def SubmissionStatus.chunksTotal : SubmissionStatus → Nat
  | .inProgress s => s.chunksTotal
  | .completed s => s.chunksTotal
  | .failed s _ => s.chunksTotal
  | .cancelled s => s.chunksTotal

/-- The user metadata shown in a status. -/
def SubmissionStatus.metadata : SubmissionStatus → Option Metadata
  | .inProgress s => s.metadata
  | .completed s => s.metadata
  | .failed s _ => s.metadata
  | .cancelled s => s.metadata

/-- The strategic metadata shown in a status. -/
def SubmissionStatus.strategic : SubmissionStatus → StrategicMetadata
  | .inProgress s => s.strategic
  | .completed s => s.strategic
  | .failed s _ => s.strategic
  | .cancelled s => s.strategic

/-- When a submission ended, as shown in a status. -/
def SubmissionStatus.endedAt : SubmissionStatus → Option Time
  | .inProgress _ => none
  | .completed s => some s.completedAt
  | .failed s _ => some s.failedAt
  | .cancelled s => some s.cancelledAt

/-- The status is Cancelled. -/
def SubmissionStatus.isCancelled : SubmissionStatus → Bool
  | .cancelled _ => true
  | _ => false

/-- The submission is in progress. -/
def InProgressAt (db : DB) (id : SubmissionId) (s : Submission) : Prop :=
  statusAt db id = .ok (some (.inProgress s))

/-- The number of rows about a submission id in the four submission tables. -/
def occurrences (db : DB) (id : SubmissionId) : Nat :=
  (db.submissions.filter (·.id == id)).length +
  (db.submissionsCompleted.filter (·.id == id)).length +
  (db.submissionsFailed.filter (·.id == id)).length +
  (db.submissionsCancelled.filter (·.id == id)).length

/-- The submission a call is about. -/
def Op.target : Op → Option SubmissionId
  | .insert a _ _ => some a.id
  | .complete cid _ _ _ _ => some cid.submissionId
  | .fail cid _ _ _ _ _ _ => some cid.submissionId
  | .cancel id _ _ _ => some id
  | .cleanup _ _ => none

/-- The call with no faults. -/
def Op.clean : Op → Op
  | .insert a now _ => .insert a now []
  | .complete cid out t1 t2 _ => .complete cid out t1 t2 []
  | .fail cid f m t1 t2 t3 _ => .fail cid f m t1 t2 t3 []
  | .cancel id t1 t2 _ => .cancel id t1 t2 []
  | .cleanup t _ => .cleanup t []

/-- The call returned an error. -/
def Out.isErr : Out → Bool
  | .inserted (.err _) | .completed (.err _) | .failed (.err _) | .cancelled (.err _)
  | .cleaned (.err _) => true
  | _ => false

/-- The call returned successfully. -/
def Out.isOk : Out → Bool
  | .inserted (.ok _) | .completed (.ok _) | .failed (.ok _) | .cancelled (.ok _) | .cleaned (.ok _) => true
  | _ => false

/-- The call inserts a submission without chunks. -/
def Op.insertsEmpty : Op → Bool
  | .insert a _ _ => a.contents.isEmpty
  | _ => false

/-- The call is a completion report for the chunk. -/
def Op.completes (cid : ChunkId) : Op → Bool
  | .complete c _ _ _ _ => c == cid
  | _ => false

/-- The call is a failure report for the chunk. -/
def Op.fails (cid : ChunkId) : Op → Bool
  | .fail c _ _ _ _ _ _ => c == cid
  | _ => false

/-- The call can end submission `id` other than by completion. -/
def Op.endsEarly (id : SubmissionId) : Op → Bool
  | .fail c _ _ _ _ _ _ => c.submissionId == id
  | .cancel i _ _ _ => i == id
  | _ => false

/-- The call is a cleanup. -/
def Op.isCleanup : Op → Bool
  | .cleanup _ _ => true
  | _ => false

/-- Within each failure report the clock does not run backwards between its readings. -/
def Op.ClockOk : Op → Prop
  | .fail _ _ _ t1 t2 _ _ => t1 ≤ t2
  | _ => True

/-- A failed submission shows a chunk whose failure is not dated before its own. (It is so unless the clock was set back in
the middle of the failure report.) -/
def SubmissionStatus.DatesOk : SubmissionStatus → Prop
  | .failed s c => s.failedAt ≤ c.failedAt
  | _ => True

/-- Exactly `n` things satisfy `P`. -/
def CountIs {α : Type} (P : α → Prop) (n : Nat) : Prop :=
  ∃ l : List α, l.Nodup ∧ (∀ x, x ∈ l ↔ P x) ∧ l.length = n

instance (ops : List Op) : Decidable (FreshIds ops) := inferInstanceAs (Decidable (List.Nodup _))

end Opsqueue
