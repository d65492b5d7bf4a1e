import Verif.Spec.Machine

/-!
# A database that is not new

What is asked of a database that a server goes on with, whoever wrote it, and the machines of `Spec/Machine.lean` started in the
middle.
-/

namespace Opsqueue.Inherited

/-- The ids that have a status, once for each of the four tables they are in. -/
def statusIds (db : DB) : List SubmissionId :=
  db.submissions.map (·.id) ++ db.submissionsCompleted.map (·.id) ++ db.submissionsFailed.map (·.id) ++
  db.submissionsCancelled.map (·.id)

/-- The database makes sense. Nothing is asked of chunk sizes and trace carriers, nor of the number of chunks that were done before a
failure, which earlier releases did not store; nor that the records of finished chunks of ended submissions are complete. -/
structure Sound (db : DB) : Prop where
  /-- No submission has two statuses. -/
  oneStatus : (statusIds db).Nodup
  /-- No two rows are about the same chunk. -/
  chunks : (db.chunks.map ChunkRow.key).Nodup
  completed : (db.chunksCompleted.map ChunkCompletedRow.key).Nodup
  failed : (db.chunksFailed.map ChunkFailedRow.key).Nodup
  waitingOrCompleted : ∀ c ∈ db.chunks, ∀ d ∈ db.chunksCompleted, d.key ≠ c.key
  completedOrFailed : ∀ c ∈ db.chunksCompleted, ∀ d ∈ db.chunksFailed, d.key ≠ c.key
  /-- A chunk to work on is a chunk of a submission in progress. -/
  owner : ∀ c ∈ db.chunks, ∃ s ∈ db.submissions, s.id = c.submissionId ∧ c.chunkIndex < s.chunksTotal
  /-- Of a submission in progress all chunks are there that are not counted as done. -/
  done : ∀ s ∈ db.submissions, s.chunksDone + (db.chunks.filter (·.submissionId == s.id)).length = s.chunksTotal
  /-- There are no outputs of chunks it does not have, and no failures of it. -/
  outputs : ∀ d ∈ db.chunksCompleted, ∀ s ∈ db.submissions, s.id = d.submissionId → d.chunkIndex < s.chunksTotal
  failures : ∀ d ∈ db.chunksFailed, ∀ s ∈ db.submissions, d.submissionId ≠ s.id
  /-- Strategic metadata is of a submission with a status, and one value for each key. -/
  metaKeys : (db.submissionsMetadata.map MetaRow.pk).Nodup
  metaOwner : ∀ m ∈ db.submissionsMetadata, m.submissionId ∈ statusIds db

/-- The calls insert no submission of which the database has something already. -/
def NewIds (db : DB) (ops : List Op) : Prop :=
  ∀ a now o, Op.insert a now o ∈ ops →
    a.id ∉ statusIds db ∧ (∀ d ∈ db.chunksCompleted, d.submissionId ≠ a.id) ∧ (∀ d ∈ db.chunksFailed, d.submissionId ≠ a.id)

/-- A history of calls, with what happened of each, that finds record `r`. -/
def resume (me : SubmissionId) (r : Machine.Record) (h : List (Op × Machine.Extent)) : Machine.Record :=
  h.foldl (fun r p => r.step me p.1 p.2) r

/-- Reports of completion on these chunks, one after another. -/
def complete (out : ChunkId → Content) (t : Time) (ids : List ChunkId) : List Op :=
  ids.map fun id => .complete id (out id) t t []

end Opsqueue.Inherited
