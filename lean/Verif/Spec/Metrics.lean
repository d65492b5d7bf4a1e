import Verif.Spec.Observe
import Verif.Model.Metrics

/-!
# What the metrics should count
-/

namespace Opsqueue

/-- The submission with this id has a status of this kind. -/
def HasStatus (kind : SubmissionStatus → Bool) (db : DB) (id : SubmissionId) : Prop :=
  ∃ st, statusAt db id = .ok (some st) ∧ kind st = true

/-- What a call did: the database before, the call, and the database after it. -/
structure Deed where
  before : DB
  op : Op
  after : DB

namespace Deed

/-- A submission entered the system. -/
def Entered (d : Deed) : Prop := ∃ id, statusAt d.before id = .ok none ∧ statusAt d.after id ≠ .ok none

/-- A submission's status became one of this kind. -/
def Became (kind : SubmissionStatus → Bool) (d : Deed) : Prop :=
  ∃ id, HasStatus kind d.after id ∧ ¬ HasStatus kind d.before id

/-- A submission was completed. -/
def Completed : Deed → Prop := Became fun | .completed _ => true | _ => false

/-- A submission failed. -/
def Failed : Deed → Prop := Became fun | .failed _ _ => true | _ => false

/-- A submission was cancelled. -/
def Cancelled : Deed → Prop := Became fun | .cancelled _ => true | _ => false

/-- A chunk left the backlog because a consumer reported it complete. -/
def ChunkCompleted (d : Deed) : Prop :=
  ∃ cid, d.op.completes cid = true ∧ backlogCount d.before cid = 1 ∧ backlogCount d.after cid = 0

/-- A consumer reported a chunk complete that was not in the backlog (any more). -/
def LateReport (d : Deed) : Prop := ∃ cid, d.op.completes cid = true ∧ backlogCount d.before cid = 0

/-- A chunk was marked failed for good (and not merely skipped). -/
def ChunkFailed (d : Deed) : Prop := ∃ cid, skippedAt d.before cid = none ∧ skippedAt d.after cid = some false

/-- A failure of a chunk was counted and the chunk stays in the backlog. -/
def ChunkRetried (d : Deed) : Prop :=
  ∃ cid c, chunkAt d.before cid = .ok c ∧ chunkAt d.after cid = .ok { c with retries := c.retries + 1 }

/-- The number of chunks the call wants to insert. -/
def chunks (d : Deed) : Nat :=
  match d.op with
  | .insert a _ _ => a.contents.length
  | _ => 0

end Deed

/-- What each of the calls did, from this database on. -/
def deeds (db : DB) : List Op → List Deed
  | [] => []
  | op :: ops => ⟨db, op, (step db op).2⟩ :: deeds (step db op).2 ops

open Classical in
/-- How often something happened. -/
noncomputable def times (P : Deed → Prop) (ds : List Deed) : Nat := (ds.filter fun d => decide (P d)).length

open Classical in
/-- How many chunks entered the system. -/
noncomputable def chunksEntered (ds : List Deed) : Nat :=
  ((ds.filter fun d => decide d.Entered).map Deed.chunks).sum

/-- The calls among everything that happened. -/
def callsOf (hs : List Happening) : List Op :=
  hs.filterMap fun
    | .call op => some op
    | _ => none

/-- The process did not die in any of this, nor was it restarted. -/
def Monitored.Alive (s : Monitored) : List Happening → Prop
  | [] => True
  | h :: hs =>
    (match h with
      | .call op => (Opsqueue.step s.db op).1.crashed = false
      | .refresh connOk o => connOk = true → (Metered.calculateScalingMetrics ⟨o, s.db⟩ s.metrics).1 ≠ .crash
      | .restart => False) ∧
    Monitored.Alive (Monitored.step s h) hs

/-- No statement failed, and the process did not die. -/
def Op.Undisturbed (op : Op) : Prop := op = op.clean

/-- The strategic metadata of a new submission has one value per name, as it is a map. -/
def Op.ProperMetadata : Op → Prop
  | .insert a _ _ => (a.strategic.map (·.1)).Nodup
  | _ => True

/-- The counters went from `m` to `m'` while `ds` happened: each of them compared with what it should count. -/
def Grew (rel : Nat → Nat → Prop) (m m' : Metrics) (ds : List Deed) : Prop :=
  rel (m.submissionsTotal + times Deed.Entered ds) m'.submissionsTotal ∧
  rel (m.submissionsCompleted + times Deed.Completed ds) m'.submissionsCompleted ∧
  rel (m.submissionsFailed + times Deed.Failed ds) m'.submissionsFailed ∧
  rel (m.submissionsCancelled + times Deed.Cancelled ds) m'.submissionsCancelled ∧
  rel (m.chunksTotal + chunksEntered ds) m'.chunksTotal ∧
  rel (m.chunksCompleted + times Deed.ChunkCompleted ds) m'.chunksCompleted ∧
  rel (m.chunksFailed + times Deed.ChunkFailed ds) m'.chunksFailed ∧
  rel (m.chunksRetried + times Deed.ChunkRetried ds) m'.chunksRetried

/-- How many chunks of a submission in progress are not done. -/
def remaining (db : DB) (id : SubmissionId) : Nat :=
  match statusAt db id with
  | .ok (some (.inProgress s)) => s.chunksTotal - s.chunksDone
  | _ => 0

/-- How many operations, by its chunk size, these are. -/
def remainingOperations (db : DB) (id : SubmissionId) : Int :=
  match statusAt db id with
  | .ok (some (.inProgress s)) => s.chunkSize * (s.chunksTotal - s.chunksDone : Nat)
  | _ => 0

/-- All submissions in progress, each once. -/
def InProgressIds (db : DB) (ids : List SubmissionId) : Prop :=
  ids.Nodup ∧ ∀ id, id ∈ ids ↔ ∃ s, InProgressAt db id s

end Opsqueue
