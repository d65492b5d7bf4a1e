import Verif.Model.Programs

/-!
# Histories of calls

The write pool has exactly one connection (opsqueue/src/db/mod.rs 487-495), so writing calls are
serialised at transaction granularity: a history is a list of calls. Every call comes with its own
fault oracle. The operations are the calls the server makes: producer insert and cancel
(producer/server.rs 120-139, 184-215), completer complete and fail (consumer/server/mod.rs 226-309)
and the periodic cleanup (submission.rs 1170-1185).
-/

namespace Opsqueue
open SubmissionDb

/-- One call, with its arguments, clock readings and injected faults. -/
inductive Op where
  | insert (a : InsertArgs) (now : Time) (o : List Fault)
  | complete (cid : ChunkId) (output : Content) (now1 now2 : Time) (o : List Fault)
  | fail (cid : ChunkId) (failure : String) (maxRetries : Nat) (now1 now2 now3 : Time)
      (o : List Fault)
  | cancel (id : SubmissionId) (now1 now2 : Time) (o : List Fault)
  | cleanup (olderThan : Time) (o : List Fault)
deriving DecidableEq, Repr

/-- What the caller observes. -/
inductive Out where
  | inserted (r : Res DbErr SubmissionId)
  | completed (r : Res ChunkDb.CompleteErr Unit)
  | failed (r : Res DbErr Bool)
  | cancelled (r : Res CancelErr Unit)
  | cleaned (r : Res DbErr Unit)
deriving DecidableEq, Repr

/-- The process died during the call. -/
def Out.crashed : Out → Bool
  | .inserted .crash | .completed .crash | .failed .crash | .cancelled .crash | .cleaned .crash => true
  | _ => false

/-- Run one call. After a crash the server restarts on the database left behind
(submission.rs / chunk.rs entry points as listed above). -/
def step (db : DB) : Op → Out × DB
  | .insert a now o =>
    let r := insertSubmissionFromChunks a now ⟨o, db⟩
    (.inserted r.1, r.2.db)
  | .complete cid output now1 now2 o =>
    let r := ChunkDb.completeChunk cid output now1 now2 ⟨o, db⟩
    (.completed r.1, r.2.db)
  | .fail cid failure m now1 now2 now3 o =>
    let r := ChunkDb.retryOrFailChunk cid failure m now1 now2 now3 ⟨o, db⟩
    (.failed r.1, r.2.db)
  | .cancel id now1 now2 o =>
    let r := cancelSubmission id now1 now2 ⟨o, db⟩
    (.cancelled r.1, r.2.db)
  | .cleanup t o =>
    let r := cleanupOld t ⟨o, db⟩
    (.cleaned r.1, r.2.db)

/-- Run a history from a database (sequential composition of `step`). -/
def runFrom (db : DB) (ops : List Op) : DB := ops.foldl (fun d op => (step d op).2) db

/-- Run a history from the empty database. -/
def run (ops : List Op) : DB := runFrom DB.empty ops

/-- The id a call inserts, if it is an insert. -/
def Op.insertId : Op → Option SubmissionId
  | .insert a _ _ => some a.id
  | _ => none

/-- Ids generated by `SubmissionId::new()` (snowflakes, submission.rs 24-58) are never repeated:
assumed of the id generator. -/
def FreshIds (ops : List Op) : Prop := (ops.filterMap Op.insertId).Nodup

end Opsqueue
