import Verif.Model.System

/-!
# Metrics

The counters and the backlog gauges of opsqueue/src/prometheus.rs, and where the functions of `submission::db` and
`chunk::db` change them. A metered program is the program of `Model/Programs.lean` with the `counter!` and `gauge!`
lines put back in; that it does the same to the database is `tracks_…` in `Proofs/Metrics.lean`.

Metrics live in memory: they start at zero with the process and no transaction rolls them back.

Not modelled: histograms, the reserver's and the connections' metrics, and `chunks_skipped_count`, whose increment is
what sqlx adds up over the four statements of `skip_remaining_chunks` (chunk.rs 626). Simplification: gauges are
integers, not floating point numbers.
-/

namespace Opsqueue
open SubmissionDb

/-- The metrics, opsqueue/src/prometheus.rs 18-47. -/
structure Metrics where
  submissionsTotal : Nat := 0
  submissionsCompleted : Nat := 0
  submissionsFailed : Nat := 0
  submissionsCancelled : Nat := 0
  chunksTotal : Nat := 0
  chunksCompleted : Nat := 0
  chunksFailed : Nat := 0
  chunksRetried : Nat := 0
  chunksBacklog : Int := 0
  operationsBacklog : Int := 0
deriving DecidableEq, Repr

/-! ## How the metrics change -/

/-- submission.rs 428-429. -/
def Metrics.inserted (chunks : Nat) (m : Metrics) : Metrics :=
  { m with submissionsTotal := m.submissionsTotal + 1, chunksTotal := m.chunksTotal + chunks }

/-- submission.rs 963. -/
def Metrics.submissionCompleted (m : Metrics) : Metrics :=
  { m with submissionsCompleted := m.submissionsCompleted + 1 }

/-- submission.rs 994. -/
def Metrics.submissionFailed (m : Metrics) : Metrics := { m with submissionsFailed := m.submissionsFailed + 1 }

/-- submission.rs 926. -/
def Metrics.submissionCancelled (m : Metrics) : Metrics :=
  { m with submissionsCancelled := m.submissionsCancelled + 1 }

/-- chunk.rs 336. -/
def Metrics.chunkCompleted (m : Metrics) : Metrics := { m with chunksCompleted := m.chunksCompleted + 1 }

/-- chunk.rs 433. -/
def Metrics.chunkRetried (m : Metrics) : Metrics := { m with chunksRetried := m.chunksRetried + 1 }

/-- chunk.rs 479-480. -/
def Metrics.chunkFailed (m : Metrics) : Metrics :=
  { m with chunksFailed := m.chunksFailed + 1, chunksBacklog := m.chunksBacklog - 1 }

/-! ## Programs with metrics -/

/-- A program that also changes metrics. -/
def Metered (ε α : Type) := World → Metrics → Res ε α × World × Metrics

namespace Metered

/-- `Ok(a)`. -/
protected def pure {ε α : Type} (a : α) : Metered ε α := fun w m => (.ok a, w, m)

/-- Sequencing with `?`. -/
protected def bind {ε α β : Type} (x : Metered ε α) (f : α → Metered ε β) : Metered ε β := fun w m =>
  match x w m with
  | (.ok a, w', m') => f a w' m'
  | (.err e, w', m') => (.err e, w', m')
  | (.crash, w', m') => (.crash, w', m')

instance {ε : Type} : Monad (Metered ε) where
  pure := Metered.pure
  bind := Metered.bind

/-- A program without `counter!` or `gauge!` lines. -/
def lift {ε α : Type} (x : Sql ε α) : Metered ε α := fun w m => ((x w).1, (x w).2, m)

/-- One or more `counter!(..)` or `gauge!(..)` lines, e.g. submission.rs 428-429. -/
def tick {ε : Type} (f : Metrics → Metrics) : Metered ε Unit := fun w m => (.ok (), w, f m)

/-- `Err(e)`. -/
def throw {ε α : Type} (e : ε) : Metered ε α := fun w m => (.err e, w, m)

/-- `match x.await { ... }`. -/
def matchRes {ε ε' α β : Type} (x : Metered ε α) (k : Except ε α → Metered ε' β) : Metered ε' β := fun w m =>
  match x w m with
  | (.ok a, w', m') => k (.ok a) w' m'
  | (.err e, w', m') => k (.error e) w' m'
  | (.crash, w', m') => (.crash, w', m')

/-- `.map_err(f)`. -/
def mapErr {ε ε' α : Type} (f : ε → ε') (x : Metered ε α) : Metered ε' α := fun w m =>
  match x w m with
  | (.ok a, w', m') => (.ok a, w', m')
  | (.err e, w', m') => (.err (f e), w', m')
  | (.crash, w', m') => (.crash, w', m')

/-- `Connection::transaction`, opsqueue/src/db/mod.rs 129-144, see `Sql.transaction`. The metrics are not rolled
back. -/
def transaction {ε α : Type} (conv : DbErr → ε) (body : Metered ε α) : Metered ε α := fun w m =>
  match Sql.stmt (fun db => .ok ((), db)) w with
  | (.err e, w1) => (.err (conv e), w1, m)
  | (.crash, w1) => (.crash, w1, m)
  | (.ok (), w1) =>
    match body w1 m with
    | (.err e, w2, m') => (.err e, ⟨w2.oracle, w1.db⟩, m')
    | (.crash, w2, m') => (.crash, ⟨w2.oracle, w1.db⟩, m')
    | (.ok a, w2, m') =>
      match w2.oracle with
      | [] => (.ok a, w2, m')
      | .ok :: o => (.ok a, ⟨o, w2.db⟩, m')
      | .fail :: o => (.err (conv .io), ⟨o, w1.db⟩, m')
      | .crash :: o => (.crash, ⟨o, w1.db⟩, m')
      | .crashLate :: o => (.crash, ⟨o, w2.db⟩, m')

/-! ## The functions, with their metrics -/

/-- `insert_submission`, submission.rs 400-431: the counters are incremented whatever became of the transaction. -/
def insertSubmission (s : SubmissionRow) (strategic : StrategicMetadata) (chunks : List ChunkRow) :
    Metered DbErr Unit :=
  matchRes
    (transaction id (lift do
      insertSubmissionRaw s
      insertSubmissionMetadataRaw s.id strategic
      ChunkDb.insertManyChunks chunks))
    fun res => do
      tick (Metrics.inserted s.chunksTotal)
      match res with
      | .ok () => pure ()
      | .error e => throw e

/-- `complete_submission_raw`, submission.rs 936-969. -/
def completeSubmissionRaw (id : SubmissionId) (now : Time) : Metered (E DbErr SubmissionNotFound) Unit := do
  lift (SubmissionDb.completeSubmissionRaw id now)
  tick Metrics.submissionCompleted

/-- `maybe_complete_submission`, submission.rs 822-839. -/
def maybeCompleteSubmission (id : SubmissionId) (now : Time) : Metered (E DbErr SubmissionNotFound) Bool :=
  transaction E.L do
    let s ← lift (getSubmission id)
    if s.chunksDone = s.chunksTotal then
      completeSubmissionRaw id now
      pure true
    else
      pure false

/-- `insert_submission_from_chunks`, submission.rs 445-497. -/
def insertSubmissionFromChunks (a : InsertArgs) (now : Time) : Metered DbErr SubmissionId := do
  insertSubmission a.row a.strategic (mkChunks a.id a.contents)
  if a.contents.length = 0 then
    matchRes (maybeCompleteSubmission a.id now) fun
      | .error (.L e) => throw e
      | .error (.R _) => pure a.id
      | .ok _ => pure a.id
  else
    pure a.id

/-- `cancel_submission_raw`, submission.rs 903-932. -/
def cancelSubmissionRaw (id : SubmissionId) (now : Time) : Metered (E DbErr SubmissionNotFound) Unit := do
  lift (SubmissionDb.cancelSubmissionRaw id now)
  tick Metrics.submissionCancelled

/-- `cancel_submission_notx`, submission.rs 893-900. -/
def cancelSubmissionNotx (id : SubmissionId) (now1 now2 : Time) : Metered (E DbErr SubmissionNotFound) Unit := do
  cancelSubmissionRaw id now1
  lift (Sql.mapErr E.L (ChunkDb.skipRemainingChunks id now2))

/-- `cancel_submission`, submission.rs 853-886. -/
def cancelSubmission (id : SubmissionId) (now1 now2 : Time) : Metered CancelErr Unit :=
  transaction (fun e => .err (.L e)) <|
    matchRes (cancelSubmissionNotx id now1 now2) fun
      | .ok () => pure ()
      | .error (.L e) => throw (.err (.L e))
      | .error (.R nf) =>
        matchRes (lift (submissionStatus id)) fun
          | .ok none => throw (.err (.R (.L nf)))
          | .ok (some (.inProgress _)) => throw .panicked
          | .ok (some (.completed s)) => throw (.err (.R (.R (.completed s))))
          | .ok (some (.failed s c)) => throw (.err (.R (.R (.failed s c))))
          | .ok (some (.cancelled s)) => throw (.err (.R (.R (.cancelled s))))
          | .error e => throw (.err (.L e))

/-- `fail_submission_raw`, submission.rs 972-1000. -/
def failSubmissionRaw (id : SubmissionId) (failedChunk : ChunkIndex) (now : Time) : Metered DbErr Unit := do
  lift (SubmissionDb.failSubmissionRaw id failedChunk now)
  tick Metrics.submissionFailed

/-- `move_chunk_to_failed_chunks`, chunk.rs 450-482. -/
def moveChunkToFailedChunks (cid : ChunkId) (failure : String) (now : Time) : Metered DbErr Unit := do
  lift (ChunkDb.moveChunkToFailedChunks cid failure now)
  tick Metrics.chunkFailed

/-- `fail_submission_notx`, submission.rs 1027-1042. -/
def failSubmissionNotx (id : SubmissionId) (failedChunk : ChunkIndex) (failure : String)
    (now1 now2 now3 : Time) : Metered DbErr Unit := do
  failSubmissionRaw id failedChunk now1
  moveChunkToFailedChunks ⟨id, failedChunk⟩ failure now2
  lift (ChunkDb.skipRemainingChunks id now3)

/-- The transaction inside `complete_chunk`, chunk.rs 317-334. -/
def completeChunkTx (cid : ChunkId) (output : Content) (now1 now2 : Time) : Metered ChunkDb.CompleteErr Int :=
  transaction E.L do
    let work ← lift (Sql.mapErr E.L (ChunkDb.completeChunkRaw cid output now1))
    let _ ← mapErr (fun | .L e => .L e | .R e => .R (.L e)) (maybeCompleteSubmission cid.submissionId now2)
    pure (decodeChunkSize work)

/-- `complete_chunk`, chunk.rs 312-338. -/
def completeChunk (cid : ChunkId) (output : Content) (now1 now2 : Time) : Metered ChunkDb.CompleteErr Unit :=
  matchRes (completeChunkTx cid output now1 now2) fun _ => tick Metrics.chunkCompleted

/-- `retry_or_fail_chunk`, chunk.rs 397-442. -/
def retryOrFailChunk (cid : ChunkId) (failure : String) (maxRetries : Nat)
    (now1 now2 now3 : Time) : Metered DbErr Bool :=
  transaction (fun e => e) do
    let retries ← lift (Sql.stmt (Stmt.bumpRetries cid))
    if retries ≥ maxRetries then
      failSubmissionNotx cid.submissionId cid.chunkIndex failure now1 now2 now3
      pure true
    else
      tick Metrics.chunkRetried
      pure false

/-- SELECT COUNT(1) FROM chunks, chunk.rs 636-642. -/
def countChunks : Sql DbErr Nat := Sql.query fun db => .ok db.chunks.length

/-- SELECT COALESCE(SUM(chunk_size * 1.0), 0.0) FROM chunks INNER JOIN submissions ON chunks.submission_id =
submissions.id, chunk.rs 681-683. NULL counts as nothing. -/
def countOpsInBacklogEstimate : Sql DbErr Int :=
  Sql.query fun db => .ok ((db.chunks.flatMap fun c =>
    (db.submissions.filter fun s => c.submissionId == s.id).map fun s => s.chunkSize.getD 0).sum)

/-- `calculate_scaling_metrics`, prometheus.rs 211-223 (run every five seconds, 227-242). -/
def calculateScalingMetrics : Metered DbErr Unit := do
  let n ← lift countChunks
  tick fun m => { m with chunksBacklog := n }
  let k ← lift countOpsInBacklogEstimate
  tick fun m => { m with operationsBacklog := k }

end Metered

/-! ## A server with metrics -/

/-- What is stored, and what the metrics endpoint shows. -/
structure Monitored where
  db : DB := {}
  metrics : Metrics := {}
deriving DecidableEq, Repr

/-- A call, or the periodic calculation of the backlog metrics (`connOk`: a connection could be had; the faults of its
two queries), or a restart of the server. -/
inductive Happening where
  | call (op : Op)
  | refresh (connOk : Bool) (faults : List Fault)
  | restart
deriving DecidableEq, Repr

/-- The metrics after a call: those the call left, or new ones if the process died. -/
def surviving {ε α : Type} (r : Res ε α × World × Metrics) : Monitored :=
  match r with
  | (.crash, w, _) => ⟨w.db, {}⟩
  | (_, w, m) => ⟨w.db, m⟩

namespace Monitored

/-- One call, see `Opsqueue.step`; a calculation of the backlog metrics, prometheus.rs 211-223; a restart. -/
def step (s : Monitored) : Happening → Monitored
  | .call (.insert a now o) => surviving (Metered.insertSubmissionFromChunks a now ⟨o, s.db⟩ s.metrics)
  | .call (.complete cid output now1 now2 o) =>
    surviving (Metered.completeChunk cid output now1 now2 ⟨o, s.db⟩ s.metrics)
  | .call (.fail cid failure m now1 now2 now3 o) =>
    surviving (Metered.retryOrFailChunk cid failure m now1 now2 now3 ⟨o, s.db⟩ s.metrics)
  | .call (.cancel id now1 now2 o) => surviving (Metered.cancelSubmission id now1 now2 ⟨o, s.db⟩ s.metrics)
  | .call (.cleanup t o) => surviving (Metered.lift (cleanupOld t) ⟨o, s.db⟩ s.metrics)
  | .refresh connOk o => if connOk then surviving (Metered.calculateScalingMetrics ⟨o, s.db⟩ s.metrics) else s
  | .restart => { s with metrics := {} }

/-- Everything that happened, one after the other. -/
def run (s : Monitored) (hs : List Happening) : Monitored := hs.foldl step s

end Monitored
end Opsqueue
