import Verif.Spec.Documents
import Verif.Spec.Times

/-!
# What the answers of the producer's HTTP interface look like

Independent of the decoders: which responses mean which result of a call.
-/

namespace Opsqueue.Http
open Wire SubmissionDb

/-- Strategic metadata, in its own field; a missing field is the empty map. -/
def Strategic (fs : List (String × Json)) (m : StrategicMetadata) : Prop :=
  Absent "strategic_metadata" fs ∧ m = [] ∨ Has "strategic_metadata" (strategicMap m) fs

/-- A time, as a text. -/
def HasTime (name : String) (t : Time) (fs : List (String × Json)) : Prop :=
  ∃ text : String, Has name (.str text) fs ∧ Times.Says text.toList t

/-- A completed submission. -/
def SaysCompleted (j : Json) (s : SubmissionCompleted) : Prop :=
  ∃ fs, j = .obj fs ∧ Has "id" (.num s.id) fs ∧ Optionally "prefix" .str fs s.pfx ∧
    Has "chunks_total" (.num s.chunksTotal) fs ∧ Has "chunk_size" (.num s.chunkSize) fs ∧
    Optionally "metadata" bytes fs s.metadata ∧ Strategic fs s.strategic ∧
    HasTime "completed_at" s.completedAt fs ∧ Has "otel_trace_carrier" (.str s.otel) fs

/-- A failed submission. -/
def SaysFailed (j : Json) (s : SubmissionFailed) : Prop :=
  ∃ fs, j = .obj fs ∧ Has "id" (.num s.id) fs ∧ Optionally "prefix" .str fs s.pfx ∧
    Has "chunks_total" (.num s.chunksTotal) fs ∧ Optionally "chunks_done" (fun n : Nat => .num n) fs s.chunksDone ∧
    Has "chunk_size" (.num s.chunkSize) fs ∧ Optionally "metadata" bytes fs s.metadata ∧ Strategic fs s.strategic ∧
    HasTime "failed_at" s.failedAt fs ∧ Has "failed_chunk_id" (.num s.failedChunkId) fs ∧
    Has "otel_trace_carrier" (.str s.otel) fs

/-- A cancelled submission. -/
def SaysCancelled (j : Json) (s : SubmissionCancelled) : Prop :=
  ∃ fs, j = .obj fs ∧ Has "id" (.num s.id) fs ∧ Optionally "prefix" .str fs s.pfx ∧
    Has "chunks_total" (.num s.chunksTotal) fs ∧ Has "chunks_done" (.num s.chunksDone) fs ∧
    Optionally "metadata" bytes fs s.metadata ∧ Strategic fs s.strategic ∧ HasTime "cancelled_at" s.cancelledAt fs

/-- A failed chunk. -/
def SaysChunkFailed (j : Json) (c : ChunkFailed) : Prop :=
  ∃ fs, j = .obj fs ∧ Has "submission_id" (.num c.submissionId) fs ∧ Has "chunk_index" (.num c.chunkIndex) fs ∧
    Optionally "input_content" bytes fs c.inputContent ∧ Has "failure" (.str c.failure) fs ∧
    HasTime "failed_at" c.failedAt fs

/-- What became of a submission. -/
def SaysStatus (j : Json) : SubmissionStatus → Prop
  | .inProgress s => ∃ v, j = .obj [("InProgress", v)] ∧ Messages.SaysSubmission v s
  | .completed s => ∃ v, j = .obj [("Completed", v)] ∧ SaysCompleted v s
  | .failed s c => ∃ v w, j = .obj [("Failed", .arr [v, w])] ∧ SaysFailed v s ∧ SaysChunkFailed w c
  | .cancelled s => ∃ v, j = .obj [("Cancelled", v)] ∧ SaysCancelled v s

/-- Not an error response (`error_for_status`). -/
def NoError (r : Response) : Prop := r.status < 400 ∨ 600 ≤ r.status

/-- The response tells the caller this result. -/
def Tells : Call → Response → Result → Prop
  | .count, r, .count n => NoError r ∧ r.body = .num n ∧ n < 2 ^ 32
  | .insert _, r, .inserted id => NoError r ∧ r.body = .num id
  | .cancel _, r, .cancelled => r.status = 200
  | .get _, r, .status none => NoError r ∧ r.body = .null
  | .get _, r, .status (some s) => NoError r ∧ SaysStatus r.body s
  | .lookupPrefix _, r, .found none => NoError r ∧ r.body = .null
  | .lookupPrefix _, r, .found (some id) => NoError r ∧ r.body = .num id
  | .lookup _, r, .ids ids => r.status = 200 ∧ r.body = .arr (ids.map fun n => .num (n : Nat))
  | .version, r, .version v => NoError r ∧ r.body = .str v
  | _, _, _ => False

/-- The response tells the caller that the call was in vain, and why. -/
def TellsError : Call → Response → ClientErr → Prop
  | .cancel _, r, .notFound e => r.status = 404 ∧ r.body = .num e.id
  | .cancel _, r, .notCancellable (.completed s) => r.status = 409 ∧ SaysStatus r.body (.completed s)
  | .cancel _, r, .notCancellable (.failed s c) => r.status = 409 ∧ SaysStatus r.body (.failed s c)
  | .cancel _, r, .notCancellable (.cancelled s) => r.status = 409 ∧ SaysStatus r.body (.cancelled s)
  | .lookup _, r, .tooMany e => r.status = 400 ∧ r.body = .num e.max
  | _, _, _ => False

/-- The errors that say why a call was in vain; the others say that there was no usable answer. -/
def Explained : ClientErr → Prop
  | .notFound _ | .notCancellable _ | .tooMany _ => True
  | _ => False

end Opsqueue.Http
