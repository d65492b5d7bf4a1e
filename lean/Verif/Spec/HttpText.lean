import Verif.Model.HttpText
import Verif.Spec.JsonText
import Verif.Spec.Http
import Verif.Spec.Answers

/-!
# Vocabulary for texts on the producer's HTTP interface
-/

namespace Opsqueue.HttpText
open Wire Http SubmissionDb JsonText

/-- A signed 64-bit number. -/
def I64 (n : Int) : Prop := -2 ^ 63 ≤ n ∧ n < 2 ^ 63

/-- The numbers of strategic metadata have 64 bits. -/
def MapFits (m : StrategicMetadata) : Prop := ∀ kv ∈ m, I64 kv.2

/-- The numbers of an insert request have the bits of their types. -/
def InsertFits (r : InsertSubmission) : Prop :=
  (∀ p n, r.chunkContents = .seeObjectStorage p n → n < 2 ^ 63) ∧ MapFits r.strategic ∧
    ∀ n, r.chunkSize = some n → I64 n

/-- The numbers of a call have the bits of their types. -/
def CallFits : Call → Prop
  | .insert r => InsertFits r
  | .lookup m => MapFits m
  | _ => True

/-- The numbers of what became of a submission have the bits of their types. -/
def StatusFits : SubmissionStatus → Prop
  | .inProgress s => s.id < 2 ^ 63 ∧ s.chunksTotal < 2 ^ 63 ∧ s.chunksDone < 2 ^ 63 ∧ I64 s.chunkSize ∧ MapFits s.strategic
  | .completed s => s.id < 2 ^ 63 ∧ s.chunksTotal < 2 ^ 63 ∧ I64 s.chunkSize ∧ MapFits s.strategic
  | .failed s c => s.id < 2 ^ 63 ∧ s.chunksTotal < 2 ^ 63 ∧ (∀ n, s.chunksDone = some n → n < 2 ^ 63) ∧ I64 s.chunkSize ∧
      MapFits s.strategic ∧ s.failedChunkId < 2 ^ 63 ∧ c.submissionId < 2 ^ 63 ∧ c.chunkIndex < 2 ^ 63
  | .cancelled s => s.id < 2 ^ 63 ∧ s.chunksTotal < 2 ^ 63 ∧ s.chunksDone < 2 ^ 63 ∧ MapFits s.strategic

/-- The same surroundings, with the tree of an answer that somebody else gave. -/
def asTree (a : TextAttempt) : Attempt :=
  { before := a.before, server := a.server, lost := a.lost
    net := match a.net with
      | .ok => .ok
      | .noRequest e => .noRequest e
      | .noResponse e => .noResponse e
      | .answeredBy p r => .answeredBy p (received r) }

/-- The numbers of what is inserted have the bits of their types. -/
def OpFits : Op → Prop
  | .insert a _ _ => a.id < 2 ^ 63 ∧ a.contents.length < 2 ^ 63 ∧ I64 a.chunkSize ∧ MapFits a.strategic
  | _ => True

/-- What others do before and during a call: the numbers have the bits of their types and no id is given out twice. -/
structure OthersFit (env : Nat → TextAttempt) (hist : List Op) : Prop where
  before : ∀ op ∈ hist, OpFits op
  during : ∀ k, ∀ op ∈ (env k).before, OpFits op
  ids : ∀ k, (env k).server.id < 2 ^ 63
  fresh : ∀ k, FreshIds (hist ++ ((List.range k).map fun i => (env i).before).flatten)

/-- Nothing goes wrong on the way or at the server. -/
def Smooth (a : TextAttempt) : Prop := a.net = .ok ∧ a.server.connOk = true ∧ a.server.faults = []

end Opsqueue.HttpText
