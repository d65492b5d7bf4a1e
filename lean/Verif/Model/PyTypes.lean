import Verif.Model.Types
import Verif.Model.Strategy

/-!
# The values the Python client shows

Models the conversions in `libs/opsqueue_python/src/common.rs`.
-/

namespace Opsqueue.Python

/-! ## Conversions (src/common.rs) -/

/-- `Strategy` of the extension, src/common.rs 106-119. -/
inductive PyStrategy where
  | oldest
  | newest
  | random
  | preferDistinct (metaKey : String) (underlying : PyStrategy)
deriving DecidableEq, Repr

/-- `From<strategy::Strategy> for Strategy`, src/common.rs 141-161. -/
def PyStrategy.ofRust : Strategy → PyStrategy
  | .oldest => .oldest
  | .newest => .newest
  | .random => .random
  | .preferDistinct k u => .preferDistinct k (ofRust u)

/-- `From<Strategy> for strategy::Strategy` and `From<&Strategy>`, src/common.rs 162-200. -/
def PyStrategy.toRust : PyStrategy → Strategy
  | .oldest => .oldest
  | .newest => .newest
  | .random => .random
  | .preferDistinct k u => .preferDistinct k (toRust u)

/-- `PartialEq for Strategy`, src/common.rs 202-206. -/
def PyStrategy.eq (a b : PyStrategy) : Bool := a.toRust = b.toRust

/-- `Submission` of the extension, src/common.rs 402-422. -/
structure PySubmission where
  id : SubmissionId
  chunksTotal : Nat
  chunksDone : Nat
  metadata : Option Metadata
  strategic : StrategicMetadata
deriving DecidableEq, Repr

/-- `SubmissionCompleted` of the extension, src/common.rs 482-490. -/
structure PyCompleted where
  id : SubmissionId
  chunksTotal : Nat
  metadata : Option Metadata
  strategic : StrategicMetadata
  completedAt : Time
deriving DecidableEq, Repr

/-- `SubmissionFailed` of the extension, src/common.rs 492-502. -/
structure PyFailed where
  id : SubmissionId
  chunksTotal : Nat
  chunksDone : Option Nat
  metadata : Option Metadata
  strategic : StrategicMetadata
  failedAt : Time
  failedChunkId : ChunkIndex
deriving DecidableEq, Repr

/-- `SubmissionCancelled` of the extension, src/common.rs 504-513. -/
structure PyCancelled where
  id : SubmissionId
  chunksTotal : Nat
  chunksDone : Nat
  metadata : Option Metadata
  strategic : StrategicMetadata
  cancelledAt : Time
deriving DecidableEq, Repr

/-- `ChunkFailed` of the extension, src/common.rs 279-286. -/
structure PyChunkFailed where
  submissionId : SubmissionId
  chunkIndex : ChunkIndex
  failure : String
  failedAt : Time
deriving DecidableEq, Repr

/-- `SubmissionStatus` of the extension, src/common.rs 353-369. -/
inductive PyStatus where
  | inProgress (s : PySubmission)
  | completed (s : PyCompleted)
  | failed (s : PyFailed) (c : PyChunkFailed)
  | cancelled (s : PyCancelled)
deriving DecidableEq, Repr

/-- `ChunkFailed::from_internal`, src/common.rs 288-298. -/
def PyChunkFailed.ofRust (c : ChunkFailed) : PyChunkFailed :=
  { submissionId := c.submissionId, chunkIndex := c.chunkIndex, failure := c.failure, failedAt := c.failedAt }

/-- `From<SubmissionFailed> for SubmissionFailed`, src/common.rs 326-338. -/
def PyFailed.ofRust (s : SubmissionFailed) : PyFailed :=
  { id := s.id, chunksTotal := s.chunksTotal, chunksDone := s.chunksDone, metadata := s.metadata
    strategic := s.strategic, failedAt := s.failedAt, failedChunkId := s.failedChunkId }

/-- `From<SubmissionCompleted> for SubmissionCompleted`, src/common.rs 314-324. -/
def PyCompleted.ofRust (s : SubmissionCompleted) : PyCompleted :=
  { id := s.id, chunksTotal := s.chunksTotal, metadata := s.metadata, strategic := s.strategic
    completedAt := s.completedAt }

/-- `From<SubmissionCancelled> for SubmissionCancelled`, src/common.rs 340-351. -/
def PyCancelled.ofRust (s : SubmissionCancelled) : PyCancelled :=
  { id := s.id, chunksTotal := s.chunksTotal, chunksDone := s.chunksDone, metadata := s.metadata
    strategic := s.strategic, cancelledAt := s.cancelledAt }

/-- `From<SubmissionStatus> for SubmissionStatus`, src/common.rs 371-393, with the conversions 314-351 and
412-422. Simplification: ids and counts are unbounded (`Model/Ids.lean`). -/
def PyStatus.ofRust : SubmissionStatus → PyStatus
  | .inProgress s => .inProgress
      { id := s.id, chunksTotal := s.chunksTotal, chunksDone := s.chunksDone, metadata := s.metadata
        strategic := s.strategic }
  | .completed s => .completed (PyCompleted.ofRust s)
  | .failed s c => .failed (PyFailed.ofRust s) (PyChunkFailed.ofRust c)
  | .cancelled s => .cancelled (PyCancelled.ofRust s)

/-- `SubmissionNotCancellable` of the extension, src/common.rs 515-531. -/
inductive PyNotCancellable where
  | completed (s : PyCompleted)
  | failed (s : PyFailed) (c : PyChunkFailed)
  | cancelled (s : PyCancelled)
deriving DecidableEq, Repr

/-- `From<SubmissionNotCancellable> for SubmissionNotCancellable`, src/common.rs 533-552. -/
def PyNotCancellable.ofRust : SubmissionNotCancellable → PyNotCancellable
  | .completed s => .completed (PyCompleted.ofRust s)
  | .failed s c => .failed (PyFailed.ofRust s) (PyChunkFailed.ofRust c)
  | .cancelled s => .cancelled (PyCancelled.ofRust s)

end Opsqueue.Python
