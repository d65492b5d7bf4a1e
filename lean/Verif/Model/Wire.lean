import Verif.Model.Query
import Verif.Model.Rfc3339

/-!
# What travels over HTTP, as JSON trees

The `serde` derives of the types in the producer API, as functions to and from JSON trees. The text of a
tree (serde_json's printer and parser) is in `Model/JsonText.lean`. Simplifications: integers are
unbounded (`Model/Ids.lean` has the bounds); a struct written as an array of its fields, which serde_json also reads,
is refused in answers (not in requests); a strategic metadata map is an association list whose order is kept.
-/

namespace Opsqueue.Wire

/-- A JSON tree (serde_json::Value, as produced by `Json(..)` in producer/server.rs 133, 147). A number that is no
integer of 64 bits is kept as the text it was written as. `unreadable`: a string, or an object with a name, that is no
Unicode text (an escaped half of a surrogate pair), which is refused where it is asked for, and passed over where it is
not. -/
inductive Json where
  | null
  | num (n : Int)
  | str (s : String)
  | bool (b : Bool)
  | float (text : List Char)
  | unreadable
  | arr (xs : List Json)
  | obj (fields : List (String × Json))

/-! ## Leaves -/

/-- `Serialize for SubmissionId`, submission.rs 25-32, and for `ChunkIndex`, chunk.rs 24-31. -/
def encNat (n : Nat) : Json := .num n

/-- `Deserialize for SubmissionId`, submission.rs 34-43, and for `ChunkIndex`, chunk.rs 33-42. -/
def decNat : Json → Option Nat
  | .num n => if 0 ≤ n then some n.toNat else none
  | _ => none

/-- `u32` as decoded by `count_submissions`, producer/client.rs 76-86. -/
def decU32 (j : Json) : Option Nat := (decNat j).filter (· < 2 ^ 32)

/-- `ChunkSize(i64)`, chunk.rs 52-53; `MetaStateVal`, common/mod.rs 15. -/
def encInt (n : Int) : Json := .num n

/-- Inverse of `encInt` (derived, chunk.rs 52). -/
def decInt : Json → Option Int
  | .num n => some n
  | _ => none

/-- `String` fields (submission.rs 155-163). -/
def encStr (s : String) : Json := .str s

/-- `String` fields (submission.rs 155-163). -/
def decStr : Json → Option String
  | .str s => some s
  | _ => none

/-- `DateTime<Utc>` fields (submission.rs 181). -/
def encTime (t : Time) : Json := .str (String.ofList (Rfc3339.print t))

/-- `DateTime<Utc>` fields (submission.rs 181). -/
def decTime : Json → Option Time
  | .str s => Rfc3339.parse s.toList
  | _ => none

/-- One byte of a `Vec<u8>` (serde writes a sequence of numbers; `Metadata`, submission.rs 13; `Content`,
chunk.rs 195). -/
def encU8 (b : UInt8) : Json := .num b.toNat

/-- One byte of a `Vec<u8>`; out of range is an error. -/
def decU8 : Json → Option UInt8
  | .num n => if 0 ≤ n ∧ n < 256 then some (UInt8.ofNat n.toNat) else none
  | _ => none

/-- `Option<T>`: `None` is null. -/
def encOpt {α : Type} (f : α → Json) : Option α → Json
  | none => .null
  | some a => f a

/-- `Option<T>`: null is `None`. -/
def decOpt {α : Type} (f : Json → Option α) : Json → Option (Option α)
  | .null => some none
  | j => (f j).map some

/-- `Vec<T>`. -/
def encList {α : Type} (f : α → Json) (xs : List α) : Json := .arr (xs.map f)

/-- `Vec<T>`: every element has to be readable. -/
def decList {α : Type} (f : Json → Option α) : Json → Option (List α)
  | .arr xs => xs.mapM f
  | _ => none

/-- `Vec<u8>`. -/
def encBytes (b : Bytes) : Json := encList encU8 b

/-- `Vec<u8>`. -/
def decBytes (j : Json) : Option Bytes := decList decU8 j

/-- `StrategicMetadataMap`, common/mod.rs 16. -/
def encMap (m : StrategicMetadata) : Json := .obj (m.map fun kv => (kv.1, encInt kv.2))

/-- `StrategicMetadataMap`, common/mod.rs 16. Of a name given twice both values are kept here; the handlers in
`Model/Http.lean` keep the last one (`lastOfEach`). What is written from a map has every name once. -/
def decMap : Json → Option StrategicMetadata
  | .obj fs => fs.mapM fun kv => (decInt kv.2).map fun v => (kv.1, v)
  | _ => none

/-- A `HashMap` filled with these entries, one after the other: of a name given twice the last value is kept
(`StrategicMetadataMap`, common/mod.rs 16). -/
def lastOfEach : StrategicMetadata → StrategicMetadata
  | [] => []
  | kv :: m => if m.any (·.1 == kv.1) then lastOfEach m else kv :: lastOfEach m

/-! ## Structs and enums -/

/-- The field of a struct with the given name, if there is one; not an object, or the field given twice, is an error
(derived `Deserialize`, e.g. submission.rs 153). Fields nobody asks for are ignored. -/
def lookupField (name : String) : Json → Option (Option Json)
  | .obj fs =>
    match fs.filter (·.1 == name) with
    | [] => some none
    | [f] => some (some f.2)
    | _ => none
  | _ => none

/-- A required field of a struct (derived `Deserialize`, submission.rs 153). -/
def field (name : String) (j : Json) : Option Json := (lookupField name j).join

/-- A field of type `Option<T>`: a missing one is `None` (derived `Deserialize`, submission.rs 153). -/
def optField (name : String) (j : Json) : Option Json := (lookupField name j).map (·.getD .null)

/-- The field `#[serde(default)] strategic_metadata` (submission.rs 161-162): missing is the empty map. -/
def mapField (j : Json) : Option StrategicMetadata :=
  match lookupField "strategic_metadata" j with
  | none => none
  | some none => some []
  | some (some m) => decMap m

/-- `Submission`, submission.rs 153-164. -/
def encSubmission (s : Submission) : Json := .obj [
  ("id", encNat s.id), ("prefix", encOpt encStr s.pfx), ("chunks_total", encNat s.chunksTotal),
  ("chunks_done", encNat s.chunksDone), ("chunk_size", encInt s.chunkSize),
  ("metadata", encOpt encBytes s.metadata), ("strategic_metadata", encMap s.strategic),
  ("otel_trace_carrier", encStr s.otel)]

/-- `Submission`, submission.rs 153-164. -/
def decSubmission (j : Json) : Option Submission := do
  let id ← field "id" j >>= decNat
  let pfx ← optField "prefix" j >>= decOpt decStr
  let chunksTotal ← field "chunks_total" j >>= decNat
  let chunksDone ← field "chunks_done" j >>= decNat
  let chunkSize ← field "chunk_size" j >>= decInt
  let metadata ← optField "metadata" j >>= decOpt decBytes
  let strategic ← mapField j
  let otel ← field "otel_trace_carrier" j >>= decStr
  some { id, pfx, chunksTotal, chunksDone, chunkSize, metadata, strategic, otel }

/-- `SubmissionCompleted`, submission.rs 171-183. -/
def encCompleted (s : SubmissionCompleted) : Json := .obj [
  ("id", encNat s.id), ("prefix", encOpt encStr s.pfx), ("chunks_total", encNat s.chunksTotal),
  ("chunk_size", encInt s.chunkSize), ("metadata", encOpt encBytes s.metadata),
  ("strategic_metadata", encMap s.strategic), ("completed_at", encTime s.completedAt),
  ("otel_trace_carrier", encStr s.otel)]

/-- `SubmissionCompleted`, submission.rs 171-183. -/
def decCompleted (j : Json) : Option SubmissionCompleted := do
  let id ← field "id" j >>= decNat
  let pfx ← optField "prefix" j >>= decOpt decStr
  let chunksTotal ← field "chunks_total" j >>= decNat
  let chunkSize ← field "chunk_size" j >>= decInt
  let metadata ← optField "metadata" j >>= decOpt decBytes
  let strategic ← mapField j
  let completedAt ← field "completed_at" j >>= decTime
  let otel ← field "otel_trace_carrier" j >>= decStr
  some { id, pfx, chunksTotal, chunkSize, metadata, strategic, completedAt, otel }

/-- `SubmissionFailed`, submission.rs 185-198. -/
def encFailed (s : SubmissionFailed) : Json := .obj [
  ("id", encNat s.id), ("prefix", encOpt encStr s.pfx), ("chunks_total", encNat s.chunksTotal),
  ("chunks_done", encOpt encNat s.chunksDone), ("chunk_size", encInt s.chunkSize),
  ("metadata", encOpt encBytes s.metadata), ("strategic_metadata", encMap s.strategic),
  ("failed_at", encTime s.failedAt), ("failed_chunk_id", encNat s.failedChunkId),
  ("otel_trace_carrier", encStr s.otel)]

/-- `SubmissionFailed`, submission.rs 185-198. -/
def decFailed (j : Json) : Option SubmissionFailed := do
  let id ← field "id" j >>= decNat
  let pfx ← optField "prefix" j >>= decOpt decStr
  let chunksTotal ← field "chunks_total" j >>= decNat
  let chunksDone ← optField "chunks_done" j >>= decOpt decNat
  let chunkSize ← field "chunk_size" j >>= decInt
  let metadata ← optField "metadata" j >>= decOpt decBytes
  let strategic ← mapField j
  let failedAt ← field "failed_at" j >>= decTime
  let failedChunkId ← field "failed_chunk_id" j >>= decNat
  let otel ← field "otel_trace_carrier" j >>= decStr
  some { id, pfx, chunksTotal, chunksDone, chunkSize, metadata, strategic, failedAt, failedChunkId, otel }

/-- `SubmissionCancelled`, submission.rs 204-213. -/
def encCancelled (s : SubmissionCancelled) : Json := .obj [
  ("id", encNat s.id), ("prefix", encOpt encStr s.pfx), ("chunks_total", encNat s.chunksTotal),
  ("chunks_done", encNat s.chunksDone), ("metadata", encOpt encBytes s.metadata),
  ("strategic_metadata", encMap s.strategic), ("cancelled_at", encTime s.cancelledAt)]

/-- `SubmissionCancelled`, submission.rs 204-213. -/
def decCancelled (j : Json) : Option SubmissionCancelled := do
  let id ← field "id" j >>= decNat
  let pfx ← optField "prefix" j >>= decOpt decStr
  let chunksTotal ← field "chunks_total" j >>= decNat
  let chunksDone ← field "chunks_done" j >>= decNat
  let metadata ← optField "metadata" j >>= decOpt decBytes
  let strategic ← mapField j
  let cancelledAt ← field "cancelled_at" j >>= decTime
  some { id, pfx, chunksTotal, chunksDone, metadata, strategic, cancelledAt }

/-- `ChunkFailed`, chunk.rs 215-223. -/
def encChunkFailed (c : ChunkFailed) : Json := .obj [
  ("submission_id", encNat c.submissionId), ("chunk_index", encNat c.chunkIndex),
  ("input_content", encOpt encBytes c.inputContent), ("failure", encStr c.failure),
  ("failed_at", encTime c.failedAt)]

/-- `ChunkFailed`, chunk.rs 215-223. -/
def decChunkFailed (j : Json) : Option ChunkFailed := do
  let submissionId ← field "submission_id" j >>= decNat
  let chunkIndex ← field "chunk_index" j >>= decNat
  let inputContent ← optField "input_content" j >>= decOpt decBytes
  let failure ← field "failure" j >>= decStr
  let failedAt ← field "failed_at" j >>= decTime
  some { submissionId, chunkIndex, inputContent, failure, failedAt }

/-- The two fields of the `Failed` variants (submission.rs 219, errors.rs 45): a sequence of two. -/
def decFailedPair : Json → Option (SubmissionFailed × ChunkFailed)
  | .arr [a, b] => do
    let s ← decFailed a
    let c ← decChunkFailed b
    some (s, c)
  | _ => none

/-- `SubmissionStatus`, submission.rs 215-221 (externally tagged). -/
def encStatus : SubmissionStatus → Json
  | .inProgress s => .obj [("InProgress", encSubmission s)]
  | .completed s => .obj [("Completed", encCompleted s)]
  | .failed s c => .obj [("Failed", .arr [encFailed s, encChunkFailed c])]
  | .cancelled s => .obj [("Cancelled", encCancelled s)]

/-- `SubmissionStatus`, submission.rs 215-221. -/
def decStatus : Json → Option SubmissionStatus
  | .obj [(tag, j)] =>
    if tag = "InProgress" then (decSubmission j).map .inProgress
    else if tag = "Completed" then (decCompleted j).map .completed
    else if tag = "Failed" then (decFailedPair j).map fun p => .failed p.1 p.2
    else if tag = "Cancelled" then (decCancelled j).map .cancelled
    else none
  | _ => none

/-- `SubmissionNotFound(id)`, errors.rs 35-37 (newtype: the id itself). -/
def encNotFound (e : SubmissionNotFound) : Json := encNat e.id

/-- `SubmissionNotFound(id)`, errors.rs 35-37. -/
def decNotFound (j : Json) : Option SubmissionNotFound := (decNat j).map .mk

/-- `SubmissionNotCancellable`, errors.rs 41-47. -/
def encNotCancellable : SubmissionNotCancellable → Json
  | .completed s => .obj [("Completed", encCompleted s)]
  | .failed s c => .obj [("Failed", .arr [encFailed s, encChunkFailed c])]
  | .cancelled s => .obj [("Cancelled", encCancelled s)]

/-- `SubmissionNotCancellable`, errors.rs 41-47. -/
def decNotCancellable : Json → Option SubmissionNotCancellable
  | .obj [(tag, j)] =>
    if tag = "Completed" then (decCompleted j).map .completed
    else if tag = "Failed" then (decFailedPair j).map fun p => .failed p.1 p.2
    else if tag = "Cancelled" then (decCancelled j).map .cancelled
    else none
  | _ => none

/-- `TooManyMatchingSubmissions(u64)`, errors.rs 49-51. -/
def encTooMany (e : SubmissionDb.TooManyMatchingSubmissions) : Json := encNat e.max

/-- `TooManyMatchingSubmissions(u64)`, errors.rs 49-51. -/
def decTooMany (j : Json) : Option SubmissionDb.TooManyMatchingSubmissions := (decNat j).map .mk

/-! ## The insert request -/

/-- `ChunkContents`, producer/common.rs 17-31. -/
inductive ChunkContents where
  | seeObjectStorage (pfx : String) (count : Nat)
  | direct (contents : List Content)
deriving DecidableEq, Repr

/-- `InsertSubmission`, producer/common.rs 7-14. -/
structure InsertSubmission where
  chunkContents : ChunkContents
  metadata : Option Metadata := none
  strategic : StrategicMetadata := []
  chunkSize : Option Int := none
deriving DecidableEq, Repr

/-- `ChunkContents`, producer/common.rs 17-31. -/
def encContents : ChunkContents → Json
  | .seeObjectStorage p n => .obj [("SeeObjectStorage", .obj [("prefix", encStr p), ("count", encNat n)])]
  | .direct cs => .obj [("Direct", .obj [("contents", encList (encOpt encBytes) cs)])]

/-- A struct may also be written as an array of all its fields, in the order of their declaration (derived `Deserialize`
with serde_json's `deserialize_struct`, producer/common.rs 6-14, 17-31). -/
def asObject (names : List String) : Json → Json
  | .arr vs => if vs.length = names.length then .obj (names.zip vs) else .arr vs
  | j => j

/-- `ChunkContents`, producer/common.rs 17-31. -/
def decContents : Json → Option ChunkContents
  | .obj [(tag, j)] =>
    if tag = "SeeObjectStorage" then do
      let p ← field "prefix" (asObject ["prefix", "count"] j) >>= decStr
      let n ← field "count" (asObject ["prefix", "count"] j) >>= decNat
      some (.seeObjectStorage p n)
    else if tag = "Direct" then
      (field "contents" (asObject ["contents"] j) >>= decList (decOpt decBytes)).map .direct
    else none
  | _ => none

/-- `InsertSubmission`, producer/common.rs 7-14. -/
def encInsert (r : InsertSubmission) : Json := .obj [
  ("chunk_contents", encContents r.chunkContents), ("metadata", encOpt encBytes r.metadata),
  ("strategic_metadata", encMap r.strategic), ("chunk_size", encOpt encInt r.chunkSize)]

/-- `InsertSubmission`, producer/common.rs 7-14: from its fields. -/
def decInsertFields (j : Json) : Option InsertSubmission := do
  let chunkContents ← field "chunk_contents" j >>= decContents
  let metadata ← optField "metadata" j >>= decOpt decBytes
  let strategic ← mapField j
  let chunkSize ← optField "chunk_size" j >>= decOpt decInt
  some { chunkContents, metadata, strategic, chunkSize }

/-- `InsertSubmission`, producer/common.rs 7-14. -/
def decInsert (j : Json) : Option InsertSubmission :=
  decInsertFields (asObject ["chunk_contents", "metadata", "strategic_metadata", "chunk_size"] j)

end Opsqueue.Wire
