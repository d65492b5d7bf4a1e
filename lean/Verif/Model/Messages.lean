import Verif.Model.Cbor
import Verif.Model.Conn

/-!
# The messages between consumer and server

Models opsqueue/src/consumer/common.rs: the message types, their trees (the `serde` derives) and their bytes.
The messages of a client are the `ClientMsg` of `Model/Conn.lean`.
-/

namespace Opsqueue.Messages

open Wire Conn

/-- `ConsumerConfig`, consumer/common.rs 60-81; `heartbeat_interval: Duration` as seconds and nanoseconds. -/
structure ConsumerConfig where
  maxMissable : Nat
  secs : Nat
  nanos : Nat
  version : String
  connId : String
deriving DecidableEq, Repr

/-- `ServerToClientMessage`, consumer/common.rs 31-58. `sync`: the envelope's nonce, and `ChunksReserved(Ok(chunks))`
or, `none`, `ChunksReserved(Err(IncorrectUsage(LimitIsZero())))`. -/
inductive ServerMessage where
  | sync (nonce : Nat) (contents : Option (List (ChunkRow × Submission)))
  | expired (id : ChunkId)
  | init (config : ConsumerConfig)
deriving DecidableEq, Repr

/-! ## Numbers with their bounds -/

/-- `usize` (64 bits) and `u64`: consumer/common.rs 18, 56, 67. -/
def decU64 (j : Json) : Option Nat := (decNat j).filter (· < 2 ^ 64)

/-- `Deserialize for SubmissionId`, submission.rs 34-43, and for `ChunkIndex`, chunk.rs 33-42: 63 bits. -/
def decU63 (j : Json) : Option Nat := (decNat j).filter (· < 2 ^ 63)

/-! ## From the client -/

/-- `Strategy`, consumer/strategy.rs 10-33. -/
def encStrategy : Strategy → Json
  | .oldest => .str "Oldest"
  | .newest => .str "Newest"
  | .random => .str "Random"
  | .preferDistinct key u => .obj [("PreferDistinct", .obj [("meta_key", encStr key), ("underlying", encStrategy u)])]

/-- `Strategy`, consumer/strategy.rs 10-33. The first argument only makes the recursion well-founded: `read` has
already refused trees that are deeper than it. Simplification: `{"Oldest": null}`, which serde also reads, is refused. -/
def decStrategy : Nat → Json → Option Strategy
  | _, .str s =>
    if s = "Oldest" then some .oldest
    else if s = "Newest" then some .newest
    else if s = "Random" then some .random
    else none
  | d + 1, .obj [(tag, j)] =>
    if tag = "PreferDistinct" then do
      let key ← field "meta_key" j >>= decStr
      let u ← field "underlying" j >>= decStrategy d
      some (.preferDistinct key u)
    else none
  | _, _ => none

/-- `ChunkId`, chunk.rs 162-168. -/
def encChunkId (id : ChunkId) : Json :=
  .obj [("submission_id", encNat id.submissionId), ("chunk_index", encNat id.chunkIndex)]

/-- `ChunkId`, chunk.rs 162-168. -/
def decChunkId (j : Json) : Option ChunkId := do
  let submissionId ← field "submission_id" j >>= decU63
  let chunkIndex ← field "chunk_index" j >>= decU63
  some { submissionId, chunkIndex }

/-- `Envelope { nonce, contents }`, consumer/common.rs 54-58. -/
def envelope (nonce : Nat) (contents : Json) : Json := .obj [("nonce", encNat nonce), ("contents", contents)]

/-- `Envelope<ClientToServerMessage>`, consumer/common.rs 15-29 and 54-58. -/
def encClient : ClientMsg → Json
  | .wantToReserve r => envelope r.nonce (.obj [("WantToReserveChunks",
      .obj [("max", encNat r.max), ("strategy", encStrategy r.strategy)])])
  | .completeChunk nonce id output => envelope nonce (.obj [("CompleteChunk",
      .obj [("id", encChunkId id), ("output_content", encOpt encBytes output)])])
  | .failChunk nonce id failure => envelope nonce (.obj [("FailChunk",
      .obj [("id", encChunkId id), ("failure", encStr failure)])])

/-- ciborium's limit on nesting when reading (`ciborium::from_reader`, consumer/common.rs 87: 256 levels). -/
def maxDepth : Nat := 256

/-- `ClientToServerMessage`, consumer/common.rs 15-29, for the given nonce. -/
def decClientContents (nonce : Nat) : Json → Option ClientMsg
  | .obj [(tag, j)] =>
    if tag = "WantToReserveChunks" then do
      let max ← field "max" j >>= decU64
      let strategy ← field "strategy" j >>= decStrategy maxDepth
      some (.wantToReserve { nonce, max, strategy })
    else if tag = "CompleteChunk" then do
      let id ← field "id" j >>= decChunkId
      let output ← optField "output_content" j >>= decOpt decBytes
      some (.completeChunk nonce id output)
    else if tag = "FailChunk" then do
      let id ← field "id" j >>= decChunkId
      let failure ← field "failure" j >>= decStr
      some (.failChunk nonce id failure)
    else none
  | _ => none

/-- `Envelope<ClientToServerMessage>`, consumer/common.rs 15-29 and 54-58. -/
def decClient (j : Json) : Option ClientMsg := do
  let nonce ← field "nonce" j >>= decU64
  field "contents" j >>= decClientContents nonce

/-- `From<Envelope<ClientToServerMessage>> for Message`, consumer/common.rs 151-162: the bytes the client sends. -/
def writeClient (m : ClientMsg) : Bytes := Cbor.write (encClient m)

/-- `TryFrom<Message> for Envelope<ClientToServerMessage>`, consumer/common.rs 83-89: what the server makes of the bytes
of a binary message. `from_reader` does not look at what follows the first item. -/
def readClient (b : Bytes) : Option ClientMsg := (Cbor.read maxDepth b).bind fun r => decClient r.1

/-- The binary case of `handle_incoming_msg`, conn.rs 193-195: the event of `Model/Conn.lean` that the bytes cause. -/
def received (b : Bytes) (fetch : Fetch) (sendOk : Bool) : Event :=
  match readClient b with
  | none => .recvUnreadable
  | some m => .recv m fetch sendOk

/-! ## From the server -/

/-- `Chunk`, chunk.rs 197-204. -/
def encChunk (c : ChunkRow) : Json := .obj [
  ("submission_id", encNat c.submissionId), ("chunk_index", encNat c.chunkIndex),
  ("input_content", encOpt encBytes c.inputContent), ("retries", encNat c.retries)]

/-- `Chunk`, chunk.rs 197-204. Simplification: `retries` is not negative. -/
def decChunk (j : Json) : Option ChunkRow := do
  let submissionId ← field "submission_id" j >>= decU63
  let chunkIndex ← field "chunk_index" j >>= decU63
  let inputContent ← optField "input_content" j >>= decOpt decBytes
  let retries ← field "retries" j >>= decU63
  some { submissionId, chunkIndex, inputContent, retries }

/-- `(Chunk, Submission)`, consumer/common.rs 45. -/
def encPair (p : ChunkRow × Submission) : Json := .arr [encChunk p.1, encSubmission p.2]

/-- `(Chunk, Submission)`, consumer/common.rs 45. -/
def decPair : Json → Option (ChunkRow × Submission)
  | .arr [a, b] => do
    let c ← decChunk a
    let s ← decSubmission b
    some (c, s)
  | _ => none

/-- `SyncServerToClientResponse`, consumer/common.rs 41-46; `LimitIsZero()` is a sequence of nothing. -/
def encResponse (r : Option (List (ChunkRow × Submission))) : Json :=
  .obj [("ChunksReserved", .obj [match r with
    | some chunks => ("Ok", encList encPair chunks)
    | none => ("Err", .arr [])])]

/-- The `Result` in `ChunksReserved`, consumer/common.rs 45. -/
def decResult : Json → Option (Option (List (ChunkRow × Submission)))
  | .obj [(tag, j)] =>
    if tag = "Ok" then (decList decPair j).map some
    else if tag = "Err" then
      match j with
      | .arr [] => some none
      | _ => none
    else none
  | _ => none

/-- `SyncServerToClientResponse`, consumer/common.rs 41-46. -/
def decResponse : Json → Option (Option (List (ChunkRow × Submission)))
  | .obj [(tag, j)] => if tag = "ChunksReserved" then decResult j else none
  | _ => none

/-- `ConsumerConfig`, consumer/common.rs 60-81; serde's struct for `Duration`. -/
def encConfig (c : ConsumerConfig) : Json := .obj [
  ("max_missable_heartbeats", encNat c.maxMissable),
  ("heartbeat_interval", .obj [("secs", encNat c.secs), ("nanos", encNat c.nanos)]),
  ("version_info", encStr c.version), ("conn_id", encStr c.connId)]

/-- serde's `Deserialize for Duration` (consumer/common.rs 72): whole seconds in the nanoseconds are carried over, overflow
is an error. -/
def decDuration (j : Json) : Option (Nat × Nat) := do
  let secs ← field "secs" j >>= decU64
  let nanos ← field "nanos" j >>= decU32
  if secs + nanos / 10 ^ 9 < 2 ^ 64 then some (secs + nanos / 10 ^ 9, nanos % 10 ^ 9) else none

/-- `ConsumerConfig`, consumer/common.rs 60-81. -/
def decConfig (j : Json) : Option ConsumerConfig := do
  let maxMissable ← field "max_missable_heartbeats" j >>= decU64
  let (secs, nanos) ← field "heartbeat_interval" j >>= decDuration
  let version ← field "version_info" j >>= decStr
  let connId ← field "conn_id" j >>= decStr
  some { maxMissable, secs, nanos, version, connId }

/-- `ServerToClientMessage`, consumer/common.rs 31-39. -/
def encServer : ServerMessage → Json
  | .sync nonce r => .obj [("Sync", envelope nonce (encResponse r))]
  | .expired id => .obj [("Async", .obj [("ChunkReservationExpired", encChunkId id)])]
  | .init c => .obj [("Init", encConfig c)]

/-- `AsyncServerToClientMessage`, consumer/common.rs 48-52. -/
def decAsync : Json → Option ServerMessage
  | .obj [(tag, j)] => if tag = "ChunkReservationExpired" then (decChunkId j).map .expired else none
  | _ => none

/-- `ServerToClientMessage`, consumer/common.rs 31-39. -/
def decServer : Json → Option ServerMessage
  | .obj [(tag, j)] =>
    if tag = "Sync" then do
      let nonce ← field "nonce" j >>= decU64
      let r ← field "contents" j >>= decResponse
      some (.sync nonce r)
    else if tag = "Async" then decAsync j
    else if tag = "Init" then (decConfig j).map .init
    else none
  | _ => none

/-- `From<ServerToClientMessage> for Message`, consumer/common.rs 99-108: the bytes the server sends. -/
def writeServer (m : ServerMessage) : Bytes := Cbor.write (encServer m)

/-- `TryFrom<Message> for ServerToClientMessage`, consumer/common.rs 132-138: what the client makes of them. -/
def readServer (b : Bytes) : Option ServerMessage := (Cbor.read maxDepth b).bind fun r => decServer r.1

end Opsqueue.Messages
