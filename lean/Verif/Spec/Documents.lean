import Verif.Spec.Messages
import Verif.Spec.Endpoints

/-!
# What a well-formed message between consumer and server looks like

Independent of the decoders: which trees mean which message. Other fields do not matter, nor does the order of fields.
-/

namespace Opsqueue.Messages
open Wire Conn
open Http (Has Optionally Absent bytes strategicMap)

/-- The id of a chunk; both numbers have 63 bits. -/
def SaysChunkId (j : Json) (id : ChunkId) : Prop :=
  ∃ fs, j = .obj fs ∧ Has "submission_id" (.num id.submissionId) fs ∧ Has "chunk_index" (.num id.chunkIndex) fs ∧
    IdFits id

/-- A strategy: a name, or `PreferDistinct` with its key and the strategy under it. -/
inductive SaysStrategy : Json → Strategy → Prop where
  | oldest : SaysStrategy (.str "Oldest") .oldest
  | newest : SaysStrategy (.str "Newest") .newest
  | random : SaysStrategy (.str "Random") .random
  | preferDistinct {fs : List (String × Json)} {key : String} {v : Json} {u : Strategy}
      (hk : Has "meta_key" (.str key) fs) (hv : Has "underlying" v fs) (hu : SaysStrategy v u) :
      SaysStrategy (.obj [("PreferDistinct", .obj fs)]) (.preferDistinct key u)

/-- An envelope with a 64-bit nonce. -/
def Envelope (j : Json) (nonce : Nat) (contents : Json) : Prop :=
  ∃ fs, j = .obj fs ∧ Has "nonce" (.num nonce) fs ∧ nonce < 2 ^ 64 ∧ Has "contents" contents fs

/-- What a consumer sends. -/
def SaysClient (j : Json) : ClientMsg → Prop
  | .wantToReserve r => ∃ fs s, Envelope j r.nonce (.obj [("WantToReserveChunks", .obj fs)]) ∧
      Has "max" (.num r.max) fs ∧ r.max < 2 ^ 64 ∧ Has "strategy" s fs ∧ SaysStrategy s r.strategy
  | .completeChunk nonce id output => ∃ fs v, Envelope j nonce (.obj [("CompleteChunk", .obj fs)]) ∧
      Has "id" v fs ∧ SaysChunkId v id ∧ Optionally "output_content" bytes fs output
  | .failChunk nonce id failure => ∃ fs v, Envelope j nonce (.obj [("FailChunk", .obj fs)]) ∧
      Has "id" v fs ∧ SaysChunkId v id ∧ Has "failure" (.str failure) fs

/-- A chunk. -/
def SaysChunk (j : Json) (c : ChunkRow) : Prop :=
  ∃ fs, j = .obj fs ∧ Has "submission_id" (.num c.submissionId) fs ∧ Has "chunk_index" (.num c.chunkIndex) fs ∧
    Optionally "input_content" bytes fs c.inputContent ∧ Has "retries" (.num c.retries) fs ∧
    IdFits c.key ∧ c.retries < 2 ^ 63

/-- A submission in progress. -/
def SaysSubmission (j : Json) (s : Submission) : Prop :=
  ∃ fs, j = .obj fs ∧ Has "id" (.num s.id) fs ∧ Optionally "prefix" .str fs s.pfx ∧
    Has "chunks_total" (.num s.chunksTotal) fs ∧ Has "chunks_done" (.num s.chunksDone) fs ∧
    Has "chunk_size" (.num s.chunkSize) fs ∧ Optionally "metadata" bytes fs s.metadata ∧
    (Absent "strategic_metadata" fs ∧ s.strategic = [] ∨ Has "strategic_metadata" (strategicMap s.strategic) fs) ∧
    Has "otel_trace_carrier" (.str s.otel) fs

/-- A chunk with its submission. -/
def SaysPair (j : Json) (p : ChunkRow × Submission) : Prop :=
  ∃ a b, j = .arr [a, b] ∧ SaysChunk a p.1 ∧ SaysSubmission b p.2

/-- An answer to a request: chunks, or that the limit was zero. -/
def SaysAnswer (j : Json) : Option (List (ChunkRow × Submission)) → Prop
  | some chunks => ∃ js, j = .obj [("ChunksReserved", .obj [("Ok", .arr js)])] ∧ js.length = chunks.length ∧
      ∀ x ∈ js.zip chunks, SaysPair x.1 x.2
  | none => j = .obj [("ChunksReserved", .obj [("Err", .arr [])])]

/-- The configuration for a new consumer. An interval may be written with more than a second of nanoseconds, as long as it
is less than 2^64 seconds altogether. -/
def SaysConfig (j : Json) (c : ConsumerConfig) : Prop :=
  ∃ fs ds secs nanos, j = .obj fs ∧ Has "max_missable_heartbeats" (.num c.maxMissable) fs ∧ c.maxMissable < 2 ^ 64 ∧
    Has "heartbeat_interval" (.obj ds) fs ∧ Has "secs" (.num (secs : Nat)) ds ∧ Has "nanos" (.num (nanos : Nat)) ds ∧
    nanos < 2 ^ 32 ∧ c.secs < 2 ^ 64 ∧ c.nanos < 10 ^ 9 ∧ c.secs * 10 ^ 9 + c.nanos = secs * 10 ^ 9 + nanos ∧
    Has "version_info" (.str c.version) fs ∧ Has "conn_id" (.str c.connId) fs

/-- What a server sends. -/
def SaysServer (j : Json) : ServerMessage → Prop
  | .sync nonce answer => ∃ e a, j = .obj [("Sync", e)] ∧ Envelope e nonce a ∧ SaysAnswer a answer
  | .expired id => ∃ v, j = .obj [("Async", .obj [("ChunkReservationExpired", v)])] ∧ SaysChunkId v id
  | .init c => ∃ v, j = .obj [("Init", v)] ∧ SaysConfig v c

end Opsqueue.Messages
