import Verif.Proofs.Delivery

/-!
# C95: what a consumer gets with a chunk

The server is in the state after an arbitrary history `h` of actions of any number of consumers and producers, the completer, the
clock and crashes. `sent` are the answers with chunks that were sent so far: connection, nonce, and the chunks with their
submissions.
-/

namespace Opsqueue
open Delivery
open Conn (Request)

/-- **C95**: the answers that are sent are those of `Model/Server.lean`, of which C23 to C37 speak. -/
theorem C95_answers (ttl m : Nat) (h : List Server.Action) (c : Server.ConnId) :
    (Delivery.run ttl m h).server = Server.run ttl m h ∧
    idsSent (Delivery.run ttl m h) c = answersWithChunks (Server.run ttl m h) c :=
  answers_run ttl m h c

/-- **C95**: each chunk is as it was in the backlog when the server began to try the request (after `h1`), and its submission is
in progress and as it was at some moment between then and the answer. -/
theorem C95_as_stored (ttl m : Nat) (h : List Server.Action) (hf : FreshIds (Server.run ttl m h).calls)
    (c : Server.ConnId) (n : Nat) (vals : List (ChunkRow × Submission))
    (hs : (c, n, vals) ∈ (Delivery.run ttl m h).sent) :
    ∃ h1 b h2 h3 r, h = h1 ++ b :: h2 ++ h3 ∧ r.nonce = n ∧
      (∀ q, q <+: h2 → Trying (Server.run ttl m (h1 ++ b :: q)) c r) ∧
      ∀ chunk sub, (chunk, sub) ∈ vals →
        chunkAt (Server.run ttl m h1).db chunk.key = .ok chunk ∧
        ∃ q, q <+: h2 ∧
          statusAt (Server.run ttl m (h1 ++ b :: q)).db chunk.submissionId = .ok (some (.inProgress sub)) :=
  as_stored ttl m h hf c n vals hs

/-- **C95**: what a consumer gets is what a producer gave: the content of the chunk at its index, and the prefix, the number of
chunks, the chunk size, the metadata, the strategic metadata and the trace carrier of the submission. -/
theorem C95_as_given (ttl m : Nat) (h : List Server.Action) (hf : FreshIds (Server.run ttl m h).calls)
    (c : Server.ConnId) (n : Nat) (vals : List (ChunkRow × Submission))
    (hs : (c, n, vals) ∈ (Delivery.run ttl m h).sent) (chunk : ChunkRow) (sub : Submission)
    (hv : (chunk, sub) ∈ vals) :
    ∃ a now o, Op.insert a now o ∈ (Server.run ttl m h).calls ∧
      chunk.submissionId = a.id ∧ a.contents[chunk.chunkIndex]? = some chunk.inputContent ∧
      sub.id = a.id ∧ sub.pfx = a.pfx ∧ sub.chunksTotal = a.contents.length ∧ sub.chunkSize = a.chunkSize ∧
      sub.metadata = a.metadata ∧ sub.strategic = a.strategic ∧ sub.otel = a.otel :=
  as_given ttl m h hf c n vals hs chunk sub hv

/-- **C95**: the number of retries that a consumer sees is at most the number of failures reported on the chunk, and leaves at
least one try. -/
theorem C95_retries (ttl m : Nat) (h : List Server.Action) (hf : FreshIds (Server.run ttl m h).calls)
    (c : Server.ConnId) (n : Nat) (vals : List (ChunkRow × Submission))
    (hs : (c, n, vals) ∈ (Delivery.run ttl m h).sent) (chunk : ChunkRow) (sub : Submission)
    (hv : (chunk, sub) ∈ vals) :
    chunk.retries ≤ ((Server.run ttl m h).calls.filter (Op.fails chunk.key)).length ∧
    chunk.retries < max 1 m :=
  retries_sent ttl m h hf c n vals hs chunk sub hv

/-- A chunk is tried, fails, is handed out again with one retry, next to another one; the submission has its metadata. -/
def exampleDelivery : List Server.Action :=
  let v : Server.View := ⟨0, fun _ => false, fun _ => []⟩
  let a : SubmissionDb.InsertArgs := {
    id := 5, pfx := some "p", contents := [some [1], none], metadata := some [7],
    strategic := [("company", 12)], chunkSize := 50, otel := "trace" }
  [.producer (.insert a 0 []), .notify,
   .connect 1, .request 1 ⟨0, 1, .oldest⟩ v, .row 1, .join 1, .report 1 (.fail ⟨5, 0⟩ "oops"), .handle true 1 1 1 [],
   .release true, .connect 2, .request 2 ⟨9, 2, .oldest⟩ v, .row 2, .join 2, .row 2, .join 2]

example :
    let sub : Submission := {
      id := 5, pfx := some "p", chunksTotal := 2, chunksDone := 0, chunkSize := 50,
      metadata := some [7], strategic := [("company", 12)], otel := "trace" }
    FreshIds (Server.run 1000 3 exampleDelivery).calls ∧
    (Delivery.run 1000 3 exampleDelivery).sent =
      [(1, 0, [(⟨5, 0, some [1], 0⟩, sub)]),
       (2, 9, [(⟨5, 0, some [1], 1⟩, sub), (⟨5, 1, none, 0⟩, sub)])] := by decide +kernel

end Opsqueue
