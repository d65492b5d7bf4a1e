import Verif.Model.Messages

/-!
# What the message types can hold

The Rust types bound the numbers in a message (consumer/common.rs 15-81); the model's numbers are unbounded.
-/

namespace Opsqueue.Messages

open Conn

/-- How many `PreferDistinct` are inside each other. -/
def nesting : Strategy → Nat
  | .preferDistinct _ u => nesting u + 1
  | _ => 0

/-- Both numbers of a chunk's id have 63 bits. -/
def IdFits (id : ChunkId) : Prop := id.submissionId < 2 ^ 63 ∧ id.chunkIndex < 2 ^ 63

/-- A message that a client can have in memory. -/
def ClientCanSend : ClientMsg → Prop
  | .wantToReserve r => r.nonce < 2 ^ 64 ∧ r.max < 2 ^ 64
  | .completeChunk nonce id _ => nonce < 2 ^ 64 ∧ IdFits id
  | .failChunk nonce id _ => nonce < 2 ^ 64 ∧ IdFits id

/-- How deep the strategy in a message is nested. -/
def strategyDepth : ClientMsg → Nat
  | .wantToReserve r => nesting r.strategy
  | _ => 0

/-- A signed 64-bit number. -/
def IsI64 (n : Int) : Prop := -2 ^ 63 ≤ n ∧ n < 2 ^ 63

/-- A chunk with its submission, as the server can have them in memory. -/
def PairFits (p : ChunkRow × Submission) : Prop :=
  IdFits p.1.key ∧ p.1.retries < 2 ^ 63 ∧
  p.2.id < 2 ^ 63 ∧ p.2.chunksTotal < 2 ^ 63 ∧ p.2.chunksDone < 2 ^ 63 ∧ IsI64 p.2.chunkSize ∧
  ∀ kv ∈ p.2.strategic, IsI64 kv.2

/-- A message that a server can have in memory. -/
def ServerCanSend : ServerMessage → Prop
  | .sync nonce r => nonce < 2 ^ 64 ∧ ∀ chunks, r = some chunks → ∀ p ∈ chunks, PairFits p
  | .expired id => IdFits id
  | .init c => c.maxMissable < 2 ^ 64 ∧ c.secs < 2 ^ 64 ∧ c.nanos < 10 ^ 9

end Opsqueue.Messages
