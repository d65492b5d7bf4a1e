import Verif.Model.Frames
import Verif.Spec.Messages
import Verif.Spec.HttpText

/-!
# Vocabulary for statements about the size of messages
-/

namespace Opsqueue.Frames
open HttpText (utf8Length requestText InsertFits)

/-- The number of bytes of a text. -/
def textBytes (s : String) : Nat := utf8Length s.toList

/-- The number of bytes of a content or of metadata, if there is any. -/
def contentBytes (c : Option Bytes) : Nat := (c.map List.length).getD 0

/-- A bound for what a chunk with its submission takes in a message. -/
def pairBytes (p : ChunkRow × Submission) : Nat :=
  400 + 2 * contentBytes p.1.inputContent + 2 * contentBytes p.2.metadata + (p.2.pfx.map textBytes).getD 0 +
    (p.2.strategic.map fun kv => textBytes kv.1 + 18).sum + textBytes p.2.otel

/-- A bound for what a strategy takes in a message. -/
def strategyBytes : Strategy → Nat
  | .preferDistinct key u => 50 + textBytes key + strategyBytes u
  | _ => 7

/-- A bound for what a request or report takes as a message. -/
def messageBytes : Conn.ClientMsg → Nat
  | .wantToReserve r => 100 + strategyBytes r.strategy
  | .completeChunk _ _ output => 150 + 2 * contentBytes output
  | .failChunk _ _ failure => 150 + textBytes failure

/-- All submissions were inserted by a producer client, with requests that the server takes (C83: of at most 2 MiB), and with trace
carriers of at most 64 KiB. -/
def FromRequests (calls : List Op) : Prop := ∀ a now o, Op.insert a now o ∈ calls →
  ∃ r e, a = Http.insertArgs r e ∧ InsertFits r ∧ utf8Length (requestText (.insert r)).body ≤ 2097152 ∧ textBytes e.otel ≤ 65536

/-- The connection of the server gets the message that a consumer sent. -/
def ServerGets (m : Conn.ClientMsg) : Prop := ∀ fetch sendOk,
  serverReceives (Messages.writeClient m) fetch sendOk = .recv m fetch sendOk

/-- The consumer gets the answer that the server sent. -/
def ConsumerGets (nonce : Nat) (vals : List (ChunkRow × Submission)) : Prop := ∀ sendOk sinkClosed,
  consumerReceives (Messages.writeServer (.sync nonce (some vals))) sendOk sinkClosed =
    .sync nonce (some (vals.map (·.1.key))) sendOk

end Opsqueue.Frames
