import Verif.Model.Delivery
import Verif.Spec.Server

/-!
# Vocabulary for statements about what a consumer gets
-/

namespace Opsqueue.Delivery
open Server (ConnId)
open Conn (Request)

/-- The server is trying a request of a consumer. -/
def Trying (s : Server.State) (c : ConnId) (r : Request) : Prop := ∃ f, Server.fetchOf s c = some f ∧ f.req = r

/-- The answers with chunks that a consumer gets, with nothing but the nonces and the ids of the chunks. -/
def idsSent (s : State) (c : ConnId) : List (Nat × List ChunkId) :=
  (s.sent.filter (·.1 == c)).map fun x => (x.2.1, x.2.2.map (·.1.key))

/-- The answers with chunks among the answers to a consumer. -/
def answersWithChunks (s : Server.State) (c : ConnId) : List (Nat × List ChunkId) :=
  (Server.answersTo s c).filterMap fun x => match x.2 with
    | some (id :: ids) => some (x.1, id :: ids)
    | _ => none

end Opsqueue.Delivery
