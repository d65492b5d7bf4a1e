import Verif.Spec.Server
import Verif.Spec.Work

/-!
# Vocabulary for statements about tries of a chunk
-/

namespace Opsqueue.Server
open Conn (Request Response Report)

/-- How often the chunk is in the answers to the reserve requests of a consumer. -/
def timesHandedTo (s : State) (c : ConnId) (id : ChunkId) : Nat := ((answersTo s c).flatMap (·.2.getD [])).count id

/-- How often the chunk is in the answers to the reserve requests of all consumers. -/
def timesHandedOut (s : State) (id : ChunkId) : Nat :=
  ((s.conns.flatMap (·.2.answers)).flatMap (·.2.getD [])).count id

/-- The report says that the chunk failed. -/
def _root_.Opsqueue.Conn.Report.failsOn (id : ChunkId) : Report → Bool
  | .fail id' _ => id' == id
  | .complete _ _ => false

/-- How many failure reports on the chunk arrived from a consumer. -/
def failsBy (ttl m : Nat) (h : List Action) (c : ConnId) (id : ChunkId) : Nat :=
  ((acceptedFrom (init ttl m) h).filter fun x => x.1 == c && x.2.failsOn id).length

/-- How many failure reports on the chunk arrived. -/
def failsOn (ttl m : Nat) (h : List Action) (id : ChunkId) : Nat :=
  ((acceptedFrom (init ttl m) h).filter fun x => x.2.failsOn id).length

/-- The notices of expired reservations that are sent in a step. -/
def newNotices (s : State) (a : Action) : List (ConnId × ChunkId) :=
  (step s a).reserver.notices.drop s.reserver.notices.length

/-- The notices of expired reservations that are sent in a history. -/
def noticesFrom (s : State) : List Action → List (ConnId × ChunkId)
  | [] => []
  | a :: es => newNotices s a ++ noticesFrom (step s a) es

/-- How often a consumer is told that its reservation of the chunk has expired. -/
def noticesTo (ttl m : Nat) (h : List Action) (c : ConnId) (id : ChunkId) : Nat :=
  (noticesFrom (init ttl m) h).count (c, id)

/-- The consumers report the failure of the chunk at most once for each time they are handed it, and once for each time
they are told that their reservation of it has expired (which is what the client does by itself). -/
def ReportsAsTold (ttl m : Nat) (h : List Action) (id : ChunkId) : Prop :=
  ∀ c, failsBy ttl m h c id ≤ timesHandedTo (run ttl m h) c id + noticesTo ttl m h c id

/-- A reserve request that has reserved the chunk is ended by the action without an answer that contains it: by an error of
the database, the end of the connection, a panic or a crash. -/
def CutShort (s : State) (a : Action) (id : ChunkId) : Prop :=
  ∃ c f, fetchOf s c = some f ∧ (id ∈ f.got ∨ f.joining = some id) ∧ fetchOf (step s a) c = none ∧
    timesHandedTo (step s a) c id = timesHandedTo s c id

end Opsqueue.Server
