import Verif.Model.ConsumerGauges
import Verif.Spec.Server
import Verif.Spec.Observe

/-!
# Vocabulary for statements about the metrics of the consumer side
-/

namespace Opsqueue.ConsumerGauges
open Server (ConnId)

/-- The connection is open. -/
def Open (s : State) (c : ConnId) : Prop := (s.server.conn c).isSome

/-- The chunk is reserved. -/
def Reserved (s : State) (id : ChunkId) : Prop := s.server.reserver.isReserved id = true

/-- The process dies in the step. -/
def Dies (s : State) (a : Action) : Prop := Leftover.dies s.server a.base = true

instance (s : State) (a : Action) : Decidable (Dies s a) := inferInstanceAs (Decidable (_ = _))

/-- The task of a connection that is open panics in the step. -/
def panics (s : State) : Action → Bool
  | .panic c => (s.server.conn c).isSome
  | .server (.join c) => (s.server.conn c).isSome && ((step s (.server (.join c))).server.conn c).isNone
  | _ => false

/-- The number of panics in a history since the process was started last. -/
def panicked (ttl m : Nat) (h : List Action) : Nat :=
  (h.foldl (fun (p : State × Nat) a =>
    (step p.1 a, if Dies p.1 a then 0 else if panics p.1 a then p.2 + 1 else p.2)) (init ttl m, 0)).2

/-- A pass of the maintenance of the reserver. -/
def pass : Action := .server (.tick .runPendingTasks)

end Opsqueue.ConsumerGauges
