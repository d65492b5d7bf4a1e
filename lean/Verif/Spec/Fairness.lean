import Verif.Spec.Server

/-!
# Vocabulary for waiting and overtaking

Which chunks are handed out and given back in the course of a history, and with which requests the queries start.
Used by `C75`.
-/

namespace Opsqueue.Server
open Conn (Request)

/-- The chunks in the backlog. -/
def backlog (s : State) : List ChunkId := s.db.chunks.map (·.key)

/-- The reserve request that an action starts to work on, and what its query will see. -/
def begins (s : State) : Action → Option (Request × View)
  | .request c r v => if Idle s c then some (r, v) else none
  | .retry c v => if Idle s c then ((s.conn c).bind (·.retry.head?)).map (·, v) else none
  | _ => none

/-- The chunks of the backlog that the action reserves for a consumer. -/
def handedOut (s : State) (a : Action) : List ChunkId :=
  (backlog s).filter fun id => !s.reserver.isReserved id && (step s a).reserver.isReserved id

/-- The chunks of the backlog whose reservation the action ends: they are free again. -/
def givenBack (s : State) (a : Action) : List ChunkId :=
  (backlog (step s a)).filter fun id => s.reserver.isReserved id && !(step s a).reserver.isReserved id

/-- The chunks handed out in the course of a history, one after the other. -/
def handedOutFrom (s : State) : List Action → List ChunkId
  | [] => []
  | a :: es => handedOut s a ++ handedOutFrom (step s a) es

/-- The chunks given back in the course of a history, one after the other. -/
def givenBackFrom (s : State) : List Action → List ChunkId
  | [] => []
  | a :: es => givenBack s a ++ givenBackFrom (step s a) es

/-- The other free chunks of the backlog whose submission is not newer than that of `x`. -/
def aheadOf (s : State) (x : ChunkId) : List ChunkId :=
  (backlog s).filter fun id => !s.reserver.isReserved id && decide (id ≠ x ∧ id.submissionId ≤ x.submissionId)

/-- The chunk is free all the time. -/
def WaitsFrom (s : State) (x : ChunkId) (es : List Action) : Prop :=
  ∀ pre post, es = pre ++ post → Free (exec s pre) x

/-- The requests of consumer `c` that are tried in the course of the history have the strategy `st`, and their
queries do not take `x` for reserved. -/
def AsksFrom (s : State) (c : ConnId) (st : Strategy) (x : ChunkId) (es : List Action) : Prop :=
  ∀ pre a post r v, es = pre ++ a :: post → a.actor = some c → begins (exec s pre) a = some (r, v) →
    r.strategy = st ∧ v.reserved x = false

/-- The first `n` actions of an unending sequence. -/
def firstActions (acts : Nat → Action) (n : Nat) : List Action := (List.range n).map acts

end Opsqueue.Server
