import Verif.Spec.Observe
import Verif.Spec.Reserver
import Verif.Model.Server

/-!
# Vocabulary for statements about the server
-/

namespace Opsqueue.Server
open Conn (Request Response Report)

/-- The reserve responses sent to a connection so far (nonce and contents). -/
def answersTo (s : State) (c : ConnId) : List (Nat × Response) :=
  ((s.conns.get c).map (·.answers)).getD []

/-- The fetch that is running on a connection. -/
def fetchOf (s : State) (c : ConnId) : Option Fetching := (s.conn c).bind (·.fetching)

/-- The connection is busy with a reserve request. -/
def Busy (s : State) (c : ConnId) : Prop := (fetchOf s c).isSome

instance (s : State) (c : ConnId) : Decidable (Busy s c) := inferInstanceAs (Decidable (_ = _))

/-- The connection is up and not busy. -/
def Idle (s : State) (c : ConnId) : Prop := (s.conn c).isSome ∧ fetchOf s c = none

instance (s : State) (c : ConnId) : Decidable (Idle s c) := inferInstanceAs (Decidable (_ ∧ _))

/-- For whom a chunk is reserved. -/
def holder (s : State) (id : ChunkId) : Option ConnId := (s.reserver.lookup id).map (·.sender)

/-- A chunk is in the backlog and not reserved. -/
def Free (s : State) (id : ChunkId) : Prop :=
  (∃ row, chunkAt s.db id = .ok row) ∧ s.reserver.isReserved id = false

/-- The work a connection does for a reserve request. -/
inductive Action.FetchStep (c : ConnId) : Action → Prop
  | row : FetchStep c (.row c)
  | join : FetchStep c (.join c)

/-- The connection on which an action takes place. -/
def Action.actor : Action → Option ConnId
  | .connect c | .request c _ _ | .retry c _ | .row c | .join c | .fetchFails c | .register c _
  | .report c _ | .disconnect c => some c
  | _ => none

/-- The process dies in the action: the database call that it makes ends in a crash. -/
def Dies (s : State) (a : Action) : Prop :=
  ∃ op, (step s a).calls = s.calls ++ [op] ∧ (Opsqueue.step s.db op).1.crashed = true

/-- The submission is in progress, as its status tells. -/
def InProgress (s : State) (id : SubmissionId) : Prop := ∃ sub, InProgressAt s.db id sub

/-- The action is a report on the chunk. -/
def Action.reportsOn (id : ChunkId) : Action → Bool
  | .report _ r => r.id == id
  | _ => false

/-- The action is a report on the chunk by the given consumer. -/
def Action.reportsOnBy (c : ConnId) (id : ChunkId) : Action → Bool
  | .report c' r => c' == c && r.id == id
  | _ => false

/-- The action inserts a submission. -/
def Action.inserts : Action → Bool
  | .producer (.insert _ _ _) => true
  | _ => false

/-- A report on the chunk by the consumer has arrived and is not dealt with. -/
def ReportPending (s : State) (c : ConnId) (id : ChunkId) : Prop :=
  (∃ r, (c, r) ∈ s.queue ∧ r.id = id) ∨ ∃ d, s.completing = some (c, id, d)

/-- The request found nothing when it was tried and has not been answered yet. -/
def Unanswered (s : State) (c : ConnId) (r : Conn.Request) : Prop :=
  ∃ k, s.conn c = some k ∧ (r ∈ k.spawned ∨ r ∈ k.waiting ∨ r ∈ k.retry)

/-- The action is a new reserve request of the consumer. -/
def Action.requestsBy (c : ConnId) : Action → Bool
  | .request c' _ _ => c' == c
  | _ => false

/-- The action is the wake-up call after an insert. -/
def Action.notifies : Action → Bool
  | .notify => true
  | _ => false

/-- Besides the reservation of the chunk for `c` there are remains of earlier reservations: another
consumer still believes to hold the chunk or is just being given it, a report on it is on its way, or
its delayed removal is scheduled. -/
inductive StaleClaim (s : State) (c : ConnId) (id : ChunkId) : Prop
  | held (c' : ConnId) (k : ConnState) :
      c' ≠ c → s.conns.get c' = some k → id ∈ k.held → StaleClaim s c id
  | taken (c' : ConnId) (k : ConnState) (f : Fetching) :
      c' ≠ c → s.conns.get c' = some k → k.fetching = some f → (id ∈ f.got ∨ f.joining = some id) →
      StaleClaim s c id
  | reported (c' : ConnId) : ReportPending s c' id → StaleClaim s c id
  | scheduled : id ∈ s.reserver.pending.map (·.1) → StaleClaim s c id

/-- The report `r` of consumer `c` is the next that the completer will deal with, and nobody else has
to do with the chunk: no other consumer holds it, no consumer is just being given it, no other report on
it is on its way and no delayed removal of it is scheduled. -/
structure NextReport (s : State) (c : ConnId) (r : Report) : Prop where
  idle : s.completing = none
  next : s.queue.head? = some (c, r)
  noOther : ∀ x ∈ s.queue.tail, x.2.id ≠ r.id
  held : ∀ c' k, c' ≠ c → s.conns.get c' = some k → r.id ∉ k.held
  taken : ∀ c' k f, s.conns.get c' = some k → k.fetching = some f → r.id ∉ f.got ∧ f.joining ≠ some r.id
  scheduled : r.id ∉ s.reserver.pending.map (·.1)

/-- The reports that arrived, in order: a report counts if its connection was up and ready for it. -/
def acceptedFrom (s : State) : List Action → List (ConnId × Report)
  | [] => []
  | .report c r :: es => (if Idle s c then [(c, r)] else []) ++ acceptedFrom (step s (.report c r)) es
  | a :: es => acceptedFrom (step s a) es

/-- The nonces of the reserve requests of a consumer that arrived, in order: a request counts if the connection was up and
ready for it. -/
def askedFrom (s : State) (c : ConnId) : List Action → List Nat
  | [] => []
  | .request c' r v :: es =>
    (if c' = c ∧ Idle s c then [r.nonce] else []) ++ askedFrom (step s (.request c' r v)) c es
  | a :: es => askedFrom (step s a) c es

/-- The nonces of the requests of a connection that have not been answered: the one being dealt with, and those that
found nothing. -/
def unanswered (k : ConnState) : List Nat :=
  (k.fetching.map (·.req.nonce)).toList ++ (k.spawned ++ k.waiting ++ k.retry).map (·.nonce)

/-- The report that a database call carries out. -/
def _root_.Opsqueue.Op.report? : Op → Option Report
  | .complete id output _ _ _ => some (.complete id output)
  | .fail id failure _ _ _ _ _ => some (.fail id failure)
  | _ => none

/-- None of the database calls, made one after the other from an empty database, ended in a crash. -/
def NeverCrashed (calls : List Op) : Prop :=
  ∀ pre op post, calls = pre ++ op :: post → (Opsqueue.step (Opsqueue.run pre) op).1.crashed = false

/-- The action is the completer failing to get a database connection for a report. -/
def Action.noWriter : Action → Bool
  | .handle writerOk _ _ _ _ => !writerOk
  | _ => false

/-- The in-flight count of a metadata value (absent: zero). -/
def inFlight (s : State) (key : String) (v : Int) : Nat := (s.counters.count key v).getD 0

/-- The submission of the chunk has the metadata value. -/
def HasValue (s : State) (key : String) (v : Int) (id : ChunkId) : Prop :=
  ∃ md, strategicAt s.db id.submissionId = .ok md ∧ (key, v) ∈ md

/-- The chunk is reserved and in the hands of a consumer: its reservation is neither just being made nor
about to be removed after a completion or a permanent failure. -/
def InHand (s : State) (id : ChunkId) : Prop :=
  s.reserver.isReserved id = true ∧ (∀ c f, fetchOf s c = some f → f.joining ≠ some id) ∧
    id ∉ s.reserver.pending.map (·.1)

/-- Whether an action follows the orderly course of events: a consumer disconnects only when it has no
chunks and is not being given any, no reserve request fails half-way, chunks are joined with submissions that are in progress, the
chunk released after a report was held by the reporter, and its metadata could be read, no reservation
expires, and no submission is cleaned up. The other actions are unrestricted. -/
def Orderly (s : State) : Action → Prop
  | .disconnect c => ∀ k, s.conn c = some k → k.held = [] ∧ k.fetching = none
  | .fetchFails c => ∀ f, fetchOf s c = some f → f.got = [] ∧ f.joining = none
  | .join c => ∀ f id, fetchOf s c = some f → f.joining = some id →
      ∃ sub, statusAt s.db id.submissionId = .ok (some (.inProgress sub))
  | .release metadataOk => ∀ c id d, s.completing = some (c, id, d) →
      metadataOk = true ∧ ∃ k, s.conn c = some k ∧ id ∈ k.held
  | .tick (.advance d) => ∀ id e, s.reserver.lookup id = some e →
      s.reserver.now + d < e.reservedAt + s.reserver.ttl
  | .producer (.cleanup _ _) => False
  | _ => True

/-- Every action of the history is orderly when it happens. -/
def OrderlyFrom (s : State) : List Action → Prop
  | [] => True
  | a :: es => Orderly s a ∧ OrderlyFrom (step s a) es

/-- Row by row, undisturbed, `n` times. -/
def undisturbed (c : ConnId) : Nat → List Action
  | 0 => []
  | n + 1 => .row c :: .join c :: undisturbed c n

/-- The completer deals with the message it has in hand and with `n` more, all at time `t`, undisturbed. -/
def catchUp (t : Time) (n : Nat) : List Action :=
  .release true :: (List.replicate n [.handle true t t t [], .release true]).flatten

/-- The consumer reports the chunks complete, one after the other, with the outputs `out`; the completer deals with
each report at once, at time `t`, undisturbed. -/
def finishing (c : ConnId) (out : ChunkId → Content) (t : Time) (ids : List ChunkId) : List Action :=
  ids.flatMap fun id => [.report c (.complete id (out id)), .handle true t t t [], .release true]

end Opsqueue.Server
