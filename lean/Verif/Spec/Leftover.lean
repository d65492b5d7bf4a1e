import Verif.Model.Leftover

/-!
# Vocabulary for statements about what the server keeps for its consumers
-/

namespace Opsqueue.Leftover
open Server (ConnId ConnState)
open Conn (Request)

/-- How many tasks wait on behalf of open connections. -/
def tasksOfOpen (s : State) : Nat :=
  (s.server.conns.map fun p => if p.2.live then p.2.spawned.length + p.2.waiting.length else 0).sum

/-- How many tasks the server has for reserve requests. -/
def tasks (s : State) : Nat := tasksOfOpen s + s.fresh.length + s.parked.length

/-- How many reserve requests of open connections are unanswered: being tried, waiting, or to be tried again. -/
def openRequests (s : State) : Nat :=
  (s.server.conns.map fun p => if p.2.live then
      (if p.2.fetching.isSome then 1 else 0) + p.2.spawned.length + p.2.waiting.length + p.2.retry.length
    else 0).sum

/-- No connection is open. -/
def NobodyConnected (s : State) : Prop := ∀ c, s.server.conn c = none

/-- The step is the arrival of a reserve request. -/
def Action.asks : Action → Bool
  | .server (.request _ _ _) => true
  | _ => false

/-- The number of reserve requests that arrive in a history. -/
def asked (h : List Action) : Nat := (h.filter Action.asks).length

/-- The step is a call of a producer. -/
def Action.produces : Action → Bool
  | .server (.producer _) => true
  | _ => false

/-- The steps of the server itself in a history. -/
def serverPart (h : List Action) : List Server.Action :=
  h.filterMap fun | .server a => some a | .register _ => none

/-- A consumer connects to an empty queue, asks for a chunk and goes away. -/
def visit (c : Server.ConnId) : List Action :=
  [.server (.connect c), .server (.request c ⟨0, 1, .oldest⟩ ⟨0, fun _ => false, fun _ => []⟩), .server (.row c),
   .server (.register c 0), .server (.disconnect c)]

end Opsqueue.Leftover
