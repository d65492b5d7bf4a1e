import Verif.Model.Server

/-!
# Tasks that outlive their connection

A reserve request that finds no work spawns a task that waits for the next insert (conn.rs 242-255). The
task belongs to the runtime, not to the connection: nothing ends it when the connection ends. What it
then sends goes to a channel without receiver and is dropped (`let _ = tx2.send(…)`, conn.rs 248), so that
`Model/Server.lean` forgets such tasks. Here they are kept.
-/

namespace Opsqueue.Leftover
open Server (ConnId ConnState)
open Conn (Request)

/-- The server, and the tasks of conn.rs 242-255 whose connection has ended. `fresh`: spawned, but not yet
run; `parked`: waiting in `notified()`. -/
structure State where
  server : Server.State
  fresh : List Request := []
  parked : List Request := []
deriving DecidableEq, Repr

/-- The server just after its start. -/
def init (ttl maxRetries : Nat) : State := { server := Server.init ttl maxRetries }

/-- One step: of the server, or of a task whose connection has ended and that starts waiting
(conn.rs 247). -/
inductive Action where
  | server (a : Server.Action)
  | register (i : Nat)

/-- The connection that ends in a step (conn.rs 104-139: `run` returns and drops `self`, or it panics in
`join_chunk_with_submission_info`, dispatcher/mod.rs 306-324). -/
def ending (s : Server.State) : Server.Action → Option ConnState
  | .disconnect c => s.conn c
  | .join c => match (Server.step s (.join c)).conn c with
    | none => s.conn c
    | some _ => none
  | _ => none

/-- The process dies in a step: a crash in the middle of the database call of a producer's request
(producer/server.rs 120-139 and 184-215) or of a report (consumer/server/mod.rs 229-282). -/
def dies (s : Server.State) : Server.Action → Bool
  | .producer call => (Opsqueue.step s.db call.op).1.crashed
  | .handle true now1 now2 now3 o => match s.completing, s.queue with
    | none, (_, r) :: _ => (Opsqueue.step s.db (Server.reportOp s.maxRetries now1 now2 now3 o r)).1.crashed
    | _, _ => false
  | _ => false

/-- `notify_waiters` is called in a step (producer/server.rs 211). -/
def wakes (s : Server.State) : Server.Action → Bool
  | .notify => s.notifies != 0
  | _ => false

/-- One step. `notify_waiters` ends the tasks that wait; tasks of a connection that ends are left behind; nothing
survives the process. -/
def step (s : State) : Action → State
  | .server a =>
    if dies s.server a then { server := Server.step s.server a }
    else
      let left := (ending s.server a).getD {}
      { server := Server.step s.server a
        fresh := s.fresh ++ left.spawned
        parked := (if wakes s.server a then [] else s.parked) ++ left.waiting }
  | .register i => match s.fresh[i]? with
    | none => s
    | some r => { s with fresh := s.fresh.eraseIdx i, parked := s.parked ++ [r] }

/-- A history. -/
def exec (s : State) (h : List Action) : State := h.foldl step s

/-- A history from the start. -/
def run (ttl maxRetries : Nat) (h : List Action) : State := exec (init ttl maxRetries) h

end Opsqueue.Leftover
