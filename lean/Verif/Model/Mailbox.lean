import Verif.Model.Leftover

/-!
# The completer's mailbox

Models the channel from the connections to the completer (`tokio::sync::mpsc::channel(1024)`, consumer/server/mod.rs 198) next to
the server of `Model/Server.lean`, in which the mailbox has no bound. `complete_chunk` and `fail_chunk` (consumer/server/state.rs
115-139) wait until there is room; as a connection does one thing at a time (conn.rs 104-139), it does nothing else meanwhile, and
does not end either. What is assumed about tokio: who waits for room gets it in turn, as soon as a message is taken out; but it is
the scheduler that decides in which order tasks that have got room put their message in.
-/

namespace Opsqueue.Mailbox
open Server (ConnId)
open Conn (Report)

/-- The capacity of the channel, consumer/server/mod.rs 198. -/
def capacity : Nat := 1024

/-- The server, whose `queue` is what is in the channel; the reports that have got room and are not put in yet; the reports that
wait for room. `seen` and `taken` are ghosts: the reports that connections of this process have read, and those that the
completer took out. -/
structure State where
  server : Server.State
  granted : List (ConnId × Report) := []
  waiting : List (ConnId × Report) := []
  seen : List (ConnId × Report) := []
  taken : List (ConnId × Report) := []
deriving DecidableEq, Repr

/-- The server just after its start. -/
def init (ttl maxRetries : Nat) : State := { server := Server.init ttl maxRetries }

/-- A step of the server, where `report` is a connection that reads a report; or a connection that has got room puts its report
into the channel (state.rs 117-126, 130-138). -/
inductive Action where
  | server (a : Server.Action)
  | enter (c : ConnId)

/-- The connection is in `send` (state.rs 117-126, 130-138). -/
def busy (s : State) (c : ConnId) : Bool := (s.granted ++ s.waiting).any fun p => p.1 == c

/-- The task of a connection that would have to make the step (conn.rs 104-139). A task that waits for an insert is another one
(conn.rs 246-253). -/
def doer : Server.Action → Option ConnId
  | .request c _ _ | .retry c _ | .row c | .join c | .fetchFails c | .report c _ | .disconnect c => some c
  | _ => none

/-- The message that the completer takes out in a step (consumer/server/mod.rs 216). -/
def takes (s : Server.State) : Server.Action → Option (ConnId × Report)
  | .handle _ _ _ _ _ => match s.completing, s.queue with
    | none, x :: _ => some x
    | _, _ => none
  | _ => none

/-- `send`, state.rs 117-126 and 130-138, up to the point where there is room or the wait for it begins. -/
def send (cap : Nat) (s : State) (x : ConnId × Report) : State :=
  if s.server.queue.length + s.granted.length < cap then { s with granted := s.granted ++ [x], seen := s.seen ++ [x] }
  else { s with waiting := s.waiting ++ [x], seen := s.seen ++ [x] }

/-- A message was taken out (consumer/server/mod.rs 216): who waits longest gets the room. -/
def grant (s : State) : State :=
  match s.waiting with
  | [] => s
  | w :: ws => { s with granted := s.granted ++ [w], waiting := ws }

/-- One step. A connection that is in `send` makes no other. Nothing survives the process. `cap` is the capacity of
the channel. -/
def step (cap : Nat) (s : State) : Action → State
  | .enter c => match s.granted.find? (fun p => p.1 == c) with
    | none => s
    | some x => { s with
        server := Server.step s.server (.report x.1 x.2)
        granted := s.granted.eraseP (fun p => p.1 == c) }
  | .server (.report c r) =>
    if busy s c then s
    else match s.server.conn c with
      | none => s
      | some k => if k.fetching.isSome then s else send cap s (c, r)
  | .server a =>
    if (doer a).any (busy s) then s
    else if Leftover.dies s.server a then { server := Server.step s.server a }
    else match takes s.server a with
      | none => { s with server := Server.step s.server a }
      | some x => grant { s with server := Server.step s.server a, taken := s.taken ++ [x] }

/-- A history; `cap` is the capacity of the channel. -/
def exec (cap : Nat) (s : State) (h : List Action) : State := h.foldl (step cap) s

/-- A history from the start. -/
def run (cap ttl maxRetries : Nat) (h : List Action) : State := exec cap (init ttl maxRetries) h

end Opsqueue.Mailbox
