import Verif.Model.Server

/-!
# Stopping and starting the server

Models the end of `async_main` (opsqueue/app/main.rs 88-120) and what the cancellation token does to the completer
(consumer/server/mod.rs 209-223) and to the connections (consumer/server/conn.rs 108-112, 142-149), around the server of
`Model/Server.lean`. Times are milliseconds.
-/

namespace Opsqueue.Shutdown
open Server (ConnId Action)

/-- Whether the process runs, has cancelled the token (main.rs 115) and when, or has ended. -/
inductive Phase where
  | running
  | stopping (since : Nat)
  | ended
deriving DecidableEq, Repr

/-- The server, how far it is with stopping, whether the loop of its completer runs, and the clock. -/
structure State where
  srv : Server.State
  phase : Phase := .running
  completer : Bool := true
  clock : Nat := 0

/-- What can happen. -/
inductive Event where
  /-- something the server does -/
  | act (a : Action)
  /-- Ctrl-C, or one of the five tasks of main.rs 88-110 ends -/
  | stop
  /-- the completer finds the token cancelled -/
  | completerStops
  /-- a connection finds the token cancelled -/
  | closes (c : ConnId)
  /-- time passes -/
  | pass (d : Nat)
  /-- `async_main` returns -/
  | exit
  /-- the process dies in some other way -/
  | killed
  /-- the process is started again -/
  | start

/-- The server after its first start (main.rs 33-81). -/
def init (ttl maxRetries : Nat) : State := { srv := Server.init ttl maxRetries }

/-- Whether the process dies in the middle of this action, which `Server.step` follows by a new start
(consumer/server/mod.rs 240-242, 276-282, producer/server.rs 120-139). -/
def crashes (s : Server.State) : Action → Bool
  | .handle writerOk now1 now2 now3 o =>
    match s.completing, s.queue with
    | none, (_, r) :: _ => writerOk && (Opsqueue.step s.db (Server.reportOp s.maxRetries now1 now2 now3 o r)).1.crashed
    | _, _ => false
  | .producer call => (Opsqueue.step s.db call.op).1.crashed
  | _ => false

/-- Whether the server can do this now: after its loop has ended the completer does nothing (mod.rs 213); sending a report to
it fails and the error is ignored (state.rs 116-127, 129-138); a stopping server accepts no connections
(`with_graceful_shutdown`, server.rs 72-74). -/
def possible (s : State) : Action → Bool
  | .handle .. | .release .. | .report .. => s.phase != .ended && s.completer
  | .connect _ => s.phase == .running
  | _ => s.phase != .ended

/-- A new process on the database the old one left behind. The ghost `calls` gets a call that has no effect because the process
dies before it: so that this is a step of `Model/Server`. -/
def reborn (s : Server.State) : Server.State :=
  { s.restart s.db with calls := s.calls ++ [.cleanup 0 [.crash]] }

/-- One step, where timers are late by at most `lag`; what is not possible does nothing.
* `completerStops`: only between two messages; the messages that wait are dropped with the mailbox (mod.rs 211-215);
* `closes`: only between two events of the connection (conn.rs 106-112); the consumer is told (142-149);
* `exit`: half a second after the token was cancelled (main.rs 118-119). -/
def step (lag : Nat) (s : State) : Event → State
  | .act a =>
    if possible s a then
      if crashes s.srv a then { s with srv := Server.step s.srv a, phase := .running, completer := true }
      else { s with srv := Server.step s.srv a }
    else s
  | .stop => if s.phase = .running then { s with phase := .stopping s.clock } else s
  | .completerStops =>
    match s.phase with
    | .stopping _ => if s.srv.completing = none then { s with completer := false } else s
    | _ => s
  | .closes c =>
    match s.phase with
    | .stopping _ =>
      if (s.srv.conn c).any (·.fetching.isNone) then { s with srv := Server.step s.srv (.disconnect c) } else s
    | _ => s
  | .pass d =>
    match s.phase with
    | .stopping since => if s.clock + d ≤ since + 500 + lag then { s with clock := s.clock + d } else s
    | _ => { s with clock := s.clock + d }
  | .exit =>
    match s.phase with
    | .stopping since => if since + 500 ≤ s.clock then { s with phase := .ended } else s
    | _ => s
  | .killed => { s with phase := .ended }
  | .start => if s.phase = .ended then { s with srv := reborn s.srv, phase := .running, completer := true } else s

/-- A history. -/
def run (lag ttl maxRetries : Nat) (h : List Event) : State := h.foldl (step lag) (init ttl maxRetries)

end Opsqueue.Shutdown
