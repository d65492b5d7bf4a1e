import Verif.Model.Conn
import Verif.Model.Client

/-!
# Heartbeats of a consumer connection in time

Both ends of a consumer connection run a loop around `select!` with an interval timer:
`ConsumerConn::run`, `opsqueue/src/consumer/server/conn.rs` 102-141, and `Client::background_task`,
`opsqueue/src/consumer/client.rs` 327-440. `Model/Conn.lean` and `Model/Client.lean` say what the events do;
here is added when the ticks of the timer are due, when the loop takes one of its branches and for how long
it is occupied by it. Times are in milliseconds of a monotonic clock.
-/

namespace Opsqueue.Heartbeat

/-- What an event is to the loop: a tick of the interval, the branch that begins with resetting the
interval because something was received, another branch, or something that happens in another task. -/
inductive Kind where
  | tick
  | recv
  | other
  | outside
deriving DecidableEq, Repr

/-- One end of the connection: its initial state, its events, whether its loop is still running. -/
structure Side (σ ε : Type) where
  init : σ
  step : σ → ε → σ
  running : σ → Bool
  kind : ε → Kind

/-- The branches of `ConsumerConn::run`, conn.rs 104-139. `handle_incoming_msg` is called for anything but
the end of the socket, and begins with `self.heartbeat_interval.reset()` (186). A task that waits for an
insert (246-253) is not part of the loop. Sending a message does not reset the interval (the comment in
config.rs 80-83 says that it does). -/
def serverKind : Conn.Event → Kind
  | .tick => .tick
  | .recvPing | .recvPong | .recvText | .recvUnreadable | .recv _ _ _ => .recv
  | .wake _ => .outside
  | _ => .other

/-- The branches of `background_task`, client.rs 340-434: `heartbeat_interval.reset()` (356) happens for
whatever the stream yields, even its end. The calls of `Client` happen in other tasks. -/
def clientKind : Client.Event → Kind
  | .tick => .tick
  | .closed | .readError _ | .ping | .unreadable | .sync _ _ _ | .expired _ _ | .init => .recv
  | .cancelled => .other
  | .call _ _ | .send _ _ | .abandon _ _ | .complete _ _ _ | .fail _ _ _ => .outside

/-- `ConsumerConn`, conn.rs 42-141. -/
def server (m : Nat) : Side Conn.State Conn.Event where
  init := Conn.init m
  step := Conn.step
  running s := s.ended.isNone
  kind := serverKind

/-- `Client`, client.rs 256-440. `m` is `max_missable_heartbeats` as received in the initialization message
(conn.rs 150-165), so the same as on the server. -/
def client (m : Nat) : Side Client.State Client.Event where
  init := Client.init m
  step := Client.step
  running s := s.background = .running
  kind := clientKind

/-- An event with the time at which it happens and, for a branch of the loop, for how long the handler of
the branch then runs (database, sending on the socket). -/
structure Entry (ε : Type) where
  time : Nat
  duration : Nat
  event : ε
deriving DecidableEq, Repr

/-- The state of one end, with its timer `heartbeat_interval` (conn.rs 49, client.rs 335): `deadline` is the
time the next tick is due, `free` the time from which the loop can take its next branch, `now` the time of
the last event. -/
structure State (σ : Type) where
  inner : σ
  deadline : Nat
  free : Nat
  now : Nat
deriving DecidableEq, Repr

/-- `ConsumerConn::new`, conn.rs 61-95, or the beginning of `background_task`, client.rs 335-336, at time `t0`:
`tokio::time::interval` makes an interval whose first tick is due immediately. (It panics if the period is
zero; in the theorems the period is positive.) -/
def start {σ ε : Type} (S : Side σ ε) (t0 : Nat) : State σ := { inner := S.init, deadline := t0, free := t0, now := t0 }

/-- One event, conn.rs 104-139 and client.rs 338-435. `Interval::tick` with the default
`MissedTickBehavior::Burst` moves the deadline on by one period, however late the tick is taken;
`Interval::reset` moves it to one period from now. -/
def step {σ ε : Type} (S : Side σ ε) (p : Nat) (s : State σ) (e : Entry ε) : State σ :=
  { inner := S.step s.inner e.event
    deadline := match S.kind e.event with
      | .tick => s.deadline + p
      | .recv => e.time + p
      | _ => s.deadline
    free := if S.kind e.event = .outside then s.free else e.time + e.duration
    now := e.time }

/-- One end of the connection from its start on. -/
def run {σ ε : Type} (S : Side σ ε) (p t0 : Nat) (es : List (Entry ε)) : State σ := es.foldl (step S p) (start S t0)

/-- Can this event happen next? Time does not go back; the loop takes a branch only if it is still running
and not occupied; a tick is not taken before it is due. -/
def possible {σ ε : Type} (S : Side σ ε) (s : State σ) (e : Entry ε) : Bool :=
  decide (s.now ≤ e.time) &&
  (decide (S.kind e.event = .outside) || (S.running s.inner && decide (s.free ≤ e.time))) &&
  (decide (S.kind e.event ≠ .tick) || decide (s.deadline ≤ e.time))

/-- The frames on the wire from the consumer to the server: messages, and the pongs with which tungstenite
answers pings (client.rs 370-371). -/
inductive ClientFrame where
  | msg (m : Conn.ClientMsg)
  | pong
deriving DecidableEq, Repr

/-- What the server puts on the wire in an event (conn.rs 137, 163, 178, 266), with the time: when the handler is
finished. -/
def serverSends (p : Nat) (S : Side Conn.State Conn.Event) (s : State Conn.State) (e : Entry Conn.Event) :
    List (Nat × Conn.ServerMsg) :=
  ((step S p s e).inner.out.drop s.inner.out.length).map fun f => (e.time + e.duration, f)

/-- What the client puts on the wire in an event (client.rs 450, 465), with the time; a pong for each ping. -/
def clientSends (p : Nat) (S : Side Client.State Client.Event) (s : State Client.State) (e : Entry Client.Event) :
    List (Nat × ClientFrame) :=
  (((step S p s e).inner.wire.drop s.inner.wire.length).map fun f => (e.time + e.duration, .msg f)) ++
  (match e.event with | .ping => [(e.time, .pong)] | _ => [])

/-- The frame that is taken from the socket in an event of the client, client.rs 355-434. -/
def clientReceives (e : Entry Client.Event) : Option (Nat × Conn.ServerMsg) :=
  match e.event with
  | .ping => some (e.time, .ping)
  | .sync nonce contents _ => some (e.time, .sync nonce contents)
  | .expired id _ => some (e.time, .expired id)
  | _ => none

/-- The frame that is taken from the socket in an event of the server, conn.rs 112-123. -/
def serverReceives (e : Entry Conn.Event) : Option (Nat × ClientFrame) :=
  match e.event with
  | .recvPong => some (e.time, .pong)
  | .recv m _ _ => some (e.time, .msg m)
  | _ => none

/-- Everything that is put on the wire, from a state on. -/
def allSends {σ ε φ : Type} (S : Side σ ε) (p : Nat) (f : State σ → Entry ε → List (Nat × φ)) :
    State σ → List (Entry ε) → List (Nat × φ)
  | _, [] => []
  | s, e :: es => f s e ++ allSends S p f (step S p s e) es

/-- The parts of `Config::default`, opsqueue/src/config.rs 109-137, and of the `default_value`s of the
command line, config.rs 86 and 93: `heartbeat_interval`, in milliseconds, and `max_missable_heartbeats`. -/
def defaultInterval : Nat := 10 * 1000
@[inherit_doc defaultInterval] def defaultMaxMissable : Nat := 3

end Opsqueue.Heartbeat
