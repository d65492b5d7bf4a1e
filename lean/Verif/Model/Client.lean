import Verif.Model.Conn
import Verif.Model.Map

/-!
# The consumer client

Models `Client` in `opsqueue/src/consumer/client.rs`: concurrent calls, the table of requests in flight
and the background task. Simplifications: the nonce counter (`AtomicUsize`) does not wrap around;
obtaining a nonce for a report and sending the report are one step (reports are not answered, so
their nonces do not matter); handling one incoming message is one step.
-/

namespace Opsqueue.Client

open Conn (ClientMsg Response Request)

/-- The oneshot channel of a call, client.rs 221: nothing sent yet and the sender still stored, a
response sent, or the sender dropped. -/
inductive Slot where
  | empty
  | value (r : Response)
  | dropped
deriving DecidableEq, Repr

/-- Where a call of `sync_request`, client.rs 441-453, is: before its message is sent (450), waiting for
the response (451), returned with the error of `send` (450), or its future was dropped by the
caller. In the last two cases the receiver is gone. -/
inductive Phase where
  | sending
  | awaiting
  | sendFailed
  | abandoned
deriving DecidableEq, Repr

/-- A call of `reserve_chunks`. -/
structure Call where
  request : Request
  phase : Phase := .sending
  slot : Slot := .empty
deriving DecidableEq, Repr

/-- Whether the receiving end is gone. -/
def Call.gone (c : Call) : Bool := c.phase = .sendFailed ∨ c.phase = .abandoned

/-- What a call returns. client.rs 450-452. -/
inductive Outcome where
  | response (r : Response)
  | error
deriving DecidableEq, Repr

/-- The result of `sync_request`, client.rs 450-452; `none` while it has to wait, or if it was
abandoned. -/
def Call.outcome (c : Call) : Option Outcome :=
  match c.phase, c.slot with
  | .sendFailed, _ => some .error
  | .awaiting, .value r => some (.response r)
  | .awaiting, .dropped => some .error
  | _, _ => none

/-- The background task: running, returned, or unwound by a panic (client.rs 236 and 383; then
`clear` at 438 is not reached). -/
inductive Background where
  | running
  | returned
  | panicked
deriving DecidableEq, Repr

/-- `Client`, client.rs 248-254, with the local variables of the background task. Calls are numbered in
the order in which they start; `inFlight` maps a nonce to the call holding the receiver. `wire`: the
messages sent so far. `sinkClosed`: the socket accepts no more messages. -/
structure State where
  maxMissable : Nat
  missed : Nat := 0
  nextNonce : Nat := 0
  inFlight : Map Nat Nat := []
  calls : List Call := []
  wire : List ClientMsg := []
  sinkClosed : Bool := false
  healthy : Bool := true
  background : Background := .running
deriving DecidableEq, Repr

/-- What can happen. The first four are steps of callers, the others iterations of the loop in
`background_task`. `sendOk`: whether a send succeeds, if the socket still accepts messages.
`cancelled` happens when the `Client` is dropped, so that no call uses it afterwards; this is modelled by
closing the socket. `closed`: the end of the stream, or a close frame; tungstenite then refuses to send
anything (`AlreadyClosed`, `SendAfterClosing`). `readError`: an error from the stream, after which the socket
may or may not accept messages (it does after, for instance, a message over the size limit). -/
inductive Event where
  | call (max : Nat) (strategy : Strategy)
  | send (i : Nat) (sendOk : Bool)
  | abandon (i : Nat) (sent : Bool)
  | complete (id : ChunkId) (output : Content) (sendOk : Bool)
  | fail (id : ChunkId) (failure : String) (sendOk : Bool)
  | cancelled
  | tick
  | closed
  | readError (sinkClosed : Bool)
  | ping
  | unreadable
  | sync (nonce : Nat) (contents : Response) (sendOk : ChunkId → Bool)
  | expired (id : ChunkId) (sendOk : Bool)
  | init

/-- `Client::new`, client.rs 264-320. -/
def init (maxMissable : Nat) : State := { maxMissable }

/-- `async_request` with a fail message, client.rs 455-467. -/
def asyncFail (s : State) (id : ChunkId) (failure : String) (sendOk : Bool) : State :=
  { s with
    nextNonce := s.nextNonce + 1
    wire := if sendOk then s.wire ++ [.failChunk s.nextNonce id failure] else s.wire }

/-- `async_request` with a complete message, client.rs 455-467. -/
def asyncComplete (s : State) (id : ChunkId) (output : Content) (sendOk : Bool) : State :=
  { s with
    nextNonce := s.nextNonce + 1
    wire := if sendOk then s.wire ++ [.completeChunk s.nextNonce id output] else s.wire }

/-- `next_nonce_with_oneshot`, client.rs 218-227. -/
def begin (s : State) (max : Nat) (strategy : Strategy) : State :=
  { s with
    nextNonce := s.nextNonce + 1
    inFlight := s.inFlight.set s.nextNonce s.calls.length
    calls := s.calls ++ [{ request := ⟨s.nextNonce, max, strategy⟩ }] }

/-- Apply `f` to call `i`. -/
def update (s : State) (i : Nat) (f : Call → Call) : State := { s with calls := s.calls.modify i f }

/-- Message sent or failed to send, client.rs 450; or the future dropped, possibly before the message is
on its way. -/
def put (s : State) (i : Nat) (sent : Bool) : State :=
  match s.calls[i]? with
  | some c => if sent ∧ c.phase = .sending then { s with wire := s.wire ++ [.wantToReserve c.request] } else s
  | none => s

/-- Drop the sender: the receiver, if it did not get a value, sees an error. -/
def Call.dropSender (c : Call) : Call :=
  match c.slot with
  | .empty => { c with slot := .dropped }
  | _ => c

/-- `clear`, client.rs 240-245: the senders in the table are dropped. -/
def clear (s : State) : State :=
  { s with
    nextNonce := 0
    inFlight := []
    calls := s.calls.mapIdx fun i c => if s.inFlight.any (fun e => e.2 = i) then c.dropSender else c }

/-- Leaving the loop of the background task, client.rs 436-439. -/
def exit (s : State) : State := { clear s with background := .returned }

/-- Giving back the chunks of an undeliverable response, client.rs 382-402. -/
def giveBack (s : State) (ids : List ChunkId) (sendOk : ChunkId → Bool) : State :=
  ids.foldl (fun s id => asyncFail s id "Requester disappeared" (sendOk id)) s

/-- `InFlightRequests::send` and what follows, client.rs 229-238 and 377-404. -/
def deliver (s : State) (nonce : Nat) (contents : Response) (sendOk : ChunkId → Bool) : State :=
  match s.inFlight.get nonce with
  | none => { s with background := .panicked }
  | some i =>
    let s := { s with inFlight := s.inFlight.erase nonce }
    if (s.calls[i]?.map Call.gone).getD true then
      giveBack (update s i Call.dropSender) (contents.getD []) sendOk
    else update s i fun c => { c with slot := .value contents }

/-- One event. The background task handles nothing after it has ended. -/
def step (s : State) : Event → State
  | .call max strategy => begin s max strategy
  | .send i sendOk =>
    update (put s i (sendOk && !s.sinkClosed)) i fun c =>
      if c.phase = .sending then
        { c with phase := if sendOk && !s.sinkClosed then .awaiting else .sendFailed }
      else c
  | .abandon i sent =>
    update (put s i (sent && !s.sinkClosed)) i fun c =>
      if c.phase = .sending ∨ c.phase = .awaiting then { c with phase := .abandoned } else c
  | .complete id output sendOk => asyncComplete s id output (sendOk && !s.sinkClosed)
  | .fail id failure sendOk => asyncFail s id failure (sendOk && !s.sinkClosed)
  | e =>
    if s.background ≠ .running then s else
    match e with
    | .cancelled => exit { s with sinkClosed := true }
    | .tick =>
      if s.missed > s.maxMissable then exit { s with healthy := false, sinkClosed := true }
      else { s with missed := s.missed + 1 }
    | .closed => exit { s with missed := 0, sinkClosed := true }
    | .readError sinkClosed => exit { s with missed := 0, sinkClosed }
    | .ping => { s with missed := 0 }
    | .unreadable => { s with missed := 0, background := .panicked }
    | .sync nonce contents sendOk => deliver { s with missed := 0 } nonce contents sendOk
    | .expired id sendOk => asyncFail { s with missed := 0 } id "Reservation expired" sendOk
    | .init => { s with missed := 0 }
    | _ => s

/-- A run of the client. -/
def run (maxMissable : Nat) (es : List Event) : State := es.foldl step (init maxMissable)

end Opsqueue.Client
