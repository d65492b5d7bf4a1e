import Verif.Model.Client
import Verif.Spec.Conn

/-!
# Vocabulary for statements about the consumer client
-/

namespace Opsqueue.Client

open Conn (ClientMsg ServerMsg Response Request Fetch)

/-- The nonces of the reserve requests among some messages. -/
def requestNonces (l : List ClientMsg) : List Nat := l.filterMap fun
  | .wantToReserve r => some r.nonce
  | _ => none

/-- The fail reports among some messages. -/
def failReports (l : List ClientMsg) : List (ChunkId × String) := l.filterMap fun
  | .failChunk _ id failure => some (id, failure)
  | _ => none

/-- The reports among some messages, as the server sees them. -/
def reports (l : List ClientMsg) : List Conn.Report := l.filterMap fun
  | .completeChunk _ id output => some (.complete id output)
  | .failChunk _ id failure => some (.fail id failure)
  | .wantToReserve _ => none

/-- A call that still can get a response: nothing was delivered and the sender is still there. -/
def Outstanding (s : State) (i : Nat) : Prop := ∃ c, s.calls[i]? = some c ∧ c.slot = .empty

/-- The nonce, if the event is the arrival of a response. -/
def Event.responseNonce : Event → Option Nat
  | .sync nonce _ _ => some nonce
  | _ => none

/-- For heartbeats: `some true` is a tick, `some false` something received from the peer, `none`
anything else. -/
def Event.beat : Event → Option Bool
  | .tick => some true
  | .ping | .unreadable | .sync _ _ _ | .expired _ _ | .init | .closed | .readError _ => some false
  | _ => none

/-- The ticks and messages among the events, in order. -/
def beats (es : List Event) : List Bool := es.filterMap Event.beat

end Opsqueue.Client

/-!
### A client connected to a server

The client of `Model/Client.lean` and the connection of `Model/Conn.lean` joined by a socket that
delivers messages in order, possibly late, possibly never.
-/

namespace Opsqueue.Session

open Conn (ClientMsg ServerMsg Fetch)

/-- Both ends; how many of the messages sent by the client have reached the server, and the other
way round. -/
structure State where
  client : Client.State
  server : Conn.State
  up : Nat := 0
  down : Nat := 1
deriving DecidableEq, Repr

/-- What can happen: something that is local to one end, or a message arriving. -/
inductive Event where
  | client (e : Client.Event)
  | server (e : Conn.Event)
  | arrivesAtServer (fetch : Fetch) (sendOk : Bool)
  | arrivesAtClient (sendOk : ChunkId → Bool)

/-- Events that do not need a message from the other end. -/
def localClient : Client.Event → Bool
  | .sync _ _ _ | .expired _ _ | .init | .ping | .unreadable => false
  | _ => true

/-- Events that do not need a message from the other end. -/
def localServer : Conn.Event → Bool
  | .recv _ _ _ | .recvText | .recvUnreadable => false
  | _ => true

/-- What the client makes of a message. -/
def incoming (sendOk : ChunkId → Bool) : ServerMsg → Client.Event
  | .init _ => .init
  | .sync nonce contents => .sync nonce contents sendOk
  | .expired id => .expired id (sendOk id)
  | .ping => .ping

/-- One step of the pair. -/
def step (s : State) : Event → State
  | .client e => if localClient e then { s with client := Client.step s.client e } else s
  | .server e => if localServer e then { s with server := Conn.step s.server e } else s
  | .arrivesAtServer fetch sendOk => match s.client.wire[s.up]? with
    | none => s
    | some m => { s with server := Conn.step s.server (.recv m fetch sendOk), up := s.up + 1 }
  | .arrivesAtClient sendOk => match s.server.out[s.down]? with
    | none => s
    | some m => { s with client := Client.step s.client (incoming sendOk m), down := s.down + 1 }

/-- A session: the server has sent its first message and the client has read it (client.rs 275-283). -/
def run (m : Nat) (es : List Event) : State :=
  es.foldl step { client := Client.init m, server := Conn.init m }

end Opsqueue.Session
