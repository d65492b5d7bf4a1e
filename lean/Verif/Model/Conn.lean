import Verif.Model.Strategy

/-!
# A consumer connection on the server

Models `opsqueue/src/consumer/server/conn.rs`. The reservation itself (`fetch_and_reserve_chunks`) is
in `Model/Server.lean` and `Model/Server.lean`; here its outcome is a parameter of the event.
-/

namespace Opsqueue.Conn

/-- `WantToReserveChunks` with its nonce, consumer/common.rs `ClientToServerMessage`, and
`RetryReservation`, conn.rs 35-40. -/
structure Request where
  nonce : Nat
  max : Nat
  strategy : Strategy
deriving DecidableEq, Repr

/-- `ClientToServerMessage`, opsqueue/src/consumer/common.rs 15-30. -/
inductive ClientMsg where
  | wantToReserve (r : Request)
  | completeChunk (nonce : Nat) (id : ChunkId) (output : Content)
  | failChunk (nonce : Nat) (id : ChunkId) (failure : String)
deriving DecidableEq, Repr

/-- `SyncServerToClientResponse::ChunksReserved`, consumer/common.rs 40-46: the chunks, or `none` for
`Err(IncorrectUsage(LimitIsZero))`. Simplification: of the chunks only the ids. -/
abbrev Response := Option (List ChunkId)

/-- `ServerToClientMessage`, consumer/common.rs, and the ping frames of `beat_heart`. -/
inductive ServerMsg where
  | init (maxMissable : Nat)
  | sync (nonce : Nat) (contents : Response)
  | expired (id : ChunkId)
  | ping
deriving DecidableEq, Repr

/-- Reports handed to the completer, consumer/server/mod.rs 151-161. -/
inductive Report where
  | complete (id : ChunkId) (output : Content)
  | fail (id : ChunkId) (failure : String)
deriving DecidableEq, Repr

/-- Why `run` returned: `Ok(())` or a `ConsumerConnError`, conn.rs 274-286. -/
inductive End where
  | ok
  | heartbeatFailure
  | unreadable
  | unexpectedType
  | websocket
deriving DecidableEq, Repr

/-- `ConsumerConn`, conn.rs 42-58. `waiting`: requests whose spawned task waits for
`notify_on_insert`. `retry`: the channel `rx2`. `out`: messages put on the socket so far.
`reports`: what was sent to the completer so far. -/
structure State where
  maxMissable : Nat
  missed : Nat := 0
  ended : Option End := none
  waiting : List Request := []
  retry : List Request := []
  out : List ServerMsg := []
  reports : List Report := []
deriving DecidableEq, Repr

/-- The result of `fetch_and_reserve_chunks` on the connection: a database error, or chunks.
(`limit == 0` is checked first, consumer/server/state.rs 66-68.) -/
inductive Fetch where
  | dbError
  | chunks (ids : List ChunkId)
deriving DecidableEq, Repr

/-- What can happen in one iteration of the loop in `run`, conn.rs 104-139, and, `wake`, in the tasks
spawned at 246-253. `sendOk = false`: sending on the socket fails. `fetch`: outcome of the attempt to
reserve. -/
inductive Event where
  | cancelled
  | tick
  | recvNone
  | recvClose
  | recvError
  | recvPing
  | recvPong
  | recvText
  | recvUnreadable
  | recv (m : ClientMsg) (fetch : Fetch) (sendOk : Bool)
  | wake (i : Nat)
  | retry (fetch : Fetch) (sendOk : Bool)
  | expired (id : ChunkId) (sendOk : Bool)
deriving DecidableEq, Repr

/-- `ConsumerConn::new` and `initialize`, conn.rs 61-95 and 150-165 (the case that the
initialization message can be sent). -/
def init (maxMissable : Nat) : State := { maxMissable, out := [.init maxMissable] }

/-- Sending a message; failure ends `run` (the `?` in conn.rs 137, 266). -/
def send (s : State) (m : ServerMsg) (sendOk : Bool) : State :=
  if sendOk then { s with out := s.out ++ [m] } else { s with ended := some .websocket }

/-- `beat_heart`, conn.rs 170-181 (the result of sending the ping is ignored). -/
def beatHeart (s : State) : State :=
  if s.missed > s.maxMissable then { s with ended := some .heartbeatFailure }
  else { s with out := s.out ++ [.ping], missed := s.missed + 1 }

/-- The case `WantToReserveChunks` of `handle_incoming_client_message`, conn.rs 213-256 and 260-267. -/
def reserve (s : State) (r : Request) (fetch : Fetch) (sendOk : Bool) : State :=
  if r.max = 0 then send s (.sync r.nonce none) sendOk
  else match fetch with
    | .dbError => send s (.sync r.nonce (some [])) sendOk
    | .chunks [] => { s with waiting := s.waiting ++ [r] }
    | .chunks (id :: ids) => send s (.sync r.nonce (some (id :: ids))) sendOk

/-- `handle_incoming_client_message`, conn.rs 206-271. -/
def handleClientMessage (s : State) (m : ClientMsg) (fetch : Fetch) (sendOk : Bool) : State :=
  match m with
  | .wantToReserve r => reserve s r fetch sendOk
  | .completeChunk _ id output => { s with reports := s.reports ++ [.complete id output] }
  | .failChunk _ id failure => { s with reports := s.reports ++ [.fail id failure] }

/-- First lines of `handle_incoming_msg`, conn.rs 186-187. -/
def alive (s : State) : State := { s with missed := 0 }

/-- One event. After `run` has returned nothing happens any more. -/
def step (s : State) (e : Event) : State :=
  if s.ended.isSome then s else
  match e with
  | .cancelled => { s with ended := some .ok }
  | .tick => beatHeart s
  | .recvNone | .recvClose => { s with ended := some .ok }
  | .recvError => { s with ended := some .websocket }
  | .recvPing | .recvPong => alive s
  | .recvText => { alive s with ended := some .unexpectedType }
  | .recvUnreadable => { alive s with ended := some .unreadable }
  | .recv m fetch sendOk => handleClientMessage (alive s) m fetch sendOk
  | .wake i => match s.waiting[i]? with
    | none => s
    | some r => { s with waiting := s.waiting.eraseIdx i, retry := s.retry ++ [r] }
  | .retry fetch sendOk => match s.retry with
    | [] => s
    | r :: rest => reserve { s with retry := rest } r fetch sendOk
  | .expired id sendOk => send s (.expired id) sendOk

/-- A run of the connection. -/
def run (maxMissable : Nat) (es : List Event) : State := es.foldl step (init maxMissable)

end Opsqueue.Conn
