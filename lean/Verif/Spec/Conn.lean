import Verif.Model.Conn

/-!
# Vocabulary for statements about connections
-/

namespace Opsqueue.Conn

/-- For heartbeats: `some true` is a tick, `some false` something received from the peer, `none`
anything else. -/
def Event.beat : Event → Option Bool
  | .tick => some true
  | .recvPing | .recvPong | .recvText | .recvUnreadable | .recv _ _ _ => some false
  | _ => none

/-- The ticks and messages among the events, in order. -/
def beats (es : List Event) : List Bool := es.filterMap Event.beat

/-- The nonce, if the event is the arrival of a reserve request. -/
def Event.requestNonce : Event → Option Nat
  | .recv (.wantToReserve r) _ _ => some r.nonce
  | _ => none

/-- The report, if the event is the arrival of one. -/
def Event.report : Event → Option Report
  | .recv (.completeChunk _ id output) _ _ => some (.complete id output)
  | .recv (.failChunk _ id failure) _ _ => some (.fail id failure)
  | _ => none

/-- What an observer selects from the events that happen before the connection ends (including the
one at which it ends). -/
def whileOpen {α : Type} (f : Event → Option α) : State → List Event → List α
  | _, [] => []
  | s, e :: es => if s.ended.isSome then [] else (f e).toList ++ whileOpen f (step s e) es

/-- The nonces of the reserve requests received on the connection. -/
def received (m : Nat) (es : List Event) : List Nat := whileOpen Event.requestNonce (init m) es

/-- The nonces of the responses among some messages. -/
def responseNonces (l : List ServerMsg) : List Nat := l.filterMap fun
  | .sync nonce _ => some nonce
  | _ => none

/-- The nonces of the responses sent on the connection. -/
def answered (s : State) : List Nat := responseNonces s.out

/-- The nonces of the requests that still wait: for an insert, or for their retry. -/
def stillWaiting (s : State) : List Nat := (s.waiting ++ s.retry).map (·.nonce)

end Opsqueue.Conn
