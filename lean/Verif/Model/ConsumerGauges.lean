import Verif.Model.Leftover

/-!
# The metrics about consumers and reservations

Models the gauges and counters of the consumer side: `CONSUMERS_CONNECTED_GAUGE` (consumer/server/mod.rs 121 and 140),
`RESERVER_RESERVATIONS_SUCCEEDED_COUNTER` and `RESERVER_RESERVATIONS_FAILED_COUNTER` (dispatcher/reserver.rs 75 and 81) and
`RESERVER_CHUNKS_RESERVED_GAUGE` (reserver.rs 142-143), next to the server of `Model/Server.lean`. They live in memory and begin
anew when the process does. (The other metrics are in `Model/Metrics.lean`.)
-/

namespace Opsqueue.ConsumerGauges
open Server (ConnId)

/-- The server and the metrics. Simplification: gauges are numbers (f64 in the code). `reserved` is `none` until it is set for
the first time. -/
structure State where
  server : Server.State
  consumers : Int := 0
  succeeded : Nat := 0
  failed : Nat := 0
  reserved : Option Nat := none
deriving DecidableEq, Repr

/-- The server just after its start. -/
def init (ttl maxRetries : Nat) : State := { server := Server.init ttl maxRetries }

/-- A step of the server; in it `disconnect` is the end of a connection whose task returns. Or the task of a connection panics
(for instance in `join_chunk_with_submission_info` on a database error, dispatcher/mod.rs 306-324). -/
inductive Action where
  | server (a : Server.Action)
  | panic (c : ConnId)

/-- What it is to the server. -/
def Action.base : Action → Server.Action
  | .server a => a
  | .panic c => .disconnect c

/-- What the metrics are after a step in which the process does not die.
* `connect`: the first line of the task of a connection (consumer/server/mod.rs 121).
* `disconnect`: the last line of the task (140), after `run` has returned. If the task panics (the same with `join`,
  dispatcher/mod.rs 313-322), this line is not reached.
* `row`: `try_reserve` (reserver.rs 67-84) for the next row.
* `tick`: `run_pending_tasks` sets the gauge (reserver.rs 135-144) to the number of entries of the cache. -/
def metrics (s : State) : Action → State
  | .server (.connect c) => match s.server.conns.get c with
    | none => { s with consumers := s.consumers + 1 }
    | some _ => s
  | .server (.disconnect c) => match s.server.conn c with
    | some _ => { s with consumers := s.consumers - 1 }
    | none => s
  | .server (.row c) => match (s.server.conn c).bind (·.fetching) with
    | some { rows := row :: _, joining := none, .. } =>
      match (s.server.reserver.tryReserve row.key row.key c).1 with
      | some _ => { s with succeeded := s.succeeded + 1 }
      | none => { s with failed := s.failed + 1 }
    | _ => s
  | .server (.tick .runPendingTasks) => { s with reserved := some s.server.reserver.runPendingTasks.cache.length }
  | _ => s

/-- One step. -/
def step (s : State) (a : Action) : State :=
  if Leftover.dies s.server a.base then { server := Server.step s.server a.base }
  else { metrics s a with server := Server.step s.server a.base }

/-- A history. -/
def exec (s : State) (h : List Action) : State := h.foldl step s

/-- A history from the start. -/
def run (ttl maxRetries : Nat) (h : List Action) : State := exec (init ttl maxRetries) h

end Opsqueue.ConsumerGauges
