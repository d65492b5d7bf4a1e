import Verif.Model.Metrics

/-!
# The backlog gauges, in time

Models `periodically_calculate_scaling_metrics` and `calculate_scaling_metrics` (opsqueue/src/prometheus.rs 211-242), which run
next to everything that is called (app/main.rs 71-74). Unlike in `Model/Metrics.lean`, where a calculation is one event, its steps
are apart here: others go on between its two queries, and between a query and the gauge. Times are milliseconds.
-/

namespace Opsqueue.Scaling

/-- How far a calculation is, prometheus.rs 213-220: waiting for a connection (213), for the number of chunks (214-216), with it
before the gauge is set (217), waiting for the number of operations (218-219), with it before the gauge is set (220). -/
inductive Stage where
  | connecting
  | counting
  | counted (n : Nat)
  | adding
  | added (k : Int)
deriving DecidableEq, Repr

/-- Where the loop is, prometheus.rs 232-241: sleeping, or calculating, since when; or at its end. -/
inductive Phase where
  | sleeping (since : Nat)
  | working (since : Nat) (stage : Stage)
  | stopped
deriving DecidableEq, Repr

/-- How fast things are: a calculation takes at most `work`, and a timer is late by at most `lag`. -/
structure Pace where
  work : Nat
  lag : Nat

/-- What is stored and shown, the loop, whether the token is cancelled, and the clock. The loop begins with a sleep
(prometheus.rs 232-235). -/
structure State where
  mon : Monitored := {}
  phase : Phase := .sleeping 0
  cancelled : Bool := false
  now : Nat := 0
deriving DecidableEq, Repr

/-- What can happen. -/
inductive Event where
  /-- somebody calls a function that writes to the database -/
  | call (op : Op)
  /-- time passes -/
  | tick (d : Nat)
  /-- the sleep is over -/
  | wake
  /-- the pool gives a connection, or an error -/
  | connected (ok : Bool)
  /-- a query has its result, or fails -/
  | read (ok : Bool)
  /-- a gauge is set -/
  | set
  /-- the server is asked to stop -/
  | cancel
  /-- the loop ends -/
  | notice
  /-- the process ends, and a new one is started -/
  | restart
deriving DecidableEq, Repr

/-- `METRICS_INTERVAL`, prometheus.rs 231. -/
def interval : Nat := 5000

/-- A new process on the same database: no metrics, and the loop begins with a sleep (app/main.rs 71-74). -/
def fresh (db : DB) (now : Nat) : State := { mon := ⟨db, {}⟩, phase := .sleeping now, now := now }

/-- Until when time may pass before the loop makes its next step (prometheus.rs 235-239). -/
def deadline (p : Pace) (s : State) : Option Nat :=
  match s.phase with
  | .sleeping t => some (t + interval + p.lag)
  | .working t _ => some (t + p.work)
  | .stopped => none

/-- One event; `none` if it cannot happen now (prometheus.rs 211-242). A call in which the process dies ends it. A calculation
that fails leaves the gauges that it has not set yet as they are, and the loop goes on (236-238). -/
def step (p : Pace) (s : State) : Event → Option State
  | .call op =>
    if (Opsqueue.step s.mon.db op).1.crashed then some (fresh (Opsqueue.step s.mon.db op).2 s.now)
    else some { s with mon := s.mon.step (.call op) }
  | .tick d =>
    match deadline p s with
    | none => some { s with now := s.now + d }
    | some t => if s.now + d ≤ t then some { s with now := s.now + d } else none
  | .wake =>
    match s.phase with
    | .sleeping t => if t + interval ≤ s.now then some { s with phase := .working s.now .connecting } else none
    | _ => none
  | .connected ok =>
    match s.phase with
    | .working t .connecting => some { s with phase := if ok then .working t .counting else .sleeping s.now }
    | _ => none
  | .read ok =>
    match s.phase with
    | .working t .counting =>
      match ok, (Metered.countChunks ⟨[], s.mon.db⟩).1 with
      | true, .ok n => some { s with phase := .working t (.counted n) }
      | _, _ => some { s with phase := .sleeping s.now }
    | .working t .adding =>
      match ok, (Metered.countOpsInBacklogEstimate ⟨[], s.mon.db⟩).1 with
      | true, .ok k => some { s with phase := .working t (.added k) }
      | _, _ => some { s with phase := .sleeping s.now }
    | _ => none
  | .set =>
    match s.phase with
    | .working t (.counted n) => some { s with
        mon := { s.mon with metrics := { s.mon.metrics with chunksBacklog := n } }, phase := .working t .adding }
    | .working _ (.added k) => some { s with
        mon := { s.mon with metrics := { s.mon.metrics with operationsBacklog := k } }, phase := .sleeping s.now }
    | _ => none
  | .cancel => some { s with cancelled := true }
  | .notice =>
    match s.phase, s.cancelled with
    | .sleeping _, true => some { s with phase := .stopped }
    | _, _ => none
  | .restart => some (fresh s.mon.db s.now)

/-- A history (prometheus.rs 227-242 next to the calls of others). -/
def run (p : Pace) (s : State) : List Event → Option State
  | [] => some s
  | e :: es => (step p s e).bind (run p · es)

end Opsqueue.Scaling
