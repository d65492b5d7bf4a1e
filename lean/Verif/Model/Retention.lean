import Verif.Model.System

/-!
# The cleanup loop

Models `periodically_cleanup_old`, common/submission.rs 1170-1187, started with `max_submission_age` in app/main.rs 68-69.
Times are milliseconds.
-/

namespace Opsqueue.Retention

/-- `PERIODIC_CLEANUP_INTERVAL` (submission.rs 1171). -/
def interval : Nat := 60000

/-- One round of the loop: how long it took and what went wrong in it. Not getting a connection of the writer pool is a
failing `BEGIN`. -/
structure Round where
  took : Nat
  faults : List Fault := []
deriving Repr

/-- The loop (submission.rs 1172-1186): each round computes the cutoff `now - max_age` and calls `cleanup_old`; an error is
only logged; then it sleeps a minute. The calls are listed with the time at which their round started. Simplification: a
cutoff before the epoch is the epoch. -/
def rounds (maxAge start : Time) : List Round → List (Time × Op)
  | [] => []
  | r :: rs => (start, .cleanup (start - maxAge) r.faults) :: rounds maxAge (start + r.took + interval) rs

/-- When the round after the given ones starts (submission.rs 1172-1186). -/
def next (start : Time) : List Round → Time
  | [] => start
  | r :: rs => next (start + r.took + interval) rs

/-- The loops of successive processes (main.rs 69): each with the time of its first round, and its rounds. -/
def lives (maxAge : Time) (ls : List (Time × List Round)) : List (Time × Op) :=
  ls.flatMap fun l => rounds maxAge l.1 l.2

end Opsqueue.Retention
