import Verif.Model.Reserver

/-!
# The maintenance of the reserver, in time

Models `Reserver::run_pending_tasks_periodically` (opsqueue/src/consumer/dispatcher/reserver.rs 167-178), which is started with
the server (dispatcher/mod.rs 353-356, consumer/server/mod.rs 100-103), next to everything else that uses the reserver. Times are
milliseconds, and the clock is that of the reserver.
-/

namespace Opsqueue.Maintenance
variable {κ ν σ : Type} [DecidableEq κ]

/-- Where the loop is (reserver.rs 170-176): in `run_pending_tasks`, since when, and whether it has had its effect; sleeping,
since when; or at its end. -/
inductive Phase where
  | running (since : Nat) (swept : Bool)
  | sleeping (since : Nat)
  | stopped
deriving DecidableEq, Repr

/-- How fast things are: `run_pending_tasks` takes at most `pass`, and a timer or a wake-up is late by at most `lag`. -/
structure Pace where
  pass : Nat
  lag : Nat

/-- The reserver, the loop, whether the token is cancelled, and (a record only) when `run_pending_tasks` last had its effect. -/
structure State (κ ν σ : Type) where
  reserver : Reserver κ ν σ
  phase : Phase := .running 0 false
  cancelled : Bool := false
  swept : Nat := 0

/-- What can happen. -/
inductive Event (κ ν σ : Type) where
  /-- somebody uses the reserver -/
  | use (op : Reserver.Op κ ν σ)
  /-- time passes -/
  | tick (d : Nat)
  /-- `run_pending_tasks` has its effect -/
  | sweep
  /-- `run_pending_tasks` returns -/
  | done
  /-- the sleep is over -/
  | wake
  /-- the server is asked to stop -/
  | cancel
  /-- the loop ends -/
  | notice

/-- The sleep between two passes, reserver.rs 174. -/
def pause : Nat := 10

/-- The server has just been started: the task is spawned and begins with a pass (reserver.rs 169-171). -/
def init (ttl : Nat) : State κ ν σ := { reserver := Reserver.new ttl }

/-- Until when time may pass before the loop makes its next step (reserver.rs 171-175). -/
def deadline (p : Pace) (s : State κ ν σ) : Option Nat :=
  match s.phase with
  | .running t _ => some (t + p.pass)
  | .sleeping t => some (t + pause + p.lag)
  | .stopped => none

/-- One event; `none` if it cannot happen now. Simplifications: `run_pending_tasks` (reserver.rs 135-144) has its effect at one
moment, which may be any of the pass, and does all that is due; moka and tokio limit what is done in one pass (hundreds of
entries), and the rest is left for the next passes. The passing of time is only the event `tick`. -/
def step (p : Pace) (s : State κ ν σ) : Event κ ν σ → Option (State κ ν σ)
  | .use (.advance _) => none
  | .use op => some { s with reserver := s.reserver.step op }
  | .tick d =>
    match deadline p s with
    | none => some { s with reserver := s.reserver.step (.advance d) }
    | some t => if s.reserver.now + d ≤ t then some { s with reserver := s.reserver.step (.advance d) } else none
  | .sweep =>
    match s.phase with
    | .running t false => some { s with
        reserver := s.reserver.runPendingTasks, phase := .running t true, swept := s.reserver.now }
    | _ => none
  | .done =>
    match s.phase with
    | .running _ true => some { s with phase := .sleeping s.reserver.now }
    | _ => none
  | .wake =>
    match s.phase with
    | .sleeping t => if t + pause ≤ s.reserver.now then some { s with phase := .running s.reserver.now false } else none
    | _ => none
  | .cancel => some { s with cancelled := true }
  | .notice =>
    match s.phase, s.cancelled with
    | .sleeping _, true => some { s with phase := .stopped }
    | _, _ => none

/-- A history of the server (reserver.rs 169-177 next to the calls of others). -/
def run (p : Pace) (s : State κ ν σ) : List (Event κ ν σ) → Option (State κ ν σ)
  | [] => some s
  | e :: es => (step p s e).bind (run p · es)

end Opsqueue.Maintenance
