/-!
# The health check

Models `app_watchdog` and `ping` (opsqueue/src/server.rs 195-227), `DBPools::check_health` (db/mod.rs 203-227) and their use
in app/main.rs (the flag starts as `false`, 40; the cancellation token, 115). Times are milliseconds.
-/

namespace Opsqueue.Watchdog

/-- Where the loop of `app_watchdog` is, and since when (server.rs 214-226). -/
inductive Phase where
  | checking (since : Nat)
  | sleeping (since : Nat)
  | stopped
deriving DecidableEq, Repr

/-- How fast things are: a check takes at most `check`, and a timer or a wake-up is late by at most `lag`. -/
structure Pace where
  check : Nat
  lag : Nat

/-- The flag (main.rs 40), the watchdog, when the token was cancelled, and the clock. -/
structure State where
  healthy : Bool := false
  phase : Phase := .checking 0
  cancelled : Option Nat := none
  now : Nat := 0
deriving DecidableEq, Repr

/-- What can happen. -/
inductive Event where
  | tick (d : Nat)
  | checked (ok : Bool)
  | wake
  | cancel
  | notice
deriving DecidableEq, Repr

/-- Until when time may pass before the watchdog makes its next step (server.rs 217, 220-223). -/
def deadline (p : Pace) (s : State) : Option Nat :=
  match s.phase with
  | .checking t => some (t + p.check)
  | .sleeping t =>
    match s.cancelled with
    | none => some (t + 10000 + p.lag)
    | some c => some (min (t + 10000) (max t c) + p.lag)
  | .stopped => none

/-- One event; `none` if it cannot happen now.
* `checked`: `check_health` returns and its result is stored (server.rs 217-218);
* `wake`: the sleep of ten seconds is over (222), the loop begins again;
* `cancel`: the shutdown begins (main.rs 115);
* `notice`: the `select!` takes the branch of the token (221), and the flag is cleared (226). -/
def step (p : Pace) (s : State) : Event → Option State
  | .tick d =>
    match deadline p s with
    | none => some { s with now := s.now + d }
    | some t => if s.now + d ≤ t then some { s with now := s.now + d } else none
  | .checked ok =>
    match s.phase with
    | .checking _ => some { s with healthy := ok, phase := .sleeping s.now }
    | _ => none
  | .wake =>
    match s.phase with
    | .sleeping t => if t + 10000 ≤ s.now then some { s with phase := .checking s.now } else none
    | _ => none
  | .cancel => some { s with cancelled := s.cancelled <|> some s.now }
  | .notice =>
    match s.phase, s.cancelled with
    | .sleeping _, some _ => some { s with healthy := false, phase := .stopped }
    | _, _ => none

/-- A history of a process (main.rs 40-118). -/
def run (p : Pace) (s : State) : List Event → Option State
  | [] => some s
  | e :: es => (step p s e).bind (run p · es)

/-- `ping`, server.rs 197-206. -/
def ping (s : State) : Nat × String := if s.healthy then (200, "pong") else (503, "unhealthy")

/-- The kinds of statements, for what they need of the lock on the database file. -/
inductive Kind where
  | begin
  | read
  | write
  | commit
deriving DecidableEq, Repr

/-- Whether a sequence of statements succeeds while somebody else does (`locked`) or does not hold the write lock. The
transactions of sqlx are `BEGIN` (deferred: it takes no lock); in WAL mode (db/mod.rs 429) a reader needs no lock that a
writer holds; a writing statement waits for `busy_timeout` (431) and then fails. -/
def succeeds (locked : Bool) (stmts : List Kind) : Bool := !(locked && stmts.contains .write)

/-- The statements of `check_health` (db/mod.rs 209-218): a transaction that counts the submissions. -/
def checkHealth : List Kind := [.begin, .read, .commit]

/-- The statements of inserting a submission (submission.rs 345-443, a row per table), in kinds. -/
def insertion : List Kind := [.begin, .write, .write, .commit]

end Opsqueue.Watchdog
