/-!
# The durations of the configuration

The server takes three durations on its command line: `--reservation-expiration`, `--heartbeat-interval` and
`--max-submission-age` (`opsqueue/src/config.rs` 50-64, 76-87, 101-102). Any that `humantime` can read is accepted; none is checked
again. Here is what the code does with them that can panic. All durations and times are nanoseconds.
-/

namespace Opsqueue.Durations

/-- A second, in nanoseconds. -/
def second : Nat := 1000000000

/-- The durations of `Config`, config.rs 64, 87, 102. -/
structure Config where
  reservationExpiration : Nat
  heartbeatInterval : Nat
  maxSubmissionAge : Nat
deriving DecidableEq, Repr

/-- What `humantime::Duration` can be (config.rs 64, 87, 102): a `std::time::Duration`, so seconds in a `u64` and nanoseconds. -/
def parses (d : Nat) : Bool := d < 2 ^ 64 * second

/-- `Config::default`, config.rs 109-137. -/
def default : Config := ⟨600 * second, 10 * second, 3600 * second⟩

/-- `Cache::builder().time_to_live(..).build_with_hasher(..)`, consumer/dispatcher/reserver.rs 42-54: moka panics if the time to live
is more than 1000 years (of 365 days). `false`: it panics. -/
def cacheBuilds (ttl : Nat) : Bool := ttl ≤ 1000 * 365 * 86400 * second

/-- `tokio::time::interval`, consumer/server/conn.rs 63-64: it panics if the period is zero. `false`: it panics. -/
def intervalBuilds (period : Nat) : Bool := period != 0

/-- `Instant + Duration`, as in `Interval::reset` (conn.rs 186): an `Instant` has its seconds in an `i64`, and it panics if they do not
fit (`none`). The zero of the clock is that of the monotonic clock of the system. -/
def instantAdd (t period : Nat) : Option Nat := if t + period < 2 ^ 63 * second then some (t + period) else none

/-- The earliest `DateTime<Utc>` of chrono, the beginning of the year -262143. -/
def minDate : Int := -(8334601228800 * second : Nat)

/-- `Utc::now() - max_age`, common/submission.rs 1173: chrono converts the duration to a `TimeDelta` (milliseconds in an `i64`) and
subtracts, and panics (`none`) if one of them does not fit. -/
def dateSub (wall : Int) (age : Nat) : Option Int :=
  if age > 9223372036854775807 * 1000000 then none else if wall - age < minDate then none else some (wall - age)

/-- What happens: a consumer opens a connection (conn.rs 61-95), a message of it is received (conn.rs 117-126, 184-187), a tick of its
interval which was due at `due` is taken (conn.rs 114), it closes its connection; the cleanup loop begins a round (submission.rs
1172-1173). -/
inductive Event where
  | connect (c : Nat)
  | message (c : Nat)
  | tick (c : Nat) (due : Nat)
  | leave (c : Nat)
  | cleanup
deriving DecidableEq, Repr

/-- An event, with what the clock of the day and the monotonic clock say then. -/
structure Entry where
  wall : Nat
  mono : Nat
  event : Event
deriving DecidableEq, Repr

/-- Is the process running, and which connections are open. -/
structure State where
  up : Bool
  conns : List Nat
deriving DecidableEq, Repr

/-- Start of the server: `ServerState::new` builds the cache (consumer/server/mod.rs 80) in a task of the scope of `async_main`
(app/main.rs 55-66), so a panic ends the process. -/
def start (cfg : Config) : State := ⟨cacheBuilds cfg.reservationExpiration, []⟩

/-- The task of a connection ends, in whatever way (consumer/server/mod.rs: `ws_accept_handler`). -/
def State.drop (s : State) (c : Nat) : State := { s with conns := s.conns.filter (· != c) }

/-- One event. A connection is served in a task of its own (`on_upgrade`), so a panic in it is the end of the connection only. The
cleanup loop is a task of the scope of `async_main` (app/main.rs 68-69): a panic in it ends the process. `Interval::tick` adds the
period with `checked_add` when it is at most 5 ms late, and with `+` otherwise. -/
def step (cfg : Config) (s : State) (e : Entry) : State :=
  if s.up then
    match e.event with
    | .connect c => if intervalBuilds cfg.heartbeatInterval then { s with conns := c :: s.conns } else s
    | .message c => if (instantAdd e.mono cfg.heartbeatInterval).isSome then s else s.drop c
    | .tick c due =>
      if e.mono ≤ due + 5000000 then s
      else if (instantAdd due cfg.heartbeatInterval).isSome then s else s.drop c
    | .leave c => s.drop c
    | .cleanup => if (dateSub e.wall cfg.maxSubmissionAge).isSome then s else ⟨false, []⟩
  else s

/-- The server from its start (app/main.rs 33-125), as far as the durations matter: what goes wrong for other reasons is in the other
models. -/
def run (cfg : Config) (h : List Entry) : State := h.foldl (step cfg) (start cfg)

end Opsqueue.Durations
