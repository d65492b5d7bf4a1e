/-!
# Interrupting the Python client

Models `run_unless_interrupted`, libs/opsqueue_python/src/common.rs 559-594, and the loops of the consumer that are built
from it, libs/opsqueue_python/src/consumer.rs 170-273 and 355-466, with the times (in milliseconds) at which things happen.
A signal (Ctrl-C) is pending from the moment at which it arrives; `sig = none` if there is none (any more).
-/

namespace Opsqueue.Interrupt

/-- `SIGNAL_CHECK_INTERVAL`, common.rs 20-25. -/
def checkInterval (debug : Bool) : Nat := if debug then 100 else 1000

/-- `POLL_INTERVAL` of `reserve_chunks_gilless`, consumer.rs 258. -/
def pollInterval : Nat := 500

/-- `check_signals_in_background`, common.rs 578-593, started at `t`: when it notices a signal that arrives at `s`. At most
`n` more rounds of the loop. Simplification: sleeps are exact and getting hold of the interpreter takes no time. -/
def checkLoop (interval s : Nat) : Nat → Nat → Nat
  | 0, t => t + interval
  | n + 1, t => if s ≤ t + interval then t + interval else checkLoop interval s n (t + interval)

/-- When the check started at `t` notices a signal that arrives at `s`, common.rs 578-593. (Each round takes at least a
millisecond, so that it is noticed within `s - t` rounds.) -/
def noticed (interval s t : Nat) : Nat := checkLoop interval s (s - t) t

/-- A future that is waited for: how long it takes (`none`: forever), and whether `select!` would choose it if it were ready at
the same time as the check. -/
structure Stage where
  took : Option Nat
  chosen : Bool := true
deriving Repr

/-- `run_unless_interrupted`, common.rs 565-575, started at `t`: when it ends, and whether because of a signal. `none`: it
never ends. -/
def block (interval : Nat) (sig : Option Nat) (t : Nat) (stage : Stage) : Option (Nat × Bool) :=
  match stage.took, sig with
  | none, none => none
  | none, some s => some (noticed interval s t, true)
  | some d, none => some (t + d, false)
  | some d, some s =>
    let n := noticed interval s t
    if t + d < n ∨ (t + d = n ∧ stage.chosen = true) then some (t + d, false) else some (n, true)

/-- One round of `reserve_chunks_gilless`: the request (and the retrieval of the chunks), its result, and what `select!`
chooses at the end of the pause. -/
structure Attempt (ε α : Type) where
  request : Stage
  answer : Except ε (List α)
  chosen : Bool := true

/-- How `reserve_chunks_gilless` ends. -/
inductive Outcome (ε α : Type) where
  | interrupted
  | failed (e : ε)
  | chunks (l : List α)
deriving DecidableEq, Repr

/-- `reserve_chunks_gilless`, consumer.rs 246-273, from the `k`-th round on, which starts at `t`: when it ends and how. At
most `fuel` rounds. -/
def reserve {ε α : Type} (interval : Nat) (sig : Option Nat) (tries : Nat → Attempt ε α) :
    Nat → Nat → Nat → Option (Nat × Outcome ε α)
  | 0, _, _ => none
  | fuel + 1, k, t =>
    match block interval sig t (tries k).request with
    | none => none
    | some (t, true) => some (t, .interrupted)
    | some (t, false) =>
      match (tries k).answer with
      | .error e => some (t, .failed e)
      | .ok [] =>
        match block interval sig t ⟨some pollInterval, (tries k).chosen⟩ with
        | none => none
        | some (t, true) => some (t, .interrupted)
        | some (t, false) => reserve interval sig tries fuel (k + 1) t
      | .ok (c :: cs) => some (t, .chunks (c :: cs))

/-- The callback, which is Python code: how long it takes if it is not interrupted, and how long after a signal that arrives
while it runs the interpreter raises `KeyboardInterrupt` in it. -/
structure Callback where
  took : Nat
  delay : Nat
deriving Repr

/-- The call of the callback at `t`, consumer.rs 389-392: when it ends, and whether with `KeyboardInterrupt`. The interpreter
raises a pending one at the start. -/
def Callback.call (c : Callback) (sig : Option Nat) (t : Nat) : Nat × Bool :=
  match sig with
  | none => (t + c.took, false)
  | some s =>
    if s ≤ t then (t, true)
    else if s + c.delay ≤ t + c.took then (s + c.delay, true) else (t + c.took, false)

/-- One round of `run_per_chunk`: the reservation, the callback, the report (`complete_chunk_gilless` or
`fail_chunk_gilless`) and whether that succeeds. -/
structure Round (ε α : Type) where
  tries : Nat → Attempt ε α
  callback : Callback
  report : Stage
  reported : Bool

/-- `run_per_chunk` with `compute_chunk_outcome`, consumer.rs 193-218 and 355-466, from the `k`-th round on, which starts at
`t`: when it ends because of the signal. `none`: it does not end within `fuel` rounds. An interrupt that is raised in the
callback is not pending any more; it ends the loop after the failure of the chunk has been reported (423-446), but an
error of that report comes first (436-439), and errors do not end the loop (212-217). -/
def consume {ε α : Type} (interval : Nat) (rounds : Nat → Round ε α) : Nat → Nat → Option Nat → Nat → Option Nat
  | 0, _, _, _ => none
  | fuel + 1, k, sig, t =>
    match reserve interval sig (rounds k).tries (fuel + 1) 0 t with
    | none => none
    | some (t, .interrupted) => some t
    | some (t, .failed _) => consume interval rounds fuel (k + 1) sig t
    | some (t, .chunks _) =>
      let (t, raised) := (rounds k).callback.call sig t
      let sig := if raised then none else sig
      match block interval sig t (rounds k).report with
      | none => none
      | some (t, true) => some t
      | some (t, false) =>
        if raised && (rounds k).reported then some t else consume interval rounds fuel (k + 1) sig t

end Opsqueue.Interrupt
