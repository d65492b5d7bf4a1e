/-!
# The reconnecting consumer client

Models `OuterClient` in opsqueue/src/consumer/client.rs 48-192: the connection (`Client`, of which `Model/Client` is the
model) is made when it is first needed, kept between calls, and given up after a call that failed. Calls may run at the same
time (the Python `ConsumerClient` may be used by several threads); every access to the shared `ArcSwapOption` is a step of
its own. Connections are numbered in the order in which they are made. Simplification: what happens on a connection is given
by events; its details are in `Model/Client`.
-/

namespace Opsqueue.Reconnect

/-- How a call over a connection ends (client.rs 475-522): it succeeds, the connection fails
(`InternalConsumerClientError`), or the server refuses the arguments (`IncorrectUsage<LimitIsZero>`, `reserve_chunks` only). -/
inductive Result where
  | ok
  | failed
  | misused
deriving DecidableEq, Repr

/-- Where a call is (`reserve_chunks`, `complete_chunk`, `fail_chunk`: client.rs 77-151, all alike).
`begun`: before `is_healthy` (154). `connecting`: in the retries around `Client::new` (160-172). `connected c`: before
`store(Some(..))` (156). `ready`: before `load` (86, 114, 142). `busy c`: the call on the connection, which the guard of
`load` keeps alive. `ending r`: before `store(None)` (92, 120, 148). `panicked`: at `expect` (88, 116, 144). `dropped`: the
future was dropped by the caller (Ctrl-C in Python). -/
inductive Phase where
  | begun
  | connecting
  | connected (c : Nat)
  | ready
  | busy (c : Nat)
  | ending (r : Result)
  | returned (r : Result)
  | panicked
  | dropped
deriving DecidableEq, Repr

/-- Whether the call is over. -/
def Phase.over : Phase → Bool
  | .returned _ | .panicked | .dropped => true
  | _ => false

/-- `OuterClient`, client.rs 54, with the calls made on it so far; `healthy`: the flag of each connection made so far
(client.rs 252). -/
structure State where
  slot : Option Nat := none
  healthy : List Bool := []
  calls : List Phase := []
deriving DecidableEq, Repr

/-- What can happen: a call starts; the steps of call `i`; the background task of connection `c` marks it as unhealthy
(client.rs 345). -/
inductive Event where
  | call
  | check (i : Nat)
  | connect (i : Nat) (ok : Bool)
  | store (i : Nat)
  | load (i : Nat)
  | finish (i : Nat) (r : Result)
  | reset (i : Nat)
  | drop (i : Nat)
  | unhealthy (c : Nat)
deriving DecidableEq, Repr

/-- `is_healthy`, client.rs 177-180. -/
def isHealthy (s : State) : Bool :=
  match s.slot with
  | none => false
  | some c => s.healthy[c]?.getD false

/-- Call `i` goes on to `p`. -/
def goto (s : State) (i : Nat) (p : Phase) : State := { s with calls := s.calls.set i p }

/-- One step. A step of a call that is not at that point does nothing. -/
def step (s : State) : Event → State
  | .call => { s with calls := s.calls ++ [.begun] }
  -- `ensure_initialized`, client.rs 153-154
  | .check i => if s.calls[i]? = some .begun then goto s i (if isHealthy s then .ready else .connecting) else s
  -- `initialize`, client.rs 160-172: `Client::new` until it succeeds
  | .connect i ok =>
    if s.calls[i]? = some .connecting ∧ ok then
      { goto s i (.connected s.healthy.length) with healthy := s.healthy ++ [true] }
    else s
  -- `ensure_initialized`, client.rs 155-156
  | .store i =>
    match s.calls[i]? with
    | some (.connected c) => { goto s i .ready with slot := some c }
    | _ => s
  -- `load` and `expect`, client.rs 86-88
  | .load i =>
    if s.calls[i]? = some .ready then
      match s.slot with
      | some c => goto s i (.busy c)
      | none => goto s i .panicked
    else s
  -- the call on the connection, client.rs 89-90, and `is_err`, client.rs 91
  | .finish i r =>
    match s.calls[i]? with
    | some (.busy _) => goto s i (match r with
      | .ok => .returned .ok
      | .failed => .ending .failed
      | .misused => .ending .misused)
    | _ => s
  -- `store(None)`, client.rs 92
  | .reset i =>
    match s.calls[i]? with
    | some (.ending r) => { goto s i (.returned r) with slot := none }
    | _ => s
  -- dropping the future where it waits: at the retries or at the call on the connection
  | .drop i =>
    match s.calls[i]? with
    | some .connecting | some (.busy _) => goto s i .dropped
    | _ => s
  | .unhealthy c => { s with healthy := s.healthy.set c false }

/-- A run from `s`. -/
def exec (s : State) (es : List Event) : State := es.foldl step s

/-- A run of a new client (`OuterClient::new`, client.rs 59-61). -/
def run (es : List Event) : State := exec {} es

/-- Connection `c` is referred to: by the slot, by the guard of a call, or by the call that has just made it. When it is not,
its `Client` is dropped, which ends the background task and closes the connection (`_bg_handle: DropGuard`,
client.rs 253 and 340). -/
def held (s : State) (c : Nat) : Prop := s.slot = some c ∨ .busy c ∈ s.calls ∨ .connected c ∈ s.calls

end Opsqueue.Reconnect
