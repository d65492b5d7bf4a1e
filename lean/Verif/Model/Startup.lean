import Verif.Model.Decimal
import Verif.Model.Types

/-!
# Starting the server, and telling the port

Models `opsqueue/src/config.rs` (150-189, `--report-bound-port-pipe`) and `serve_producer_and_consumer`
(`opsqueue/src/server.rs` 19-93).
-/

namespace Opsqueue.Startup

/-- `i32::from_str` (used in config.rs 170-172): digits with an optional sign, in range. -/
def parseI32 : List Char → Option Int
  | '-' :: cs =>
    match cs with
    | [] => none
    | _ =>
      match Decimal.parseLoop 0 cs with
      | some n => if n ≤ 2 ^ 31 then some (-n) else none
      | none => none
  | cs =>
    match Decimal.parse cs with
    | some n => if n < 2 ^ 31 then some n else none
    | none => none

/-- The value of the argument: refused, no pipe, or the pipe with this file descriptor. -/
inductive PipeArg where
  | refused
  | none
  | fd (n : Nat)
deriving DecidableEq, Repr

/-- `parse_report_bound_port_fd`, config.rs 169-189. -/
def parseReportBoundPortFd (text : List Char) : PipeArg :=
  match parseI32 text with
  | .none => .refused
  | some n => if n = -1 then .none else if n < 0 then .refused else .fd n.toNat

/-- The file descriptor, as the parent process at its other end sees it. -/
structure Fd where
  written : Bytes := []
  isOpen : Bool := true
deriving DecidableEq, Repr

/-- `write_port`, config.rs 161-166, then the file is dropped (it is taken by value). `accepted`: how many bytes can be
written before an error. -/
def Fd.writePort (fd : Fd) (port : Nat) (accepted : Nat) : Fd :=
  { written := fd.written ++ ([UInt8.ofNat (port / 256), UInt8.ofNat (port % 256)] : Bytes).take accepted
    isOpen := false }

/-- What the surroundings do in one attempt (server.rs 43-75): `bind` gives the port or fails; so does `local_addr`;
writing (see above); serving goes on (`none`) or ends. -/
structure Attempt where
  bind : Option Nat
  localAddr : Option Nat
  accepted : Nat
  serve : Option (Except Unit Unit)

/-- The state: the pipe in the configuration (`none` when taken), the file descriptor, and where the server listens. -/
structure State where
  pipe : Bool
  fd : Fd := {}
  listening : Option Nat := none
deriving DecidableEq, Repr

/-- `ReportBoundPortPipe::take`, config.rs 143-152, and writing the port, server.rs 54-66. -/
def State.tell (s : State) (port : Nat) (accepted : Nat) : State :=
  if s.pipe then { s with pipe := false, fd := s.fd.writePort port accepted } else s

/-- One attempt, server.rs 43-75. `none`: the server is serving. -/
def attempt (a : Attempt) (s : State) : Option (Except Unit Unit) × State :=
  match a.bind with
  | none => (some (.error ()), s)
  | some port =>
    let s := { s with listening := some port }
    let s := match a.localAddr with
      | some p => s.tell p a.accepted
      | none => s
    match a.serve with
    | none => (none, s)
    | some r => (some r, { s with listening := none })

/-- `with_max_times(10)`, server.rs 19-25. -/
def maxRetries : Nat := 10

/-- `serve_producer_and_consumer`, server.rs 33-93, with `left` retries left, at attempt `i`: `none` while the server is
serving. The last number is the number of attempts made. -/
def serveLoop (attempts : Nat → Attempt) : Nat → Nat → State → Option (Except Unit Unit) × State × Nat
  | left, i, s =>
    match attempt (attempts i) s with
    | (none, s) => (none, s, i + 1)
    | (some (.ok _), s) => (some (.ok ()), s, i + 1)
    | (some (.error _), s) =>
      match left with
      | 0 => (some (.error ()), if s.pipe then { s with pipe := false, fd := { s.fd with isOpen := false } } else s, i + 1)
      | left + 1 => serveLoop attempts left (i + 1) s

/-- `serve_producer_and_consumer`, server.rs 33-93, when a pipe was given. -/
def serve (attempts : Nat → Attempt) : Option (Except Unit Unit) × State × Nat :=
  serveLoop attempts maxRetries 0 { pipe := true }

end Opsqueue.Startup
