import Verif.Model.System

/-!
# The generator of submission ids

Models `ID_GENERATOR` and `SubmissionId::{new, system_time}`, common/submission.rs 16 and 53-74. The generator itself is
the `snowflaked` crate, whose source is not part of the repository; its algorithm is modelled as that crate documents it
(42 bits of milliseconds, 10 bits of instance, 12 bits of sequence number).
-/

namespace Opsqueue.Snowflake

/-- The state of `ID_GENERATOR` (submission.rs 16): the millisecond and the sequence number of the last id. -/
structure Gen where
  last : Nat := 0
  seq : Nat := 0
deriving DecidableEq, Repr

/-- The outcome of one `SubmissionId::new()`: an id, or a panic. -/
inductive Made where
  | id (n : Nat)
  | panicked
deriving DecidableEq, Repr

/-- `Snowflake::from_parts` for `u64` and instance 0 (`Generator::new(0)`, submission.rs 16). -/
def fromParts (ms seq : Nat) : Nat := (ms * 2 ^ 22 + seq) % 2 ^ 64

/-- `u63::new` (submission.rs 55): panics on a number of 64 bits. -/
def checkedId (n : Nat) : Made := if n < 2 ^ 63 then .id n else .panicked

/-- `ID_GENERATOR.generate()` in `SubmissionId::new` (submission.rs 53-56), with the successive readings of the clock, in
milliseconds. A clock behind the last id is a panic; in the same millisecond the sequence number goes up; after 4096 ids
in a millisecond the clock is read until it has moved on. `none`: there are not enough readings, it is still waiting. -/
def generate (g : Gen) : List Nat → Option (Made × Gen)
  | [] => none
  | now :: later =>
    if now < g.last then some (.panicked, g)
    else if g.last < now then some (checkedId (fromParts now 0), ⟨now, 0⟩)
    else if g.seq + 1 < 4096 then some (checkedId (fromParts now (g.seq + 1)), ⟨now, g.seq + 1⟩)
    else
      match later.find? (now < ·) with
      | none => none
      | some next => some (checkedId (fromParts next 0), ⟨next, 0⟩)

/-- Successive calls of `SubmissionId::new()` in one process; a call that has to wait for ever is the last one. Concurrent
calls are one after the other, as the generator is one atomic word. -/
def life (g : Gen) : List (List Nat) → List Made
  | [] => []
  | readings :: calls =>
    match generate g readings with
    | none => []
    | some (m, g') => m :: life g' calls

/-- The ids made by successive processes (each with the readings of the clock in each of its calls), in order. The
generator is a `static`: every process starts it anew (submission.rs 16). -/
def madeBy (lives : List (List (List Nat))) : List Nat :=
  (lives.flatMap (life {})).filterMap fun
    | .id n => some n
    | .panicked => none

/-- `SubmissionId::system_time` (submission.rs 63-73), in milliseconds after the epoch. -/
def millis (id : Nat) : Nat := id / 2 ^ 22

end Opsqueue.Snowflake
