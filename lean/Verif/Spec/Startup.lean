import Verif.Spec.Numerals
import Verif.Model.Startup

/-!
# Vocabulary for statements about starting the server
-/

namespace Opsqueue.Startup

/-- What a parent process gets that reads two bytes from the other end of the pipe. -/
inductive Read where
  | port (n : Nat)
  | closed
  | waits
deriving DecidableEq, Repr

/-- Reading two bytes as a big-endian number. -/
def Fd.read (fd : Fd) : Read :=
  match fd.written with
  | [a, b] => .port (256 * a.toNat + b.toNat)
  | _ => if fd.isOpen then .waits else .closed

/-- The numeral of an integer: digits with an optional sign. -/
def DenotesInt (s : List Char) (n : Int) : Prop :=
  (∃ m : Nat, Denotes s m ∧ n = m) ∨ ∃ ds m, s = '-' :: ds ∧ (∀ cs, ds ≠ '+' :: cs) ∧ Denotes ds m ∧ n = -(m : Nat)

/-- The operating system behaves: ports have 16 bits, the address of a bound socket is known and is the one that was
bound, a write of two bytes is done entirely or not at all, and serving does not fail. -/
def Attempt.Orderly (a : Attempt) : Prop :=
  (∀ p, a.bind = some p → p < 2 ^ 16 ∧ a.localAddr = some p) ∧ (a.accepted = 0 ∨ 2 ≤ a.accepted) ∧
    a.serve ≠ some (.error ())

end Opsqueue.Startup
