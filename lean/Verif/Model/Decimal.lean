/-!
# Decimal text of numbers

`Display for u64` (used by `Display for SubmissionId`, opsqueue/src/common/submission.rs 82-86, and
`Display for ChunkIndex`, opsqueue/src/common/chunk.rs 103-107) and `u64::from_str` (used by axum's
`Path<SubmissionId>`, opsqueue/src/producer/server.rs 122, 143). Simplification: numbers are unbounded here, the
bounds of `u64` and `u63` are in `Model/Ids.lean`.
-/

namespace Opsqueue.Decimal

/-- The character of a digit `d < 10` (`b'0' + d` in core::fmt::num, used by submission.rs 82-86). -/
def digitChar (d : Nat) : Char := Char.ofNat (48 + d)

/-- The digits of `n`, in front of `acc`; `fuel` bounds the number of digits (core::fmt::num, as above). -/
def digits : Nat → Nat → List Char → List Char
  | 0, _, acc => acc
  | fuel + 1, n, acc =>
    let acc := digitChar (n % 10) :: acc
    if n / 10 = 0 then acc else digits fuel (n / 10) acc

/-- `Display for u64`: `format!("{n}")` (submission.rs 82-86, chunk.rs 103-107). -/
def decimal (n : Nat) : List Char := digits (n + 1) n []

/-- Value of a decimal digit. -/
def digit? (c : Char) : Option Nat :=
  if 48 ≤ c.toNat ∧ c.toNat ≤ 57 then some (c.toNat - 48) else none

/-- The digit loop of `u64::from_str`. -/
def parseLoop (acc : Nat) : List Char → Option Nat
  | [] => some acc
  | c :: cs =>
    match digit? c with
    | none => none
    | some d => parseLoop (acc * 10 + d) cs

/-- `u64::from_str` (axum's path deserializer, producer/server.rs 122): empty text is refused, a leading `+` is
accepted. -/
def parse : List Char → Option Nat
  | [] => none
  | ['+'] => none
  | '+' :: cs => parseLoop 0 cs
  | cs => parseLoop 0 cs

end Opsqueue.Decimal
