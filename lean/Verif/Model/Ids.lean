/-!
# Integer identifiers and limits, at machine width

Models the conversions of `SubmissionId` and `ChunkIndex` to and from `u64`/`i64`, and
`MaxSubmissions`. Lean's `UInt64` and `Int64` are the Rust `u64` and `i64` (wrapping casts).
-/

namespace Opsqueue.Ids

/-- Outcome of a Rust conversion: `Ok`, `Err(TryFromIntError)` (opsqueue/src/common/errors.rs), or a
panic (an assertion of the `ux` crate, or an arithmetic overflow). -/
inductive Conv (α : Type) where
  | ok (a : α)
  | rejected
  | panicked
deriving DecidableEq, Repr

/-- `ux::u63`: a `u64` of which only values up to `u63::MAX` are constructible, because the field is
private and `u63::new` asserts (crate ux 0.1; used in common/chunk.rs 16, common/submission.rs 23). -/
structure U63 where
  raw : UInt64
deriving DecidableEq, Repr

/-- `u63::MAX` as `u64` (crate ux). -/
def u63Max : UInt64 := 0x7FFFFFFFFFFFFFFF

/-- `u63::new`, crate ux: `assert!(value <= MAX && value >= MIN)`. -/
def U63.new (v : UInt64) : Conv U63 := if v ≤ u63Max then .ok ⟨v⟩ else .panicked

/-- `ChunkIndex(u63)`, opsqueue/src/common/chunk.rs 16. -/
structure ChunkIndex where
  inner : U63
deriving DecidableEq, Repr

/-- `SubmissionId(u63)`, opsqueue/src/common/submission.rs 23. -/
structure SubmissionId where
  inner : U63
deriving DecidableEq, Repr

/-- Wrapping the result of `u63::new` (chunk.rs 143, 153; submission.rs 125, 137). -/
def Conv.map {α β : Type} (f : α → β) : Conv α → Conv β
  | .ok a => .ok (f a)
  | .rejected => .rejected
  | .panicked => .panicked

namespace ChunkIndex

/-- `ChunkIndex::zero`, chunk.rs 91-93. -/
def zero : Conv ChunkIndex := (U63.new 0).map .mk

/-- `From<ChunkIndex> for u64`, chunk.rs 119-123. -/
def toU64 (c : ChunkIndex) : UInt64 := c.inner.raw

/-- `From<ChunkIndex> for i64`, chunk.rs 125-131 (`cast_signed`). -/
def toI64 (c : ChunkIndex) : Int64 := c.inner.raw.toInt64

/-- `TryFrom<i64> for ChunkIndex`, chunk.rs 133-143 (`cast_unsigned`). -/
def tryFromI64 (v : Int64) : Conv ChunkIndex :=
  if v < 0 then .rejected else (U63.new v.toUInt64).map .mk

/-- `TryFrom<u64> for ChunkIndex`, chunk.rs 145-153. -/
def tryFromU64 (v : UInt64) : Conv ChunkIndex :=
  if v > u63Max then .rejected else (U63.new v).map .mk

/-- `TryFrom<usize> for ChunkIndex`, chunk.rs 155-160. Simplification: `usize` is 64 bits wide. -/
def tryFromUsize (v : UInt64) : Conv ChunkIndex := tryFromU64 v

/-- `Serialize for ChunkIndex`, chunk.rs 24-31: the `u64` handed to the serializer. -/
def serialize (c : ChunkIndex) : UInt64 := c.toU64

/-- `Deserialize for ChunkIndex`, chunk.rs 33-42: from the `u64` read by the deserializer. -/
def deserialize (v : UInt64) : Conv ChunkIndex := tryFromU64 v

end ChunkIndex

namespace SubmissionId

/-- `SubmissionId::new`, submission.rs 53-56; the argument is what the id generator returned. -/
def new (generated : UInt64) : Conv SubmissionId := (U63.new generated).map .mk

/-- `From<SubmissionId> for u64`, submission.rs 113-117. -/
def toU64 (c : SubmissionId) : UInt64 := c.inner.raw

/-- `From<SubmissionId> for i64`, submission.rs 105-111 (`cast_signed`). -/
def toI64 (c : SubmissionId) : Int64 := c.inner.raw.toInt64

/-- `TryFrom<u64> for SubmissionId`, submission.rs 119-127. -/
def tryFromU64 (v : UInt64) : Conv SubmissionId :=
  if v > u63Max then .rejected else (U63.new v).map .mk

/-- `TryFrom<i64> for SubmissionId`, submission.rs 129-139 (`cast_unsigned`). -/
def tryFromI64 (v : Int64) : Conv SubmissionId :=
  if v < 0 then .rejected else (U63.new v.toUInt64).map .mk

/-- `Serialize for SubmissionId`, submission.rs 25-32. -/
def serialize (c : SubmissionId) : UInt64 := c.toU64

/-- `Deserialize for SubmissionId`, submission.rs 34-43. -/
def deserialize (v : UInt64) : Conv SubmissionId := tryFromU64 v

end SubmissionId

/-- `i64::MAX as u64`, opsqueue/src/common/mod.rs 30. -/
def i64Max : UInt64 := 0x7FFFFFFFFFFFFFFF

/-- `MaxSubmissions(NonZero<u64>)`, common/mod.rs 19-20. -/
structure MaxSubmissions where
  value : UInt64
deriving DecidableEq, Repr

/-- Why a `MaxSubmissions` is refused, common/mod.rs 44-46 and 62-68. -/
inductive MaxErr where
  | notANumber
  | tooLarge
deriving DecidableEq, Repr

/-- `MaxSubmissions::new`, common/mod.rs 29-35. The argument has type `NonZero<u64>`; `NonZero::new`
is `nonZero` below. -/
def MaxSubmissions.new (v : UInt64) : Except MaxErr MaxSubmissions :=
  if v < i64Max then .ok ⟨v⟩ else .error .tooLarge

/-- Value of one decimal digit (`char::to_digit(10)` in core::num). -/
def digit? (c : Char) : Option UInt64 :=
  if 48 ≤ c.toNat ∧ c.toNat ≤ 57 then some (UInt64.ofNat (c.toNat - 48)) else none

/-- One step of `u64::from_str`: `checked_mul(10)` then `checked_add(digit)` (core::num). -/
def pushDigit (acc d : UInt64) : Option UInt64 :=
  if acc.toNat * 10 + d.toNat < 2 ^ 64 then some (acc * 10 + d) else none

/-- The digit loop of `u64::from_str`. -/
def digitsLoop (acc : UInt64) : List Char → Option UInt64
  | [] => some acc
  | c :: cs =>
    match digit? c with
    | none => none
    | some d =>
      match pushDigit acc d with
      | none => none
      | some a => digitsLoop a cs

/-- `NonZero<u64>::from_str` (core::num): an optional `+`, at least one digit, no overflow, and not
zero. -/
def parseNonZero (s : List Char) : Except MaxErr UInt64 :=
  let body := match s with
    | '+' :: r => r
    | r => r
  match body with
  | [] => .error .notANumber
  | _ =>
    match digitsLoop 0 body with
    | none => .error .notANumber
    | some 0 => .error .notANumber
    | some v => .ok v

/-- `FromStr for MaxSubmissions`, common/mod.rs 54-60. -/
def MaxSubmissions.fromStr (s : List Char) : Except MaxErr MaxSubmissions :=
  match parseNonZero s with
  | .error e => .error e
  | .ok v => MaxSubmissions.new v

/-- The SQL `LIMIT` of `lookup_ids_by_strategic_metadata`, submission.rs 605:
`(u64::from(max_submissions) + 1).cast_signed()`; `+` panics on overflow in debug builds. -/
def lookupLimit (m : MaxSubmissions) : Conv Int64 :=
  if m.value.toNat + 1 < 2 ^ 64 then .ok (m.value + 1).toInt64 else .panicked

end Opsqueue.Ids
