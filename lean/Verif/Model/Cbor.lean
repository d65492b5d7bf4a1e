import Verif.Model.Wire

/-!
# CBOR, byte by byte

What `ciborium::into_writer` writes and `ciborium::from_reader` reads (opsqueue/src/consumer/common.rs 83-162), for the
trees of `Model/Wire.lean`: `serde` hands the same trees to ciborium as to serde_json. ciborium itself is a dependency
whose source is not in /repo; this follows RFC 8949. Simplifications, all on the reading side and about bytes that
`into_writer` never produces: items of indefinite length, tags, byte strings, floats and booleans are refused, and a
map key has to be a text.
-/

namespace Opsqueue.Cbor

open Wire

/-- `u64::to_be_bytes` and its shorter forms (RFC 8949 section 3: arguments are big-endian): the lowest `k` bytes
of `n`; used by `into_writer`, consumer/common.rs 103-104. -/
def bigEndian : Nat → Nat → Bytes
  | 0, _ => []
  | k + 1, n => bigEndian k (n / 256) ++ [UInt8.ofNat (n % 256)]

/-- `u64::from_be_bytes` and its shorter forms (`from_reader`, consumer/common.rs 87). -/
def fromBigEndian (b : Bytes) : Nat := b.foldl (fun n x => n * 256 + x.toNat) 0

/-- The head of an item: major type and argument, in the shortest form (`into_writer`, consumer/common.rs 103). -/
def writeHead (major n : Nat) : Bytes :=
  if n < 24 then [UInt8.ofNat (32 * major + n)]
  else if n < 2 ^ 8 then UInt8.ofNat (32 * major + 24) :: bigEndian 1 n
  else if n < 2 ^ 16 then UInt8.ofNat (32 * major + 25) :: bigEndian 2 n
  else if n < 2 ^ 32 then UInt8.ofNat (32 * major + 26) :: bigEndian 4 n
  else UInt8.ofNat (32 * major + 27) :: bigEndian 8 n

/-- The first `k` bytes, if there are as many, and what follows them (`from_reader`, consumer/common.rs 87, on a slice:
a message that ends too early is an error). -/
def takeBytes (k : Nat) (b : Bytes) : Option (Bytes × Bytes) :=
  if k ≤ b.length then some (b.take k, b.drop k) else none

/-- The head of an item: major type, argument, and what follows (`from_reader`, consumer/common.rs 87). Arguments may
be longer than needed. Major type 7 (simple values, floats) has no argument here. -/
def readHead : Bytes → Option (Nat × Nat × Bytes)
  | [] => none
  | b :: rest =>
    let major := b.toNat / 32
    let info := b.toNat % 32
    let long (k : Nat) := (takeBytes k rest).map fun (a, rest) => (major, fromBigEndian a, rest)
    if info < 24 then some (major, info, rest)
    else if major = 7 then none
    else if info = 24 then long 1
    else if info = 25 then long 2
    else if info = 26 then long 4
    else if info = 27 then long 8
    else none

/-- The bytes of a `String`. -/
def utf8 (s : String) : Bytes := s.toByteArray.data.toList

/-- `String::from_utf8` (in `from_reader`, consumer/common.rs 87): other bytes are an error. -/
def fromUtf8 (b : Bytes) : Option String := String.fromUTF8? ⟨b.toArray⟩

/-- A text: its length in bytes, and the bytes (`into_writer`, consumer/common.rs 103). -/
def writeText (s : String) : Bytes := writeHead 3 (utf8 s).length ++ utf8 s

/-- The bytes of a text of the given length (`from_reader`, consumer/common.rs 87). -/
def readTextBody (n : Nat) (b : Bytes) : Option (String × Bytes) :=
  match takeBytes n b with
  | none => none
  | some (a, rest) => (fromUtf8 a).map fun s => (s, rest)

mutual

/-- `ciborium::into_writer`, consumer/common.rs 98-118: integers, texts, `None` as null, sequences, and maps and structs
with their field names. No message contains a fraction. -/
def write : Json → Bytes
  | .null => [0xf6]
  | .num (.ofNat n) => writeHead 0 n
  | .num (.negSucc n) => writeHead 1 n
  | .str s => writeText s
  | .bool b => [if b then 0xf5 else 0xf4]
  | .float _ | .unreadable => [0xf7]
  | .arr xs => writeHead 4 xs.length ++ writeAll xs
  | .obj fs => writeHead 5 fs.length ++ writeFields fs

/-- The elements of a sequence (`into_writer`, consumer/common.rs 103). -/
def writeAll : List Json → Bytes
  | [] => []
  | x :: xs => write x ++ writeAll xs

/-- The entries of a map (`into_writer`, consumer/common.rs 103). -/
def writeFields : List (String × Json) → Bytes
  | [] => []
  | (k, v) :: fs => writeText k ++ write v ++ writeFields fs

end

/-- `n` items one after the other (`from_reader`, consumer/common.rs 87). -/
def many {α : Type} (p : Bytes → Option (α × Bytes)) : Nat → Bytes → Option (List α × Bytes)
  | 0, b => some ([], b)
  | n + 1, b =>
    match p b with
    | none => none
    | some (a, b) => (many p n b).map fun (as, b) => (a :: as, b)

/-- An entry of a map: a text and an item (`from_reader`, consumer/common.rs 87). -/
def entry (p : Bytes → Option (Json × Bytes)) (b : Bytes) : Option ((String × Json) × Bytes) :=
  match readHead b with
  | none => none
  | some (major, n, b) =>
    if major = 3 then
      match readTextBody n b with
      | none => none
      | some (k, b) => (p b).map fun (v, b) => ((k, v), b)
    else none

/-- `ciborium::from_reader`, consumer/common.rs 83-97: one item, and what follows it. `depth`: how many sequences
and maps may still be entered. Simplification: an enum variant without fields, which ciborium counts as one more
level, is not counted; in the messages here that never makes a difference, see `Model/Messages.lean`. -/
def read (depth : Nat) (b : Bytes) : Option (Json × Bytes) :=
  match readHead b with
  | none => none
  | some (major, n, b) =>
    if major = 0 then some (.num n, b)
    else if major = 1 then some (.num (.negSucc n), b)
    else if major = 3 then (readTextBody n b).map fun (s, b) => (.str s, b)
    else if major = 4 then
      match depth with
      | 0 => none
      | d + 1 => (many (read d) n b).map fun (xs, b) => (.arr xs, b)
    else if major = 5 then
      match depth with
      | 0 => none
      | d + 1 => (many (entry (read d)) n b).map fun (fs, b) => (.obj fs, b)
    else if major = 7 ∧ n = 22 then some (.null, b)
    else none

end Opsqueue.Cbor
