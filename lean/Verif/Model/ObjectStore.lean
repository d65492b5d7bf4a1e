import Verif.Model.Types
import Verif.Model.Map
import Verif.Model.Decimal

/-!
# The object store client

Models `opsqueue/src/object_store/mod.rs`, and of the crate `object_store` (0.14.1) the parts it relies on:
`Path::from`, `put` and `get`.

Assumptions on the store: a `get` returns what the last `put` under the same path stored, and an error if there was
none; nothing is ever removed. A `put` that reports an error may have stored the object or not.
-/

namespace Opsqueue.ObjectStore

/-- `ChunkType`, object_store/mod.rs 39-46. -/
inductive ChunkType where
  | input
  | output
deriving DecidableEq, Repr

/-- `Display for ChunkType`, object_store/mod.rs 48-55. -/
def ChunkType.text : ChunkType → List Char
  | .input => "in".toList
  | .output => "out".toList

/-- `str::split('/')` (crate object_store, `From<String> for Path`; called in object_store/mod.rs 339). -/
def splitSlash : List Char → List (List Char)
  | [] => [[]]
  | c :: cs =>
    if c = '/' then [] :: splitSlash cs
    else match splitSlash cs with
      | [] => [[c]]
      | part :: parts => (c :: part) :: parts

/-- `str::as_bytes` (crate object_store, `From<&str> for PathPart`; called through object_store/mod.rs 339). -/
def utf8 (s : List Char) : Bytes := (String.ofList s).toByteArray.data.toList

/-- The bytes that are percent-encoded (crate object_store, `INVALID` in src/path/parts.rs; crate percent-encoding:
control characters and all bytes that are not ASCII): `/ \ { ^ } % backtick ] " > [ ~ < # | * ?`. -/
def encoded (b : UInt8) : Bool :=
  b < 32 || b ≥ 127 ||
    [47, 92, 123, 94, 125, 37, 96, 93, 34, 62, 91, 126, 60, 35, 124, 42, 63].contains b

/-- A hexadecimal digit, in upper case (crate percent-encoding, used as above). -/
def hex (d : UInt8) : UInt8 := if d < 10 then 48 + d else 55 + d

/-- One byte of a part (crate percent-encoding, `percent_encode`). -/
def encodeByte (b : UInt8) : Bytes :=
  if encoded b then [37, hex (b / 16), hex (b % 16)] else [b]

/-- `From<&[u8]> for PathPart` (crate object_store, src/path/parts.rs): `.` and `..` are encoded, other parts are
percent-encoded byte by byte. -/
def encodePart (b : Bytes) : Bytes :=
  if b = [46] then [37, 50, 69]
  else if b = [46, 46] then [37, 50, 69, 37, 50, 69]
  else b.flatMap encodeByte

/-- `join("/")`. -/
def joinSlash : List Bytes → Bytes
  | [] => []
  | [part] => part
  | part :: parts => part ++ 47 :: joinSlash parts

/-- `Path::from(String)` (crate object_store, src/path/mod.rs): split at slashes, encode, drop the empty parts,
join. -/
def pathOf (text : List Char) : Bytes :=
  joinSlash (((splitSlash text).map fun part => encodePart (utf8 part)).filter fun part => part ≠ [])

/-- `chunk_path`, object_store/mod.rs 333-343. `base`: the text of `base_path`. -/
def chunkPath (base : List Char) (pfx : String) (index : ChunkIndex) (t : ChunkType) : Bytes :=
  pathOf (base ++ '/' :: (pfx.toList ++ '/' :: (Decimal.decimal index ++ '-' :: (t.text ++ ".bin".toList))))

/-- The objects in the store, by path (`DynObjectStore`, object_store/mod.rs 14-37). -/
abbrev Store := Map Bytes Bytes

/-- A chunk that someone puts into the store. -/
structure Write where
  pfx : String
  index : ChunkIndex
  type : ChunkType
  content : Bytes
deriving DecidableEq, Repr

/-- `put` of a chunk (`store_chunk`, object_store/mod.rs 254-274, if there is no error). -/
def write (base : List Char) (s : Store) (w : Write) : Store :=
  s.set (chunkPath base w.pfx w.index w.type) w.content

/-- Several chunks are put into the store. -/
def writes (base : List Char) (s : Store) (ws : List Write) : Store := ws.foldl (write base) s

/-- How a `put` ends: with an error, the object may or may not be stored. -/
inductive PutResult where
  | ok
  | failed (stored : Bool)
deriving DecidableEq, Repr

/-- `store_chunk`, object_store/mod.rs 254-274. -/
def storeChunk (base : List Char) (s : Store) (w : Write) : PutResult → Except Unit Unit × Store
  | .ok => (.ok (), write base s w)
  | .failed true => (.error (), write base s w)
  | .failed false => (.error (), s)

/-- One round of the loop of `store_chunks`: what the others store in the meantime, what the stream of contents
yields, and how the `put` ends. -/
structure Round where
  others : List Write := []
  content : Except Unit Bytes
  put : PutResult := .ok
deriving Repr

/-- `store_chunks`, object_store/mod.rs 213-247, from index `i` on: the rounds until the stream ends. The first error
(of the stream or of a `put`, both become `ChunkContentsEvalError`) ends the loop. Simplification: no overflow of the
index after 2^63 chunks. -/
def storeFrom (base : List Char) (pfx : String) (t : ChunkType) :
    Nat → List Round → Store → Except Unit Nat × Store
  | i, [], s => (.ok i, s)
  | i, r :: rs, s =>
    let s := writes base s r.others
    match r.content with
    | .error _ => (.error (), s)
    | .ok content =>
      match storeChunk base s ⟨pfx, i, t, content⟩ r.put with
      | (.error _, s) => (.error (), s)
      | (.ok _, s) => storeFrom base pfx t (i + 1) rs s

/-- `store_chunks`, object_store/mod.rs 213-247. -/
def storeChunks (base : List Char) (pfx : String) (t : ChunkType) (rounds : List Round) (s : Store) :
    Except Unit Nat × Store :=
  storeFrom base pfx t 0 rounds s

/-- `retrieve_chunk`, object_store/mod.rs 281-306, if the store can be reached. -/
def retrieveChunk (base : List Char) (s : Store) (pfx : String) (i : ChunkIndex) (t : ChunkType) :
    Except Unit Bytes :=
  match s.get (chunkPath base pfx i t) with
  | some content => .ok content
  | none => .error ()

/-- The loop of `retrieve_chunks`, object_store/mod.rs 307-326: `n` more chunks from index `i` on; `others i` is what
the others store before the chunk `i` is read. -/
def retrieveFrom (base : List Char) (pfx : String) (t : ChunkType) (others : Nat → List Write) :
    Nat → Nat → Store → List (Except Unit Bytes)
  | _, 0, _ => []
  | i, n + 1, s =>
    let s := writes base s (others i)
    retrieveChunk base s pfx i t :: retrieveFrom base pfx t others (i + 1) n s

/-- `retrieve_chunks`, object_store/mod.rs 307-326. -/
def retrieveChunks (base : List Char) (pfx : String) (count : Nat) (t : ChunkType) (others : Nat → List Write)
    (s : Store) : List (Except Unit Bytes) :=
  retrieveFrom base pfx t others 0 count s

end Opsqueue.ObjectStore
