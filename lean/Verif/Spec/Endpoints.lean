import Verif.Model.Http
import Verif.Spec.Numerals

/-!
# What a well-formed request to the producer's HTTP interface looks like

Independent of the decoders: which JSON trees mean which insert request, and what a client has received at the end of an
attempt.
-/

namespace Opsqueue.Http
open Wire SubmissionDb

/-! ## Bodies -/

/-- The object has no field of this name. -/
def Absent (name : String) (fs : List (String × Json)) : Prop := ∀ f ∈ fs, f.1 ≠ name

/-- The object has one field of this name, and this is its value. -/
def Has (name : String) (v : Json) (fs : List (String × Json)) : Prop :=
  ∃ l r, fs = l ++ (name, v) :: r ∧ Absent name l ∧ Absent name r

/-- A number. -/
def number (n : Int) : Json := .num n

/-- Bytes: an array of numbers. -/
def bytes (b : Bytes) : Json := .arr (b.map fun x => .num x.toNat)

/-- The content of a chunk: null, or bytes. -/
def content : Content → Json
  | none => .null
  | some b => bytes b

/-- A field that may be left out, or be null. -/
def Optionally {α : Type} (name : String) (text : α → Json) (fs : List (String × Json)) : Option α → Prop
  | none => Absent name fs ∨ Has name .null fs
  | some a => Has name (text a) fs

/-- A strategic metadata map: an object of numbers. -/
def strategicMap (m : StrategicMetadata) : Json := .obj (m.map fun kv => (kv.1, .num kv.2))

/-- The fields of a record: with their names, in an object, or without, in an array; then all of them and in the order
given here. -/
def Record (names : List String) (j : Json) (fs : List (String × Json)) : Prop :=
  j = .obj fs ∨ j = .arr (fs.map (·.2)) ∧ fs.map (·.1) = names

/-- Where the chunks of a new submission are. -/
def SaysChunks (j : Json) : ChunkContents → Prop
  | .seeObjectStorage p n =>
    ∃ v fs, j = .obj [("SeeObjectStorage", v)] ∧ Record ["prefix", "count"] v fs ∧ Has "prefix" (.str p) fs ∧
      Has "count" (.num n) fs
  | .direct cs => ∃ v fs, j = .obj [("Direct", v)] ∧ Record ["contents"] v fs ∧ Has "contents" (.arr (cs.map content)) fs

/-- The JSON tree is an insert request for `r`. Other fields do not matter, nor does their order. -/
def SaysInsert (j : Json) (r : InsertSubmission) : Prop :=
  ∃ fs, Record ["chunk_contents", "metadata", "strategic_metadata", "chunk_size"] j fs ∧ (∃ c, Has "chunk_contents" c fs ∧ SaysChunks c r.chunkContents) ∧
    Optionally "metadata" bytes fs r.metadata ∧
    (Absent "strategic_metadata" fs ∧ r.strategic = [] ∨ Has "strategic_metadata" (strategicMap r.strategic) fs) ∧
    Optionally "chunk_size" number fs r.chunkSize

/-- The entries of a map that is given as a list: each name once, with the value given last. -/
def LastValues (given kept : StrategicMetadata) : Prop :=
  (kept.map (·.1)).Nodup ∧
  ∀ k v, (k, v) ∈ kept ↔ ∃ l r, given = l ++ (k, v) :: r ∧ ∀ kv ∈ r, kv.1 ≠ k

/-- The insert makes the submission the request asks for: its chunks are given, or are so many in the object store under
a prefix; a chunk size that is left out is 1. -/
def AsksFor (r : InsertSubmission) (a : InsertArgs) : Prop :=
  (match r.chunkContents with
    | .direct cs => a.pfx = none ∧ a.contents = cs
    | .seeObjectStorage p n => a.pfx = some p ∧ a.contents.length = n ∧ ∀ c ∈ a.contents, c = none) ∧
  a.metadata = r.metadata ∧ LastValues r.strategic a.strategic ∧
  a.chunkSize = (match r.chunkSize with | none => 1 | some n => n)

/-! ## Paths -/

/-- The path `/producer/submissions/…`. -/
def submissionsPath (rest : List Seg) : List Seg := "producer".toList :: "submissions".toList :: rest

/-- The methods and paths the producer's interface offers (`post` is false for GET). -/
def Offered (post : Bool) (path : List Seg) : Prop :=
  if post then
    path = submissionsPath [] ∨ (∃ seg, seg ≠ [] ∧ path = submissionsPath ["cancel".toList, seg]) ∨
    path = submissionsPath ["lookup_ids_by_strategic_metadata".toList]
  else
    path = ["producer".toList, "version".toList] ∨
    (∃ seg, seg ≠ [] ∧ seg ≠ "lookup_ids_by_strategic_metadata".toList ∧ path = submissionsPath [seg]) ∨
    (∃ seg, seg ≠ [] ∧ path = submissionsPath ["lookup_id_by_prefix".toList, seg])

/-- `c` is the hexadecimal digit with value `v`. -/
def HexDigit (c : Char) (v : Nat) : Prop :=
  "0123456789ABCDEF".toList[v]? = some c ∨ "0123456789abcdef".toList[v]? = some c

/-- The first text, in a path, stands for the second: an escape like `%2B` is the character with that code, everything
else (also a percent sign without two hexadecimal digits after it) is itself. -/
inductive Unescapes : List Char → List Char → Prop where
  | nil : Unescapes [] []
  | escape {a b : Char} {x y : Nat} {cs out : List Char} (ha : HexDigit a x) (hb : HexDigit b y)
      (h : Unescapes cs out) : Unescapes ('%' :: a :: b :: cs) (Char.ofNat (16 * x + y) :: out)
  | plain {c : Char} {cs out : List Char}
      (hc : ¬ ∃ a b rest x y, c = '%' ∧ cs = a :: b :: rest ∧ HexDigit a x ∧ HexDigit b y)
      (h : Unescapes cs out) : Unescapes (c :: cs) (c :: out)

/-- The segment is a submission id. -/
def SaysId (seg : Seg) (id : SubmissionId) : Prop :=
  ∃ text, Unescapes seg text ∧ Denotes text id ∧ id < 2 ^ 63

/-! ## What the client has received -/

/-- At the end of an attempt the client has no answer, or one. -/
inductive Received where
  | nothing (e : ReqwestError)
  | answer (r : Response)

/-- What the client received at the end of an attempt. -/
def received (max : Nat) (c : Call) (a : Attempt) (hist : List Op) : Received :=
  match a.net with
  | .ok =>
    match (handle max a.server (request c) (hist ++ a.before)).1 with
    | some r => .answer r
    | none => .nothing a.lost
  | .noRequest e => .nothing e
  | .noResponse e => .nothing e
  | .answeredBy _ r => .answer r

/-- When the client tries again. Nothing received: if there was no connection, if it timed out, if the body could not be
read, or if there was a 5xx status. An answer: a 5xx one; but in a cancel call, a 404 that does not carry an id or a 409
that does not say what became of the submission, and in a lookup by metadata, a 200 that does not carry ids or a 400
that does not carry the limit. -/
def WorthRetrying : Call → Received → Prop
  | _, .nothing e => e.connect = true ∨ e.timeout = true ∨ e.decode = true ∨ ∃ s, e.status = some s ∧ 500 ≤ s ∧ s < 600
  | .cancel _, .answer r =>
    r.status = 404 ∧ (∀ n : Nat, r.body ≠ .num n) ∨ r.status = 409 ∧ decNotCancellable r.body = none
  | .lookup _, .answer r =>
    r.status = 200 ∧ (∀ ns : List Nat, r.body ≠ .arr (ns.map fun n => .num (n : Nat))) ∨
    r.status = 400 ∧ (∀ n : Nat, r.body ≠ .num n)
  | _, .answer r => 500 ≤ r.status ∧ r.status < 600

end Opsqueue.Http
