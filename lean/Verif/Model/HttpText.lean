import Verif.Model.JsonText

/-!
# The producer's HTTP interface with bodies as texts

What axum's `Json` extractor and the client do with the text of a body, around `Model/Http.lean`, where bodies are trees.
-/

namespace Opsqueue.HttpText
open Wire Http SubmissionDb

/-- A request as it travels: method, path, whether its content type is JSON, and the text of the body (reqwest's
`RequestBuilder`, producer/client.rs 81-84, 118-123). -/
structure TextRequest where
  post : Bool
  path : List Seg
  isJson : Bool
  body : List Char

/-- A response as it travels (producer/server.rs 95-104). -/
structure TextResponse where
  status : Nat
  body : List Char
deriving DecidableEq, Repr

/-- The number of bytes of a text in UTF-8. -/
def utf8Length (s : List Char) : Nat := (s.map Char.utf8Size).sum

/-- axum's `DefaultBodyLimit`, which nothing in opsqueue/src/server.rs 117-160 or producer/server.rs 63-86 changes: bodies
of more than 2,097,152 bytes are refused. -/
def bodyLimit : Nat := 2097152

/-- An `i64` (serde refuses numbers outside its range; common/mod.rs 15, chunk.rs 52-53). -/
def isI64 (n : Int) : Bool := -2 ^ 63 ≤ n && n < 2 ^ 63

/-- The numbers of an insert request have their types: `count: ChunkIndex` (63 bits, producer/common.rs 25, chunk.rs
33-42), `ChunkSize(i64)` and `MetaStateVal = i64` (common/mod.rs 15); otherwise serde refuses the body (422). -/
def fitsInsert (r : InsertSubmission) : Bool :=
  (match r.chunkContents with
    | .seeObjectStorage _ n => decide (n < 2 ^ 63)
    | .direct _ => true) &&
  r.strategic.all (fun kv => isI64 kv.2) && r.chunkSize.all isI64

/-- The text of a response. Simplification: the answers of axum's own that carry a plain text (400, 404, 405, 422) are
written as `null`. -/
def toText (a : Option Response × List Op) : Option TextResponse × List Op :=
  (a.1.map fun r => ⟨r.status, JsonText.print r.body⟩, a.2)

/-- axum's `Json` extractor (producer/server.rs 163, 187): 415 unless the content type is JSON, 413 if the body is too
long, 400 if it is no JSON text, 422 if the JSON is not what is asked for (`fits` checks the types of its numbers).
Simplification: serde_json stops at what it meets first, so 400 and 422 may be swapped for a text that is no JSON and, before
that, not what is asked for, and for JSON that has an unreadable string or a number too large for an `f64` in the place of
something else. -/
def withJson {α : Type} (dec : Json → Option α) (fits : α → Bool) (q : TextRequest) (hist : List Op)
    (k : Json → Option TextResponse × List Op) : Option TextResponse × List Op :=
  if q.isJson = false then (some ⟨415, []⟩, hist)
  else if bodyLimit < utf8Length q.body then (some ⟨413, []⟩, hist)
  else match JsonText.parse q.body with
    | none => (some ⟨400, []⟩, hist)
    | some j =>
      match dec j with
      | none => (some ⟨422, []⟩, hist)
      | some a => if fits a then k j else (some ⟨422, []⟩, hist)

/-- Handle one request (producer/server.rs 120-234): only inserting and looking up by metadata read a body. -/
def handleText (max : Nat) (e : ServerEnv) (q : TextRequest) (hist : List Op) : Option TextResponse × List Op :=
  match route q.post q.path with
  | .insert =>
    withJson decInsert fitsInsert q hist fun j => toText (handle max e ⟨q.post, q.path, some j⟩ hist)
  | .lookup =>
    withJson decMap (fun m => m.all fun kv => isI64 kv.2) q hist fun j =>
      toText (handle max e ⟨q.post, q.path, some j⟩ hist)
  | _ => toText (handle max e ⟨q.post, q.path, none⟩ hist)

/-- The request of a call: `.json(..)` writes the text and sets the content type (producer/client.rs 118-123, 294-297). -/
def requestText (c : Call) : TextRequest :=
  let q := request c
  { post := q.post, path := q.path, isJson := q.body.isSome
    body := match q.body with
      | none => []
      | some j => JsonText.print j }

/-- The tree in the body of a response, if the client can read it (`serde_json::from_slice`, producer/client.rs 88). -/
def received (r : TextResponse) : Response := ⟨r.status, (JsonText.parse r.body).getD .unreadable⟩

/-- Reading the response of a call (producer/client.rs 86-88, 125-127, 169-189, 225-227, 260-262, 298-316, 350-352). -/
def interpretText (c : Call) (r : TextResponse) : Except ClientErr Result := interpret c (received r)

/-- What the network does to one attempt, as `Http.Net`. -/
inductive TextNet where
  | ok
  | noRequest (e : ReqwestError)
  | noResponse (e : ReqwestError)
  | answeredBy (passedOn : Bool) (r : TextResponse)

/-- The surroundings of one attempt, as `Http.Attempt`. -/
structure TextAttempt where
  before : List Op := []
  net : TextNet := .ok
  server : ServerEnv := {}
  lost : ReqwestError := {}

/-- One attempt of a call (the closures in producer/client.rs 79-91 and similarly in the other calls). -/
def attemptText (max : Nat) (c : Call) (a : TextAttempt) (hist : List Op) : Except ClientErr Result × List Op :=
  let hist := hist ++ a.before
  let handled := handleText max a.server (requestText c) hist
  match a.net with
  | .ok =>
    match handled.1 with
    | some r => (interpretText c r, handled.2)
    | none => (.error (.http a.lost), handled.2)
  | .noRequest e => (.error (.http e), hist)
  | .noResponse e => (.error (.http e), handled.2)
  | .answeredBy passedOn r => (interpretText c r, if passedOn then handled.2 else hist)

/-- A call of the producer client (producer/client.rs 78-353). -/
def callText (max : Nat) (c : Call) (env : Nat → TextAttempt) (hist : List Op) :
    Except ClientErr Result × List Op × Nat :=
  retrying (match c with | .version => fun _ => false | _ => isEphemeral)
    (fun i h => attemptText max c (env i) h) c.delays 0 hist

end Opsqueue.HttpText
