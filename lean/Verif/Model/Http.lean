import Verif.Model.Decimal
import Verif.Model.System
import Verif.Model.Wire

/-!
# The producer's HTTP interface: client, network and server

`opsqueue/src/producer/server.rs` (routes and handlers) and `opsqueue/src/producer/client.rs` (requests, reading of
responses, retries). The server's state is the history of the writing calls made so far (`Model/System.lean`); its
database is `run` of it.
-/

namespace Opsqueue.Http
open SubmissionDb Wire

/-- A segment of a URL path. -/
abbrev Seg := List Char

/-- A request: method (POST or GET), path segments after parsing the URL, JSON body
(reqwest's `RequestBuilder`, producer/client.rs 81-84, 118-123). -/
structure HttpRequest where
  post : Bool
  path : List Seg
  body : Option Json

/-- A response (axum's `Response`, producer/server.rs 95-104). -/
structure Response where
  status : Nat
  body : Json

/-! ## URLs -/

/-- Path separators of the `url` crate for http URLs. -/
def isSep (c : Char) : Bool := c == '/' || c == '\\'

/-- Split a path at its separators. -/
def splitPath : List Char → List Seg
  | [] => [[]]
  | c :: cs =>
    if isSep c then [] :: splitPath cs
    else match splitPath cs with
      | [] => [[c]]
      | s :: ss => (c :: s) :: ss

/-- Dot segments are resolved by the `url` crate when the URL is parsed. -/
def resolve (acc : List Seg) : List Seg → List Seg
  | [] => acc
  | [s] =>
    if s = ['.'] then acc ++ [[]] else if s = ['.', '.'] then acc.dropLast ++ [[]] else acc ++ [s]
  | s :: ss =>
    if s = ['.'] then resolve acc ss else if s = ['.', '.'] then resolve acc.dropLast ss
    else resolve (acc ++ [s]) ss

/-- Control characters and spaces at the end of a URL are dropped. -/
def trimEnd (t : List Char) : List Char := (t.reverse.dropWhile fun c => c.toNat ≤ 32).reverse

/-- Parsing the path of the URL the client formats (url crate, through `reqwest`'s `get`/`post`, producer/client.rs
83, 120, 165, 222, 255-257): tabs and line breaks are dropped, `?` and `#` end the path. Simplification: characters the
url crate percent-encodes are left as they are, because axum decodes them again; a host with a path of its own is not
modelled. -/
def urlPath (t : List Char) : List Seg :=
  resolve [] (splitPath (((trimEnd t).filter fun c => c != '\t' && c != '\n' && c != '\r').takeWhile
    fun c => c != '?' && c != '#'))

/-- Value of a hexadecimal digit. -/
def hex? (c : Char) : Option Nat :=
  if 48 ≤ c.toNat ∧ c.toNat ≤ 57 then some (c.toNat - 48)
  else if 65 ≤ c.toNat ∧ c.toNat ≤ 70 then some (c.toNat - 55)
  else if 97 ≤ c.toNat ∧ c.toNat ≤ 102 then some (c.toNat - 87)
  else none

/-- axum percent-decodes captured path segments (`Path<String>`, producer/server.rs 152). Simplification: one escape is
one character (true of ASCII). -/
def percentDecode : List Char → List Char
  | [] => []
  | '%' :: a :: b :: cs =>
    match hex? a, hex? b with
    | some x, some y => Char.ofNat (16 * x + y) :: percentDecode cs
    | _, _ => '%' :: percentDecode (a :: b :: cs)
  | c :: cs => c :: percentDecode cs

/-- `Path<SubmissionId>` (producer/server.rs 122, 143): `u64::from_str`, then `SubmissionId::try_from`, which refuses what
does not fit in 63 bits (submission.rs 34-43). -/
def pathId (seg : Seg) : Option SubmissionId := (Decimal.parse (percentDecode seg)).filter fun n => decide (n < 2 ^ 63)

/-! ## The server -/

/-- What a path and method lead to, producer/server.rs 63-86 (nested under `/producer`, opsqueue/src/server.rs 120).
A fixed segment wins over a captured one; a captured one is not empty. -/
inductive Route where
  | insert
  | cancel (id : Seg)
  | countCompleted
  | count
  | lookupPrefix (pfx : Seg)
  | lookup
  | status (id : Seg)
  | version
  | notFound
  | notAllowed
deriving DecidableEq, Repr

/-- The route if the method is the right one (405 otherwise, axum `MethodRouter`). -/
def Route.onlyIf (b : Bool) (r : Route) : Route := if b then r else .notAllowed

/-- `ServerState::build_router`, producer/server.rs 63-86. -/
def route (post : Bool) : List Seg → Route
  | [n, a] =>
    if n ≠ "producer".toList then .notFound
    else if a = "submissions".toList then .onlyIf post .insert
    else if a = "version".toList then .onlyIf (!post) .version
    else .notFound
  | [n, a, b] =>
    if n ≠ "producer".toList ∨ a ≠ "submissions".toList then .notFound
    else if b = "count_completed".toList then .onlyIf (!post) .countCompleted
    else if b = "count".toList then .onlyIf (!post) .count
    else if b = "lookup_ids_by_strategic_metadata".toList then .onlyIf post .lookup
    else if b = [] then .notFound
    else .onlyIf (!post) (.status b)
  | [n, a, b, c] =>
    if n ≠ "producer".toList ∨ a ≠ "submissions".toList ∨ c = [] then .notFound
    else if b = "cancel".toList then .onlyIf post (.cancel c)
    else if b = "lookup_id_by_prefix".toList then .onlyIf (!post) (.lookupPrefix c)
    else .notFound
  | _ => .notFound

/-- What the surroundings contribute to one attempt at the server: the generated id, the trace context, clock
readings, database faults, whether a connection could be obtained from the pool (db/mod.rs 100-126), and the
server's version (opsqueue/src/lib.rs). -/
structure ServerEnv where
  id : SubmissionId := 0
  otel : String := "{}"
  now1 : Time := 0
  now2 : Time := 0
  faults : List Fault := []
  connOk : Bool := true
  version : String := "v0"

/-- `ServerError::into_response`, producer/server.rs 91-105 (the text of the error is not modelled). -/
def serverError : Response := ⟨500, .str "error"⟩

/-- Arguments of the insert call, producer/server.rs 189-203; `chunk_size.unwrap_or_default()` is 1 (chunk.rs 55-59). -/
def insertArgs (r : InsertSubmission) (e : ServerEnv) : InsertArgs :=
  let pc : Option String × List Content := match r.chunkContents with
    | .direct contents => (none, contents)
    | .seeObjectStorage p count => (some p, List.replicate count none)
  { id := e.id, pfx := pc.1, contents := pc.2, metadata := r.metadata, strategic := lastOfEach r.strategic,
    chunkSize := r.chunkSize.getD 1, otel := e.otel }

/-- Answer of a read-only handler: `Json(value)` or `ServerError` (producer/server.rs 141-157, 222-234). -/
def readAnswer {ε α : Type} (enc : α → Json) : Res ε α → Option Response
  | .ok a => some ⟨200, enc a⟩
  | .err _ => some serverError
  | .crash => none

/-- Answer of `insert_submission`, producer/server.rs 184-215. -/
def insertAnswer : Out → Option Response
  | .inserted (.ok id) => some ⟨200, encNat id⟩
  | .inserted (.err _) => some serverError
  | _ => none

/-- Answer of `cancel_submission`, producer/server.rs 116-139; a panic is answered by the panic handler
(opsqueue/src/server.rs 152-154, 168-195). -/
def cancelAnswer : Out → Option Response
  | .cancelled (.ok ()) => some ⟨200, .null⟩
  | .cancelled (.err (.err (.L _))) => some serverError
  | .cancelled (.err (.err (.R (.L nf)))) => some ⟨404, encNotFound nf⟩
  | .cancelled (.err (.err (.R (.R nc)))) => some ⟨409, encNotCancellable nc⟩
  | .cancelled (.err .panicked) => some serverError
  | _ => none

/-- Answer of `lookup_submission_ids_by_strategic_metadata`, producer/server.rs 159-181. -/
def lookupAnswer : Res (E DbErr TooManyMatchingSubmissions) (List SubmissionId) → Option Response
  | .ok ids => some ⟨200, encList encNat ids⟩
  | .err (.L _) => some serverError
  | .err (.R tm) => some ⟨400, encTooMany tm⟩
  | .crash => none

/-- Handle one request (producer/server.rs 120-234): the answer (`none`: the server died) and the history afterwards.
Path parameters and bodies that cannot be read are refused by the extractors (400, 422). Simplification: a status
request reads one snapshot (see `statusReads` in `Model/Query.lean` for the other case). -/
def handle (max : Nat) (e : ServerEnv) (q : HttpRequest) (hist : List Op) : Option Response × List Op :=
  match route q.post q.path with
  | .insert =>
    match q.body.bind decInsert with
    | none => (some ⟨422, .null⟩, hist)
    | some r =>
      if e.connOk then
        let op := Op.insert (insertArgs r e) e.now1 e.faults
        (insertAnswer (step (run hist) op).1, hist ++ [op])
      else (some serverError, hist)
  | .cancel seg =>
    match pathId seg with
    | none => (some ⟨400, .null⟩, hist)
    | some id =>
      if e.connOk then
        let op := Op.cancel id e.now1 e.now2 e.faults
        (cancelAnswer (step (run hist) op).1, hist ++ [op])
      else (some serverError, hist)
  | .status seg =>
    match pathId seg with
    | none => (some ⟨400, .null⟩, hist)
    | some id =>
      if e.connOk then
        (readAnswer (encOpt encStatus) (submissionStatus id ⟨e.faults, run hist⟩).1, hist)
      else (some serverError, hist)
  | .lookupPrefix seg =>
    if e.connOk then
      (readAnswer (encOpt encNat) (lookupIdByPrefix (String.ofList (percentDecode seg)) ⟨e.faults, run hist⟩).1, hist)
    else (some serverError, hist)
  | .lookup =>
    match q.body.bind decMap with
    | none => (some ⟨422, .null⟩, hist)
    | some m =>
      if e.connOk then (lookupAnswer (lookupIdsByStrategicMetadata (lastOfEach m) max ⟨e.faults, run hist⟩).1, hist)
      else (some serverError, hist)
  | .count =>
    if e.connOk then (readAnswer encNat (countSubmissions ⟨e.faults, run hist⟩).1, hist)
    else (some serverError, hist)
  | .countCompleted =>
    if e.connOk then (readAnswer encNat (countSubmissionsCompleted ⟨e.faults, run hist⟩).1, hist)
    else (some serverError, hist)
  | .version => (some ⟨200, .str e.version⟩, hist)
  | .notFound => (some ⟨404, .null⟩, hist)
  | .notAllowed => (some ⟨405, .null⟩, hist)

/-! ## The client -/

/-- The calls of the producer client, producer/client.rs 78-353. -/
inductive Call where
  | count
  | insert (r : InsertSubmission)
  | cancel (id : SubmissionId)
  | get (id : SubmissionId)
  | lookupPrefix (pfx : String)
  | lookup (m : StrategicMetadata)
  | version
deriving DecidableEq, Repr

/-- What they return when they succeed. -/
inductive Result where
  | count (n : Nat)
  | inserted (id : SubmissionId)
  | cancelled
  | status (s : Option SubmissionStatus)
  | found (id : Option SubmissionId)
  | ids (ids : List SubmissionId)
  | version (v : String)
deriving DecidableEq, Repr

/-- The properties of a `reqwest::Error` the client looks at, producer/client.rs 377-393. -/
structure ReqwestError where
  connect : Bool := false
  timeout : Bool := false
  decode : Bool := false
  status : Option Nat := none
deriving DecidableEq, Repr

/-- `InternalProducerClientError` (producer/client.rs 356-364) together with the errors that are answers
(producer/client.rs 153-160, 285-286). -/
inductive ClientErr where
  | http (e : ReqwestError)
  | decoding
  | unexpectedStatus (status : Nat)
  | notFound (e : SubmissionNotFound)
  | notCancellable (e : SubmissionNotCancellable)
  | tooMany (e : TooManyMatchingSubmissions)
deriving DecidableEq, Repr

/-- The path the client formats, producer/client.rs 83, 120, 165, 222, 255-257, 291-293, 347. -/
def pathText : Call → List Char
  | .count => "producer/submissions/count".toList
  | .insert _ => "producer/submissions".toList
  | .cancel id => "producer/submissions/cancel/".toList ++ Decimal.decimal id
  | .get id => "producer/submissions/".toList ++ Decimal.decimal id
  | .lookupPrefix p => "producer/submissions/lookup_id_by_prefix/".toList ++ p.toList
  | .lookup _ => "producer/submissions/lookup_ids_by_strategic_metadata".toList
  | .version => "producer/version".toList

/-- The request of a call (method, path and body as in producer/client.rs 78-353). -/
def request (c : Call) : HttpRequest :=
  { post := match c with
      | .insert _ | .cancel _ | .lookup _ => true
      | _ => false
    path := urlPath (pathText c)
    body := match c with
      | .insert r => some (encInsert r)
      | .lookup m => some (encMap m)
      | _ => none }

/-- `error_for_status()`, then `serde_json::from_slice` (producer/client.rs 86-88). -/
def checked {α : Type} (dec : Json → Option α) (r : Response) : Except ClientErr α :=
  if 400 ≤ r.status ∧ r.status < 600 then .error (.http { status := some r.status })
  else match dec r.body with
    | none => .error .decoding
    | some a => .ok a

/-- `response.json::<T>()` (producer/client.rs 175-178): a body that cannot be read is a `reqwest` decode error. -/
def jsonOr {α : Type} (dec : Json → Option α) (r : Response) (k : α → Except ClientErr Result) :
    Except ClientErr Result :=
  match dec r.body with
  | none => .error (.http { decode := true })
  | some a => k a

/-- Reading the response of a call: producer/client.rs 86-88 (count), 125-127 (insert), 169-189 (cancel), 225-227
(get), 260-262 (prefix), 298-316 (metadata), 350-352 (version). -/
def interpret (c : Call) (r : Response) : Except ClientErr Result :=
  match c with
  | .count => (checked decU32 r).map .count
  | .insert _ => (checked decNat r).map .inserted
  | .cancel _ =>
    if r.status = 200 then .ok .cancelled
    else if r.status = 404 then jsonOr decNotFound r fun e => .error (.notFound e)
    else if r.status = 409 then jsonOr decNotCancellable r fun e => .error (.notCancellable e)
    else .error (.unexpectedStatus r.status)
  | .get _ => (checked (decOpt decStatus) r).map .status
  | .lookupPrefix _ => (checked (decOpt decNat) r).map .found
  | .lookup _ =>
    if r.status = 200 then jsonOr (decList decNat) r fun ids => .ok (.ids ids)
    else if r.status = 400 then jsonOr decTooMany r fun e => .error (.tooMany e)
    else .error (.unexpectedStatus r.status)
  | .version => (checked decStr r).map .version

/-- `is_ephemeral`, producer/client.rs 368-396, and the `when` closures of cancel and lookup (193-196, 320-323). -/
def isEphemeral : ClientErr → Bool
  | .http e =>
    if e.connect || e.timeout || e.decode then true
    else match e.status with
      | some s => 500 ≤ s && s < 600
      | none => false
  | _ => false

/-! ## Attempts and retries -/

/-- What the network does to one attempt: request and response arrive; the request does not arrive; the request
arrives but the response does not; or something between client and server answers instead (a proxy), with or without
passing the request on. -/
inductive Net where
  | ok
  | noRequest (e : ReqwestError)
  | noResponse (e : ReqwestError)
  | answeredBy (passedOn : Bool) (r : Response)

/-- The surroundings of one attempt: what other clients do at the server before it arrives, the network, the server,
and what the client sees if the server dies while handling it. -/
structure Attempt where
  before : List Op := []
  net : Net := .ok
  server : ServerEnv := {}
  lost : ReqwestError := {}

/-- One attempt of a call (the closures in producer/client.rs 79-91 and similarly in the other calls). -/
def attempt (max : Nat) (c : Call) (a : Attempt) (hist : List Op) : Except ClientErr Result × List Op :=
  let hist := hist ++ a.before
  let handled := handle max a.server (request c) hist
  match a.net with
  | .ok =>
    match handled.1 with
    | some r => (interpret c r, handled.2)
    | none => (.error (.http a.lost), handled.2)
  | .noRequest e => (.error (.http e), hist)
  | .noResponse e => (.error (.http e), handled.2)
  | .answeredBy passedOn r => (interpret c r, if passedOn then handled.2 else hist)

/-- `.retry(policy).when(cond)` of the backon crate (producer/client.rs 92-100): after an error that satisfies the
condition, try again as long as the policy yields another delay. Returns also the number of attempts made. -/
def retrying {σ ε α : Type} (cond : ε → Bool) (f : Nat → σ → Except ε α × σ) :
    Nat → Nat → σ → Except ε α × σ × Nat
  | delays, i, s =>
    match f i s with
    | (.ok a, s') => (.ok a, s', i + 1)
    | (.error x, s') =>
      if cond x then
        match delays with
        | 0 => (.error x, s', i + 1)
        | d + 1 => retrying cond f d (i + 1) s'
      else (.error x, s', i + 1)

/-- `retry_policy()`, producer/client.rs 21-27: `with_max_times(100)`, so 100 delays. Their lengths are not modelled. -/
def maxRetries : Nat := 100

/-- The number of delays a call allows itself: `server_version` does not retry (producer/client.rs 343-353). -/
def Call.delays : Call → Nat
  | .version => 0
  | _ => maxRetries

/-- A call of the producer client (producer/client.rs 78-353), with the surroundings of each attempt. -/
def call (max : Nat) (c : Call) (env : Nat → Attempt) (hist : List Op) :
    Except ClientErr Result × List Op × Nat :=
  retrying (match c with | .version => fun _ => false | _ => isEphemeral)
    (fun i h => attempt max c (env i) h) c.delays 0 hist

end Opsqueue.Http
