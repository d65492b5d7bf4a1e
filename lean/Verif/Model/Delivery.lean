import Verif.Model.Server

/-!
# What a consumer gets with a chunk

`Model/Server.lean` only keeps the ids of the chunks in an answer. Here the answers are what the server sends: each chunk as the
query returned it, with its submission as it was read thereafter (`Vec<(Chunk, Submission)>`, state.rs 66, dispatcher/mod.rs
212-234).
-/

namespace Opsqueue.Delivery
open Server (ConnId Fetching)
open Conn (Request)

/-- A running `fetch_and_reserve_chunks` (dispatcher/mod.rs 212-234). `row`: the row that was tried last; `got`: the pairs collected
so far. -/
structure Current where
  row : Option ChunkRow := none
  got : List (ChunkRow × Submission) := []
deriving DecidableEq, Repr

/-- The server; per connection what its fetch has collected; the answers sent so far: connection, nonce, chunks. -/
structure State where
  server : Server.State
  current : Map ConnId Current := []
  sent : List (ConnId × Nat × List (ChunkRow × Submission)) := []
deriving DecidableEq, Repr

/-- The server just after its start. -/
def init (ttl maxRetries : Nat) : State := { server := Server.init ttl maxRetries }

/-- The fetch that is running on a connection. -/
def fetching (s : State) (c : ConnId) : Option Fetching := (s.server.conn c).bind (·.fetching)

/-- What the fetch of a connection has collected. -/
def State.currentOf (s : State) (c : ConnId) : Current := (s.current.get c).getD {}

/-- The end of a fetch: the answer is sent if there is something in it (conn.rs 234 and 262-272). -/
def finish (s : State) (c : ConnId) (nonce : Nat) (got : List (ChunkRow × Submission)) : State :=
  match got with
  | [] => s
  | _ => { s with sent := s.sent ++ [(c, nonce, got)] }

/-- The next row of the query (dispatcher/mod.rs 226-228), or its end. -/
def row (s : State) (c : ConnId) : State :=
  match fetching s c with
  | some { req, rows, joining := none, .. } => match rows with
    | [] => finish s c req.nonce (s.currentOf c).got
    | r :: _ => { s with current := s.current.set c { s.currentOf c with row := some r } }
  | _ => s

/-- `join_chunk_with_submission_info` (dispatcher/mod.rs 306-324) and `take(limit)` (230). -/
def join (s : State) (c : ConnId) : State :=
  match fetching s c, (s.currentOf c).row with
  | some { req, joining := some id, .. }, some r =>
    match (SubmissionDb.getSubmission id.submissionId ⟨[], s.server.db⟩).1 with
    | .ok sub =>
      let got := (s.currentOf c).got ++ [(r, sub)]
      if got.length = req.max then finish s c req.nonce got
      else { s with current := s.current.set c { row := none, got } }
    | _ => s
  | _, _ => s

/-- A request that arrives while nothing is being fetched starts with nothing (dispatcher/mod.rs 219-234). -/
def start (s : State) (c : ConnId) : State :=
  match fetching s c with
  | none => { s with current := s.current.set c {} }
  | some _ => s

/-- One step: next to what the server does (`Model/Server.lean`), what it collects and sends. -/
def step (s : State) (a : Server.Action) : State :=
  let t := match a with
    | .request c _ _ => start s c
    | .retry c _ => start s c
    | .row c => row s c
    | .join c => join s c
    | _ => s
  { t with server := Server.step s.server a }

/-- A history. -/
def exec (s : State) (h : List Server.Action) : State := h.foldl step s

/-- A history from the start. -/
def run (ttl maxRetries : Nat) (h : List Server.Action) : State := exec (init ttl maxRetries) h

end Opsqueue.Delivery
