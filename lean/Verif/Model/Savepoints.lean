import Verif.Model.System

/-!
# Transactions and savepoints as SQLite has them

`Model/Sql.lean` has transactions that restore a snapshot, and `Model/Statements.lean` drops the `SAVEPOINT` and `RELEASE` lines
inside of the texts of queries. Here is what is sent to SQLite: one stack of savepoints per connection, shared by those of sqlx's
nested transactions and those of the texts, and commands that find their savepoint in it by its name. The calls are written again
with these.

SQLite's commands are trusted to work as documented (lang_savepoint.html). Simplification: the `SAVEPOINT` and `RELEASE` lines inside
of a text do not fail on their own and are not struck by crashes (within a transaction they do no I/O; a crash at one of them is one
at the next statement).
-/

namespace Opsqueue.Savepoints

/-- The names of savepoints: `_sqlx_savepoint_k`, sqlx's for a transaction at depth `k`, and those in the texts of queries (chunk.rs
461, 611; submission.rs 943). -/
inductive Name where
  | sqlx (k : Nat)
  | text (name : String)
deriving DecidableEq, Repr

/-- An open savepoint, or the `BEGIN` of the transaction (`none`), with the database at that time. -/
structure Mark where
  name : Option Name
  saved : DB
deriving DecidableEq, Repr

/-- A connection (db/conn.rs 31-34): the database as it sees it, what is open, the latest first, and the number of sqlx's
transactions that are open. -/
structure Conn where
  db : DB
  stack : List Mark := []
  depth : Nat := 0
deriving DecidableEq, Repr

/-- What is left when the connection is lost, or the process dies: the database before the outermost mark. -/
def Conn.committed (c : Conn) : DB :=
  match c.stack.getLast? with
  | none => c.db
  | some m => m.saved

/-- The part of the stack from the latest savepoint with the name on. -/
def from? (n : Name) (stack : List Mark) : List Mark := stack.dropWhile fun m => m.name != some n

/-- `BEGIN`; an error inside of a transaction. -/
def Conn.begin (c : Conn) : Except DbErr Conn :=
  match c.stack with
  | [] => .ok { c with stack := [⟨none, c.db⟩] }
  | _ :: _ => .error .io

/-- `SAVEPOINT n`; the outermost one is the beginning of a transaction. -/
def Conn.savepoint (n : Name) (c : Conn) : Conn := { c with stack := ⟨some n, c.db⟩ :: c.stack }

/-- `RELEASE n`: the latest savepoint with that name is forgotten and all that were opened after it; if it was the outermost mark,
this commits. An error if there is none. -/
def Conn.release (n : Name) (c : Conn) : Except DbErr Conn :=
  match from? n c.stack with
  | [] => .error .io
  | _ :: rest => .ok { c with stack := rest }

/-- `ROLLBACK TO n`: as at the latest savepoint with that name, which stays open. -/
def Conn.rollbackTo (n : Name) (c : Conn) : Except DbErr Conn :=
  match from? n c.stack with
  | [] => .error .io
  | m :: rest => .ok { c with db := m.saved, stack := m :: rest }

/-- `COMMIT`: everything is closed; an error if there is no transaction. -/
def Conn.commit (c : Conn) : Except DbErr Conn :=
  match c.stack with
  | [] => .error .io
  | _ :: _ => .ok { c with stack := [] }

/-- `ROLLBACK`: everything is undone and closed; an error if there is no transaction. -/
def Conn.rollback (c : Conn) : Except DbErr Conn :=
  match c.stack with
  | [] => .error .io
  | _ :: _ => .ok { c with db := c.committed, stack := [] }

/-- State seen by a program, see `World` in `Model/Sql.lean`. -/
structure World where
  oracle : List Fault := []
  conn : Conn

/-- A program (an `async fn(… conn) -> Result<α, ε>`), as in `Model/Sql.lean`. -/
def Prog (ε α : Type) := World → Res ε α × World

namespace Prog

/-- Sequencing with `?`. -/
protected def bind {ε α β : Type} (x : Prog ε α) (f : α → Prog ε β) : Prog ε β := fun w =>
  match x w with
  | (.ok a, w') => f a w'
  | (.err e, w') => (.err e, w')
  | (.crash, w') => (.crash, w')

instance {ε : Type} : Monad (Prog ε) where
  pure a := fun w => (.ok a, w)
  bind := Prog.bind

/-- `Err(e)`. -/
def throw {ε α : Type} (e : ε) : Prog ε α := fun w => (.err e, w)

/-- `match x.await { ... }`. -/
def matchRes {ε ε' α β : Type} (x : Prog ε α) (k : Except ε α → Prog ε' β) : Prog ε' β := fun w =>
  match x w with
  | (.ok a, w') => k (.ok a) w'
  | (.err e, w') => k (.error e) w'
  | (.crash, w') => (.crash, w')

/-- `.map_err(f)`. -/
def mapErr {ε ε' α : Type} (f : ε → ε') (x : Prog ε α) : Prog ε' α := fun w =>
  match x w with
  | (.ok a, w') => (.ok a, w')
  | (.err e, w') => (.err (f e), w')
  | (.crash, w') => (.crash, w')

/-- One command, which can be struck by a fault, as in `Sql.stmt`. What was not committed is lost with the process. -/
def command {α : Type} (f : Conn → Except DbErr (α × Conn)) : Prog DbErr α := fun w =>
  let lost (c : Conn) : Conn := ⟨c.committed, [], 0⟩
  let late : Conn := match f w.conn with
    | .ok (_, c) => c
    | .error _ => w.conn
  match w.oracle with
  | [] =>
    match f w.conn with
    | .ok (a, c) => (.ok a, ⟨[], c⟩)
    | .error e => (.err e, ⟨[], w.conn⟩)
  | .ok :: o =>
    match f w.conn with
    | .ok (a, c) => (.ok a, ⟨o, c⟩)
    | .error e => (.err e, ⟨o, w.conn⟩)
  | .fail :: o => (.err .io, ⟨o, w.conn⟩)
  | .crash :: o => (.crash, ⟨o, lost w.conn⟩)
  | .crashLate :: o => (.crash, ⟨o, lost late⟩)

/-- A statement that reads or changes rows (those of `Model/Statements.lean`). -/
def stmt {α : Type} (f : DB → Except DbErr (α × DB)) : Prog DbErr α :=
  command fun c => match f c.db with
    | .ok (a, db) => .ok (a, { c with db })
    | .error e => .error e

/-- A read-only statement. -/
def query {α : Type} (f : DB → Except DbErr α) : Prog DbErr α :=
  stmt fun db => match f db with
    | .ok a => .ok (a, db)
    | .error e => .error e

/-- A `SAVEPOINT` line in a text. -/
def savepoint {ε : Type} (name : String) : Prog ε Unit := fun w =>
  (.ok (), { w with conn := w.conn.savepoint (.text name) })

/-- A `RELEASE SAVEPOINT` line in a text (an error here never occurs, and would be that of the query). -/
def release (name : String) : Prog DbErr Unit := fun w =>
  match w.conn.release (.text name) with
  | .ok c => (.ok (), { w with conn := c })
  | .error e => (.err e, w)

/-- What sqlx sends at the start of a transaction: `BEGIN`, or `SAVEPOINT _sqlx_savepoint_k` if `k` are open (sqlx 0.9,
`begin_ansi_transaction_sql`). -/
def start (c : Conn) : Except DbErr (Unit × Conn) :=
  if c.depth = 0 then
    match c.begin with
    | .ok c => .ok ((), { c with depth := 1 })
    | .error e => .error e
  else .ok ((), { c.savepoint (.sqlx c.depth) with depth := c.depth + 1 })

/-- What sqlx sends at the end of one that succeeded: `COMMIT`, or `RELEASE SAVEPOINT _sqlx_savepoint_k`. -/
def finish (c : Conn) : Except DbErr (Unit × Conn) :=
  match if c.depth = 1 then c.commit else c.release (.sqlx (c.depth - 1)) with
  | .ok c => .ok ((), { c with depth := c.depth - 1 })
  | .error e => .error e

/-- What sqlx sends to undo one: `ROLLBACK`, or `ROLLBACK TO SAVEPOINT _sqlx_savepoint_k`. As in `Model/Sql.lean`, it is not struck
by faults. -/
def undo (c : Conn) : Conn :=
  match if c.depth = 1 then c.rollback else c.rollbackTo (.sqlx (c.depth - 1)) with
  | .ok c => { c with depth := c.depth - 1 }
  | .error _ => c

/-- `Connection::transaction`, db/mod.rs 129-144, with sqlx's `Connection::transaction` (commit on `Ok`, rollback on `Err`; a
transaction whose `COMMIT` fails is rolled back when it is dropped). -/
def transaction {ε α : Type} (conv : DbErr → ε) (body : Prog ε α) : Prog ε α := fun w =>
  match command start w with
  | (.err e, w1) => (.err (conv e), w1)
  | (.crash, w1) => (.crash, w1)
  | (.ok (), w1) =>
    match body w1 with
    | (.err e, w2) => (.err e, { w2 with conn := undo w2.conn })
    | (.crash, w2) => (.crash, w2)
    | (.ok a, w2) =>
      match command finish w2 with
      | (.ok (), w3) => (.ok a, w3)
      | (.err e, w3) => (.err (conv e), { w3 with conn := undo w3.conn })
      | (.crash, w3) => (.crash, w3)

end Prog

open Prog

/-- The last lines of a text that is run with `fetch_one`: a statement that returns rows, and the `RELEASE` after it. sqlx stops
reading when it has the row, and does not send what follows; `rest`: in case it does. Without a row everything is run. -/
def fetchOneThenRelease {α : Type} (rest : Bool) (name : String) (f : DB → Except DbErr (Option α × DB)) : Prog DbErr α := do
  let row ← stmt f
  match row with
  | none => do
    release name
    throw .rowNotFound
  | some a => do
    if rest then release name
    pure a

/-- `DELETE FROM chunks WHERE … RETURNING *`, chunk.rs 467. -/
def deleteChunkReturning (cid : ChunkId) (db : DB) : Except DbErr (Option ChunkRow × DB) :=
  .ok (db.chunks.find? (·.key == cid), { db with chunks := db.chunks.filter (fun r => !(r.key == cid)) })

/-- `insert_many_chunks`, chunk.rs 572-596. -/
def insertBatches (n : Nat) (rows : List ChunkRow) : Prog DbErr Unit :=
  match rows with
  | [] => pure ()
  | r :: rs => do
    stmt (Stmt.insertChunks ((r :: rs).take (n + 1)))
    insertBatches n (rs.drop n)
termination_by rows.length
decreasing_by simp; omega

/-- `skip_remaining_chunks`, chunk.rs 604-628 (`execute`: all lines are run). -/
def skipRemainingChunks (id : SubmissionId) (now : Time) : Prog DbErr Unit := do
  savepoint "skip_remaining_chunks"
  stmt (Stmt.insertSkippedSelect id now)
  stmt (Stmt.deleteChunksOf id)
  release "skip_remaining_chunks"

/-- `move_chunk_to_failed_chunks`, chunk.rs 450-482. -/
def moveChunkToFailedChunks (rest : Bool) (cid : ChunkId) (failure : String) (now : Time) : Prog DbErr Unit := do
  savepoint "move_chunk_to_failed_chunks"
  stmt (Stmt.insertChunkFailedSelect cid failure now)
  let _ ← fetchOneThenRelease rest "move_chunk_to_failed_chunks" (deleteChunkReturning cid)
  pure ()

/-- `complete_chunk_raw`, chunk.rs 346-389. -/
def completeChunkRaw (cid : ChunkId) (output : Content) (now : Time) : Prog DbErr (Option Int) := do
  stmt (Stmt.insertChunkCompletedSelect cid output now)
  stmt (Stmt.deleteChunk cid)
  stmt (Stmt.bumpChunksDone cid.submissionId)

/-- `get_chunk_failed`, chunk.rs 544-564. -/
def getChunkFailed (cid : ChunkId) : Prog DbErr ChunkFailed := query (Stmt.selectChunkFailed cid)

/-- `insert_submission_metadata_raw`, submission.rs 373-397. -/
def insertMetadata (id : SubmissionId) : StrategicMetadata → Prog DbErr Unit
  | [] => pure ()
  | (k, v) :: rest => do
    stmt (Stmt.insertMetadata ⟨id, k, v⟩)
    insertMetadata id rest

/-- `insert_submission`, submission.rs 400-431. -/
def insertSubmission (s : SubmissionRow) (strategic : StrategicMetadata) (chunks : List ChunkRow) : Prog DbErr Unit :=
  transaction id do
    stmt (Stmt.insertSubmission s)
    insertMetadata s.id strategic
    insertBatches 999 chunks

/-- `get_submission`, submission.rs 505-541. -/
def getSubmission (id : SubmissionId) : Prog (E DbErr SubmissionNotFound) Submission := do
  let row ← mapErr E.L (query fun db => .ok (Stmt.selectSubmission id db))
  match row with
  | none => throw (.R ⟨id⟩)
  | some s => pure s

/-- `complete_submission_raw`, submission.rs 936-969: `RowNotFound` becomes `SubmissionNotFound`. -/
def completeSubmissionRaw (rest : Bool) (id : SubmissionId) (now : Time) : Prog (E DbErr SubmissionNotFound) Unit :=
  mapErr (fun | .rowNotFound => .R ⟨id⟩ | e => .L e) do
    savepoint "complete_submission_raw"
    stmt (Stmt.insertCompletedSelect id now)
    let _ ← fetchOneThenRelease rest "complete_submission_raw" (Stmt.deleteSubmission id)
    pure ()

/-- `maybe_complete_submission`, submission.rs 822-839. -/
def maybeCompleteSubmission (rest : Bool) (id : SubmissionId) (now : Time) : Prog (E DbErr SubmissionNotFound) Bool :=
  transaction E.L do
    let s ← getSubmission id
    if s.chunksDone = s.chunksTotal then
      completeSubmissionRaw rest id now
      pure true
    else
      pure false

/-- `insert_submission_from_chunks`, submission.rs 445-497. -/
def insertSubmissionFromChunks (rest : Bool) (a : SubmissionDb.InsertArgs) (now : Time) : Prog DbErr SubmissionId := do
  insertSubmission a.row a.strategic (SubmissionDb.mkChunks a.id a.contents)
  if a.contents.length = 0 then
    matchRes (maybeCompleteSubmission rest a.id now) fun
      | .error (.L e) => throw e
      | .error (.R _) => pure a.id
      | .ok _ => pure a.id
  else
    pure a.id

/-- `submission_status`, submission.rs 660-811. -/
def submissionStatus (id : SubmissionId) : Prog DbErr (Option SubmissionStatus) := do
  let r1 ← query fun db => .ok (Stmt.selectSubmission id db)
  match r1 with
  | some s => pure (some (.inProgress s))
  | none => do
    let r2 ← query fun db => .ok (Stmt.selectCompleted id db)
    match r2 with
    | some s => pure (some (.completed s))
    | none => do
      let r3 ← query fun db => .ok (Stmt.selectFailed id db)
      match r3 with
      | some s => do
        let c ← getChunkFailed ⟨s.id, s.failedChunkId⟩
        pure (some (.failed s c))
      | none => do
        let r4 ← query fun db => .ok (Stmt.selectCancelled id db)
        match r4 with
        | some s => pure (some (.cancelled s))
        | none => pure none

/-- `cancel_submission_raw`, submission.rs 903-932 (no savepoint). -/
def cancelSubmissionRaw (id : SubmissionId) (now : Time) : Prog (E DbErr SubmissionNotFound) Unit := do
  mapErr E.L (stmt (Stmt.insertCancelledSelect id now))
  let row ← mapErr E.L (stmt (Stmt.deleteSubmission id))
  match row with
  | none => throw (.R ⟨id⟩)
  | some _ => pure ()

/-- `cancel_submission_notx`, submission.rs 893-900. -/
def cancelSubmissionNotx (id : SubmissionId) (now1 now2 : Time) : Prog (E DbErr SubmissionNotFound) Unit := do
  cancelSubmissionRaw id now1
  mapErr E.L (skipRemainingChunks id now2)

/-- `cancel_submission`, submission.rs 853-886. -/
def cancelSubmission (id : SubmissionId) (now1 now2 : Time) : Prog SubmissionDb.CancelErr Unit :=
  transaction (fun e => .err (.L e)) <|
    matchRes (cancelSubmissionNotx id now1 now2) fun
      | .ok () => pure ()
      | .error (.L e) => throw (.err (.L e))
      | .error (.R nf) =>
        matchRes (submissionStatus id) fun
          | .ok none => throw (.err (.R (.L nf)))
          | .ok (some (.inProgress _)) => throw .panicked
          | .ok (some (.completed s)) => throw (.err (.R (.R (.completed s))))
          | .ok (some (.failed s c)) => throw (.err (.R (.R (.failed s c))))
          | .ok (some (.cancelled s)) => throw (.err (.R (.R (.cancelled s))))
          | .error e => throw (.err (.L e))

/-- `fail_submission_raw`, submission.rs 972-1000 (no savepoint). -/
def failSubmissionRaw (id : SubmissionId) (failedChunk : ChunkIndex) (now : Time) : Prog DbErr Unit := do
  stmt (Stmt.insertFailedSelect id failedChunk now)
  let row ← stmt (Stmt.deleteSubmission id)
  match row with
  | none => throw .rowNotFound
  | some _ => pure ()

/-- `fail_submission_notx`, submission.rs 1027-1042. -/
def failSubmissionNotx (rest : Bool) (id : SubmissionId) (failedChunk : ChunkIndex) (failure : String) (now1 now2 now3 : Time) :
    Prog DbErr Unit := do
  failSubmissionRaw id failedChunk now1
  moveChunkToFailedChunks rest ⟨id, failedChunk⟩ failure now2
  skipRemainingChunks id now3

/-- `cleanup_old`, submission.rs 1092-1168. -/
def cleanupOld (t : Time) : Prog DbErr Unit :=
  transaction (fun e => e) do
    stmt (Stmt.deleteMetadataOfOldCompleted t)
    stmt (Stmt.deleteMetadataOfOldFailed t)
    stmt (Stmt.deleteMetadataOfOldCancelled t)
    stmt (Stmt.deleteOldCompleted t)
    stmt (Stmt.deleteOldFailed t)
    stmt (Stmt.deleteOldCancelled t)
    stmt (Stmt.deleteOldChunksCompleted t)
    stmt (Stmt.deleteOldChunksFailed t)

/-- `complete_chunk`, chunk.rs 312-338. -/
def completeChunk (rest : Bool) (cid : ChunkId) (output : Content) (now1 now2 : Time) : Prog ChunkDb.CompleteErr Unit :=
  matchRes (transaction E.L do
    let work ← mapErr E.L (completeChunkRaw cid output now1)
    let _ ← mapErr (fun | .L e => .L e | .R e => .R (.L e)) (maybeCompleteSubmission rest cid.submissionId now2)
    pure (decodeChunkSize work) : Prog ChunkDb.CompleteErr Int) fun _ => pure ()

/-- `retry_or_fail_chunk`, chunk.rs 397-442. -/
def retryOrFailChunk (rest : Bool) (cid : ChunkId) (failure : String) (maxRetries : Nat) (now1 now2 now3 : Time) :
    Prog DbErr Bool :=
  transaction (fun e => e) do
    let retries ← stmt (Stmt.bumpRetries cid)
    if retries ≥ maxRetries then
      failSubmissionNotx rest cid.submissionId cid.chunkIndex failure now1 now2 now3
      pure true
    else
      pure false

/-- The calls of `Model/System.lean`, on a connection that may have been used before. -/
def step (rest : Bool) (c : Conn) : Op → Out × Conn
  | .insert a now o =>
    let r := insertSubmissionFromChunks rest a now ⟨o, c⟩
    (.inserted r.1, r.2.conn)
  | .complete cid output now1 now2 o =>
    let r := completeChunk rest cid output now1 now2 ⟨o, c⟩
    (.completed r.1, r.2.conn)
  | .fail cid failure m now1 now2 now3 o =>
    let r := retryOrFailChunk rest cid failure m now1 now2 now3 ⟨o, c⟩
    (.failed r.1, r.2.conn)
  | .cancel id now1 now2 o =>
    let r := cancelSubmission id now1 now2 ⟨o, c⟩
    (.cancelled r.1, r.2.conn)
  | .cleanup t o =>
    let r := cleanupOld t ⟨o, c⟩
    (.cleaned r.1, r.2.conn)

end Opsqueue.Savepoints
