import Verif.Model.Conn
import Verif.Model.Reserver
import Verif.Model.MetaState
import Verif.Model.Map

/-!
# The server: dispatcher, connections, completer and producer calls together

Models `opsqueue/src/consumer/dispatcher/mod.rs`, `consumer/server/state.rs`, the completer in
`consumer/server/mod.rs`, the parts of `consumer/server/conn.rs` that start and finish a reserve
request, and the writing endpoints of `producer/server.rs`, as one transition system. One action is
one step that is not interrupted by other tasks; all actions of all connections, of the completer, of
producers and of the clock can interleave in any order.
-/

namespace Opsqueue.Server
open Conn (Request Response Report)

/-- A connection, `ConnId` in consumer/server/conn.rs: fresh for every websocket. -/
abbrev ConnId := Nat

/-- A running `fetch_and_reserve_chunks` (dispatcher/mod.rs 212-234): the request, the rows that the
query will still deliver, the chunk that was just reserved and is being joined with its submission,
and the chunks collected so far. -/
structure Fetching where
  req : Request
  rows : List ChunkRow
  joining : Option ChunkId := none
  got : List ChunkId := []
deriving DecidableEq, Repr

/-- One connection. `held`: `ConsumerState::reservations` (consumer/server/state.rs 21-26), a set.
`spawned`: requests that found nothing and whose task has been spawned but has not run yet;
`waiting`: those whose task waits in `notified()`; `retry`: those sent to the connection again
(conn.rs 242-255). `answers`: the reserve responses sent so far. -/
structure ConnState where
  live : Bool := true
  held : List ChunkId := []
  fetching : Option Fetching := none
  spawned : List Request := []
  waiting : List Request := []
  retry : List Request := []
  answers : List (Nat × Response) := []
deriving DecidableEq, Repr

/-- The whole server: `ServerState` (consumer/server/mod.rs 61-69), `Dispatcher`
(dispatcher/mod.rs 160-183) and `Completer` (consumer/server/mod.rs 182-189). `queue`: the completer's
mailbox. `completing`: the message whose database call is done and whose reservation is not yet
released (connection, chunk, delayed). `notifies`: inserts after which `notify_waiters` has yet to be
called. `calls` is a ghost: the database calls made so far. -/
structure State where
  maxRetries : Nat
  reserver : Reserver ChunkId ChunkId ConnId
  db : DB := DB.empty
  counters : MetaState := []
  conns : Map ConnId ConnState := []
  queue : List (ConnId × Report) := []
  completing : Option (ConnId × ChunkId × Bool) := none
  notifies : Nat := 0
  calls : List Op := []
deriving DecidableEq, Repr

/-- The server just after its start. -/
def init (ttl maxRetries : Nat) : State := { maxRetries, reserver := .new ttl }

/-- What the query sees while it runs: the random offset, and the answers of the callbacks
`opsqueue_is_reserved` and `opsqueue_metadata_counts` (dispatcher/mod.rs 26-158). SQLite calls them
while the query is running, so that they may reflect different moments: any answers are possible. -/
structure View where
  offset : Nat
  reserved : ChunkId → Bool
  counts : String → List (Int × Nat)

/-- The answers of the callbacks if nothing else happens while the query runs. -/
def State.view (s : State) (offset : Nat) : View :=
  { offset, reserved := s.reserver.isReserved, counts := s.counters.countsOf }

/-- Time passes, or the reserver's background task does something (reserver.rs 130-161). -/
inductive Tick where
  | advance (d : Nat)
  | purgeNext
  | runPendingTasks
  | evict (key : ChunkId)
deriving DecidableEq, Repr

/-- The operation on the reserver (reserver.rs 130-161). -/
def Tick.op : Tick → Reserver.Op ChunkId ChunkId ConnId
  | .advance d => .advance d
  | .purgeNext => .purgeNext
  | .runPendingTasks => .runPendingTasks
  | .evict key => .evict key

/-- A database call of a producer endpoint or of the periodic cleanup (producer/server.rs 120-139 and
184-215, submission.rs 1170-1185). -/
inductive ProducerCall where
  | insert (a : SubmissionDb.InsertArgs) (now : Time) (o : List Fault)
  | cancel (id : SubmissionId) (now1 now2 : Time) (o : List Fault)
  | cleanup (olderThan : Time) (o : List Fault)
deriving DecidableEq, Repr

/-- The call on the database (producer/server.rs 120-139 and 184-215, submission.rs 1170-1185). -/
def ProducerCall.op : ProducerCall → Op
  | .insert a now o => .insert a now o
  | .cancel id now1 now2 o => .cancel id now1 now2 o
  | .cleanup olderThan o => .cleanup olderThan o

/-- One step. -/
inductive Action where
  /-- a websocket is opened -/
  | connect (c : ConnId)
  /-- a reserve request arrives and its query starts -/
  | request (c : ConnId) (r : Request) (v : View)
  /-- a request that waited is tried again -/
  | retry (c : ConnId) (v : View)
  /-- the next row of the query is tried, or the query ends -/
  | row (c : ConnId)
  /-- the reserved chunk is joined with its submission -/
  | join (c : ConnId)
  /-- a database error while fetching -/
  | fetchFails (c : ConnId)
  /-- a spawned task starts waiting for an insert -/
  | register (c : ConnId) (i : Nat)
  /-- a complete or fail report arrives -/
  | report (c : ConnId) (r : Report)
  /-- the completer takes a message and makes the database call -/
  | handle (writerOk : Bool) (now1 now2 now3 : Time) (o : List Fault)
  /-- the completer releases the reservation -/
  | release (metadataOk : Bool)
  /-- a connection ends: it is closed, or its task panics, which can happen at any moment, also in the middle of a
  fetch (`join_chunk_with_submission_info` panics on a database error, dispatcher/mod.rs 306-324) -/
  | disconnect (c : ConnId)
  /-- a producer call or the cleanup -/
  | producer (call : ProducerCall)
  /-- `notify_waiters` after an insert -/
  | notify
  /-- time passes -/
  | tick (t : Tick)

/-- Replace the state of a connection. -/
def State.setConn (s : State) (c : ConnId) (k : ConnState) : State :=
  { s with conns := s.conns.set c k }

/-- The state of a connection that exists and has not ended. -/
def State.conn (s : State) (c : ConnId) : Option ConnState := (s.conns.get c).filter (·.live)

/-- The process died and was started again on the database `db`: nothing in memory survives, all
connections are gone. -/
def State.restart (s : State) (db : DB) : State :=
  { s with
    db, counters := [], queue := [], completing := none, notifies := 0
    reserver := { (.new s.reserver.ttl : Reserver ChunkId ChunkId ConnId) with now := s.reserver.now }
    conns := s.conns.map fun p => (p.1, { live := false, answers := p.2.answers }) }

/-- Answer a request (conn.rs 257-268). -/
def ConnState.answer (k : ConnState) (r : Request) (a : Response) : ConnState :=
  { k with fetching := none, answers := k.answers ++ [(r.nonce, a)] }

/-- The start of `fetch_and_reserve_chunks`: state.rs 67-69, dispatcher/mod.rs 219-224. -/
def begin (s : State) (c : ConnId) (k : ConnState) (r : Request) (v : View) : State :=
  if r.max = 0 then s.setConn c (k.answer r none)
  else
    let rows := r.strategy.chunkRows v.offset v.reserved v.counts s.db
    s.setConn c { k with fetching := some { req := r, rows } }

/-- The end of a successful `fetch_and_reserve_chunks`: state.rs 82-86, conn.rs 234-255. -/
def finishFetch (k : ConnState) (f : Fetching) : ConnState :=
  match f.got with
  | [] => { k with fetching := none, spawned := k.spawned ++ [f.req] }
  | ids => { k.answer f.req (some ids) with held := k.held ++ ids }

/-- `insert_metadata`, dispatcher/mod.rs 195-199. -/
def insertMetadata (m : MetaState) (md : StrategicMetadata) : MetaState :=
  md.foldl (fun m kv => m.increment kv.1 kv.2) m

/-- `remove_metadata`, dispatcher/mod.rs 201-205 (the decrement never panics: C33). -/
def removeMetadata (m : MetaState) (md : StrategicMetadata) : MetaState :=
  md.foldl (fun m kv => (m.decrement kv.1 kv.2).getD m) m

/-- `finish_reservations_sync`, dispatcher/mod.rs 326-330. -/
def finishReservationsSync (r : Reserver ChunkId ChunkId ConnId) (ids : List ChunkId) :
    Reserver ChunkId ChunkId ConnId :=
  ids.foldl Reserver.finishSync r

/-- The end of a connection's task, by returning or by a panic: `Drop for ConsumerState`,
state.rs 28-38. -/
def dropConn (s : State) (c : ConnId) (k : ConnState) : State :=
  { s with
    reserver := finishReservationsSync s.reserver k.held
    conns := s.conns.set c { live := false, answers := k.answers } }

/-- `reserve_chunk` for the next row, dispatcher/mod.rs 226-228 and 295-304. -/
def fetchRow (s : State) (c : ConnId) (k : ConnState) (f : Fetching) : State :=
  match f.rows with
  | [] => s.setConn c (finishFetch k f)
  | row :: rows =>
    match s.reserver.tryReserve row.key row.key c with
    | (none, reserver) =>
      { s with reserver }.setConn c { k with fetching := some { f with rows } }
    | (some _, reserver) =>
      { s with reserver }.setConn c { k with fetching := some { f with rows, joining := some row.key } }

/-- `join_chunk_with_submission_info`, dispatcher/mod.rs 306-324, followed by `take(limit)`, 230. The
`expect` panics if the submission is not in progress any more. Simplification: the two queries and the
increments are one step. -/
def fetchJoin (s : State) (c : ConnId) (k : ConnState) (f : Fetching) (id : ChunkId) : State :=
  match (SubmissionDb.getSubmission id.submissionId ⟨[], s.db⟩).1 with
  | .ok _ =>
    let f := { f with joining := none, got := f.got ++ [id] }
    { s with counters := insertMetadata s.counters (Stmt.strategicOf id.submissionId s.db) }.setConn c
      (if f.got.length = f.req.max then finishFetch k f else { k with fetching := some f })
  | _ => dropConn s c k

/-- A database call. If it ended in a crash, the server is started again. -/
def dbCall (s : State) (op : Op) : Out × State :=
  let r := step s.db op
  let s := { s with db := r.2, calls := s.calls ++ [op] }
  (r.1, if r.1.crashed then s.restart r.2 else s)

/-- The database call of a report, consumer/server/mod.rs 240-242 and 276-282. -/
def reportOp (maxRetries : Nat) (now1 now2 now3 : Time) (o : List Fault) : Report → Op
  | .complete id output => .complete id output now1 now2 o
  | .fail id failure => .fail id failure maxRetries now1 now2 now3 o

/-- The chunk a report is about. -/
def _root_.Opsqueue.Conn.Report.id : Report → ChunkId
  | .complete id _ => id
  | .fail id _ => id

/-- Whether the reservation is released with a delay: always after a completion
(consumer/server/mod.rs 247), after a failure iff it was permanent (287). -/
def delayedAfter : Out → Bool
  | .completed _ => true
  | .failed (.ok permanently) => permanently
  | _ => false

/-- The first half of `handle_message`, consumer/server/mod.rs 229-242 and 276-282. -/
def handle (s : State) (writerOk : Bool) (now1 now2 now3 : Time) (o : List Fault) : State :=
  match s.completing, s.queue with
  | none, (c, r) :: queue =>
    let s := { s with queue }
    if writerOk then
      let res := dbCall s (reportOp s.maxRetries now1 now2 now3 o r)
      if res.1.crashed then res.2
      else { res.2 with completing := some (c, r.id, delayedAfter res.1) }
    else s
  | _, _ => s

/-- The second half of `handle_message`, consumer/server/mod.rs 244-248 and 283-290, with
`finish_reservation`, dispatcher/mod.rs 332-351. `metadataOk = false`: the query for the metadata fails.
Simplification: one step. -/
def release (s : State) (metadataOk : Bool) : State :=
  match s.completing with
  | none => s
  | some (c, id, delayed) =>
    { s with
      completing := none
      conns := match s.conns.get c with
        | some k => s.conns.set c { k with held := k.held.filter (· ≠ id) }
        | none => s.conns
      reserver := (s.reserver.finish id delayed).2
      counters := if metadataOk then
          removeMetadata s.counters (Stmt.strategicOf id.submissionId s.db)
        else s.counters }

/-- `notify_waiters` (producer/server.rs 211) wakes the tasks that are waiting; each sends its request
back to its connection (conn.rs 246-253). -/
def ConnState.wake (k : ConnState) : ConnState :=
  { k with waiting := [], retry := k.retry ++ k.waiting }

/-- Do something with a live connection. -/
def State.withConn (s : State) (c : ConnId) (f : ConnState → State) : State :=
  match s.conn c with
  | none => s
  | some k => f k

/-- Do something with a live connection that is not busy fetching (conn.rs 104-139 handles one event
at a time). -/
def State.withIdle (s : State) (c : ConnId) (f : ConnState → State) : State :=
  s.withConn c fun k => if k.fetching.isSome then s else f k

/-- Do something with the fetch of a live connection. -/
def State.withFetch (s : State) (c : ConnId) (f : ConnState → Fetching → State) : State :=
  s.withConn c fun k => match k.fetching with
    | none => s
    | some g => f k g

/-- A producer call, producer/server.rs 120-139 and 184-215: a successful insert is followed by
`notify_waiters` (later: `notify`). -/
def producerCall (s : State) (call : ProducerCall) : State :=
  match dbCall s call.op with
  | (.inserted (.ok _), s) => { s with notifies := s.notifies + 1 }
  | (_, s) => s

/-- One step; an action that is not possible in the state does nothing. -/
def step (s : State) : Action → State
  | .connect c => match s.conns.get c with
    | none => s.setConn c {}
    | some _ => s
  | .request c r v => s.withIdle c fun k => begin s c k r v
  | .retry c v => s.withIdle c fun k => match k.retry with
    | [] => s
    | r :: rest => begin s c { k with retry := rest } r v
  | .row c => s.withFetch c fun k f => match f.joining with
    | none => fetchRow s c k f
    | some _ => s
  | .join c => s.withFetch c fun k f => match f.joining with
    | none => s
    | some id => fetchJoin s c k f id
  | .fetchFails c => s.withFetch c fun k f => s.setConn c (k.answer f.req (some []))
  | .register c i => s.withConn c fun k => match k.spawned[i]? with
    | none => s
    | some r => s.setConn c { k with spawned := k.spawned.eraseIdx i, waiting := k.waiting ++ [r] }
  | .report c r => s.withIdle c fun _ => { s with queue := s.queue ++ [(c, r)] }
  | .handle writerOk now1 now2 now3 o => handle s writerOk now1 now2 now3 o
  | .release metadataOk => release s metadataOk
  | .disconnect c => s.withConn c fun k => dropConn s c k
  | .producer call => producerCall s call
  | .notify => match s.notifies with
    | 0 => s
    | n + 1 => { s with notifies := n, conns := s.conns.map fun p => (p.1, p.2.wake) }
  | .tick t => { s with reserver := s.reserver.step t.op }

/-- A history of the server. -/
def exec (s : State) (h : List Action) : State := h.foldl step s

/-- A history from the start. -/
def run (ttl maxRetries : Nat) (h : List Action) : State := exec (init ttl maxRetries) h

end Opsqueue.Server
