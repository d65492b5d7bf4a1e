import Verif.Model.System

/-!
# Calls that are made at the same time

Models the pool with the one connection that can write (`opsqueue/src/db/mod.rs` 181-269, 475-495), used by tasks whose
statements interleave with everything else: readers look at the database between any two statements, tasks wait for
the connection, are dropped halfway (the HTTP client has gone), and the process may die.

SQLite is trusted as in `Model/Sql.lean`, with its isolation: nobody else sees what a connection did in a transaction
before that is committed (WAL mode, db/mod.rs 408). Simplifications: the time a task waits for the connection is not
limited (a task whose time is up has done nothing); no other process writes to the file.
-/

namespace Opsqueue.Concurrent

/-- What an `async fn` with a connection still has to do, with result `ρ`: it returns, or runs a statement and goes on with
its result. `begin`, `commit` and `rollback` are those of `Connection::transaction`, db/mod.rs 129-144 (`SAVEPOINT`,
`RELEASE`, `ROLLBACK TO` when nested). -/
inductive Code (ρ : Type) : Type 1 where
  | ret (r : ρ)
  | stmt {β : Type} (f : DB → Except DbErr (β × DB)) (k : Except DbErr β → Code ρ)
  | begin (k : Except DbErr Unit → Code ρ)
  | commit (k : Except DbErr Unit → Code ρ)
  | rollback (k : Code ρ)

/-- A connection (db/conn.rs 31-34): the database as it sees it, and as it was at the beginning of each open transaction, the
innermost first. -/
structure Conn where
  db : DB
  saved : List DB := []

/-- The database as everybody else sees it: without what is not committed (db/mod.rs 408). -/
def Conn.committed (c : Conn) : DB := c.saved.getLastD c.db

/-- The innermost transaction is undone (sqlx `Transaction`, used in db/mod.rs 129-144). -/
def Conn.undo (c : Conn) : Conn :=
  match c.saved with
  | [] => c
  | d :: ds => ⟨d, ds⟩

/-- A task runs its next statement, which succeeds as far as the environment is concerned (`fail = false`), or fails without
an effect. A failing COMMIT is followed by a rollback; a failing ROLLBACK is treated as a rollback, as in
`Model/Sql.lean`. `none`: there is no statement to run. Used for each `.await` on a connection (chunk.rs,
submission.rs). -/
def Code.step {ρ : Type} (fail : Bool) : Code ρ → Conn → Option (Code ρ × Conn)
  | .ret _, _ => none
  | .stmt f k, c =>
    if fail then some (k (.error .io), c)
    else
      match f c.db with
      | .ok (b, db) => some (k (.ok b), { c with db })
      | .error e => some (k (.error e), c)
  | .begin k, c =>
    if fail then some (k (.error .io), c) else some (k (.ok ()), { c with saved := c.db :: c.saved })
  | .commit k, c =>
    if fail then some (k (.error .io), c.undo) else some (k (.ok ()), { c with saved := c.saved.drop 1 })
  | .rollback k, c => some (k, c.undo)

/-- A task that has the connection. -/
structure Active where
  task : Nat
  code : Code Out
  conn : Conn

/-- The database, when no task has the connection, or the task that has it; all tasks so far; those that wait for the
connection; the calls that have returned, with their results. -/
structure State where
  db : DB := DB.empty
  active : Option Active := none
  called : List Nat := []
  waiting : List Nat := []
  returned : List (Nat × Out) := []

/-- What can happen.
* `call i`: a request arrives, and a task for it is made (producer/server.rs 120-139, 184-215; consumer/server/mod.rs
  226-309; submission.rs 1170-1185);
* `acquire i`: the task gets the connection (db/mod.rs 312-314);
* `giveUp i`: the task is dropped, or its time is up, before it gets the connection;
* `statement fail`: the task that has it runs its next statement;
* `return`: the task ends, the connection goes back to the pool;
* `drop late`: the task is dropped, before or after its next statement took effect; sqlx rolls back what is open when the
  connection goes back;
* `crash late`: the process dies and is started again. -/
inductive Event where
  | call (i : Nat)
  | acquire (i : Nat)
  | giveUp (i : Nat)
  | statement (fail : Bool)
  | return
  | drop (late : Bool)
  | crash (late : Bool)
deriving DecidableEq, Repr

/-- What remains in the file when the active task goes away (db/mod.rs 129-144: nothing that was not committed). -/
def Active.leave (a : Active) (late : Bool) : DB :=
  if late then
    match a.code.step false a.conn with
    | some (_, c) => c.committed
    | none => a.conn.committed
  else a.conn.committed

/-- One event, `none` if it cannot happen (see `Event`; the pool is that of db/mod.rs 475-495). `code i` is what task `i`
does with the connection. -/
def step (code : Nat → Code Out) (s : State) : Event → Option State
  | .call i =>
    if i ∈ s.called then none else some { s with called := i :: s.called, waiting := i :: s.waiting }
  | .acquire i =>
    match s.active with
    | some _ => none
    | none =>
      if i ∈ s.waiting then
        some { s with active := some ⟨i, code i, ⟨s.db, []⟩⟩, waiting := s.waiting.filter (· ≠ i) }
      else none
  | .giveUp i => some { s with waiting := s.waiting.filter (· ≠ i) }
  | .statement fail =>
    match s.active with
    | none => none
    | some a =>
      match a.code.step fail a.conn with
      | some (k, c) => some { s with active := some { a with code := k, conn := c } }
      | none => none
  | .return =>
    match s.active with
    | some ⟨i, .ret r, c⟩ => some { s with db := c.committed, active := none, returned := s.returned ++ [(i, r)] }
    | _ => none
  | .drop late =>
    match s.active with
    | some a => some { s with db := a.leave late, active := none }
    | none => none
  | .crash late =>
    match s.active with
    | some a => some { s with db := a.leave late, active := none, waiting := [] }
    | none => some { s with waiting := [] }

/-- A run (of what is started in main.rs 59-88). -/
def run (code : Nat → Code Out) : State → List Event → Option State
  | s, [] => some s
  | s, e :: es => (step code s e).bind fun s => run code s es

/-- What a reader sees (db/mod.rs 349-360: `reader_conn`). -/
def State.seen (s : State) : DB :=
  match s.active with
  | some a => a.conn.committed
  | none => s.db

end Opsqueue.Concurrent
