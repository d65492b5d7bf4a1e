import Verif.Model.Types

/-!
# SQL programs with faults and crashes

The semantics of running statements on the single writer connection
(`opsqueue/src/db/mod.rs`). SQLite itself is trusted: a statement is atomic, a transaction that
is not committed leaves no trace.
-/

namespace Opsqueue

/-- What the environment does at one statement: nothing special, makes it fail with an error,
kills the process before the statement takes effect, or kills it just after. -/
inductive Fault where
  | ok
  | fail
  | crash
  | crashLate
deriving DecidableEq, Repr

/-- State seen by an SQL program: the remaining faults the environment will inject (an exhausted
list means no more faults) and the database as seen by this connection. -/
structure World where
  oracle : List Fault := []
  db : DB := {}
deriving DecidableEq, Repr

/-- Result of a program: a value, an error, or the process died. -/
inductive Res (ε α : Type) where
  | ok (a : α)
  | err (e : ε)
  | crash
deriving DecidableEq, Repr

/-- An SQL program with error type `ε` (an `async fn(... conn) -> Result<α, ε>`). -/
def Sql (ε α : Type) := World → Res ε α × World

namespace Sql

/-- `Ok(a)`. -/
protected def pure {ε α : Type} (a : α) : Sql ε α := fun w => (.ok a, w)

/-- Sequencing with `?`: errors and crashes stop the program. -/
protected def bind {ε α β : Type} (x : Sql ε α) (f : α → Sql ε β) : Sql ε β := fun w =>
  match x w with
  | (.ok a, w') => f a w'
  | (.err e, w') => (.err e, w')
  | (.crash, w') => (.crash, w')

instance {ε : Type} : Monad (Sql ε) where
  pure := Sql.pure
  bind := Sql.bind

/-- `Err(e)`. -/
def throw {ε α : Type} (e : ε) : Sql ε α := fun w => (.err e, w)

/-- `match x.await { ... }`: run `x` and hand its `Result` to `k`. A crash is not observable. -/
def matchRes {ε ε' α β : Type} (x : Sql ε α) (k : Except ε α → Sql ε' β) : Sql ε' β := fun w =>
  match x w with
  | (.ok a, w') => k (.ok a) w'
  | (.err e, w') => k (.error e) w'
  | (.crash, w') => (.crash, w')

/-- `.map_err(f)` (also the implicit `From` conversion of `?`). -/
def mapErr {ε ε' α : Type} (f : ε → ε') (x : Sql ε α) : Sql ε' α := fun w =>
  match x w with
  | (.ok a, w') => (.ok a, w')
  | (.err e, w') => (.err (f e), w')
  | (.crash, w') => (.crash, w')

/-- The effect of one statement function on the database; a failing statement changes nothing. -/
def applyStmt {α : Type} (f : DB → Except DbErr (α × DB)) (db : DB) : Except DbErr α × DB :=
  match f db with
  | .ok (a, db') => (.ok a, db')
  | .error e => (.error e, db)

/-- One SQL statement (`query!(..).execute/fetch_*`, e.g. submission.rs 349-363). One oracle symbol
is consumed. -/
def stmt {α : Type} (f : DB → Except DbErr (α × DB)) : Sql DbErr α := fun w =>
  match w.oracle with
  | [] =>
    match f w.db with
    | .ok (a, db') => (.ok a, ⟨[], db'⟩)
    | .error e => (.err e, ⟨[], w.db⟩)
  | .ok :: o =>
    match f w.db with
    | .ok (a, db') => (.ok a, ⟨o, db'⟩)
    | .error e => (.err e, ⟨o, w.db⟩)
  | .fail :: o => (.err .io, ⟨o, w.db⟩)
  | .crash :: o => (.crash, ⟨o, w.db⟩)
  | .crashLate :: o => (.crash, ⟨o, (applyStmt f w.db).2⟩)

/-- A read-only statement. -/
def query {α : Type} (f : DB → Except DbErr α) : Sql DbErr α :=
  stmt fun db => match f db with
    | .ok a => .ok (a, db)
    | .error e => .error e

/-- `Connection::transaction`, opsqueue/src/db/mod.rs 129-144 (sqlx `transaction`: BEGIN or, when
nested, SAVEPOINT; run the closure; COMMIT on `Ok`, ROLLBACK on `Err`). BEGIN and COMMIT consume
an oracle symbol each and may fail; a crash at COMMIT may strike before (`crash`) or after
(`crashLate`) the commit became durable. Any error or crash restores the snapshot taken at BEGIN.
Simplification: a failing ROLLBACK is treated as a rollback (SQLite rolls back when the connection
is closed). `conv` is the `E: From<sqlx::Error>` conversion. -/
def transaction {ε α : Type} (conv : DbErr → ε) (body : Sql ε α) : Sql ε α := fun w =>
  match stmt (fun db => .ok ((), db)) w with
  | (.err e, w1) => (.err (conv e), w1)
  | (.crash, w1) => (.crash, w1)
  | (.ok (), w1) =>
    match body w1 with
    | (.err e, w2) => (.err e, ⟨w2.oracle, w1.db⟩)
    | (.crash, w2) => (.crash, ⟨w2.oracle, w1.db⟩)
    | (.ok a, w2) =>
      match w2.oracle with
      | [] => (.ok a, w2)
      | .ok :: o => (.ok a, ⟨o, w2.db⟩)
      | .fail :: o => (.err (conv .io), ⟨o, w1.db⟩)
      | .crash :: o => (.crash, ⟨o, w1.db⟩)
      | .crashLate :: o => (.crash, ⟨o, w2.db⟩)

end Sql
end Opsqueue
