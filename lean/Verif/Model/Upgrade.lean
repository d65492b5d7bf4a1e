import Verif.Model.Types

/-!
# Opening a database: the migrations, and the migrator that runs them

Models opsqueue/src/db/mod.rs 413-422 (`open_and_setup`), 458-467 (`ensure_db_migrated`) and the SQL of
opsqueue/migrations. The part of SQLite's data definition language the migrations use is given a meaning for databases
with any contents; the migrations are then data in that language. The migrator is sqlx's (`Migrator::run`, sqlx-core
migrate/migrator.rs, and `apply` of sqlx-sqlite migrate.rs).

Simplifications: a row is a list of named values; the order of the rows of a table means nothing; types matter only
for STRICT tables; foreign keys are not modelled (the only one is of a table that is dropped later, and a child);
the collation and the contents of indexes are not modelled (their columns are: they can stop a column from being
dropped); integers are unbounded (SQLite: 64 bits, then floating point).
-/

namespace Opsqueue.Upgrade

/-! ### SQLite -/

/-- A value (SQLite's storage classes). The code stores times as REAL, `julianday(..)` (submission.rs 913, chunk.rs 356);
no arithmetic is done with them here, so a REAL is just its bits. -/
inductive Val where
  | null
  | int (i : Int)
  | real (bits : Nat)
  | text (s : String)
  | blob (b : Bytes)
deriving DecidableEq, Repr

/-- Declared types of columns, as far as STRICT tables need them
(20240704100449 2-10, 20250104155558 2-23, 20260717143000 1-9). -/
inductive Ty where
  | integer | text | blob | other
deriving DecidableEq, Repr

/-- A value may be stored in a column of this type of a STRICT table (simplification: no conversions). -/
def Ty.admits : Ty → Val → Bool
  | _, .null => true
  | .integer, .int _ => true
  | .text, .text _ => true
  | .blob, .blob _ => true
  | _, _ => false

/-- Expressions of generated columns (20241104104445 13-15, 20250803174028 15-20, 20260803133844 2-4). -/
inductive Expr where
  | col (c : String)
  | lit (i : Int)
  | add (a b : Expr)
  | mul (a b : Expr)
  | mod (a b : Expr)
  | shr (a b : Expr)
deriving DecidableEq, Repr

/-- The columns an expression mentions. -/
def Expr.cols : Expr → List String
  | .col c => [c]
  | .lit _ => []
  | .add a b | .mul a b | .mod a b | .shr a b => a.cols ++ b.cols

/-- The number an operand stands for; `none` is NULL (simplification: everything else counts as 0; the operands are
ids and indexes, which are integers). -/
def Val.num : Val → Option Int
  | .null => none
  | .int i => some i
  | .real _ | .text _ | .blob _ => some 0

/-- SQLite's arithmetic: NULL if an operand is NULL or for `% 0`. -/
def Expr.eval (row : String → Val) : Expr → Option Int
  | .col c => (row c).num
  | .lit i => some i
  | .add a b => do return (← a.eval row) + (← b.eval row)
  | .mul a b => do return (← a.eval row) * (← b.eval row)
  | .mod a b => do
    let x ← a.eval row
    let y ← b.eval row
    if y = 0 then none else some (x.tmod y)
  | .shr a b => do return (← a.eval row) >>> (← b.eval row).toNat

/-- A column of a table; `gen` for `GENERATED ALWAYS AS (…) VIRTUAL` columns, which are not stored. -/
structure Column where
  name : String
  ty : Ty := .other
  notNull : Bool := false
  dflt : Val := .null
  gen : Option Expr := none
deriving DecidableEq, Repr

/-- What `CREATE TABLE` and later `ALTER TABLE`s say about a table. -/
structure Decl where
  name : String
  cols : List Column
  pk : List String
  strict : Bool := false
deriving DecidableEq, Repr

/-- The columns that are stored. -/
def Decl.stored (d : Decl) : List Column := d.cols.filter (·.gen == none)

/-- The stored values of a row, by column. -/
abbrev Row := List (String × Val)

/-- The value in a column (NULL if it is not stored in the row). -/
def Row.get (r : Row) (c : String) : Val := (r.lookup c).getD .null

/-- A table. -/
structure Table where
  decl : Decl
  rows : List Row := []
deriving DecidableEq, Repr

/-- An index: only its name, table and columns. -/
structure Index where
  name : String
  table : String
  cols : List String
deriving DecidableEq, Repr

/-- A row of `_sqlx_migrations` (sqlx-sqlite migrate.rs: version, checksum, success). -/
structure Applied where
  version : Nat
  checksum : Nat
  success : Bool := true
deriving DecidableEq, Repr

/-- A database file. -/
structure Database where
  tables : List Table := []
  indexes : List Index := []
  applied : List Applied := []
deriving DecidableEq, Repr

/-- The table of this name. -/
def Database.table? (db : Database) (n : String) : Option Table := db.tables.find? (·.decl.name == n)

/-- The rows of the table of this name (none if there is no such table). -/
def Database.rows (db : Database) (n : String) : List Row := ((db.table? n).map Table.rows).getD []

/-- Tables and indexes share their names. -/
def Database.taken (db : Database) (n : String) : Bool :=
  (db.table? n).isSome || (db.indexes.find? (·.name == n)).isSome

/-- Change the table of this name. -/
def Database.update (db : Database) (n : String) (f : Table → Table) : Database :=
  { db with tables := db.tables.map fun t => if t.decl.name == n then f t else t }

/-- The statements the migrations use. `insertMax dst src group value` is
`INSERT INTO dst (group…, value) SELECT group…, MAX(value) FROM src GROUP BY group…` (20260717143000 13-19). -/
inductive Stmt where
  | createTable (d : Decl)
  | addColumn (table : String) (c : Column)
  | dropColumn (table : String) (c : String)
  | dropTable (table : String)
  | renameTable (old new : String)
  | createIndex (i : Index)
  | dropIndex (name : String)
  | insertMax (dst src : String) (group : List String) (value : String)
deriving DecidableEq, Repr

/-- Why a statement fails. -/
inductive DdlErr where
  | taken | noTable | noColumn | noIndex | duplicateColumn | inUse | constraint
deriving DecidableEq, Repr

/-- A value may be stored in this column. -/
def Column.fits (strict : Bool) (c : Column) (v : Val) : Bool :=
  (!c.notNull || v != .null) && (!strict || c.ty.admits v)

/-- `ALTER TABLE ADD COLUMN` does not violate a constraint: a stored column gets its default in all rows, a generated
column that is NOT NULL is computed for all rows (SQLite: alter.c, `sqlite3AlterFinishAddColumn`). -/
def Table.addable (t : Table) (c : Column) : Bool :=
  match c.gen with
  | none => t.rows.isEmpty || c.fits t.decl.strict c.dflt
  | some e => !c.notNull || t.rows.all fun r => (e.eval r.get).isSome

/-- The table after `ALTER TABLE ADD COLUMN` (new stored columns hold their default). -/
def Table.addColumn (c : Column) (t : Table) : Table :=
  { decl := { t.decl with cols := t.decl.cols ++ [c] }
    rows := match c.gen with
      | none => t.rows.map (· ++ [(c.name, c.dflt)])
      | some _ => t.rows }

/-- The table after `ALTER TABLE DROP COLUMN`. -/
def Table.dropColumn (c : String) (t : Table) : Table :=
  { decl := { t.decl with cols := t.decl.cols.filter (·.name != c) }
    rows := t.rows.map (·.filter (·.1 != c)) }

/-- The larger of two values of an INTEGER column; NULLs do not count (`MAX`, 20260717143000 17; simplification: other
storage classes are not compared). -/
def Val.max : Val → Val → Val
  | .null, b => b
  | a, .null => a
  | .int i, .int j => .int (if i ≤ j then j else i)
  | a, _ => a

/-- `MAX` of a group. -/
def maxVal : List Val → Val
  | [] => .null
  | v :: vs => v.max (maxVal vs)

/-- Every value once. -/
def distinct {α : Type} [DecidableEq α] : List α → List α
  | [] => []
  | x :: xs => if x ∈ xs then distinct xs else x :: distinct xs

/-- `SELECT group…, MAX(value) FROM … GROUP BY group…` (20260717143000 14-19). -/
def selectMax (group : List String) (value : String) (rows : List Row) : List Row :=
  (distinct (rows.map fun r => group.map r.get)).map fun g =>
    group.zip g ++ [(value, maxVal ((rows.filter fun r => group.map r.get == g).map (Row.get · value)))]

/-- The row to store: unnamed columns get their default. -/
def Decl.toRow (d : Decl) (r : Row) : Row := d.stored.map fun c => (c.name, (r.lookup c.name).getD c.dflt)

/-- The values of the primary key. -/
def Decl.keyOf (d : Decl) (r : Row) : List Val := d.pk.map r.get

/-- Insert rows one after the other; a violated constraint undoes the statement. -/
def insertAll (d : Decl) : List Row → List Row → Except DdlErr (List Row)
  | rows, [] => .ok rows
  | rows, r :: rest =>
    let r := d.toRow r
    if d.stored.all (fun c => c.fits d.strict (r.get c.name)) && !((rows.map d.keyOf).contains (d.keyOf r)) then
      insertAll d (rows ++ [r]) rest
    else .error .constraint

/-- Execute one statement (SQLite: build.c, alter.c, insert.c). -/
def exec : Stmt → Database → Except DdlErr Database
  | .createTable d, db =>
    if db.taken d.name then .error .taken else .ok { db with tables := db.tables ++ [⟨d, []⟩] }
  | .addColumn n c, db =>
    match db.table? n with
    | none => .error .noTable
    | some t =>
      if (t.decl.cols.map Column.name).contains c.name then .error .duplicateColumn
      else if ((c.gen.map Expr.cols).getD []).any (fun x => !(t.decl.cols.map Column.name).contains x) then
        .error .noColumn
      else if t.addable c then .ok (db.update n (Table.addColumn c)) else .error .constraint
  | .dropColumn n c, db =>
    match db.table? n with
    | none => .error .noTable
    | some t =>
      if !(t.decl.cols.map Column.name).contains c then .error .noColumn
      else if t.decl.pk.contains c || db.indexes.any (fun i => i.table == n && i.cols.contains c) ||
          t.decl.cols.any (fun x => ((x.gen.map Expr.cols).getD []).contains c) then .error .inUse
      else .ok (db.update n (Table.dropColumn c))
  | .dropTable n, db =>
    match db.table? n with
    | none => .error .noTable
    | some _ => .ok { db with
        tables := db.tables.filter (·.decl.name != n)
        indexes := db.indexes.filter (·.table != n) }
  | .renameTable a b, db =>
    match db.table? a with
    | none => .error .noTable
    | some _ =>
      if db.taken b then .error .taken
      else .ok { db.update a (fun t => { t with decl := { t.decl with name := b } }) with
        indexes := db.indexes.map fun i => if i.table == a then { i with table := b } else i }
  | .createIndex i, db =>
    if db.taken i.name then .error .taken
    else match db.table? i.table with
      | none => .error .noTable
      | some t =>
        if i.cols.any (fun x => !(t.decl.cols.map Column.name).contains x) then .error .noColumn
        else .ok { db with indexes := db.indexes ++ [i] }
  | .dropIndex n, db =>
    match db.indexes.find? (·.name == n) with
    | none => .error .noIndex
    | some _ => .ok { db with indexes := db.indexes.filter (·.name != n) }
  | .insertMax dst src group value, db =>
    match db.table? dst, db.table? src with
    | some d, some s =>
      if (group ++ [value]).any (fun x => !(s.decl.cols.map Column.name).contains x ||
          !(d.decl.stored.map Column.name).contains x) then .error .noColumn
      else match insertAll d.decl d.rows (selectMax group value s.rows) with
        | .ok rows => .ok (db.update dst fun t => { t with rows := rows })
        | .error e => .error e
    | _, _ => .error .noTable

/-- Execute statements one after the other. -/
def execAll : List Stmt → Database → Except DdlErr Database
  | [], db => .ok db
  | s :: ss, db => match exec s db with
    | .ok db' => execAll ss db'
    | .error e => .error e

/-! ### the migrations of opsqueue/migrations, in the order of their versions -/

/-- A migration file. -/
structure Migration where
  version : Nat
  stmts : List Stmt
deriving DecidableEq, Repr

/-- 20240704100242_submissions.sql 2-28. -/
def mSubmissions : Migration where
  version := 20240704100242
  stmts :=
    [ .createTable
        { name := "submissions", pk := ["id"]
          cols := [ { name := "id", notNull := true }, { name := "prefix" },
            { name := "chunks_total", notNull := true, dflt := .int 0 },
            { name := "chunks_done", notNull := true, dflt := .int 0 }, { name := "metadata" } ] },
      .createTable
        { name := "submissions_completed", pk := ["id"]
          cols := [ { name := "id", notNull := true }, { name := "prefix" },
            { name := "chunks_total", notNull := true, dflt := .int 0 }, { name := "metadata" },
            { name := "completed_at", notNull := true } ] },
      .createTable
        { name := "submissions_failed", pk := ["id"]
          cols := [ { name := "id", notNull := true }, { name := "prefix" },
            { name := "chunks_total", notNull := true, dflt := .int 0 }, { name := "metadata" },
            { name := "failed_chunk_id", notNull := true }, { name := "failed_at", notNull := true } ] } ]

/-- 20240704100449_chunks.sql 1-32. -/
def mChunks : Migration where
  version := 20240704100449
  stmts :=
    [ .createTable
        { name := "chunks", pk := ["submission_id", "chunk_index"], strict := true
          cols := [ { name := "submission_id", ty := .integer, notNull := true },
            { name := "chunk_index", ty := .integer, notNull := true }, { name := "input_content", ty := .blob },
            { name := "retries", ty := .integer, notNull := true, dflt := .int 0 } ] },
      .createTable
        { name := "chunks_completed", pk := ["submission_id", "chunk_index"]
          cols := [ { name := "submission_id", notNull := true }, { name := "chunk_index", notNull := true },
            { name := "output_content" }, { name := "completed_at", notNull := true } ] },
      .createTable
        { name := "chunks_failed", pk := ["submission_id", "chunk_index"]
          cols := [ { name := "submission_id", notNull := true }, { name := "chunk_index", notNull := true },
            { name := "input_content" }, { name := "failure", notNull := true, dflt := .text "" },
            { name := "failed_at", notNull := true }, { name := "skipped", notNull := true, dflt := .int 0 } ] } ]

/-- `(((submission_id + chunk_index) % 65536) * 40503) % 65536` (20241104104445 13-15, 20250104155558 53-55). -/
def oldRandomOrder : Expr :=
  .mod (.mul (.mod (.add (.col "submission_id") (.col "chunk_index")) (.lit 65536)) (.lit 40503)) (.lit 65536)

/-- `(((submission_id + (submission_id >> 22) + chunk_index) % 65536) * 40503) % 65536`
(20250803174028 15-20). -/
def newRandomOrder : Expr :=
  .mod (.mul (.mod (.add (.add (.col "submission_id") (.shr (.col "submission_id") (.lit 22))) (.col "chunk_index"))
    (.lit 65536)) (.lit 40503)) (.lit 65536)

/-- `(((id + (id >> 22)) % 65536) * 40503) % 65536` (20260803133844 2-4). -/
def submissionRandomOrder : Expr :=
  .mod (.mul (.mod (.add (.col "id") (.shr (.col "id") (.lit 22))) (.lit 65536)) (.lit 40503)) (.lit 65536)

/-- The generated column `random_order`. -/
def randomOrderColumn (e : Expr) : Column :=
  { name := "random_order", ty := .integer, notNull := true, gen := some e }

/-- The index `random_chunks_order` (20241104104445 17-21, 20250803174028 25-29). -/
def randomChunksOrder : Index := ⟨"random_chunks_order", "chunks", ["random_order", "submission_id", "chunk_index"]⟩

/-- The index `random_chunks_metadata_order` (20250104155558 57-63, 20250803174028 31-37). -/
def randomChunksMetadataOrder : Index :=
  ⟨"random_chunks_metadata_order", "chunks_metadata",
    ["metadata_key", "metadata_value", "random_order", "submission_id", "chunk_index"]⟩

/-- The index `random_chunks_metadata_order2` (20250104155558 65-71, 20250803174028 39-45). -/
def randomChunksMetadataOrder2 : Index :=
  ⟨"random_chunks_metadata_order2", "chunks_metadata",
    ["metadata_key", "random_order", "metadata_value", "submission_id", "chunk_index"]⟩

/-- 20241104104445_random_chunks_index.up.sql 13-21. -/
def mRandomChunksIndex : Migration where
  version := 20241104104445
  stmts := [ .addColumn "chunks" (randomOrderColumn oldRandomOrder), .createIndex randomChunksOrder ]

/-- 20241117104740_submission_index_by_prefix.up.sql 1-3. -/
def mIndexByPrefix : Migration where
  version := 20241117104740
  stmts :=
    [ .createIndex ⟨"submissions_prefix", "submissions", ["prefix", "id"]⟩,
      .createIndex ⟨"submissions_completed_prefix", "submissions_completed", ["prefix", "id"]⟩,
      .createIndex ⟨"submissions_failed_prefix", "submissions_failed", ["prefix", "id"]⟩ ]

/-- The column `otel_trace_carrier TEXT NOT NULL DEFAULT "{}"` (20241122175706 1-3). -/
def otelColumn : Column := { name := "otel_trace_carrier", ty := .text, notNull := true, dflt := .text "{}" }

/-- 20241122175706_add_tracecontext_to_submissions.up.sql 1-3. -/
def mTracecontext : Migration where
  version := 20241122175706
  stmts :=
    [ .addColumn "submissions" otelColumn, .addColumn "submissions_completed" otelColumn,
      .addColumn "submissions_failed" otelColumn ]

/-- The columns of `submissions_metadata` (20250104155558 4-13, 20260717143000 3-5). -/
def metadataColumns : List Column :=
  [ { name := "submission_id", ty := .integer, notNull := true },
    { name := "metadata_key", ty := .text, notNull := true },
    { name := "metadata_value", ty := .integer, notNull := true } ]

/-- The index `lookup_submission_by_metadata` (20250104155558 26-30, 20260717143000 25-29). -/
def lookupByMetadata : Index :=
  ⟨"lookup_submission_by_metadata", "submissions_metadata", ["metadata_key", "metadata_value", "submission_id"]⟩

/-- 20250104155558_add_strategic_metadata.up.sql 2-71. -/
def mStrategicMetadata : Migration where
  version := 20250104155558
  stmts :=
    [ .createTable { name := "submissions_metadata", cols := metadataColumns, strict := true
                     pk := ["submission_id", "metadata_key", "metadata_value"] },
      .createIndex lookupByMetadata,
      .createTable
        { name := "chunks_metadata", strict := true
          pk := ["submission_id", "chunk_index", "metadata_key", "metadata_value"]
          cols := [ { name := "submission_id", ty := .integer, notNull := true },
            { name := "chunk_index", ty := .integer, notNull := true },
            { name := "metadata_key", ty := .text, notNull := true },
            { name := "metadata_value", ty := .integer, notNull := true } ] },
      .addColumn "chunks_metadata" (randomOrderColumn oldRandomOrder),
      .createIndex randomChunksMetadataOrder, .createIndex randomChunksMetadataOrder2 ]

/-- The column `chunk_size INTEGER` (20250416081453 1-3). -/
def chunkSizeColumn : Column := { name := "chunk_size", ty := .integer }

/-- 20250416081453_track_chunk_size.up.sql 1-3. -/
def mChunkSize : Migration where
  version := 20250416081453
  stmts :=
    [ .addColumn "submissions" chunkSizeColumn, .addColumn "submissions_completed" chunkSizeColumn,
      .addColumn "submissions_failed" chunkSizeColumn ]

/-- 20250803174028_better_random_order_formula.up.sql 2-43. -/
def mBetterRandomOrder : Migration where
  version := 20250803174028
  stmts :=
    [ .dropIndex "random_chunks_order", .dropIndex "random_chunks_metadata_order",
      .dropIndex "random_chunks_metadata_order2",
      .dropColumn "chunks" "random_order", .dropColumn "chunks_metadata" "random_order",
      .addColumn "chunks" (randomOrderColumn newRandomOrder),
      .addColumn "chunks_metadata" (randomOrderColumn newRandomOrder),
      .createIndex randomChunksOrder, .createIndex randomChunksMetadataOrder,
      .createIndex randomChunksMetadataOrder2 ]

/-- 20260225164600_submissions_cancelled.sql 1-9. -/
def mCancelled : Migration where
  version := 20260225164600
  stmts :=
    [ .createTable
        { name := "submissions_cancelled", pk := ["id"]
          cols := [ { name := "id", notNull := true }, { name := "prefix" },
            { name := "chunks_total", notNull := true, dflt := .int 0 },
            { name := "chunks_done", notNull := true, dflt := .int 0 }, { name := "metadata" },
            { name := "cancelled_at", notNull := true } ] } ]

/-- 20260429173300_add_chunks_done_to_submissions_failed.sql 1. -/
def mFailedChunksDone : Migration where
  version := 20260429173300
  stmts := [ .addColumn "submissions_failed" { name := "chunks_done", ty := .integer } ]

/-- 20260710113337_drop_chunks_metadata.sql 1. -/
def mDropChunksMetadata : Migration where
  version := 20260710113337
  stmts := [ .dropTable "chunks_metadata" ]

/-- 20260717143000_submission_metadata_pk_by_key.up.sql 1-29. -/
def mMetadataByKey : Migration where
  version := 20260717143000
  stmts :=
    [ .createTable { name := "submissions_metadata_new", cols := metadataColumns, strict := true
                     pk := ["submission_id", "metadata_key"] },
      .insertMax "submissions_metadata_new" "submissions_metadata" ["submission_id", "metadata_key"] "metadata_value",
      .dropIndex "lookup_submission_by_metadata", .dropTable "submissions_metadata",
      .renameTable "submissions_metadata_new" "submissions_metadata", .createIndex lookupByMetadata ]

/-- 20260803133844_add_random_order_index_to_submissions.up.sql 2-9. -/
def mSubmissionsRandomOrder : Migration where
  version := 20260803133844
  stmts :=
    [ .addColumn "submissions" (randomOrderColumn submissionRandomOrder),
      .createIndex ⟨"random_submissions_order", "submissions", ["random_order", "id"]⟩ ]

/-- `sqlx::migrate!("./migrations")` (db/mod.rs 460): all files, by version; the `.down.sql` files are never run. -/
def migrations : List Migration :=
  [ mSubmissions, mChunks, mRandomChunksIndex, mIndexByPrefix, mTracecontext, mStrategicMetadata, mChunkSize,
    mBetterRandomOrder, mCancelled, mFailedChunksDone, mDropChunksMetadata, mMetadataByKey,
    mSubmissionsRandomOrder ]

/-! ### the migrator -/

/-- What happens to the process while a migration is applied. -/
inductive Hit where
  | ok
  /-- it dies before the commit -/
  | crash
  /-- it dies after the commit -/
  | crashLate
deriving DecidableEq, Repr

/-- How opening the database ends. Errors make the server panic (db/mod.rs 465). -/
inductive Opened where
  | ok
  | crashed
  | dirty
  | mismatch (version : Nat)
  | failed (version : Nat) (e : DdlErr)
deriving DecidableEq, Repr

/-- `apply` (sqlx-sqlite migrate.rs): the statements and the row in `_sqlx_migrations` in one transaction. `sums` are
the checksums of the files. -/
def apply (sums : Nat → Nat) (m : Migration) (db : Database) : Except DdlErr Database :=
  match execAll m.stmts db with
  | .ok db' => .ok { db' with applied := db'.applied ++ [⟨m.version, sums m.version, true⟩] }
  | .error e => .error e

/-- The loop of `Migrator::run_direct` (sqlx-core migrate/migrator.rs): migrations that are recorded are checked
against their checksum and skipped. Simplification: the records are read when they are needed, not once before the
loop. -/
def loop (sums : Nat → Nat) : List Migration → List Hit → Database → Opened × Database
  | [], _, db => (.ok, db)
  | m :: ms, hits, db =>
    match db.applied.find? (·.version == m.version) with
    | some a => if a.checksum = sums m.version then loop sums ms hits db else (.mismatch m.version, db)
    | none =>
      match hits.headD .ok with
      | .crash => (.crashed, db)
      | .crashLate => match apply sums m db with
        | .ok db' => (.crashed, db')
        | .error _ => (.crashed, db)
      | .ok => match apply sums m db with
        | .ok db' => loop sums ms hits.tail db'
        | .error e => (.failed m.version e, db)

/-- `open_and_setup` (db/mod.rs 413-422): a missing file is an empty database; then `Migrator::run` with
`set_ignore_missing(true)`: recorded migrations that are not among the files are ignored. -/
def openDb (sums : Nat → Nat) (hits : List Hit) (db : Database) : Opened × Database :=
  if db.applied.any (fun a => !a.success) then (.dirty, db) else loop sums migrations hits db

end Opsqueue.Upgrade
