import Verif.Model.Upgrade

/-!
# What an upgrade has to keep

A database that some release left behind: its tables and indexes are those the first `n` migrations make, it contains
anything that the constraints of the tables allow. `RowsKept` and `MetadataKept` say what must be found in it after the
upgrade. Used by `C74`.
-/

namespace Opsqueue.Upgrade

/-- The row has a value for every stored column, and each may be stored there (NOT NULL, type). -/
def RowOk (d : Decl) (r : Row) : Prop :=
  r.map Prod.fst = d.stored.map Column.name ∧ ∀ c ∈ d.stored, c.fits d.strict (r.get c.name) = true

/-- All rows are as declared and the primary key is unique. -/
def TableOk (t : Table) : Prop := (∀ r ∈ t.rows, RowOk t.decl r) ∧ (t.rows.map t.decl.keyOf).Nodup

/-- The tables and indexes, without their contents. -/
def Database.schema (db : Database) : List Decl × List Index := (db.tables.map Table.decl, db.indexes)

/-- A database of the release that has the first `n` migrations. -/
structure OfRelease (sums : Nat → Nat) (n : Nat) (db : Database) : Prop where
  schema : ∃ fresh, execAll ((migrations.take n).flatMap Migration.stmts) {} = .ok fresh ∧ db.schema = fresh.schema
  rows : ∀ t ∈ db.tables, TableOk t
  applied : db.applied = (migrations.take n).map fun m => ⟨m.version, sums m.version, true⟩

/-- The tables whose rows are not touched by any upgrade. -/
def keptTables : List String :=
  [ "submissions", "submissions_completed", "submissions_failed", "submissions_cancelled", "chunks",
    "chunks_completed", "chunks_failed" ]

/-- What a column holds for rows that are older than it: an empty trace carrier, or NULL (`chunk_size` and the
`chunks_done` of failed submissions). -/
def newValue (c : String) : Val := if c = "otel_trace_carrier" then .text "{}" else .null

/-- Row by row, everything is still there; columns the row did not have hold `newValue`. -/
def RowsKept (before after : Database) : Prop :=
  ∀ t ∈ keptTables, (after.rows t).length = (before.rows t).length ∧
    ∀ (i : Nat) (row : Row), (before.rows t)[i]? = some row → ∃ row', (after.rows t)[i]? = some row' ∧
      (∀ c v, row.lookup c = some v → row'.lookup c = some v) ∧
      ∀ c v, row'.lookup c = some v → row.lookup c = some v ∨ (row.lookup c = none ∧ v = newValue c)

/-- A row of `submissions_metadata`. -/
def metadataRow (s k : Val) (v : Int) : Row := [("submission_id", s), ("metadata_key", k), ("metadata_value", .int v)]

/-- Every submission keeps the largest value it had for each key of its strategic metadata (all of them, if it had one
value per key). -/
def MetadataKept (before after : Database) : Prop :=
  ∀ s k v, metadataRow s k v ∈ after.rows "submissions_metadata" ↔
    (metadataRow s k v ∈ before.rows "submissions_metadata" ∧
      ∀ w, metadataRow s k w ∈ before.rows "submissions_metadata" → w ≤ v)

end Opsqueue.Upgrade
