import Verif.Model.Upgrade

/-!
# The schema the queries were checked against

Written by `tools/schema.py` from /repo/opsqueue/opsqueue_example_database_schema.db, the database that sqlx checks the
queries of the crate against when it is compiled. The declared types are given for STRICT tables only. Used by `C74`.
-/

namespace Opsqueue.Upgrade

/-- A column: its name, its type (in a STRICT table), whether it is NOT NULL, its default, how it is computed. -/
structure ExampleColumn where
  name : String
  ty : Option Ty
  notNull : Bool
  dflt : Val
  gen : Option Expr
deriving DecidableEq

/-- A table: its name, primary key and columns. -/
structure ExampleTable where
  name : String
  pk : List String
  cols : List ExampleColumn
deriving DecidableEq

/-- The tables. -/
def exampleTables : List ExampleTable := [
  ⟨"chunks", ["submission_id", "chunk_index"],
    [ ⟨"submission_id", some .integer, true, .null, none⟩,
      ⟨"chunk_index", some .integer, true, .null, none⟩,
      ⟨"input_content", some .blob, false, .null, none⟩,
      ⟨"retries", some .integer, true, .int 0, none⟩,
      ⟨"random_order", some .integer, true, .null, some (.mod (.mul (.mod (.add (.add (.col "submission_id") (.shr (.col "submission_id") (.lit 22))) (.col "chunk_index")) (.lit 65536)) (.lit 40503)) (.lit 65536))⟩ ]⟩,
  ⟨"chunks_completed", ["submission_id", "chunk_index"],
    [ ⟨"submission_id", none, true, .null, none⟩,
      ⟨"chunk_index", none, true, .null, none⟩,
      ⟨"output_content", none, false, .null, none⟩,
      ⟨"completed_at", none, true, .null, none⟩ ]⟩,
  ⟨"chunks_failed", ["submission_id", "chunk_index"],
    [ ⟨"submission_id", none, true, .null, none⟩,
      ⟨"chunk_index", none, true, .null, none⟩,
      ⟨"input_content", none, false, .null, none⟩,
      ⟨"failure", none, true, .text "", none⟩,
      ⟨"failed_at", none, true, .null, none⟩,
      ⟨"skipped", none, true, .int 0, none⟩ ]⟩,
  ⟨"submissions", ["id"],
    [ ⟨"id", none, true, .null, none⟩,
      ⟨"prefix", none, false, .null, none⟩,
      ⟨"chunks_total", none, true, .int 0, none⟩,
      ⟨"chunks_done", none, true, .int 0, none⟩,
      ⟨"metadata", none, false, .null, none⟩,
      ⟨"otel_trace_carrier", none, true, .text "{}", none⟩,
      ⟨"chunk_size", none, false, .null, none⟩,
      ⟨"random_order", none, true, .null, some (.mod (.mul (.mod (.add (.col "id") (.shr (.col "id") (.lit 22))) (.lit 65536)) (.lit 40503)) (.lit 65536))⟩ ]⟩,
  ⟨"submissions_cancelled", ["id"],
    [ ⟨"id", none, true, .null, none⟩,
      ⟨"prefix", none, false, .null, none⟩,
      ⟨"chunks_total", none, true, .int 0, none⟩,
      ⟨"chunks_done", none, true, .int 0, none⟩,
      ⟨"metadata", none, false, .null, none⟩,
      ⟨"cancelled_at", none, true, .null, none⟩ ]⟩,
  ⟨"submissions_completed", ["id"],
    [ ⟨"id", none, true, .null, none⟩,
      ⟨"prefix", none, false, .null, none⟩,
      ⟨"chunks_total", none, true, .int 0, none⟩,
      ⟨"metadata", none, false, .null, none⟩,
      ⟨"completed_at", none, true, .null, none⟩,
      ⟨"otel_trace_carrier", none, true, .text "{}", none⟩,
      ⟨"chunk_size", none, false, .null, none⟩ ]⟩,
  ⟨"submissions_failed", ["id"],
    [ ⟨"id", none, true, .null, none⟩,
      ⟨"prefix", none, false, .null, none⟩,
      ⟨"chunks_total", none, true, .int 0, none⟩,
      ⟨"metadata", none, false, .null, none⟩,
      ⟨"failed_chunk_id", none, true, .null, none⟩,
      ⟨"failed_at", none, true, .null, none⟩,
      ⟨"otel_trace_carrier", none, true, .text "{}", none⟩,
      ⟨"chunk_size", none, false, .null, none⟩,
      ⟨"chunks_done", none, false, .null, none⟩ ]⟩,
  ⟨"submissions_metadata", ["submission_id", "metadata_key"],
    [ ⟨"submission_id", some .integer, true, .null, none⟩,
      ⟨"metadata_key", some .text, true, .null, none⟩,
      ⟨"metadata_value", some .integer, true, .null, none⟩ ]⟩ ]

/-- The indexes. -/
def exampleIndexes : List Index := [
  ⟨"lookup_submission_by_metadata", "submissions_metadata", ["metadata_key", "metadata_value", "submission_id"]⟩,
  ⟨"random_chunks_order", "chunks", ["random_order", "submission_id", "chunk_index"]⟩,
  ⟨"random_submissions_order", "submissions", ["random_order", "id"]⟩,
  ⟨"submissions_completed_prefix", "submissions_completed", ["prefix", "id"]⟩,
  ⟨"submissions_failed_prefix", "submissions_failed", ["prefix", "id"]⟩,
  ⟨"submissions_prefix", "submissions", ["prefix", "id"]⟩ ]

/-- The versions in `_sqlx_migrations`. -/
def exampleVersions : List Nat := [
  20240704100242,
  20240704100449,
  20241104104445,
  20241117104740,
  20241122175706,
  20250104155558,
  20250416081453,
  20250803174028,
  20260225164600,
  20260429173300,
  20260710113337,
  20260717143000,
  20260803133844 ]

/-- What the example database says about a table, of a table of a database. -/
def Decl.toExample (d : Decl) : ExampleTable :=
  ⟨d.name, d.pk, d.cols.map fun c => ⟨c.name, if d.strict then some c.ty else none, c.notNull, c.dflt, c.gen⟩⟩

end Opsqueue.Upgrade
