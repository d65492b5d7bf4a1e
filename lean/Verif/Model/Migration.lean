import Verif.Model.Types

/-!
# The migration that makes `(submission_id, metadata_key)` the primary key of submissions_metadata

Models `opsqueue/migrations/20260717143000_*.sql`. Simplification: indexes are not modelled.
-/

namespace Opsqueue.Migration

/-- The distinct groups of `GROUP BY submission_id, metadata_key`,
20260717143000 (up) lines 14-20. -/
def groups : List MetaRow → List (SubmissionId × String)
  | [] => []
  | m :: rest => let g := groups rest; if m.pk ∈ g then g else m.pk :: g

/-- `MAX(metadata_value)` over the values of a group (SQLite: NULL for no row). -/
def sqlMax : List Int → Option Int
  | [] => none
  | v :: rest => match sqlMax rest with
    | none => some v
    | some w => some (if v ≤ w then w else v)

/-- The `SELECT submission_id, metadata_key, MAX(metadata_value) … GROUP BY …` of the up migration.
The aggregate of a group of a NOT NULL column is never NULL, hence `filterMap` drops nothing. -/
def aggregated (old : List MetaRow) : List MetaRow :=
  (groups old).filterMap fun g =>
    (sqlMax ((old.filter (·.pk == g)).map (·.value))).map fun v => ⟨g.1, g.2, v⟩

/-- `INSERT INTO … SELECT …` into a table with the given primary key: fails on the first duplicate. -/
def insertAll {κ : Type} [DecidableEq κ] (key : MetaRow → κ) :
    List MetaRow → List MetaRow → Except DbErr (List MetaRow)
  | table, [] => .ok table
  | table, r :: rest =>
    if key r ∈ table.map key then .error .constraint else insertAll key (table ++ [r]) rest

/-- The up migration: create the new table, copy, drop the old one, rename. -/
def up (old : List MetaRow) : Except DbErr (List MetaRow) :=
  insertAll MetaRow.pk [] (aggregated old)

/-- The down migration 20260717143000 (down): the primary key is the whole row again. -/
def down (new : List MetaRow) : Except DbErr (List MetaRow) :=
  insertAll (fun m => (m.submissionId, m.key, m.value)) [] new

end Opsqueue.Migration
