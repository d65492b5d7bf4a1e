import Verif.Spec.ExampleSchema
import Verif.Spec.Observe
import Verif.Proofs.Stored
import Verif.Props.Upgrade

/-!
# C74: the tables of this release, and what the calls store in them
-/

namespace Opsqueue.Upgrade

/-- **C74.** Every database of this release, in particular every one that was upgraded (`C74_upgrade`), has exactly the
tables, columns, constraints, defaults and indexes of the database that the queries were checked against when the crate
was compiled, and has the same migrations recorded. -/
theorem C74_schema (sums : Nat → Nat) (db : Database) (h : OfRelease sums migrations.length db) :
    (db.tables.map fun t => t.decl.toExample).Perm exampleTables ∧ db.indexes.Perm exampleIndexes ∧
      db.applied.map Applied.version = exampleVersions := by
  have h1 := of_fresh h (fun x => (x.1.map Decl.toExample).isPerm exampleTables && x.2.isPerm exampleIndexes)
    (by decide +kernel)
  simp only [Database.schema, List.map_map, Bool.and_eq_true, List.isPerm_iff] at h1
  refine ⟨h1.1, h1.2, ?_⟩
  rw [h.applied, List.take_length, List.map_map]
  show migrations.map Migration.version = exampleVersions
  decide +kernel

/-- **C74.** Whatever happened to a server of this release that started without a database (any calls, faults, crashes
and restarts), the file it leaves behind is a database of this release: the rows are what the tables allow. -/
theorem C74_what_is_stored (sums : Nat → Nat) (day : Time → Nat) (ops : List Op) (hf : FreshIds ops) :
    OfRelease sums migrations.length (fileOf sums day (run ops)) ∧
    ∀ hits, openDb sums hits (fileOf sums day (run ops)) = (.ok, fileOf sums day (run ops)) := by
  obtain ⟨fresh, h1, h2, -, -⟩ := C74_upgrade sums 0 (Nat.zero_le _) {} ⟨⟨{}, rfl, rfl⟩, by simp, rfl⟩
  have hfile : fileOf sums day (run ops) =
      { fresh with tables := fresh.tables.map fun t => { t with rows := rowsOf day (run ops) t.decl.name } } := by
    simp only [fileOf, h1]
  have hap : (fileOf sums day (run ops)).applied = fresh.applied := by rw [hfile]
  have hrel : OfRelease sums migrations.length (fileOf sums day (run ops)) := by
    refine ⟨?_, ?_, hap.trans h2.applied⟩
    · obtain ⟨d, k1, k2⟩ := h2.schema
      refine ⟨d, k1, ?_⟩
      rw [← k2, hfile]
      simp only [Database.schema, List.map_map]
      rfl
    · intro t ht
      rw [hfile] at ht
      obtain ⟨t', ht', rfl⟩ := List.mem_map.1 ht
      have hd : t'.decl ∈ finalDecls := by
        rw [← final_decls h2]
        exact List.mem_map_of_mem ht'
      exact tables_ok day (inv_run hf) t'.decl hd
  refine ⟨hrel, fun hits => C74_newer_database sums hits _ ?_ ?_ ?_⟩
  · intro a ha
    rw [hrel.applied, List.mem_map] at ha
    obtain ⟨m, _, rfl⟩ := ha
    rfl
  · intro m hm
    rw [hrel.applied, List.take_length]
    exact List.mem_map.2 ⟨m, hm, rfl⟩
  · rw [hrel.applied, List.take_length, List.map_map]
    exact versions_nodup

/-- A history that puts something into most of the tables. -/
def exampleCalls : List Op :=
  [ .insert { id := 7, pfx := some "p", contents := [some [1], none, none], metadata := some [9], strategic := [("k", -3)],
              chunkSize := 10 } 5 [],
    .insert { id := 8, pfx := none, contents := [none], metadata := none, strategic := [] } 5 [] ]

/-- The rows of this history. -/
example : FreshIds exampleCalls ∧
    (fileOf (· + 1) (· + 2) (run exampleCalls)).rows "chunks" =
      [ [("submission_id", .int 7), ("chunk_index", .int 0), ("input_content", .blob [1]), ("retries", .int 0)],
        [("submission_id", .int 7), ("chunk_index", .int 1), ("input_content", .null), ("retries", .int 0)],
        [("submission_id", .int 7), ("chunk_index", .int 2), ("input_content", .null), ("retries", .int 0)],
        [("submission_id", .int 8), ("chunk_index", .int 0), ("input_content", .null), ("retries", .int 0)] ] ∧
    (fileOf (· + 1) (· + 2) (run exampleCalls)).rows "submissions_metadata" = [metadataRow (.int 7) (.text "k") (-3)] := by
  decide +kernel

end Opsqueue.Upgrade
