import Verif.Proofs.UpgradeRun
import Verif.Model.Strategy

/-!
# C74: opening a database of an older release

`OfRelease sums n db`: `db` was left behind by the release with the first `n` migrations and contains anything its
tables allow. `openDb sums hits db` opens it; `hits` says during which migration the process dies.
-/

namespace Opsqueue.Upgrade

/-- **C74.** A database of any earlier release (and an empty one, `n = 0`), whatever it contains, is opened
successfully. After that it is a database of this release, all rows are still there with all their values, columns the
rows did not have hold an empty trace carrier or NULL, and every submission has, for each key of its strategic
metadata, the largest value it had. -/
theorem C74_upgrade (sums : Nat → Nat) (n : Nat) (hn : n ≤ migrations.length) (db : Database)
    (h : OfRelease sums n db) :
    ∃ db', openDb sums [] db = (.ok, db') ∧ OfRelease sums migrations.length db' ∧ RowsKept db db' ∧
      MetadataKept db db' := by
  obtain ⟨σ, σ', h1, h2, h3⟩ := absRun_take n
  have hfor := absRun_forget _ _ _ rfl h1
  have hsat : Sat db σ := hfor ▸ h.sat h1
  have hnd := versions_nodup
  rw [← List.take_append_drop n migrations, List.map_append, List.nodup_append] at hnd
  obtain ⟨db', k1, k2, k3, k4⟩ := loop_fresh sums (migrations.drop n) db σ σ' hsat h2 hnd.2.1 (by
    intro m hm a ha
    rw [h.applied] at ha
    obtain ⟨m', hm', rfl⟩ := List.mem_map.1 ha
    exact hnd.2.2 _ (List.mem_map_of_mem hm') _ (List.mem_map_of_mem hm))
  refine ⟨db', ?_, ?_, effects_rowsKept k4, effects_metadataKept hn h k4⟩
  · unfold openDb
    rw [if_neg]
    · conv => lhs; rw [← List.take_append_drop n migrations]
      rw [loop_recorded, k1]
      intro m hm
      refine ⟨⟨m.version, sums m.version, true⟩, ?_, rfl⟩
      rw [h.applied]
      have hn1 := hnd.1
      generalize migrations.take n = ms at hm hn1
      induction ms with
      | nil => simp at hm
      | cons x xs ih =>
        simp only [List.map_cons, List.nodup_cons] at hn1
        simp only [List.map_cons, List.find?_cons]
        rcases List.mem_cons.1 hm with rfl | hm
        · simp
        · have : x.version ≠ m.version := fun e => hn1.1 (e ▸ List.mem_map_of_mem hm)
          simp only [beq_eq_false_iff_ne.2 this]
          exact ih hm hn1.2
    · rw [h.applied, List.any_eq_true]
      rintro ⟨a, ha, hs⟩
      obtain ⟨m, _, rfl⟩ := List.mem_map.1 ha
      cases hs
  · refine ofRelease_of_sat (σ := σ') (by rw [List.take_length]; exact h3) k2 ?_
    rw [k3, h.applied, List.take_length, ← List.map_append, List.take_append_drop]

/-- **C74.** If the process dies during an upgrade, any number of times and at any points, the next start ends exactly
as the first would have, with the same database. (This holds for every database, also one that cannot be opened.) -/
theorem C74_interrupted (sums : Nat → Nat) (attempts : List (List Hit)) (db : Database) :
    openDb sums [] (attempts.foldl (fun d hits => (openDb sums hits d).2) db) = openDb sums [] db := by
  induction attempts generalizing db with
  | nil => rfl
  | cons hits rest ih =>
    rw [List.foldl_cons, ih]
    unfold openDb
    by_cases hd : (db.applied.any fun a => !a.success) = true
    · simp [hd]
    · rw [if_neg hd, if_neg hd, if_neg, loop_again sums migrations hits [] db (by simp)]
      obtain ⟨new, h1, h2⟩ := loop_applied sums migrations hits db
      rw [h1, List.any_append, Bool.or_eq_true, not_or]
      refine ⟨hd, ?_⟩
      rw [List.any_eq_true]
      rintro ⟨a, ha, hs⟩
      rw [h2 a ha] at hs
      cases hs

/-- **C74.** Opening a database that was opened before changes nothing. -/
theorem C74_second_start (sums : Nat → Nat) (hits hits' : List Hit) (db db' : Database)
    (h : openDb sums hits db = (.ok, db')) : openDb sums hits' db' = (.ok, db') := by
  unfold openDb at h
  split at h
  · cases h
  · rename_i hd
    unfold openDb
    obtain ⟨new, h1, h2⟩ := loop_applied sums migrations hits db
    rw [h] at h1
    have hrec := loop_records h
    rw [if_neg]
    · have := loop_recorded sums migrations [] hits' db' hrec
      rw [List.append_nil] at this
      rw [this]; rfl
    · rw [h1, List.any_append, Bool.or_eq_true, not_or]
      refine ⟨hd, ?_⟩
      rw [List.any_eq_true]
      rintro ⟨a, ha, hs⟩
      rw [h2 a ha] at hs
      cases hs

/-- **C74.** A database of a newer release is opened and left as it is: its schema and contents may be anything, and
migrations this release does not know may be recorded, as long as the ones it knows are. -/
theorem C74_newer_database (sums : Nat → Nat) (hits : List Hit) (db : Database)
    (hclean : ∀ a ∈ db.applied, a.success = true)
    (hknown : ∀ m ∈ migrations, (⟨m.version, sums m.version, true⟩ : Applied) ∈ db.applied)
    (hone : (db.applied.map Applied.version).Nodup) : openDb sums hits db = (.ok, db) := by
  unfold openDb
  rw [if_neg]
  · have := loop_recorded sums migrations [] hits db (by
      intro m hm
      exact ⟨_, find?_key_of_mem (key := Applied.version) hone (hknown m hm), rfl⟩)
    rw [List.append_nil] at this
    rw [this]; rfl
  · rw [List.any_eq_true]
    rintro ⟨a, ha, hs⟩
    rw [hclean a ha] at hs
    cases hs

/-- **C74.** A database in which a migration was recorded with another checksum, so that its tables may not be what
this release expects, is not opened. -/
theorem C74_changed_migration (sums : Nat → Nat) (hits : List Hit) (db : Database) (m : Migration) (a : Applied)
    (hm : m ∈ migrations) (ha : db.applied.find? (·.version == m.version) = some a)
    (hs : a.checksum ≠ sums m.version) : (openDb sums hits db).1 ≠ .ok := by
  intro hok
  unfold openDb at hok
  split at hok
  · cases hok
  · have e : loop sums migrations hits db = (.ok, (loop sums migrations hits db).2) := by
      rw [← hok]
    obtain ⟨b, hb, hb'⟩ := loop_records e m hm
    obtain ⟨new, h1, _⟩ := loop_applied sums migrations hits db
    rw [h1, find_keep ha] at hb
    simp only [Option.some.injEq] at hb
    subst hb
    exact hs hb'

/-! ### the random order -/

theorem tmod_nat (a b : Nat) : ((a : Int).tmod b) = ((a % b : Nat) : Int) := by
  rw [Int.tmod_eq_emod_of_nonneg (Int.natCast_nonneg a)]; rfl

theorem shr_nat (a b : Nat) : ((a : Int) >>> b) = ((a >>> b : Nat) : Int) := rfl

/-- What is known about a generated column in every database of this release. -/
theorem gen_of_release {sums : Nat → Nat} {db : Database} (h : OfRelease sums migrations.length db) {n : String}
    {cols : List Column}
    (hd : ((absRun migrations ⟨[], []⟩).bind fun σ => (σ.forget.table? n).map fun a => a.decl.cols) = some cols) :
    ∃ t, db.table? n = some t ∧ t.decl.cols = cols := by
  obtain ⟨σ, h1, h2⟩ := Option.bind_eq_some_iff.1 hd
  have hsat := h.sat (σ := σ) (by rw [List.take_length]; exact h1)
  rcases hsat.find n with ⟨k1, k2⟩ | ⟨t, a, k1, k2, k3, _⟩
  · rw [k2] at h2; cases h2
  · rw [k2] at h2
    simp only [Option.map_some, Option.some.injEq] at h2
    exact ⟨t, k1, by rw [k3.decl, h2]⟩

/-- **C74.** In every database of this release, however old it is, the random order of chunks and of submissions is
computed with the formulas that `C32` is about. -/
theorem C74_random_order (sums : Nat → Nat) (db : Database) (h : OfRelease sums migrations.length db) :
    (∃ t c e, db.table? "chunks" = some t ∧ c ∈ t.decl.cols ∧ c.name = "random_order" ∧ c.gen = some e ∧
      ∀ (row : String → Val) (id i x : Nat), row "submission_id" = .int id → row "chunk_index" = .int i →
        Strategy.chunkRandomOrder? id i = some x → e.eval row = some (x : Int)) ∧
    (∃ t c e, db.table? "submissions" = some t ∧ c ∈ t.decl.cols ∧ c.name = "random_order" ∧ c.gen = some e ∧
      ∀ (row : String → Val) (id x : Nat), row "id" = .int id →
        Strategy.submissionRandomOrder? id = some x → e.eval row = some (x : Int)) := by
  constructor
  · obtain ⟨t, h1, h2⟩ := gen_of_release h (n := "chunks") (cols :=
      [ { name := "submission_id", ty := .integer, notNull := true },
        { name := "chunk_index", ty := .integer, notNull := true }, { name := "input_content", ty := .blob },
        { name := "retries", ty := .integer, notNull := true, dflt := .int 0 }, randomOrderColumn newRandomOrder ])
      (by decide +kernel)
    refine ⟨t, randomOrderColumn newRandomOrder, newRandomOrder, h1, by rw [h2]; simp, rfl, rfl, ?_⟩
    intro row id i x hid hi hx
    simp only [Strategy.chunkRandomOrder?, Option.bind_eq_bind, Option.bind_eq_some_iff, Strategy.sqlAdd,
      Strategy.sqlMul, Option.ite_none_right_eq_some, Option.some.injEq, Option.pure_def] at hx
    obtain ⟨a, ⟨_, rfl⟩, b, ⟨_, rfl⟩, c, ⟨_, rfl⟩, rfl⟩ := hx
    have e : newRandomOrder.eval row =
        some (((((id : Int) + ((id : Int) >>> 22) + (i : Int)).tmod (65536 : Nat)) * (40503 : Nat)).tmod (65536 : Nat)) := by
      simp only [newRandomOrder, Expr.eval, hid, hi, Val.num, Option.bind_eq_bind, Option.bind_some, Option.pure_def]
      rfl
    rw [e, shr_nat, ← Int.natCast_add, ← Int.natCast_add, tmod_nat, ← Int.natCast_mul, tmod_nat]
  · obtain ⟨t, h1, h2⟩ := gen_of_release h (n := "submissions") (cols :=
      [ { name := "id", notNull := true }, { name := "prefix" },
        { name := "chunks_total", notNull := true, dflt := .int 0 },
        { name := "chunks_done", notNull := true, dflt := .int 0 }, { name := "metadata" }, otelColumn,
        chunkSizeColumn, randomOrderColumn submissionRandomOrder ])
      (by decide +kernel)
    refine ⟨t, randomOrderColumn submissionRandomOrder, submissionRandomOrder, h1, by rw [h2]; simp, rfl, rfl, ?_⟩
    intro row id x hid hx
    simp only [Strategy.submissionRandomOrder?, Option.bind_eq_bind, Option.bind_eq_some_iff, Strategy.sqlAdd,
      Strategy.sqlMul, Option.ite_none_right_eq_some, Option.some.injEq, Option.pure_def] at hx
    obtain ⟨a, ⟨_, rfl⟩, c, ⟨_, rfl⟩, rfl⟩ := hx
    have e : submissionRandomOrder.eval row =
        some (((((id : Int) + ((id : Int) >>> 22)).tmod (65536 : Nat)) * (40503 : Nat)).tmod (65536 : Nat)) := by
      simp only [submissionRandomOrder, Expr.eval, hid, Val.num, Option.bind_eq_bind, Option.bind_some,
        Option.pure_def]
      rfl
    rw [e, shr_nat, ← Int.natCast_add, tmod_nat, ← Int.natCast_mul, tmod_nat]

/-! ### an example -/

/-- A database of the release of February 2025, with rows. -/
def exampleOld : Database :=
  match execAll ((migrations.take 6).flatMap Migration.stmts) {} with
  | .error _ => {}
  | .ok db =>
    { db with
      applied := (migrations.take 6).map fun m => ⟨m.version, m.version + 1, true⟩
      tables := db.tables.map fun t => { t with rows :=
        if t.decl.name = "submissions" then
          [ [("id", .int 7), ("prefix", .null), ("chunks_total", .int 2), ("chunks_done", .int 1),
             ("metadata", .blob [1]), ("otel_trace_carrier", .text "x")] ]
        else if t.decl.name = "submissions_failed" then
          [ [("id", .int 5), ("prefix", .text "p"), ("chunks_total", .int 1), ("metadata", .null),
             ("failed_chunk_id", .int 0), ("failed_at", .real 77), ("otel_trace_carrier", .text "{}")] ]
        else if t.decl.name = "chunks" then
          [ [("submission_id", .int 7), ("chunk_index", .int 1), ("input_content", .blob [2]), ("retries", .int 3)] ]
        else if t.decl.name = "submissions_metadata" then
          [ metadataRow (.int 7) (.text "k") 3, metadataRow (.int 7) (.text "k") 9,
            metadataRow (.int 5) (.text "k") (-4) ]
        else [] } }

instance (d : Decl) (r : Row) : Decidable (RowOk d r) := inferInstanceAs (Decidable (_ ∧ _))
instance (t : Table) : Decidable (TableOk t) := inferInstanceAs (Decidable (_ ∧ _))

/-- It is a database of a release; what is in it afterwards, also if the process dies during the second and the fourth
migration. -/
example : OfRelease (· + 1) 6 exampleOld ∧
    (openDb (· + 1) [] exampleOld).2.rows "submissions_metadata" =
      [metadataRow (.int 7) (.text "k") 9, metadataRow (.int 5) (.text "k") (-4)] ∧
    (openDb (· + 1) [] exampleOld).2.rows "submissions_failed" =
      [ [("id", .int 5), ("prefix", .text "p"), ("chunks_total", .int 1), ("metadata", .null),
         ("failed_chunk_id", .int 0), ("failed_at", .real 77), ("otel_trace_carrier", .text "{}"),
         ("chunk_size", .null), ("chunks_done", .null)] ] ∧
    (openDb (· + 1) [.ok, .crash] exampleOld).1 = .crashed ∧
    (openDb (· + 1) [] ([[.ok, .crash], [.ok, .crashLate]].foldl (fun d h => (openDb (· + 1) h d).2) exampleOld)) =
      openDb (· + 1) [] exampleOld := by
  refine ⟨⟨⟨_, rfl, by decide +kernel⟩, by decide +kernel, by decide +kernel⟩, by decide +kernel, by decide +kernel,
    by decide +kernel, by decide +kernel⟩

end Opsqueue.Upgrade
