import Verif.Spec.Stored
import Verif.Proofs.UpgradeRun
import Verif.Proofs.Invariant

/-! What the calls store in the tables is what the tables allow. -/

namespace Opsqueue.Upgrade

/-- What is true of the tables and indexes of a fresh database is true of those of every database of this release. -/
theorem of_fresh {sums : Nat → Nat} {db : Database} (h : OfRelease sums migrations.length db)
    (p : List Decl × List Index → Bool)
    (hp : (match execAll (migrations.flatMap Migration.stmts) {} with
      | .ok d => p d.schema
      | .error _ => false) = true) : p db.schema = true := by
  obtain ⟨fresh, h1, h2⟩ := h.schema
  rw [List.take_length] at h1
  rw [h1] at hp
  rw [h2]; exact hp

theorem nodup_map_inj {α β : Type} {l : List α} {f : α → β} (hf : ∀ a b, f a = f b → a = b) (h : l.Nodup) :
    (l.map f).Nodup := by
  induction l with
  | nil => simp
  | cons x xs ih =>
    simp only [List.map_cons, List.nodup_cons, List.mem_map, not_exists, not_and] at h ⊢
    exact ⟨fun y hy e => h.1 (hf _ _ e ▸ hy), ih h.2⟩

/-- Rows that are as declared and differ in their keys. -/
theorem tableOk_map {ρ κ : Type} {d : Decl} {l : List ρ} {f : ρ → Row} {key : ρ → κ} {g : κ → List Val}
    (h1 : ∀ x, RowOk d (f x)) (h2 : ∀ x, d.keyOf (f x) = g (key x)) (hg : ∀ a b, g a = g b → a = b)
    (hn : (l.map key).Nodup) : TableOk ⟨d, l.map f⟩ := by
  constructor
  · intro r hr
    obtain ⟨x, _, rfl⟩ := List.mem_map.1 hr
    exact h1 x
  · have e : ((l.map f).map d.keyOf) = (l.map key).map g := by
      rw [List.map_map, List.map_map]
      exact List.map_congr_left fun x _ => h2 x
    show ((l.map f).map d.keyOf).Nodup
    rw [e]
    exact nodup_map_inj hg hn

theorem num_inj {a b : Nat} (h : num a = num b) : a = b := by
  simp only [num, Val.int.injEq] at h
  omega

/-- A NOT NULL column without a type. -/
def req (n : String) : Column := { name := n, notNull := true }

/-- A NOT NULL column with default 0. -/
def count (n : String) : Column := { name := n, notNull := true, dflt := .int 0 }

/-- A nullable column without a type. -/
def opt (n : String) : Column := { name := n }

/-- The tables of this release. -/
def finalDecls : List Decl :=
  [ { name := "submissions", pk := ["id"], cols :=
        [ req "id", opt "prefix", count "chunks_total", count "chunks_done", opt "metadata", otelColumn,
          chunkSizeColumn, randomOrderColumn submissionRandomOrder ] },
    { name := "submissions_completed", pk := ["id"], cols :=
        [ req "id", opt "prefix", count "chunks_total", opt "metadata", req "completed_at", otelColumn,
          chunkSizeColumn ] },
    { name := "submissions_failed", pk := ["id"], cols :=
        [ req "id", opt "prefix", count "chunks_total", opt "metadata", req "failed_chunk_id", req "failed_at",
          otelColumn, chunkSizeColumn, { name := "chunks_done", ty := .integer } ] },
    { name := "chunks", pk := ["submission_id", "chunk_index"], strict := true, cols :=
        [ { name := "submission_id", ty := .integer, notNull := true },
          { name := "chunk_index", ty := .integer, notNull := true }, { name := "input_content", ty := .blob },
          { name := "retries", ty := .integer, notNull := true, dflt := .int 0 },
          randomOrderColumn newRandomOrder ] },
    { name := "chunks_completed", pk := ["submission_id", "chunk_index"], cols :=
        [ req "submission_id", req "chunk_index", opt "output_content", req "completed_at" ] },
    { name := "chunks_failed", pk := ["submission_id", "chunk_index"], cols :=
        [ req "submission_id", req "chunk_index", opt "input_content",
          { name := "failure", notNull := true, dflt := .text "" }, req "failed_at", count "skipped" ] },
    { name := "submissions_cancelled", pk := ["id"], cols :=
        [ req "id", opt "prefix", count "chunks_total", count "chunks_done", opt "metadata", req "cancelled_at" ] },
    { name := "submissions_metadata", pk := ["submission_id", "metadata_key"], strict := true,
      cols := metadataColumns } ]

theorem final_decls {sums : Nat → Nat} {db : Database} (h : OfRelease sums migrations.length db) :
    db.tables.map Table.decl = finalDecls := by
  have := of_fresh h (fun x => x.1 == finalDecls) (by decide +kernel)
  simpa [Database.schema] using this

/-- The key of the tables with one row per submission. -/
theorem key_one {a b : Nat} (h : [num a] = [num b]) : a = b := by
  simp only [List.cons.injEq, and_true] at h
  exact num_inj h

/-- The key of the tables with one row per chunk. -/
theorem key_two {a b : ChunkId} (h : [num a.submissionId, num a.chunkIndex] = [num b.submissionId, num b.chunkIndex]) :
    a = b := by
  simp only [List.cons.injEq, and_true] at h
  have := num_inj h.1; have := num_inj h.2
  cases a; cases b; simp_all

theorem tables_ok (day : Time → Nat) {db : DB} (hI : Inv db) : ∀ d ∈ finalDecls, TableOk ⟨d, rowsOf day db d.name⟩ := by
  have hids := hI.ids
  simp only [allIds, List.nodup_append] at hids
  intro d hd
  simp only [finalDecls, List.mem_cons, List.not_mem_nil, or_false] at hd
  rcases hd with rfl | rfl | rfl | rfl | rfl | rfl | rfl | rfl
  · refine tableOk_map (key := SubmissionRow.id) (g := fun i => [num i]) ?_ (fun _ => rfl)
      (fun _ _ h => key_one h) hids.1.1.1
    rintro ⟨id, pfx, t, dn, md, ot, cs⟩
    refine ⟨rfl, List.all_eq_true.1 ?_⟩
    cases pfx <;> cases md <;> cases cs <;> rfl
  · refine tableOk_map (key := CompletedRow.id) (g := fun i => [num i]) ?_ (fun _ => rfl)
      (fun _ _ h => key_one h) hids.1.1.2.1
    rintro ⟨id, pfx, t, md, at', ot, cs⟩
    refine ⟨rfl, List.all_eq_true.1 ?_⟩
    cases pfx <;> cases md <;> cases cs <;> rfl
  · refine tableOk_map (key := FailedRow.id) (g := fun i => [num i]) ?_ (fun _ => rfl)
      (fun _ _ h => key_one h) hids.1.2.1
    rintro ⟨id, pfx, t, dn, md, at', fc, ot, cs⟩
    refine ⟨rfl, List.all_eq_true.1 ?_⟩
    cases pfx <;> cases md <;> cases cs <;> cases dn <;> rfl
  · refine tableOk_map (key := ChunkRow.key) (g := fun k => [num k.submissionId, num k.chunkIndex]) ?_ (fun _ => rfl)
      (fun _ _ h => key_two h) hI.chunkKeys
    rintro ⟨s, i, c, r⟩
    refine ⟨rfl, List.all_eq_true.1 ?_⟩
    cases c <;> rfl
  · refine tableOk_map (key := ChunkCompletedRow.key) (g := fun k => [num k.submissionId, num k.chunkIndex]) ?_
      (fun _ => rfl) (fun _ _ h => key_two h) hI.ccKeys
    rintro ⟨s, i, c, r⟩
    refine ⟨rfl, List.all_eq_true.1 ?_⟩
    cases c <;> rfl
  · refine tableOk_map (key := ChunkFailedRow.key) (g := fun k => [num k.submissionId, num k.chunkIndex]) ?_
      (fun _ => rfl) (fun _ _ h => key_two h) hI.cfKeys
    rintro ⟨s, i, c, f, t, k⟩
    refine ⟨rfl, List.all_eq_true.1 ?_⟩
    cases c <;> rfl
  · refine tableOk_map (key := CancelledRow.id) (g := fun i => [num i]) ?_ (fun _ => rfl)
      (fun _ _ h => key_one h) hids.2.1
    rintro ⟨id, pfx, t, dn, md, at'⟩
    refine ⟨rfl, List.all_eq_true.1 ?_⟩
    cases pfx <;> cases md <;> rfl
  · refine tableOk_map (key := MetaRow.pk) (g := fun k => [num k.1, .text k.2]) ?_ (fun _ => rfl)
      ?_ hI.metaPk
    · rintro ⟨s, k, v⟩
      exact ⟨rfl, List.all_eq_true.1 rfl⟩
    · rintro ⟨a, b⟩ ⟨a', b'⟩ h
      simp only [List.cons.injEq, and_true, Val.text.injEq] at h
      rw [num_inj h.1, h.2]

end Opsqueue.Upgrade
