import Verif.Spec.Machine
import Verif.Proofs.Calls
import Verif.Props.Atomicity

/-! The database restricted to one submission, and the tables a record stands for. -/

set_option linter.unusedSimpArgs false

namespace Opsqueue.Machine
open Opsqueue Sql SubmissionDb

/-- The rows about one submission. -/
def sel (me : SubmissionId) (db : DB) : DB :=
  { submissions := db.submissions.filter (·.id == me)
    submissionsCompleted := db.submissionsCompleted.filter (·.id == me)
    submissionsFailed := db.submissionsFailed.filter (·.id == me)
    submissionsCancelled := db.submissionsCancelled.filter (·.id == me)
    chunks := db.chunks.filter (·.submissionId == me)
    chunksCompleted := db.chunksCompleted.filter (·.submissionId == me)
    chunksFailed := db.chunksFailed.filter (·.submissionId == me)
    submissionsMetadata := db.submissionsMetadata.filter (·.submissionId == me) }

def subRow (me : SubmissionId) : Option Life → List SubmissionRow
  | some (.running i size otel w) =>
    [{ id := me, pfx := i.pfx, chunksTotal := i.total, chunksDone := i.total - w.length,
       metadata := i.metadata, otel := otel, chunkSize := size }]
  | _ => []
def compRow (me : SubmissionId) : Option Life → List CompletedRow
  | some (.completed i t k) =>
    [{ id := me, pfx := i.pfx, chunksTotal := i.total, metadata := i.metadata, completedAt := t,
       otel := k.otel, chunkSize := k.chunkSize }]
  | _ => []
def failRow (me : SubmissionId) : Option Life → List FailedRow
  | some (.failed i done culprit t k) =>
    [{ id := me, pfx := i.pfx, chunksTotal := i.total, chunksDone := done, metadata := i.metadata,
       failedAt := t, failedChunkId := culprit, otel := k.otel, chunkSize := k.chunkSize }]
  | _ => []
def cancRow (me : SubmissionId) : Option Life → List CancelledRow
  | some (.cancelled i done t) =>
    [{ id := me, pfx := i.pfx, chunksTotal := i.total, chunksDone := done, metadata := i.metadata,
       cancelledAt := t }]
  | _ => []
def Waiting.row (me : SubmissionId) (c : Waiting) : ChunkRow := ⟨me, c.index, c.input, c.retries⟩
def Output.row (me : SubmissionId) (o : Output) : ChunkCompletedRow := ⟨me, o.index, o.output, o.storedAt⟩
def Failure.row (me : SubmissionId) (f : Failure) : ChunkFailedRow :=
  ⟨me, f.index, f.input, f.message, f.failedAt, f.skipped⟩

/-- The rows a record stands for. -/
def image (me : SubmissionId) (r : Record) : DB :=
  { submissions := subRow me r.life
    submissionsCompleted := compRow me r.life
    submissionsFailed := failRow me r.life
    submissionsCancelled := cancRow me r.life
    chunks := r.waiting.map (Waiting.row me)
    chunksCompleted := r.outputs.map (Output.row me)
    chunksFailed := r.failures.map (Failure.row me)
    submissionsMetadata := metaRows me r.strategic }

/-! ### observations depend on the restriction only -/

theorem find_filter {α : Type} (l : List α) (p q : α → Bool) (h : ∀ x, p x = true → q x = true) :
    (l.filter q).find? p = l.find? p := by
  induction l with
  | nil => rfl
  | cons x xs ih =>
    cases hq : q x with
    | true => simp [List.filter_cons, hq, List.find?_cons, ih]
    | false =>
      have hp : p x = false := by
        cases hp : p x with
        | false => rfl
        | true => rw [h x hp] at hq; cases hq
      simp [List.filter_cons, hq, List.find?_cons, ih, hp]

theorem sel_strategic (me : SubmissionId) (db : DB) :
    Stmt.strategicOf me (sel me db) = Stmt.strategicOf me db := by
  simp [Stmt.strategicOf, sel]

theorem sel_chunkFailed (me : SubmissionId) (i : ChunkIndex) (db : DB) :
    (sel me db).chunksFailed.find? (fun c => c.key == ⟨me, i⟩) =
      db.chunksFailed.find? (fun c => c.key == ⟨me, i⟩) := by
  apply find_filter
  intro x hx
  simp only [ChunkFailedRow.key, beq_iff_eq, ChunkId.mk.injEq] at hx ⊢
  exact hx.1

theorem sel_chunkCompleted (me : SubmissionId) (i : ChunkIndex) (db : DB) :
    (sel me db).chunksCompleted.find? (fun c => c.key == ⟨me, i⟩) =
      db.chunksCompleted.find? (fun c => c.key == ⟨me, i⟩) := by
  apply find_filter
  intro x hx
  simp only [ChunkCompletedRow.key, beq_iff_eq, ChunkId.mk.injEq] at hx ⊢
  exact hx.1

theorem sel_chunk (me : SubmissionId) (i : ChunkIndex) (db : DB) :
    (sel me db).chunks.find? (fun c => c.key == ⟨me, i⟩) = db.chunks.find? (fun c => c.key == ⟨me, i⟩) := by
  apply find_filter
  intro x hx
  simp only [ChunkRow.key, beq_iff_eq, ChunkId.mk.injEq] at hx ⊢
  exact hx.1

theorem sel_status (me : SubmissionId) (db : DB) : statusAt (sel me db) me = statusAt db me := by
  have e1 : Stmt.selectSubmission me (sel me db) = Stmt.selectSubmission me db := by
    have h : (sel me db).submissions.find? (fun r => r.id == me) = db.submissions.find? (fun r => r.id == me) :=
      find_filter _ _ _ fun _ h => h
    simp only [Stmt.selectSubmission, h]
    cases hf : db.submissions.find? (fun r => r.id == me) with
    | none => rfl
    | some r =>
      have := (mem_of_find?_key (key := SubmissionRow.id) hf).2
      simp [this, sel_strategic]
  have e2 : Stmt.selectCompleted me (sel me db) = Stmt.selectCompleted me db := by
    have h : (sel me db).submissionsCompleted.find? (fun r => r.id == me) =
        db.submissionsCompleted.find? (fun r => r.id == me) := find_filter _ _ _ fun _ h => h
    simp only [Stmt.selectCompleted, h]
    cases hf : db.submissionsCompleted.find? (fun r => r.id == me) with
    | none => rfl
    | some r =>
      have := (mem_of_find?_key (key := CompletedRow.id) hf).2
      simp [this, sel_strategic]
  have e3 : Stmt.selectFailed me (sel me db) = Stmt.selectFailed me db := by
    have h : (sel me db).submissionsFailed.find? (fun r => r.id == me) =
        db.submissionsFailed.find? (fun r => r.id == me) := find_filter _ _ _ fun _ h => h
    simp only [Stmt.selectFailed, h]
    cases hf : db.submissionsFailed.find? (fun r => r.id == me) with
    | none => rfl
    | some r =>
      have := (mem_of_find?_key (key := FailedRow.id) hf).2
      simp [this, sel_strategic]
  have e4 : Stmt.selectCancelled me (sel me db) = Stmt.selectCancelled me db := by
    have h : (sel me db).submissionsCancelled.find? (fun r => r.id == me) =
        db.submissionsCancelled.find? (fun r => r.id == me) := find_filter _ _ _ fun _ h => h
    simp only [Stmt.selectCancelled, h]
    cases hf : db.submissionsCancelled.find? (fun r => r.id == me) with
    | none => rfl
    | some r =>
      have := (mem_of_find?_key (key := CancelledRow.id) hf).2
      simp [this, sel_strategic]
  rw [statusAt_eq, statusAt_eq]
  simp only [statusReads, e1, e2, e3, e4]
  cases Stmt.selectSubmission me db with
  | some s => rfl
  | none =>
  cases Stmt.selectCompleted me db with
  | some s => rfl
  | none =>
  cases hf : Stmt.selectFailed me db with
  | none => rfl
  | some s =>
    obtain ⟨r, _, h1, h2⟩ := selectFailed_some hf
    have : s.id = me := by rw [h2]; exact h1
    simp only [Stmt.selectChunkFailed, this, sel_chunkFailed]

theorem find_map {α β : Type} (l : List α) (f : α → β) (p : β → Bool) :
    (l.map f).find? p = (l.find? fun x => p (f x)).map f := by
  induction l with
  | nil => rfl
  | cons x xs ih =>
    simp only [List.map_cons, List.find?_cons, ih]
    cases p (f x) <;> rfl

theorem strategicOf_image (me : SubmissionId) (r : Record) :
    Stmt.strategicOf me (image me r) = r.strategic := by
  simp only [Stmt.strategicOf, image, metaRows]
  induction r.strategic with
  | nil => rfl
  | cons x xs ih =>
    obtain ⟨k, v⟩ := x
    simp only [List.map_cons, List.filter_cons, beq_self_eq_true, if_true, ih]

theorem key_fail (me : SubmissionId) (i : Nat) :
    (fun x : Failure => (x.row me).key == (⟨me, i⟩ : ChunkId)) = fun f => f.index == i := by
  funext f; rw [Bool.eq_iff_iff]; simp [Failure.row, ChunkFailedRow.key]
theorem key_out (me : SubmissionId) (i : Nat) :
    (fun x : Output => (x.row me).key == (⟨me, i⟩ : ChunkId)) = fun f => f.index == i := by
  funext f; rw [Bool.eq_iff_iff]; simp [Output.row, ChunkCompletedRow.key]
theorem key_wait (me : SubmissionId) (i : Nat) :
    (fun x : Waiting => (x.row me).key == (⟨me, i⟩ : ChunkId)) = fun f => f.index == i := by
  funext f; rw [Bool.eq_iff_iff]; simp [Waiting.row, ChunkRow.key]

theorem find_index {α : Type} {l : List α} {ix : α → Nat} {i : Nat} {x : α}
    (h : l.find? (fun f => ix f == i) = some x) : ix x = i := by
  simpa using List.find?_some h

theorem chunkFailed_image (me : SubmissionId) (r : Record) (i : Nat) :
    resOf (Stmt.selectChunkFailed ⟨me, i⟩ (image me r)) = r.failureOf me i := by
  simp only [Stmt.selectChunkFailed, image, find_map, key_fail, Record.failureOf]
  cases h : r.failures.find? (fun f => f.index == i) with
  | none => rfl
  | some f => simp [resOf, Failure.row, find_index (ix := Failure.index) h]

theorem decode_getD (s : Option Int) : decodeChunkSize s = s.getD 1 := by cases s <;> rfl

/-- What the restricted database shows is what the record says. -/
theorem shows_of {db : DB} {me : SubmissionId} {r : Record} (h : sel me db = image me r) : Shows db me r where
  status := by
    rw [← sel_status, h, statusAt_eq]
    rcases hl : r.life with _ | (⟨i, size, otel, w⟩ | ⟨i, t, k⟩ | ⟨i, d, c, t, k⟩ | ⟨i, d, t⟩)
    · simp [statusReads, Stmt.selectSubmission, Stmt.selectCompleted, Stmt.selectFailed, Stmt.selectCancelled,
        image, hl, subRow, compRow, failRow, cancRow, Record.status, resOf]
    · have hs := strategicOf_image me r
      simp only [statusReads, Stmt.selectSubmission]
      have : (image me r).submissions = subRow me r.life := rfl
      rw [this, hl]
      simp [subRow, hs, decode_getD, Record.status, hl, resOf, Record.strategic, Life.info]
    · have hs := strategicOf_image me r
      have e1 : (image me r).submissions = subRow me r.life := rfl
      have e2 : (image me r).submissionsCompleted = compRow me r.life := rfl
      simp only [statusReads, Stmt.selectSubmission, Stmt.selectCompleted, e1, e2, hl]
      simp [subRow, compRow, hs, decode_getD, Record.status, hl, resOf, Record.strategic, Life.info]
    · have hs := strategicOf_image me r
      have e1 : (image me r).submissions = subRow me r.life := rfl
      have e2 : (image me r).submissionsCompleted = compRow me r.life := rfl
      have e3 : (image me r).submissionsFailed = failRow me r.life := rfl
      have e4 := chunkFailed_image me r c
      simp only [statusReads, Stmt.selectSubmission, Stmt.selectCompleted, Stmt.selectFailed, e1, e2, e3, hl]
      simp only [Record.status, hl, ← e4]
      simp only [subRow, compRow, failRow, List.find?_nil, Option.map_none, List.find?_cons, beq_self_eq_true,
        Option.map_some]
      cases Stmt.selectChunkFailed ⟨me, c⟩ (image me r) <;>
        simp [resOf, hs, decode_getD, Record.strategic, hl, Life.info]
    · have hs := strategicOf_image me r
      have e1 : (image me r).submissions = subRow me r.life := rfl
      have e2 : (image me r).submissionsCompleted = compRow me r.life := rfl
      have e3 : (image me r).submissionsFailed = failRow me r.life := rfl
      have e4 : (image me r).submissionsCancelled = cancRow me r.life := rfl
      simp only [statusReads, Stmt.selectSubmission, Stmt.selectCompleted, Stmt.selectFailed, Stmt.selectCancelled,
        e1, e2, e3, e4, hl]
      simp [subRow, compRow, failRow, cancRow, hs, Record.status, hl, resOf, Record.strategic, Life.info]
  chunk := by
    intro i
    rw [chunkAt_eq, Stmt.selectChunk, ← sel_chunk, h]
    simp only [image, find_map, key_wait, Record.chunk]
    cases h : r.waiting.find? (fun f => f.index == i) with
    | none => rfl
    | some f => simp [resOf, Waiting.row, find_index (ix := Waiting.index) h]
  output := by
    intro i
    rw [chunkCompletedAt_eq, Stmt.selectChunkCompleted, ← sel_chunkCompleted, h]
    simp only [image, find_map, key_out, Record.outputOf]
    cases h : r.outputs.find? (fun f => f.index == i) with
    | none => rfl
    | some f => simp [resOf, Output.row, find_index (ix := Output.index) h]
  failure := by
    intro i
    rw [chunkFailedAt_eq, ← chunkFailed_image, ← h, Stmt.selectChunkFailed, Stmt.selectChunkFailed, sel_chunkFailed]
  skipped := by
    intro i
    rw [skippedAt_eq, ← sel_chunkFailed, h]
    simp only [image, find_map, key_fail]
    cases r.failures.find? (fun f => f.index == i) <;> rfl
  strategic := by rw [strategicAt_eq, ← sel_strategic, h, strategicOf_image]
  backlog := by
    have : (sel me db).chunks = r.waiting.map (Waiting.row me) := by rw [h]; rfl
    rw [backlogSize, show db.chunks.filter (fun c => c.submissionId == me) = (sel me db).chunks from rfl, this,
      List.length_map]

end Opsqueue.Machine
