import Verif.Proofs.Invariant
import Verif.Spec.Observe

/-! Characterisation of `statusAt` by table rows. -/

namespace Opsqueue
open Sql SubmissionDb

def resOf {ε α : Type} : Except ε α → Res ε α
  | .ok a => .ok a
  | .error e => .err e

def subView (db : DB) (r : SubmissionRow) : Submission :=
  { id := r.id, pfx := r.pfx, chunksTotal := r.chunksTotal, chunksDone := r.chunksDone,
    chunkSize := decodeChunkSize r.chunkSize, metadata := r.metadata,
    strategic := Stmt.strategicOf r.id db, otel := r.otel }

def compView (db : DB) (r : CompletedRow) : SubmissionCompleted :=
  { id := r.id, pfx := r.pfx, chunksTotal := r.chunksTotal,
    chunkSize := decodeChunkSize r.chunkSize, metadata := r.metadata,
    strategic := Stmt.strategicOf r.id db, completedAt := r.completedAt, otel := r.otel }

def failView (db : DB) (r : FailedRow) : SubmissionFailed :=
  { id := r.id, pfx := r.pfx, chunksTotal := r.chunksTotal, chunksDone := r.chunksDone,
    chunkSize := decodeChunkSize r.chunkSize, metadata := r.metadata,
    strategic := Stmt.strategicOf r.id db, failedAt := r.failedAt,
    failedChunkId := r.failedChunkId, otel := r.otel }

def cancView (db : DB) (r : CancelledRow) : SubmissionCancelled :=
  { id := r.id, pfx := r.pfx, chunksTotal := r.chunksTotal, chunksDone := r.chunksDone,
    metadata := r.metadata, strategic := Stmt.strategicOf r.id db, cancelledAt := r.cancelledAt }

def chunkFailedView (r : ChunkFailedRow) : ChunkFailed :=
  { submissionId := r.submissionId, chunkIndex := r.chunkIndex,
    inputContent := r.inputContent, failure := r.failure, failedAt := r.failedAt }

/-- On one connection the program is the five reads of one snapshot. -/
theorem status_run (id : SubmissionId) (db : DB) :
    submissionStatus id ⟨[], db⟩ = (resOf (statusReads id db db db db db), ⟨[], db⟩) := by
  simp only [submissionStatus, statusReads, bind_run, query_nil]
  cases Stmt.selectSubmission id db with
  | some s => simp [pure_run, resOf]
  | none =>
    simp only [bind_run, query_nil]
    cases Stmt.selectCompleted id db with
    | some s => simp [pure_run, resOf]
    | none =>
      simp only [bind_run, query_nil]
      cases Stmt.selectFailed id db with
      | some s =>
        simp only [bind_run, query_nil, ChunkDb.getChunkFailed]
        cases Stmt.selectChunkFailed ⟨s.id, s.failedChunkId⟩ db with
        | ok c => simp [pure_run, resOf]
        | error e => simp [resOf]
      | none =>
        simp only [bind_run, query_nil]
        cases Stmt.selectCancelled id db with
        | some s => simp [pure_run, resOf]
        | none => simp [pure_run, resOf]

theorem statusAt_eq (id : SubmissionId) (db : DB) :
    statusAt db id = resOf (statusReads id db db db db db) := by
  simp [statusAt, status_run]

theorem selectSubmission_none {id : SubmissionId} {db : DB} :
    Stmt.selectSubmission id db = none ↔ id ∉ db.submissions.map SubmissionRow.id := by
  simp only [Stmt.selectSubmission, Option.map_eq_none_iff]; exact find?_key_none

theorem selectCompleted_none {id : SubmissionId} {db : DB} :
    Stmt.selectCompleted id db = none ↔ id ∉ db.submissionsCompleted.map CompletedRow.id := by
  simp only [Stmt.selectCompleted, Option.map_eq_none_iff]; exact find?_key_none

theorem selectFailed_none {id : SubmissionId} {db : DB} :
    Stmt.selectFailed id db = none ↔ id ∉ db.submissionsFailed.map FailedRow.id := by
  simp only [Stmt.selectFailed, Option.map_eq_none_iff]; exact find?_key_none

theorem selectCancelled_none {id : SubmissionId} {db : DB} :
    Stmt.selectCancelled id db = none ↔ id ∉ db.submissionsCancelled.map CancelledRow.id := by
  simp only [Stmt.selectCancelled, Option.map_eq_none_iff]; exact find?_key_none

theorem selectSubmission_some {id : SubmissionId} {db : DB} {s : Submission}
    (h : Stmt.selectSubmission id db = some s) : ∃ r ∈ db.submissions, r.id = id ∧ s = subView db r := by
  simp only [Stmt.selectSubmission, Option.map_eq_some_iff] at h
  obtain ⟨r, hr, rfl⟩ := h
  have := mem_of_find?_key hr
  exact ⟨r, this.1, this.2, rfl⟩

theorem selectCompleted_some {id : SubmissionId} {db : DB} {s : SubmissionCompleted}
    (h : Stmt.selectCompleted id db = some s) :
    ∃ r ∈ db.submissionsCompleted, r.id = id ∧ s = compView db r := by
  simp only [Stmt.selectCompleted, Option.map_eq_some_iff] at h
  obtain ⟨r, hr, rfl⟩ := h
  have := mem_of_find?_key hr
  exact ⟨r, this.1, this.2, rfl⟩

theorem selectFailed_some {id : SubmissionId} {db : DB} {s : SubmissionFailed}
    (h : Stmt.selectFailed id db = some s) :
    ∃ r ∈ db.submissionsFailed, r.id = id ∧ s = failView db r := by
  simp only [Stmt.selectFailed, Option.map_eq_some_iff] at h
  obtain ⟨r, hr, rfl⟩ := h
  have := mem_of_find?_key hr
  exact ⟨r, this.1, this.2, rfl⟩

theorem selectCancelled_some {id : SubmissionId} {db : DB} {s : SubmissionCancelled}
    (h : Stmt.selectCancelled id db = some s) :
    ∃ r ∈ db.submissionsCancelled, r.id = id ∧ s = cancView db r := by
  simp only [Stmt.selectCancelled, Option.map_eq_some_iff] at h
  obtain ⟨r, hr, rfl⟩ := h
  have := mem_of_find?_key hr
  exact ⟨r, this.1, this.2, rfl⟩

theorem selectChunkFailed_ok {cid : ChunkId} {db : DB} {c : ChunkFailed}
    (h : Stmt.selectChunkFailed cid db = .ok c) :
    ∃ r ∈ db.chunksFailed, r.key = cid ∧ c = chunkFailedView r := by
  simp only [Stmt.selectChunkFailed] at h
  split at h
  · simp at h
  · rename_i r hr
    have := mem_of_find?_key hr
    injection h with h
    exact ⟨r, this.1, this.2, h.symm⟩

section
variable {db : DB} (hI : Inv db)
include hI

theorem select_sub {r : SubmissionRow} (hr : r ∈ db.submissions) :
    Stmt.selectSubmission r.id db = some (subView db r) := by
  simp [Stmt.selectSubmission, find?_key_of_mem hI.subIds hr, subView]

theorem select_comp {r : CompletedRow} (hr : r ∈ db.submissionsCompleted) :
    Stmt.selectCompleted r.id db = some (compView db r) := by
  simp [Stmt.selectCompleted, find?_key_of_mem hI.compIds hr, compView]

theorem select_fail {r : FailedRow} (hr : r ∈ db.submissionsFailed) :
    Stmt.selectFailed r.id db = some (failView db r) := by
  simp [Stmt.selectFailed, find?_key_of_mem hI.failIds hr, failView]

theorem select_canc {r : CancelledRow} (hr : r ∈ db.submissionsCancelled) :
    Stmt.selectCancelled r.id db = some (cancView db r) := by
  simp [Stmt.selectCancelled, find?_key_of_mem hI.cancIds hr, cancView]

theorem select_chunkFailed {r : ChunkFailedRow} (hr : r ∈ db.chunksFailed) :
    Stmt.selectChunkFailed r.key db = .ok (chunkFailedView r) := by
  simp [Stmt.selectChunkFailed, find?_key_of_mem hI.cfKeys hr, chunkFailedView]

theorem not_sub_of_comp {x : SubmissionId} (h : x ∈ db.submissionsCompleted.map CompletedRow.id) :
    x ∉ db.submissions.map SubmissionRow.id := by
  intro hm; obtain ⟨s, hs, rfl⟩ := List.mem_map.1 hm; exact hI.sub_comp hs h

theorem not_sub_of_fail {x : SubmissionId} (h : x ∈ db.submissionsFailed.map FailedRow.id) :
    x ∉ db.submissions.map SubmissionRow.id := by
  intro hm; obtain ⟨s, hs, rfl⟩ := List.mem_map.1 hm; exact hI.sub_fail hs h

theorem not_sub_of_canc {x : SubmissionId} (h : x ∈ db.submissionsCancelled.map CancelledRow.id) :
    x ∉ db.submissions.map SubmissionRow.id := by
  intro hm; obtain ⟨s, hs, rfl⟩ := List.mem_map.1 hm; exact hI.sub_canc hs h

theorem statusAt_sub {r : SubmissionRow} (hr : r ∈ db.submissions) :
    statusAt db r.id = .ok (some (.inProgress (subView db r))) := by
  simp [statusAt_eq, statusReads, select_sub hI hr, resOf]

theorem statusAt_comp {r : CompletedRow} (hr : r ∈ db.submissionsCompleted) :
    statusAt db r.id = .ok (some (.completed (compView db r))) := by
  have h1 := selectSubmission_none.2 (not_sub_of_comp hI (List.mem_map_of_mem hr))
  simp [statusAt_eq, statusReads, h1, select_comp hI hr, resOf]

theorem statusAt_fail {r : FailedRow} (hr : r ∈ db.submissionsFailed) :
    statusAt db r.id = match Stmt.selectChunkFailed ⟨r.id, r.failedChunkId⟩ db with
      | .ok c => .ok (some (.failed (failView db r) c))
      | .error e => .err e := by
  have h1 := selectSubmission_none.2 (not_sub_of_fail hI (List.mem_map_of_mem hr))
  have h2 : Stmt.selectCompleted r.id db = none :=
    selectCompleted_none.2 fun h => hI.comp_fail h (List.mem_map_of_mem hr)
  simp only [statusAt_eq, statusReads, h1, h2, select_fail hI hr, failView]
  cases Stmt.selectChunkFailed ⟨r.id, r.failedChunkId⟩ db <;> rfl

theorem statusAt_fail_ok {r : FailedRow} {c : ChunkFailedRow} (hr : r ∈ db.submissionsFailed)
    (hc : c ∈ db.chunksFailed) (hk : c.key = ⟨r.id, r.failedChunkId⟩) :
    statusAt db r.id = .ok (some (.failed (failView db r) (chunkFailedView c))) := by
  rw [statusAt_fail hI hr, ← hk, select_chunkFailed hI hc]

theorem statusAt_canc {r : CancelledRow} (hr : r ∈ db.submissionsCancelled) :
    statusAt db r.id = .ok (some (.cancelled (cancView db r))) := by
  have h1 := selectSubmission_none.2 (not_sub_of_canc hI (List.mem_map_of_mem hr))
  have h2 : Stmt.selectCompleted r.id db = none :=
    selectCompleted_none.2 fun h => hI.comp_canc h (List.mem_map_of_mem hr)
  have h3 : Stmt.selectFailed r.id db = none :=
    selectFailed_none.2 fun h => hI.fail_canc h (List.mem_map_of_mem hr)
  simp [statusAt_eq, statusReads, h1, h2, h3, select_canc hI hr, resOf]

end

theorem statusAt_none {db : DB} {id : SubmissionId} (h : id ∉ allIds db) :
    statusAt db id = .ok none := by
  simp only [allIds, List.mem_append, not_or] at h
  simp [statusAt_eq, statusReads, selectSubmission_none.2 h.1.1.1, selectCompleted_none.2 h.1.1.2,
    selectFailed_none.2 h.1.2, selectCancelled_none.2 h.2, resOf]

/-! Inversion. -/

theorem statusAt_inv {db : DB} {id : SubmissionId} {r} (h : statusAt db id = r) :
    (∃ s ∈ db.submissions, s.id = id ∧ r = .ok (some (.inProgress (subView db s)))) ∨
    (∃ s ∈ db.submissionsCompleted, s.id = id ∧ r = .ok (some (.completed (compView db s)))) ∨
    (∃ s ∈ db.submissionsFailed, s.id = id ∧
      ((∃ c ∈ db.chunksFailed, c.key = ⟨id, s.failedChunkId⟩ ∧
          r = .ok (some (.failed (failView db s) (chunkFailedView c)))) ∨
       ((⟨id, s.failedChunkId⟩ : ChunkId) ∉ db.chunksFailed.map ChunkFailedRow.key ∧
          r = .err .rowNotFound))) ∨
    (∃ s ∈ db.submissionsCancelled, s.id = id ∧ r = .ok (some (.cancelled (cancView db s)))) ∨
    (id ∉ allIds db ∧ r = .ok none) := by
  rw [statusAt_eq] at h
  unfold statusReads at h
  split at h
  · rename_i s hs
    obtain ⟨x, hx, he, rfl⟩ := selectSubmission_some hs
    exact .inl ⟨x, hx, he, h.symm⟩
  · rename_i h1
    split at h
    · rename_i s hs
      obtain ⟨x, hx, he, rfl⟩ := selectCompleted_some hs
      exact .inr (.inl ⟨x, hx, he, h.symm⟩)
    · rename_i h2
      split at h
      · rename_i s hs
        obtain ⟨x, hx, he, rfl⟩ := selectFailed_some hs
        refine .inr (.inr (.inl ⟨x, hx, he, ?_⟩))
        have hk : (⟨(failView db x).id, (failView db x).failedChunkId⟩ : ChunkId) =
            ⟨id, x.failedChunkId⟩ := by simp [failView, he]
        rw [hk] at h
        split at h
        · rename_i c hc
          obtain ⟨y, hy, hye, rfl⟩ := selectChunkFailed_ok hc
          exact .inl ⟨y, hy, hye, h.symm⟩
        · rename_i e hc
          right
          simp only [Stmt.selectChunkFailed] at hc
          split at hc
          · rename_i hf
            injection hc with hc
            subst hc
            exact ⟨find?_key_none.1 hf, h.symm⟩
          · simp at hc
      · rename_i h3
        split at h
        · rename_i s hs
          obtain ⟨x, hx, he, rfl⟩ := selectCancelled_some hs
          exact .inr (.inr (.inr (.inl ⟨x, hx, he, h.symm⟩)))
        · rename_i h4
          refine .inr (.inr (.inr (.inr ⟨?_, h.symm⟩)))
          simp only [allIds, List.mem_append, not_or]
          exact ⟨⟨⟨selectSubmission_none.1 h1, selectCompleted_none.1 h2⟩,
            selectFailed_none.1 h3⟩, selectCancelled_none.1 h4⟩

theorem statusAt_inProgress {db : DB} {id : SubmissionId} {s : Submission}
    (h : statusAt db id = .ok (some (.inProgress s))) :
    ∃ r ∈ db.submissions, r.id = id ∧ s = subView db r := by
  rcases statusAt_inv h with ⟨x, hx, he, hr⟩ | ⟨x, hx, he, hr⟩ | ⟨x, hx, he, hr⟩ | ⟨x, hx, he, hr⟩ | ⟨_, hr⟩
  · simp only [Res.ok.injEq, Option.some.injEq, SubmissionStatus.inProgress.injEq] at hr
    exact ⟨x, hx, he, hr⟩
  · simp at hr
  · rcases hr with ⟨c, _, _, hr⟩ | ⟨_, hr⟩ <;> simp at hr
  · simp at hr
  · simp at hr

theorem statusAt_completed {db : DB} {id : SubmissionId} {s : SubmissionCompleted}
    (h : statusAt db id = .ok (some (.completed s))) :
    ∃ r ∈ db.submissionsCompleted, r.id = id ∧ s = compView db r := by
  rcases statusAt_inv h with ⟨x, hx, he, hr⟩ | ⟨x, hx, he, hr⟩ | ⟨x, hx, he, hr⟩ | ⟨x, hx, he, hr⟩ | ⟨_, hr⟩
  · simp at hr
  · simp only [Res.ok.injEq, Option.some.injEq, SubmissionStatus.completed.injEq] at hr
    exact ⟨x, hx, he, hr⟩
  · rcases hr with ⟨c, _, _, hr⟩ | ⟨_, hr⟩ <;> simp at hr
  · simp at hr
  · simp at hr

theorem statusAt_failed {db : DB} {id : SubmissionId} {s : SubmissionFailed} {c : ChunkFailed}
    (h : statusAt db id = .ok (some (.failed s c))) :
    ∃ r ∈ db.submissionsFailed, r.id = id ∧ s = failView db r ∧
      ∃ d ∈ db.chunksFailed, d.key = ⟨id, r.failedChunkId⟩ ∧ c = chunkFailedView d := by
  rcases statusAt_inv h with ⟨x, hx, he, hr⟩ | ⟨x, hx, he, hr⟩ | ⟨x, hx, he, hr⟩ | ⟨x, hx, he, hr⟩ | ⟨_, hr⟩
  · simp at hr
  · simp at hr
  · rcases hr with ⟨d, hd, hk, hr⟩ | ⟨_, hr⟩
    · simp only [Res.ok.injEq, Option.some.injEq, SubmissionStatus.failed.injEq] at hr
      exact ⟨x, hx, he, hr.1, d, hd, hk, hr.2⟩
    · simp at hr
  · simp at hr
  · simp at hr

theorem statusAt_cancelled {db : DB} {id : SubmissionId} {s : SubmissionCancelled}
    (h : statusAt db id = .ok (some (.cancelled s))) :
    ∃ r ∈ db.submissionsCancelled, r.id = id ∧ s = cancView db r := by
  rcases statusAt_inv h with ⟨x, hx, he, hr⟩ | ⟨x, hx, he, hr⟩ | ⟨x, hx, he, hr⟩ | ⟨x, hx, he, hr⟩ | ⟨_, hr⟩
  · simp at hr
  · simp at hr
  · rcases hr with ⟨c, _, _, hr⟩ | ⟨_, hr⟩ <;> simp at hr
  · simp only [Res.ok.injEq, Option.some.injEq, SubmissionStatus.cancelled.injEq] at hr
    exact ⟨x, hx, he, hr⟩
  · simp at hr

theorem statusAt_eq_none {db : DB} {id : SubmissionId} :
    statusAt db id = .ok none ↔ id ∉ allIds db := by
  constructor
  · intro h
    rcases statusAt_inv h with ⟨x, hx, he, hr⟩ | ⟨x, hx, he, hr⟩ | ⟨x, hx, he, hr⟩ | ⟨x, hx, he, hr⟩ | ⟨h, hr⟩
    · simp at hr
    · simp at hr
    · rcases hr with ⟨c, _, _, hr⟩ | ⟨_, hr⟩ <;> simp at hr
    · simp at hr
    · exact h
  · exact statusAt_none

/-! Backlog counts. -/

theorem backlogCount_eq (db : DB) (cid : ChunkId) :
    backlogCount db cid = (db.chunks.filter (fun c => c.key == cid)).length := by
  unfold backlogCount
  congr 1
  apply List.filter_congr
  intro c _
  cases cid with
  | mk a b =>
    rw [Bool.eq_iff_iff]
    simp [ChunkRow.key]

theorem backlogCount_zero {db : DB} {cid : ChunkId} :
    backlogCount db cid = 0 ↔ cid ∉ db.chunks.map ChunkRow.key := by
  rw [backlogCount_eq, List.length_eq_zero_iff]
  exact filter_key_nil

theorem backlogCount_one {db : DB} (hI : Inv db) {cid : ChunkId} :
    backlogCount db cid = 1 ↔ cid ∈ db.chunks.map ChunkRow.key := by
  constructor
  · intro h
    apply Classical.byContradiction
    intro hn
    rw [backlogCount_zero.2 hn] at h
    omega
  · intro h
    obtain ⟨c, hc, rfl⟩ := List.mem_map.1 h
    rw [backlogCount_eq, filter_key_of_mem hI.chunkKeys hc]
    rfl

theorem backlogCount_le {db : DB} (hI : Inv db) (cid : ChunkId) : backlogCount db cid ≤ 1 := by
  by_cases h : cid ∈ db.chunks.map ChunkRow.key
  · rw [(backlogCount_one hI).2 h]; omega
  · rw [backlogCount_zero.2 h]; omega

end Opsqueue
