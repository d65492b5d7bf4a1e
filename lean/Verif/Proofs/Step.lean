import Verif.Proofs.Effects

/-! Every call, under every fault oracle, has one of the closed-form effects. -/

set_option linter.unusedSimpArgs false

namespace Opsqueue
open Sql SubmissionDb

/-- All submission ids with a status. -/
def allIds (db : DB) : List SubmissionId :=
  db.submissions.map SubmissionRow.id ++ db.submissionsCompleted.map CompletedRow.id ++
  db.submissionsFailed.map FailedRow.id ++ db.submissionsCancelled.map CancelledRow.id

/-- The invariant of reachable databases. -/
structure Inv (db : DB) : Prop where
  ids : (allIds db).Nodup
  chunkKeys : (db.chunks.map ChunkRow.key).Nodup
  ccKeys : (db.chunksCompleted.map ChunkCompletedRow.key).Nodup
  cfKeys : (db.chunksFailed.map ChunkFailedRow.key).Nodup
  ccDisj : ∀ c ∈ db.chunks, ∀ d ∈ db.chunksCompleted, d.key ≠ c.key
  cfDisj : ∀ c ∈ db.chunksCompleted, ∀ d ∈ db.chunksFailed, d.key ≠ c.key
  owner : ∀ c ∈ db.chunks, ∃ s ∈ db.submissions, s.id = c.submissionId ∧ c.chunkIndex < s.chunksTotal
  done : ∀ s ∈ db.submissions,
    s.chunksDone + (db.chunks.filter (·.submissionId == s.id)).length = s.chunksTotal
  ccRange : ∀ d ∈ db.chunksCompleted, ∀ s ∈ db.submissions, s.id = d.submissionId →
    d.chunkIndex < s.chunksTotal
  cfNot : ∀ d ∈ db.chunksFailed, ∀ s ∈ db.submissions, d.submissionId ≠ s.id
  metaPk : (db.submissionsMetadata.map MetaRow.pk).Nodup
  metaOwner : ∀ m ∈ db.submissionsMetadata, m.submissionId ∈ allIds db

namespace Inv
variable {db : DB} (h : Inv db)
include h

theorem subIds : (db.submissions.map SubmissionRow.id).Nodup := by
  have := h.ids; unfold allIds at this
  rw [List.nodup_append, List.nodup_append, List.nodup_append] at this
  exact this.1.1.1

theorem compIds : (db.submissionsCompleted.map CompletedRow.id).Nodup := by
  have := h.ids; unfold allIds at this
  rw [List.nodup_append, List.nodup_append, List.nodup_append] at this
  exact this.1.1.2.1

theorem failIds : (db.submissionsFailed.map FailedRow.id).Nodup := by
  have := h.ids; unfold allIds at this
  rw [List.nodup_append, List.nodup_append, List.nodup_append] at this
  exact this.1.2.1

theorem cancIds : (db.submissionsCancelled.map CancelledRow.id).Nodup := by
  have := h.ids; unfold allIds at this
  rw [List.nodup_append, List.nodup_append, List.nodup_append] at this
  exact this.2.1

theorem sub_comp {s : SubmissionRow} (hs : s ∈ db.submissions) :
    s.id ∉ db.submissionsCompleted.map CompletedRow.id := by
  have := h.ids; unfold allIds at this
  rw [List.nodup_append, List.nodup_append, List.nodup_append] at this
  intro hm
  exact this.1.1.2.2 _ (List.mem_map_of_mem hs) _ hm rfl

theorem sub_fail {s : SubmissionRow} (hs : s ∈ db.submissions) :
    s.id ∉ db.submissionsFailed.map FailedRow.id := by
  have := h.ids; unfold allIds at this
  rw [List.nodup_append, List.nodup_append] at this
  intro hm
  exact this.1.2.2 _ (List.mem_append_left _ (List.mem_map_of_mem hs)) _ hm rfl

theorem sub_canc {s : SubmissionRow} (hs : s ∈ db.submissions) :
    s.id ∉ db.submissionsCancelled.map CancelledRow.id := by
  have := h.ids; unfold allIds at this
  rw [List.nodup_append] at this
  intro hm
  exact this.2.2 _ (by simp only [List.mem_append]; exact .inl (.inl (List.mem_map_of_mem hs))) _ hm rfl

theorem comp_fail {x : SubmissionId} (hs : x ∈ db.submissionsCompleted.map CompletedRow.id) :
    x ∉ db.submissionsFailed.map FailedRow.id := by
  have := h.ids; unfold allIds at this
  rw [List.nodup_append, List.nodup_append] at this
  intro hm
  exact this.1.2.2 _ (List.mem_append_right _ hs) _ hm rfl

theorem comp_canc {x : SubmissionId} (hs : x ∈ db.submissionsCompleted.map CompletedRow.id) :
    x ∉ db.submissionsCancelled.map CancelledRow.id := by
  have := h.ids; unfold allIds at this
  rw [List.nodup_append] at this
  intro hm
  exact this.2.2 _ (by simp only [List.mem_append]; exact .inl (.inr hs)) _ hm rfl

theorem fail_canc {x : SubmissionId} (hs : x ∈ db.submissionsFailed.map FailedRow.id) :
    x ∉ db.submissionsCancelled.map CancelledRow.id := by
  have := h.ids; unfold allIds at this
  rw [List.nodup_append] at this
  intro hm
  exact this.2.2 _ (by simp only [List.mem_append]; exact .inr hs) _ hm rfl

theorem key_not_cc {c : ChunkRow} (hc : c ∈ db.chunks) :
    c.key ∉ db.chunksCompleted.map ChunkCompletedRow.key := by
  intro hm
  obtain ⟨d, hd, hk⟩ := List.mem_map.1 hm
  exact h.ccDisj c hc d hd hk

end Inv

/-- Ids occurring anywhere in the database. -/
def usedIds (db : DB) : List SubmissionId :=
  allIds db ++ db.chunksCompleted.map (·.submissionId) ++ db.chunksFailed.map (·.submissionId)

/-- The possible effects of a call. -/
inductive Effect : DB → Op → DB → Prop
  | none (db op) : Effect db op db
  | insert (db a now o) (h : Eff.InsertOk a db) : Effect db (.insert a now o) (Eff.insert a db)
  | insertEmpty (db a now o) (h : Eff.InsertOk a db) (he : a.contents = []) :
      Effect db (.insert a now o) (Eff.finish a.row now (Eff.insert a db))
  | complete (db c s out t1 t2 o) (hc : c ∈ db.chunks) (hs : s ∈ db.submissions)
      (hid : s.id = c.submissionId) (hl : s.chunksDone + 1 ≠ s.chunksTotal) :
      Effect db (.complete c.key out t1 t2 o) (Eff.completeRaw c.key out t1 db)
  | completeLast (db c s out t1 t2 o) (hc : c ∈ db.chunks) (hs : s ∈ db.submissions)
      (hid : s.id = c.submissionId) (hl : s.chunksDone + 1 = s.chunksTotal) :
      Effect db (.complete c.key out t1 t2 o)
        (Eff.finish { s with chunksDone := s.chunksDone + 1 } t2 (Eff.completeRaw c.key out t1 db))
  | retry (db c failure m t1 t2 t3 o) (hc : c ∈ db.chunks) (hr : c.retries + 1 < m) :
      Effect db (.fail c.key failure m t1 t2 t3 o) (Eff.bump c.key db)
  | fail (db c s failure m t1 t2 t3 o) (hc : c ∈ db.chunks) (hs : s ∈ db.submissions)
      (hid : s.id = c.submissionId) (hr : m ≤ c.retries + 1) :
      Effect db (.fail c.key failure m t1 t2 t3 o) (Eff.fail s c failure t1 t2 t3 db)
  | cancel (db s t1 t2 o) (hs : s ∈ db.submissions) :
      Effect db (.cancel s.id t1 t2 o) (Eff.cancel s t1 t2 db)
  | cleanup (db t o) : Effect db (.cleanup t o) (Eff.cleanup t db)

/-! ### faithfulness of the bodies -/

theorem faithful_insertMetadata (id : SubmissionId) (m : StrategicMetadata) :
    Faithful (insertSubmissionMetadataRaw id m) := by
  induction m with
  | nil => exact faithful_pure _
  | cons kv rest ih => exact faithful_bind (faithful_stmt _) fun _ => ih

theorem faithful_insertBatches (n : Nat) (rows : List ChunkRow) :
    Faithful (ChunkDb.insertBatches n rows) := by
  fun_induction ChunkDb.insertBatches n rows with
  | case1 => exact faithful_pure _
  | case2 r rs ih => exact faithful_bind (faithful_stmt _) fun _ => ih

theorem faithful_insertBody (a : InsertArgs) : Faithful (insertBody a) :=
  faithful_bind (faithful_stmt _) fun _ =>
    faithful_bind (faithful_insertMetadata _ _) fun _ => faithful_insertBatches _ _

theorem faithful_getSubmission (id : SubmissionId) : Faithful (getSubmission id) := by
  refine faithful_bind (faithful_mapErr (faithful_query _)) fun r => ?_
  cases r
  · exact faithful_throw _
  · exact faithful_pure _

theorem faithful_completeSubmissionRaw (id : SubmissionId) (t : Time) :
    Faithful (completeSubmissionRaw id t) := by
  refine faithful_bind (faithful_mapErr (faithful_stmt _)) fun _ =>
    faithful_bind (faithful_mapErr (faithful_stmt _)) fun r => ?_
  cases r
  · exact faithful_throw _
  · exact faithful_pure _

theorem faithful_maybeBody (id : SubmissionId) (t : Time) :
    Faithful (do
      let s ← getSubmission id
      if s.chunksDone = s.chunksTotal then
        completeSubmissionRaw id t
        pure true
      else
        pure false : Sql (E DbErr SubmissionNotFound) Bool) := by
  refine faithful_bind (faithful_getSubmission _) fun s => ?_
  split
  · exact faithful_bind (faithful_completeSubmissionRaw _ _) fun _ => faithful_pure _
  · exact faithful_pure _

theorem faithful_maybeComplete (id : SubmissionId) (t : Time) :
    Faithful (maybeCompleteSubmission id t) :=
  faithful_transaction (faithful_maybeBody id t)

theorem faithful_completeRaw (cid : ChunkId) (out : Content) (t : Time) :
    Faithful (ChunkDb.completeChunkRaw cid out t) :=
  faithful_bind (faithful_stmt _) fun _ => faithful_bind (faithful_stmt _) fun _ => faithful_stmt _

/-- The body of the complete-chunk transaction. -/
def completeBody (cid : ChunkId) (out : Content) (t1 t2 : Time) : Sql ChunkDb.CompleteErr Int := do
  let work ← mapErr E.L (ChunkDb.completeChunkRaw cid out t1)
  let _ ← mapErr (fun | .L e => .L e | .R e => .R (.L e))
    (maybeCompleteSubmission cid.submissionId t2)
  pure (decodeChunkSize work)

theorem faithful_completeBody (cid : ChunkId) (out : Content) (t1 t2 : Time) :
    Faithful (completeBody cid out t1 t2) :=
  faithful_bind (faithful_mapErr (faithful_completeRaw _ _ _)) fun _ =>
    faithful_bind (faithful_mapErr (faithful_maybeComplete _ _)) fun _ => faithful_pure _

theorem faithful_skip (id : SubmissionId) (t : Time) :
    Faithful (ChunkDb.skipRemainingChunks id t) :=
  faithful_bind (faithful_stmt _) fun _ => faithful_stmt _

theorem faithful_failNotx (id : SubmissionId) (i : ChunkIndex) (f : String) (t1 t2 t3 : Time) :
    Faithful (failSubmissionNotx id i f t1 t2 t3) := by
  refine faithful_bind (faithful_bind (faithful_stmt _) fun _ =>
    faithful_bind (faithful_stmt _) fun r => ?_) fun _ =>
    faithful_bind (faithful_bind (faithful_stmt _) fun _ => faithful_stmt _) fun _ =>
    faithful_skip _ _
  cases r
  · exact faithful_throw _
  · exact faithful_pure _

/-- The body of the retry-or-fail transaction. -/
def failBody (cid : ChunkId) (failure : String) (m : Nat) (t1 t2 t3 : Time) : Sql DbErr Bool := do
  let retries ← stmt (Stmt.bumpRetries cid)
  if retries ≥ m then
    failSubmissionNotx cid.submissionId cid.chunkIndex failure t1 t2 t3
    pure true
  else
    pure false

theorem faithful_failBody (cid : ChunkId) (failure : String) (m : Nat) (t1 t2 t3 : Time) :
    Faithful (failBody cid failure m t1 t2 t3) := by
  refine faithful_bind (faithful_stmt _) fun r => ?_
  split
  · exact faithful_bind (faithful_failNotx _ _ _ _ _ _) fun _ => faithful_pure _
  · exact faithful_pure _

theorem faithful_cancelNotx (id : SubmissionId) (t1 t2 : Time) :
    Faithful (cancelSubmissionNotx id t1 t2) := by
  refine faithful_bind (faithful_bind (faithful_mapErr (faithful_stmt _)) fun _ =>
    faithful_bind (faithful_mapErr (faithful_stmt _)) fun r => ?_) fun _ =>
    faithful_mapErr (faithful_skip _ _)
  cases r
  · exact faithful_throw _
  · exact faithful_pure _

/-- The body of the cancel transaction. -/
def cancelBody (id : SubmissionId) (t1 t2 : Time) : Sql CancelErr Unit :=
  matchRes (cancelSubmissionNotx id t1 t2) fun
    | .ok () => pure ()
    | .error (.L e) => throw (.err (.L e))
    | .error (.R nf) =>
      matchRes (submissionStatus id) fun
        | .ok none => throw (.err (.R (.L nf)))
        | .ok (some (.inProgress _)) => throw .panicked
        | .ok (some (.completed s)) => throw (.err (.R (.R (.completed s))))
        | .ok (some (.failed s c)) => throw (.err (.R (.R (.failed s c))))
        | .ok (some (.cancelled s)) => throw (.err (.R (.R (.cancelled s))))
        | .error e => throw (.err (.L e))

theorem cancelBody_ok {id : SubmissionId} {t1 t2 : Time} {w w' : World}
    (h : cancelBody id t1 t2 w = (.ok (), w')) : cancelSubmissionNotx id t1 t2 w = (.ok (), w') := by
  unfold cancelBody at h
  rw [matchRes_run] at h
  split at h
  · rename_i h2; rw [h2]; simpa [pure_run] using h
  · rename_i e w1 h2
    exfalso
    cases e with
    | L e => simp [throw_run] at h
    | R nf =>
      simp only [matchRes_run] at h
      split at h
      · rename_i st _ _
        rcases st with _ | st
        · simp [throw_run] at h
        · cases st <;> simp [throw_run] at h
      · simp [throw_run] at h
      · simp at h
  · simp at h

theorem faithful_cancelBody (id : SubmissionId) (t1 t2 : Time) : Faithful (cancelBody id t1 t2) := by
  intro w a w' h
  have h2 := faithful_cancelNotx id t1 t2 _ _ _ (cancelBody_ok h)
  simp [cancelBody, matchRes_run, h2, pure_run]

theorem faithful_cleanupBody (t : Time) : Faithful (do
    stmt (Stmt.deleteMetadataOfOldCompleted t)
    stmt (Stmt.deleteMetadataOfOldFailed t)
    stmt (Stmt.deleteMetadataOfOldCancelled t)
    stmt (Stmt.deleteOldCompleted t)
    stmt (Stmt.deleteOldFailed t)
    stmt (Stmt.deleteOldCancelled t)
    stmt (Stmt.deleteOldChunksCompleted t)
    stmt (Stmt.deleteOldChunksFailed t) : Sql DbErr Unit) := by
  iterate 7 refine faithful_bind (faithful_stmt _) fun _ => ?_
  exact faithful_stmt _

/-! ### fault-free results of whole calls -/

theorem bump_fail_eq {s : SubmissionRow} {c c' : ChunkRow} {db : DB} (failure : String) (t1 t2 t3 : Time)
    (hid : s.id = c.submissionId) (hk : c'.key = c.key) (hi : c'.inputContent = c.inputContent) :
    Eff.fail s c' failure t1 t2 t3 (Eff.bump c.key db) = Eff.fail s c failure t1 t2 t3 db := by
  have hk1 : c'.chunkIndex = c.chunkIndex := congrArg ChunkId.chunkIndex hk
  have hk2 : c'.submissionId = c.submissionId := congrArg ChunkId.submissionId hk
  have hkey : ∀ r : ChunkRow, (if r.key == c.key then { r with retries := r.retries + 1 } else r).key = r.key := by
    intro r; split <;> rfl
  have f1 : (db.chunks.map fun r =>
      if r.key == c.key then { r with retries := r.retries + 1 } else r).filter
        (fun r => !(r.submissionId == s.id)) = db.chunks.filter (fun r => !(r.submissionId == s.id)) := by
    induction db.chunks with
    | nil => rfl
    | cons x xs ih =>
      simp only [List.map_cons, List.filter_cons, ih]
      by_cases h : x.key = c.key
      · have : x.submissionId = s.id := by
          rw [hid]; exact congrArg ChunkId.submissionId h
        simp [h, this]
      · simp [h]
  have f2 : (db.chunks.map fun r =>
      if r.key == c.key then { r with retries := r.retries + 1 } else r).filter
        (fun r => !(r.key == c.key) && (r.submissionId == c.key.submissionId)) =
      db.chunks.filter (fun r => !(r.key == c.key) && (r.submissionId == c.key.submissionId)) := by
    induction db.chunks with
    | nil => rfl
    | cons x xs ih =>
      simp only [List.map_cons, List.filter_cons, ih]
      by_cases h : x.key = c.key
      · have hx := hkey x
        simp only [h, beq_self_eq_true, if_true] at hx
        simp [h, hx]
      · simp [h]
  simp only [Eff.fail, Eff.bump, otherChunks, hk, hk1]
  rw [f1, f2]
  simp [toChunkFailed, hk1, hk2, hi]

theorem failBody_missing {cid : ChunkId} {db : DB} (failure : String) (m : Nat) (t1 t2 t3 : Time)
    (h : cid ∉ db.chunks.map ChunkRow.key) :
    failBody cid failure m t1 t2 t3 ⟨[], db⟩ = (.err .rowNotFound, ⟨[], db⟩) := by
  have h2 := find?_key_none.2 h
  simp [failBody, bind_run, stmt_nil, Stmt.bumpRetries, h2]

theorem failBody_retry {c : ChunkRow} {db : DB} (failure : String) {m : Nat} (t1 t2 t3 : Time)
    (hck : (db.chunks.map ChunkRow.key).Nodup) (hc : c ∈ db.chunks) (hr : c.retries + 1 < m) :
    failBody c.key failure m t1 t2 t3 ⟨[], db⟩ = (.ok false, ⟨[], Eff.bump c.key db⟩) := by
  have h2 := find?_key_of_mem hck hc
  have : ¬ (c.retries + 1 ≥ m) := by omega
  simp [failBody, bind_run, stmt_nil, Stmt.bumpRetries, h2, this, pure_run, Eff.bump]

theorem failBody_fail {c : ChunkRow} {s : SubmissionRow} {db : DB} (hI : Inv db) (failure : String)
    {m : Nat} (t1 t2 t3 : Time) (hc : c ∈ db.chunks) (hs : s ∈ db.submissions)
    (hid : s.id = c.submissionId) (hr : m ≤ c.retries + 1) :
    failBody c.key failure m t1 t2 t3 ⟨[], db⟩ =
      (.ok true, ⟨[], Eff.fail s c failure t1 t2 t3 db⟩) := by
  have h2 := find?_key_of_mem hI.chunkKeys hc
  have hkeys : (Eff.bump c.key db).chunks.map ChunkRow.key = db.chunks.map ChunkRow.key := by
    simp only [Eff.bump, List.map_map]
    apply List.map_congr_left
    intro r _
    simp only [Function.comp]
    split <;> rfl
  let c' : ChunkRow := { c with retries := c.retries + 1 }
  have hc' : c' ∈ (Eff.bump c.key db).chunks := by
    simp only [Eff.bump, List.mem_map]
    exact ⟨c, hc, by simp [c']⟩
  have := failSubmissionNotx_ok (s := s) (c := c') (db := Eff.bump c.key db) failure t1 t2 t3
    hI.subIds hs (hI.sub_fail hs) (by rw [hkeys]; exact hI.chunkKeys) hc' hid.symm
    (fun d hd => hI.cfNot d hd s hs)
  rw [bump_fail_eq (c := c) (c' := c') failure t1 t2 t3 hid rfl rfl] at this
  have e : Stmt.bumpRetries c.key db = .ok (c.retries + 1, Eff.bump c.key db) := by
    simp [Stmt.bumpRetries, h2, Eff.bump]
  have hr' : c.retries + 1 ≥ m := hr
  simp only [failBody, bind_run, stmt_nil, e, if_pos hr', pure_run]
  have hk1 : c.key.submissionId = c'.submissionId := rfl
  have hk2 : c.key.chunkIndex = c'.chunkIndex := rfl
  rw [hk1, hk2, this]

theorem completeBody_missing {cid : ChunkId} {db : DB} (out : Content) (t1 t2 : Time)
    (h : cid ∉ db.chunks.map ChunkRow.key) :
    completeBody cid out t1 t2 ⟨[], db⟩ = (.err (.L .rowNotFound), ⟨[], db⟩) := by
  simp [completeBody, bind_run, mapErr_run, completeRaw_missing out t1 h]

theorem completeRaw_sub_mem {c : ChunkRow} {s : SubmissionRow} {db : DB} (out : Content) (t1 : Time)
    (hs : s ∈ db.submissions) (hid : s.id = c.submissionId) :
    { s with chunksDone := s.chunksDone + 1 } ∈ (Eff.completeRaw c.key out t1 db).submissions := by
  simp only [Eff.completeRaw, List.mem_map]
  exact ⟨s, hs, by simp [ChunkRow.key, hid]⟩

theorem completeRaw_subIds (cid : ChunkId) (out : Content) (t1 : Time) (db : DB) :
    (Eff.completeRaw cid out t1 db).submissions.map SubmissionRow.id =
      db.submissions.map SubmissionRow.id := by
  simp only [Eff.completeRaw, List.map_map]
  apply List.map_congr_left
  intro r _
  simp only [Function.comp]
  split <;> rfl

theorem completeBody_notLast {c : ChunkRow} {s : SubmissionRow} {db : DB} (hI : Inv db)
    (out : Content) (t1 t2 : Time) (hc : c ∈ db.chunks) (hs : s ∈ db.submissions)
    (hid : s.id = c.submissionId) (hl : s.chunksDone + 1 ≠ s.chunksTotal) :
    completeBody c.key out t1 t2 ⟨[], db⟩ =
      (.ok (decodeChunkSize s.chunkSize), ⟨[], Eff.completeRaw c.key out t1 db⟩) := by
  have h1 := completeRaw_ok (out := out) (t := t1) hI.chunkKeys hc hI.subIds hs hid (hI.key_not_cc hc)
  have h2 := maybeComplete_notYet (s := { s with chunksDone := s.chunksDone + 1 })
    (db := Eff.completeRaw c.key out t1 db) t2
    (by rw [completeRaw_subIds]; exact hI.subIds) (completeRaw_sub_mem out t1 hs hid) hl
  have hk : c.key.submissionId = s.id := hid.symm
  simp only [completeBody, bind_run, mapErr_run, h1, hk, h2, pure_run]

theorem completeBody_last {c : ChunkRow} {s : SubmissionRow} {db : DB} (hI : Inv db)
    (out : Content) (t1 t2 : Time) (hc : c ∈ db.chunks) (hs : s ∈ db.submissions)
    (hid : s.id = c.submissionId) (hl : s.chunksDone + 1 = s.chunksTotal) :
    completeBody c.key out t1 t2 ⟨[], db⟩ =
      (.ok (decodeChunkSize s.chunkSize),
       ⟨[], Eff.finish { s with chunksDone := s.chunksDone + 1 } t2 (Eff.completeRaw c.key out t1 db)⟩) := by
  have h1 := completeRaw_ok (out := out) (t := t1) hI.chunkKeys hc hI.subIds hs hid (hI.key_not_cc hc)
  have h2 := maybeComplete_done (s := { s with chunksDone := s.chunksDone + 1 })
    (db := Eff.completeRaw c.key out t1 db) t2
    (by rw [completeRaw_subIds]; exact hI.subIds) (completeRaw_sub_mem out t1 hs hid) hl
    (by have := hI.sub_comp hs; exact this)
  have hk : c.key.submissionId = s.id := hid.symm
  simp only [completeBody, bind_run, mapErr_run, h1, hk, h2, pure_run]

theorem mem_key_of {cid : ChunkId} {db : DB} (h : cid ∈ db.chunks.map ChunkRow.key) :
    ∃ c ∈ db.chunks, c.key = cid := by
  simpa [List.mem_map] using h

/-! ### every outcome -/

theorem insertOk_finish {a : InsertArgs} {db : DB} (h : Eff.InsertOk a db) :
    ((Eff.insert a db).submissions.map SubmissionRow.id = db.submissions.map SubmissionRow.id ++ [a.id]) ∧
    a.row ∈ (Eff.insert a db).submissions ∧
    a.id ∉ db.submissions.map SubmissionRow.id :=
  ⟨by simp [Eff.insert, InsertArgs.row], by simp [Eff.insert], h.1⟩

/-- Every call, whatever faults strike, has one of the effects listed in `Effect`. -/
theorem step_effect {db : DB} (hI : Inv db) (op : Op)
    (hfresh : ∀ x, op.insertId = some x → x ∉ usedIds db) : Effect db op (step db op).2 := by
  cases op with
  | insert a now o =>
    have hfr : a.id ∉ db.submissionsCompleted.map CompletedRow.id := by
      intro hm
      refine hfresh a.id rfl ?_
      simp only [usedIds, allIds, List.mem_append]
      exact .inl (.inl (.inl (.inl (.inr hm))))
    simp only [step, insertSubmissionFromChunks, bind_run]
    have hb : insertSubmission a.row a.strategic (mkChunks a.id a.contents) =
        transaction (fun e => e) (insertBody a) := rfl
    rw [hb]
    have hspec := transaction_spec (conv := fun e => e) (faithful_insertBody a) ⟨o, db⟩
    have key : (transaction (fun e => e) (insertBody a) ⟨o, db⟩).2.db = db ∧
        (∀ x, (transaction (fun e => e) (insertBody a) ⟨o, db⟩).1 ≠ .ok x) ∨
        (transaction (fun e => e) (insertBody a) ⟨o, db⟩).2.db = Eff.insert a db ∧ Eff.InsertOk a db := by
      rcases hspec with ⟨hno, hdb⟩ | ⟨x, hbody, _⟩
      · exact .inl ⟨hdb, hno⟩
      · right
        by_cases hok : Eff.InsertOk a db
        · rw [insertBody_ok a db hok] at hbody
          simp only [Prod.mk.injEq, World.mk.injEq, true_and] at hbody
          exact ⟨hbody.symm, hok⟩
        · obtain ⟨db', h'⟩ := insertBody_err a db hok
          rw [h'] at hbody
          simp at hbody
    cases hx : transaction (fun e => e) (insertBody a) ⟨o, db⟩ with
    | mk r w =>
    rw [hx] at key
    cases r with
    | err e =>
      simp only
      rcases key with ⟨hdb, _⟩ | ⟨hdb, hok⟩
      · simp only at hdb; rw [hdb]; exact .none _ _
      · simp only at hdb; rw [hdb]; exact .insert _ _ _ _ hok
    | crash =>
      simp only
      rcases key with ⟨hdb, _⟩ | ⟨hdb, hok⟩
      · simp only at hdb; rw [hdb]; exact .none _ _
      · simp only at hdb; rw [hdb]; exact .insert _ _ _ _ hok
    | ok u =>
      rcases key with ⟨_, hno⟩ | ⟨hdb, hok⟩
      · exact absurd rfl (hno u)
      · simp only at hdb ⊢
        split
        · rename_i hlen
          have hnil : a.contents = [] := List.length_eq_zero_iff.1 hlen
          rw [matchRes_run]
          have hspec2 := transaction_spec (conv := E.L) (faithful_maybeBody a.id now) w
          have hout : (maybeCompleteSubmission a.id now w).2.db = Eff.insert a db ∨
              (maybeCompleteSubmission a.id now w).2.db = Eff.finish a.row now (Eff.insert a db) := by
            rcases hspec2 with ⟨_, h2⟩ | ⟨b, hbody, _⟩
            · left; rw [← hdb]; exact h2
            · right
              rw [hdb] at hbody
              have hids := insertOk_finish hok
              have hm := maybeComplete_done (s := a.row) (db := Eff.insert a db) now
                (by
                  rw [hids.1, List.nodup_append]
                  refine ⟨hI.subIds, by simp, ?_⟩
                  intro x hx1 y hy hxy
                  simp at hy
                  subst hy hxy
                  exact hids.2.2 hx1) hids.2.1
                (by simp [InsertArgs.row, hlen]) hfr
              rw [maybeCompleteSubmission, transaction_nil] at hm
              rw [show a.row.id = a.id from rfl] at hm
              rw [hbody] at hm
              simp only [Prod.mk.injEq, World.mk.injEq] at hm
              exact hm.2.2
          have heff : Effect db (.insert a now o) (maybeCompleteSubmission a.id now w).2.db := by
            rcases hout with h | h
            · rw [h]; exact .insert _ _ _ _ hok
            · rw [h]; exact .insertEmpty _ _ _ _ hok hnil
          cases hy : maybeCompleteSubmission a.id now w with
          | mk r2 w2 =>
          rw [hy] at heff
          simp only at heff
          cases r2 with
          | ok b => exact heff
          | err e => cases e <;> exact heff
          | crash => exact heff
        · rw [pure_run]
          simp only
          rw [hdb]
          exact .insert _ _ _ _ hok
  | complete cid out t1 t2 o =>
    have hb : ChunkDb.completeChunkTx cid out t1 t2 = transaction E.L (completeBody cid out t1 t2) := rfl
    have hdbeq : (step db (.complete cid out t1 t2 o)).2 =
        (transaction E.L (completeBody cid out t1 t2) ⟨o, db⟩).2.db := by
      simp only [step, ChunkDb.completeChunk, hb, matchRes_run]
      cases transaction E.L (completeBody cid out t1 t2) ⟨o, db⟩ with
      | mk r w => cases r <;> rfl
    rw [hdbeq]
    rcases transaction_spec (conv := E.L) (faithful_completeBody cid out t1 t2) ⟨o, db⟩ with
      ⟨_, h⟩ | ⟨x, hbody, _⟩
    · rw [h]; exact .none _ _
    · by_cases hm : cid ∈ db.chunks.map ChunkRow.key
      · obtain ⟨c, hc, rfl⟩ := mem_key_of hm
        obtain ⟨s, hs, hid, _⟩ := hI.owner c hc
        by_cases hl : s.chunksDone + 1 = s.chunksTotal
        · rw [completeBody_last hI out t1 t2 hc hs hid hl] at hbody
          simp only [Prod.mk.injEq, World.mk.injEq] at hbody
          rw [← hbody.2.2]
          exact .completeLast _ _ _ _ _ _ _ hc hs hid hl
        · rw [completeBody_notLast hI out t1 t2 hc hs hid hl] at hbody
          simp only [Prod.mk.injEq, World.mk.injEq] at hbody
          rw [← hbody.2.2]
          exact .complete _ _ s _ _ _ _ hc hs hid hl
      · rw [completeBody_missing out t1 t2 hm] at hbody
        simp at hbody
  | fail cid failure m t1 t2 t3 o =>
    have hb : ChunkDb.retryOrFailChunk cid failure m t1 t2 t3 =
      transaction (fun e => e) (failBody cid failure m t1 t2 t3) := rfl
    simp only [step, hb]
    rcases transaction_spec (conv := fun e => e) (faithful_failBody cid failure m t1 t2 t3) ⟨o, db⟩ with
      ⟨_, h⟩ | ⟨x, hbody, _⟩
    · rw [h]; exact .none _ _
    · by_cases hm : cid ∈ db.chunks.map ChunkRow.key
      · obtain ⟨c, hc, rfl⟩ := mem_key_of hm
        obtain ⟨s, hs, hid, _⟩ := hI.owner c hc
        by_cases hr : c.retries + 1 < m
        · rw [failBody_retry failure t1 t2 t3 hI.chunkKeys hc hr] at hbody
          simp only [Prod.mk.injEq, World.mk.injEq] at hbody
          rw [← hbody.2.2]
          exact .retry _ _ _ _ _ _ _ _ hc hr
        · rw [failBody_fail hI failure t1 t2 t3 hc hs hid (by omega)] at hbody
          simp only [Prod.mk.injEq, World.mk.injEq] at hbody
          rw [← hbody.2.2]
          exact .fail _ _ _ _ _ _ _ _ _ hc hs hid (by omega)
      · rw [failBody_missing failure m t1 t2 t3 hm] at hbody
        simp at hbody
  | cancel id t1 t2 o =>
    have hb : cancelSubmission id t1 t2 =
      transaction (fun e => .err (.L e)) (cancelBody id t1 t2) := rfl
    simp only [step, hb]
    rcases transaction_spec (conv := fun e => .err (.L e)) (faithful_cancelBody id t1 t2) ⟨o, db⟩ with
      ⟨_, h⟩ | ⟨x, hbody, _⟩
    · rw [h]; exact .none _ _
    · have hbody2 := cancelBody_ok hbody
      by_cases hm : id ∈ db.submissions.map SubmissionRow.id
      · obtain ⟨s, hs, rfl⟩ := List.mem_map.1 hm
        rw [cancelNotx_ok t1 t2 hI.subIds hs (hI.sub_canc hs) hI.chunkKeys
          (fun d hd => hI.cfNot d hd s hs)] at hbody2
        simp only [Prod.mk.injEq, World.mk.injEq] at hbody2
        rw [← hbody2.2.2]
        exact .cancel _ _ _ _ _ hs
      · obtain ⟨db', _, h'⟩ := cancelNotx_missing t1 t2 hm
        rw [h'] at hbody2
        simp at hbody2
  | cleanup t o =>
    have hspec := transaction_spec (conv := fun e => e) (faithful_cleanupBody t) ⟨o, db⟩
    have hc := cleanup_ok t db
    simp only [step, cleanupOld]
    rcases hspec with ⟨_, h⟩ | ⟨x, hbody, _⟩
    · rw [h]; exact .none _ _
    · rw [cleanupOld, transaction_nil, hbody] at hc
      simp only [Prod.mk.injEq, World.mk.injEq] at hc
      rw [hc.2.2]
      exact .cleanup _ _ _

end Opsqueue
