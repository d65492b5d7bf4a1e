import Verif.Spec.Inherited
import Verif.Proofs.ProgressRecord

/-! Lemmas for C99. -/

namespace Opsqueue.Inherited
open Opsqueue Machine SubmissionDb

theorem Sound.inv {db : DB} (h : Sound db) : Inv db :=
  ⟨h.oneStatus, h.chunks, h.completed, h.failed, h.waitingOrCompleted, h.completedOrFailed, h.owner, h.done, h.outputs, h.failures,
    h.metaKeys, h.metaOwner⟩

theorem sound_of_inv {db : DB} (h : Inv db) : Sound db :=
  ⟨h.ids, h.chunkKeys, h.ccKeys, h.cfKeys, h.ccDisj, h.cfDisj, h.owner, h.done, h.ccRange, h.cfNot, h.metaPk, h.metaOwner⟩

theorem runFrom_snoc (db : DB) (ops : List Op) (op : Op) : runFrom db (ops ++ [op]) = (Opsqueue.step (runFrom db ops) op).2 := by
  rw [runFrom_append]; rfl

theorem new_not_used {db : DB} {ops : List Op} (hn : NewIds db ops) {op : Op} (ho : op ∈ ops) {x : SubmissionId}
    (hx : op.insertId = some x) : x ∉ usedIds db := by
  cases op with
  | insert a now o =>
    cases hx
    obtain ⟨h1, h2, h3⟩ := hn a now o ho
    intro hm
    simp only [usedIds, List.mem_append, List.mem_map] at hm
    rcases hm with (hm | ⟨d, hd, e⟩) | ⟨d, hd, e⟩
    · exact h1 hm
    · exact h2 d hd e
    · exact h3 d hd e
  | _ => cases hx

theorem inv_from {db : DB} (hI : Inv db) (ops : List Op) : FreshIds ops → NewIds db ops →
    Inv (runFrom db ops) ∧ ∀ x ∈ usedIds (runFrom db ops), x ∈ usedIds db ∨ x ∈ ops.filterMap Op.insertId := by
  induction ops using snoc_induction with
  | nil => intro _ _; exact ⟨hI, fun x hx => .inl hx⟩
  | snoc ops op ih =>
    intro hf hn
    obtain ⟨hf1, hf2⟩ := hf.snoc
    obtain ⟨hI1, hU⟩ := ih hf1 (fun a now o h => hn a now o (List.mem_append_left _ h))
    rw [runFrom_snoc]
    have hfresh : ∀ x, op.insertId = some x → x ∉ usedIds (runFrom db ops) := by
      intro x hx hm
      rcases hU x hm with h | h
      · exact new_not_used hn (List.mem_append_right _ List.mem_cons_self) hx h
      · exact hf2 x hx h
    have he := step_effect hI1 op hfresh
    have hI' := he.inv hI1 hfresh
    refine ⟨hI', ?_⟩
    intro x hx
    rw [List.filterMap_append, List.mem_append]
    rcases he.used hI1 hI' x hx with h | h
    · rcases hU x h with h | h
      · exact .inl h
      · exact .inr (.inl h)
    · exact .inr (.inr (by simp [h]))

theorem fresh_from {db : DB} (hI : Inv db) {ops : List Op} {op : Op} (hf : FreshIds (ops ++ [op])) (hn : NewIds db (ops ++ [op]))
    {x : SubmissionId} (hx : op.insertId = some x) : x ∉ usedIds (runFrom db ops) := by
  intro hm
  rcases (inv_from hI ops hf.snoc.1 (fun a now o h => hn a now o (List.mem_append_left _ h))).2 x hm with h | h
  · exact new_not_used hn (List.mem_append_right _ List.mem_cons_self) hx h
  · exact hf.snoc.2 x hx h

/-! ### the records of a sound database -/

/-- What is known about a submission besides its rows in the chunk tables. -/
def lifeOf (db : DB) (me : SubmissionId) : Option Life :=
  let strategic := (db.submissionsMetadata.filter (·.submissionId == me)).map fun m => (m.key, m.value)
  match db.submissions.find? (·.id == me) with
  | some s => some (.running ⟨s.pfx, s.chunksTotal, s.metadata, strategic⟩ s.chunkSize s.otel
      ((db.chunks.filter (·.submissionId == me)).map fun c => ⟨c.chunkIndex, c.inputContent, c.retries⟩))
  | none => match db.submissionsCompleted.find? (·.id == me) with
    | some s => some (.completed ⟨s.pfx, s.chunksTotal, s.metadata, strategic⟩ s.completedAt ⟨s.chunkSize, s.otel⟩)
    | none => match db.submissionsFailed.find? (·.id == me) with
      | some s => some (.failed ⟨s.pfx, s.chunksTotal, s.metadata, strategic⟩ s.chunksDone s.failedChunkId s.failedAt
          ⟨s.chunkSize, s.otel⟩)
      | none => match db.submissionsCancelled.find? (·.id == me) with
        | some s => some (.cancelled ⟨s.pfx, s.chunksTotal, s.metadata, strategic⟩ s.chunksDone s.cancelledAt)
        | none => none

/-- The record of a submission. -/
def recordOf (db : DB) (me : SubmissionId) : Record :=
  { life := lifeOf db me
    outputs := (db.chunksCompleted.filter (·.submissionId == me)).map fun c => ⟨c.chunkIndex, c.outputContent, c.completedAt⟩
    failures := (db.chunksFailed.filter (·.submissionId == me)).map fun c =>
      ⟨c.chunkIndex, c.inputContent, c.failure, c.failedAt, c.skipped⟩ }

theorem filter_single {α : Type} {l : List α} {key : α → SubmissionId} (hn : (l.map key).Nodup) {x : α} {me : SubmissionId}
    (hx : x ∈ l) (hk : key x = me) : l.filter (fun y => key y == me) = [x] := by
  induction l with
  | nil => cases hx
  | cons y l ih =>
    simp only [List.map_cons, List.nodup_cons] at hn
    rcases List.mem_cons.1 hx with rfl | hx
    · rw [List.filter_cons_of_pos (by simpa using hk), List.filter_eq_nil_iff.2]
      intro z hz he
      have : key z = me := by simpa using he
      exact hn.1 (List.mem_map.2 ⟨z, hz, this.trans hk.symm⟩)
    · have hy : key y ≠ me := fun e => hn.1 (List.mem_map.2 ⟨x, hx, hk.trans e.symm⟩)
      rw [List.filter_cons_of_neg (by simpa using hy), ih hn.2 hx]

theorem filter_none {α : Type} {l : List α} {key : α → SubmissionId} {me : SubmissionId} (h : me ∉ l.map key) :
    l.filter (fun y => key y == me) = [] := by
  rw [List.filter_eq_nil_iff]
  intro z hz he
  exact h (List.mem_map.2 ⟨z, hz, by simpa using he⟩)

theorem find_some {α : Type} {l : List α} {key : α → SubmissionId} {me : SubmissionId} {x : α}
    (h : l.find? (fun y => key y == me) = some x) : x ∈ l ∧ key x = me :=
  ⟨List.mem_of_find?_eq_some h, by simpa using List.find?_some h⟩

theorem find_none {α : Type} {l : List α} {key : α → SubmissionId} {me : SubmissionId}
    (h : l.find? (fun y => key y == me) = none) : me ∉ l.map key := by
  intro hm
  obtain ⟨x, hx, e⟩ := List.mem_map.1 hm
  have := List.find?_eq_none.1 h x hx
  simp [e] at this

theorem map_self {α : Type} {l : List α} {f : α → α} (h : ∀ x ∈ l, f x = x) : l.map f = l := by
  conv => rhs; rw [← List.map_id l]
  exact List.map_congr_left h

theorem metaRows_of (db : DB) (me : SubmissionId) :
    metaRows me ((db.submissionsMetadata.filter (·.submissionId == me)).map fun m => (m.key, m.value)) =
      db.submissionsMetadata.filter (·.submissionId == me) := by
  rw [metaRows, List.map_map]
  refine map_self fun m hm => ?_
  have : m.submissionId = me := by simpa using (List.mem_filter.1 hm).2
  cases m; simp_all

theorem no_chunks {db : DB} (hI : Inv db) {me : SubmissionId} (h : me ∉ db.submissions.map SubmissionRow.id) :
    db.chunks.filter (·.submissionId == me) = [] := by
  rw [List.filter_eq_nil_iff]
  intro c hc he
  obtain ⟨s, hs, e, -⟩ := hI.owner c hc
  exact h (List.mem_map.2 ⟨s, hs, e.trans (by simpa using he)⟩)

/-- The record stands for the rows about the submission. -/
theorem sel_recordOf {db : DB} (hI : Inv db) (me : SubmissionId) : sel me db = image me (recordOf db me) := by
  have hout : ((db.chunksCompleted.filter (·.submissionId == me)).map
      fun c => (⟨c.chunkIndex, c.outputContent, c.completedAt⟩ : Output)).map (Output.row me) =
      db.chunksCompleted.filter (·.submissionId == me) := by
    rw [List.map_map]
    refine map_self fun c hc => ?_
    have : c.submissionId = me := by simpa using (List.mem_filter.1 hc).2
    cases c; simp_all [Output.row]
  have hfail : ((db.chunksFailed.filter (·.submissionId == me)).map
      fun c => (⟨c.chunkIndex, c.inputContent, c.failure, c.failedAt, c.skipped⟩ : Failure)).map (Failure.row me) =
      db.chunksFailed.filter (·.submissionId == me) := by
    rw [List.map_map]
    refine map_self fun c hc => ?_
    have : c.submissionId = me := by simpa using (List.mem_filter.1 hc).2
    cases c; simp_all [Failure.row]
  have hwait : ((db.chunks.filter (·.submissionId == me)).map
      fun c => (⟨c.chunkIndex, c.inputContent, c.retries⟩ : Waiting)).map (Waiting.row me) =
      db.chunks.filter (·.submissionId == me) := by
    rw [List.map_map]
    refine map_self fun c hc => ?_
    have : c.submissionId = me := by simpa using (List.mem_filter.1 hc).2
    cases c; simp_all [Waiting.row]
  have hmeta := metaRows_of db me
  cases h1 : db.submissions.find? (·.id == me) with
  | some s =>
    obtain ⟨hs, rfl⟩ := find_some (key := SubmissionRow.id) h1
    have hlife : lifeOf db s.id = some (.running ⟨s.pfx, s.chunksTotal, s.metadata,
        (db.submissionsMetadata.filter (·.submissionId == s.id)).map fun m => (m.key, m.value)⟩ s.chunkSize s.otel
        ((db.chunks.filter (·.submissionId == s.id)).map fun c => ⟨c.chunkIndex, c.inputContent, c.retries⟩)) := by
      simp only [lifeOf, h1]
    have e0 := filter_single (key := SubmissionRow.id) hI.subIds hs rfl
    have hd := hI.done s hs
    apply db_ext <;> simp only [sel, image, recordOf, hlife, Record.waiting, Record.strategic, Life.info, subRow, compRow, failRow,
      cancRow, hout, hfail, hwait, hmeta]
    · rw [e0, List.length_map]
      cases s; simp only [List.cons.injEq, SubmissionRow.mk.injEq, true_and, and_true]
      dsimp only at hd
      omega
    · exact filter_none (key := CompletedRow.id) (hI.sub_comp hs)
    · exact filter_none (key := FailedRow.id) (hI.sub_fail hs)
    · exact filter_none (key := CancelledRow.id) (hI.sub_canc hs)
  | none =>
    have n1 := find_none (key := SubmissionRow.id) h1
    have hno := no_chunks hI n1
    cases h2 : db.submissionsCompleted.find? (·.id == me) with
    | some s =>
      obtain ⟨hs, rfl⟩ := find_some (key := CompletedRow.id) h2
      have hm : s.id ∈ db.submissionsCompleted.map CompletedRow.id := List.mem_map_of_mem hs
      have hlife : lifeOf db s.id = some (.completed ⟨s.pfx, s.chunksTotal, s.metadata,
          (db.submissionsMetadata.filter (·.submissionId == s.id)).map fun m => (m.key, m.value)⟩ s.completedAt
          ⟨s.chunkSize, s.otel⟩) := by
        simp only [lifeOf, h1, h2]
      apply db_ext <;> simp only [sel, image, recordOf, hlife, Record.waiting, Record.strategic, Life.info, subRow, compRow,
        failRow, cancRow, hout, hfail, hno, hmeta, List.map_nil]
      · exact filter_none (key := SubmissionRow.id) n1
      · exact filter_single (key := CompletedRow.id) hI.compIds hs rfl
      · exact filter_none (key := FailedRow.id) (hI.comp_fail hm)
      · exact filter_none (key := CancelledRow.id) (hI.comp_canc hm)
    | none =>
      have n2 := find_none (key := CompletedRow.id) h2
      cases h3 : db.submissionsFailed.find? (·.id == me) with
      | some s =>
        obtain ⟨hs, rfl⟩ := find_some (key := FailedRow.id) h3
        have hm : s.id ∈ db.submissionsFailed.map FailedRow.id := List.mem_map_of_mem hs
        have hlife : lifeOf db s.id = some (.failed ⟨s.pfx, s.chunksTotal, s.metadata,
            (db.submissionsMetadata.filter (·.submissionId == s.id)).map fun m => (m.key, m.value)⟩ s.chunksDone
            s.failedChunkId s.failedAt ⟨s.chunkSize, s.otel⟩) := by
          simp only [lifeOf, h1, h2, h3]
        apply db_ext <;> simp only [sel, image, recordOf, hlife, Record.waiting, Record.strategic, Life.info, subRow, compRow,
          failRow, cancRow, hout, hfail, hno, hmeta, List.map_nil]
        · exact filter_none (key := SubmissionRow.id) n1
        · exact filter_none (key := CompletedRow.id) n2
        · exact filter_single (key := FailedRow.id) hI.failIds hs rfl
        · exact filter_none (key := CancelledRow.id) (hI.fail_canc hm)
      | none =>
        have n3 := find_none (key := FailedRow.id) h3
        cases h4 : db.submissionsCancelled.find? (·.id == me) with
        | some s =>
          obtain ⟨hs, rfl⟩ := find_some (key := CancelledRow.id) h4
          have hlife : lifeOf db s.id = some (.cancelled ⟨s.pfx, s.chunksTotal, s.metadata,
              (db.submissionsMetadata.filter (·.submissionId == s.id)).map fun m => (m.key, m.value)⟩ s.chunksDone
              s.cancelledAt) := by
            simp only [lifeOf, h1, h2, h3, h4]
          apply db_ext <;> simp only [sel, image, recordOf, hlife, Record.waiting, Record.strategic, Life.info, subRow,
            compRow, failRow, cancRow, hout, hfail, hno, hmeta, List.map_nil]
          · exact filter_none (key := SubmissionRow.id) n1
          · exact filter_none (key := CompletedRow.id) n2
          · exact filter_none (key := FailedRow.id) n3
          · exact filter_single (key := CancelledRow.id) hI.cancIds hs rfl
        | none =>
          have n4 := find_none (key := CancelledRow.id) h4
          have hlife : lifeOf db me = none := by simp only [lifeOf, h1, h2, h3, h4]
          have nometa : db.submissionsMetadata.filter (·.submissionId == me) = [] := by
            rw [List.filter_eq_nil_iff]
            intro m hm he
            have e : m.submissionId = me := by simpa using he
            have := hI.metaOwner m hm
            rw [e] at this
            simp only [allIds, List.mem_append] at this
            rcases this with ((h | h) | h) | h
            · exact n1 h
            · exact n2 h
            · exact n3 h
            · exact n4 h
          apply db_ext <;> simp only [sel, image, recordOf, hlife, Record.waiting, Record.strategic, subRow, compRow, failRow,
            cancRow, hout, hfail, hno, nometa, List.map_nil, metaRows]
          · exact filter_none (key := SubmissionRow.id) n1
          · exact filter_none (key := CompletedRow.id) n2
          · exact filter_none (key := FailedRow.id) n3
          · exact filter_none (key := CancelledRow.id) n4

theorem resume_snoc (me : SubmissionId) (r : Record) (h : List (Op × Extent)) (op : Op) (e : Extent) :
    resume me r (h ++ [(op, e)]) = (resume me r h).step me op e := by
  simp [resume]

/-- The histories of records that follow the database. -/
theorem follow_from {db : DB} (hI : Inv db) (ops : List Op) (hf : FreshIds ops) (hn : NewIds db ops) (hm : MapArgs ops) :
    ∃ h : List (Op × Extent), h.map (·.1) = ops ∧
      (∀ me pre post, h = pre ++ post → sel me (runFrom db (pre.map (·.1))) = image me (resume me (recordOf db me) pre)) ∧
      (∀ pre op e post, h = pre ++ (op, e) :: post → Happened (runFrom db (pre.map (·.1))) op e) := by
  induction ops using snoc_induction with
  | nil =>
    refine ⟨[], rfl, ?_, ?_⟩
    · intro me pre post h
      obtain ⟨rfl, _⟩ := List.append_eq_nil_iff.1 h.symm
      exact sel_recordOf hI me
    · intro pre op e post h
      simp at h
  | snoc ops op ih =>
    have hn' : NewIds db ops := fun a now o h => hn a now o (List.mem_append_left _ h)
    obtain ⟨h, hh, h1, h2⟩ := ih (fresh_mono hf) hn' (fun a now o ha => hm a now o (List.mem_append_left _ ha))
    have hI' := (inv_from hI ops (fresh_mono hf) hn').1
    have hfr : ∀ a now o, op = .insert a now o → a.id ∉ usedIds (runFrom db ops) ∧ (a.strategic.map (·.1)).Nodup := by
      rintro a now o rfl
      exact ⟨fresh_from hI hf hn (x := a.id) rfl, hm a now o (by simp)⟩
    obtain ⟨e, he, hstep⟩ := extent_of hI' op hfr
    refine ⟨h ++ [(op, e)], by simp [hh], ?_, ?_⟩
    · intro me pre post hs
      rcases List.eq_nil_or_concat post with rfl | ⟨post', z, rfl⟩
      · rw [List.append_nil] at hs
        subst hs
        rw [resume_snoc, List.map_append, hh, List.map_cons, List.map_nil, runFrom_snoc]
        exact hstep me _ (by have := h1 me h [] (by simp); rwa [hh] at this)
      · rw [List.concat_eq_append, ← List.append_assoc] at hs
        exact h1 me pre post' (List.append_inj' hs rfl).1
    · intro pre op' e' post hs
      rcases snoc_split hs with ⟨post', _, hp⟩ | ⟨_, hx, hp⟩
      · exact h2 pre op' e' post' hp
      · injection hx with hx1 hx2
        subst hx1 hx2 hp
        rw [hh]; exact he

/-- Undisturbed calls that insert nothing. -/
theorem record_from {me : SubmissionId} : ∀ (more : List Op) (db : DB) (r : Record), Inv db →
    sel me db = image me r → (∀ op ∈ more, op.clean = op ∧ op.insertId = none) →
    sel me (runFrom db more) = image me (more.foldl (Record.apply me) r) := by
  intro more
  induction more with
  | nil => intro db r _ h _; exact h
  | cons op more ih =>
    intro db r hI h hmore
    obtain ⟨hc, hn⟩ := hmore op List.mem_cons_self
    have h1 := step_all hI h op hc (by rintro a now o rfl; cases hn)
    have hI' : Inv (Opsqueue.step db op).2 :=
      (step_effect hI op (by intro x hx; rw [hn] at hx; cases hx)).inv hI (by intro x hx; rw [hn] at hx; cases hx)
    exact ih _ _ hI' h1 (fun op' h' => hmore op' (List.mem_cons_of_mem _ h'))

end Opsqueue.Inherited
