import Verif.Proofs.Calls

/-! Consumption of fault symbols. -/

namespace Opsqueue
open Sql SubmissionDb

/-- A program that succeeds has met no failing statement. -/
def NoFail {ε α : Type} (x : Sql ε α) : Prop :=
  ∀ w a w', x w = (.ok a, w') → ∃ used, w.oracle = used ++ w'.oracle ∧ Fault.fail ∉ used

theorem noFail_pure {ε α : Type} (a : α) : NoFail (pure a : Sql ε α) := by
  intro w b w' h
  simp only [pure_run, Prod.mk.injEq] at h
  exact ⟨[], by rw [← h.2]; rfl, by simp⟩

theorem noFail_throw {ε α : Type} (e : ε) : NoFail (throw e : Sql ε α) := by
  intro w b w' h
  simp [throw_run] at h

theorem noFail_stmt {α : Type} (f : DB → Except DbErr (α × DB)) : NoFail (stmt f) := by
  intro w a w' h
  unfold stmt at h
  split at h
  · rename_i ho
    split at h <;> simp only [Prod.mk.injEq] at h
    · exact ⟨[], by rw [← h.2, ho]; rfl, by simp⟩
    · simp at h
  · rename_i o ho
    split at h <;> simp only [Prod.mk.injEq] at h
    · exact ⟨[.ok], by rw [← h.2, ho]; rfl, by simp⟩
    · simp at h
  · simp at h
  · simp at h
  · simp at h

theorem noFail_bind {ε α β : Type} {x : Sql ε α} {f : α → Sql ε β} (hx : NoFail x)
    (hf : ∀ a, NoFail (f a)) : NoFail (x >>= f) := by
  intro w b w' h
  obtain ⟨a, w1, h1, h2⟩ := bind_ok h
  obtain ⟨u1, e1, n1⟩ := hx _ _ _ h1
  obtain ⟨u2, e2, n2⟩ := hf a _ _ _ h2
  exact ⟨u1 ++ u2, by rw [e1, e2, List.append_assoc], by simp [n1, n2]⟩

theorem noFail_mapErr {ε ε' α : Type} {f : ε → ε'} {x : Sql ε α} (hx : NoFail x) :
    NoFail (mapErr f x) := fun w a w' h => hx w a w' (mapErr_ok h)

/-- In a transaction a failing statement, BEGIN or COMMIT means no effect. -/
def FailSafe {ε α : Type} (x : Sql ε α) : Prop :=
  ∀ w used, w.oracle = used ++ (x w).2.oracle → Fault.fail ∈ used → (x w).2.db = w.db

theorem failSafe_transaction {ε α : Type} {conv : DbErr → ε} {body : Sql ε α} (hb : NoFail body) :
    FailSafe (transaction conv body) := by
  intro w used hu hm
  unfold transaction at hu ⊢
  split at hu
  · rename_i e w1 h1
    unfold stmt at h1
    split at h1 <;> simp at h1 <;> simp [← h1.2]
  · rename_i w1 h1
    unfold stmt at h1
    split at h1 <;> simp at h1
    · rename_i o ho; simp [← h1]
    · rename_i o ho; simp [← h1, applyStmt]
  · rename_i w1 h1
    obtain ⟨u1, e1, n1⟩ := noFail_stmt _ _ _ _ h1
    have hdb : w1.db = w.db := by
      have := stmt_ok h1
      simp only [Except.ok.injEq, Prod.mk.injEq, true_and] at this
      exact this.symm
    split at hu
    · exact hdb
    · exact hdb
    · rename_i a w2 h2
      obtain ⟨u2, e2, n2⟩ := hb _ _ _ h2
      split at hu <;> rename_i ho
      · exfalso
        have : used = u1 ++ u2 := by
          have : used ++ w2.oracle = (u1 ++ u2) ++ w2.oracle := by rw [← hu, e1, e2, List.append_assoc]
          exact List.append_cancel_right this
        rw [this] at hm; simp [n1, n2] at hm
      · exfalso
        rename_i o
        have : used = u1 ++ u2 ++ [.ok] := by
          have : used ++ o = (u1 ++ u2 ++ [.ok]) ++ o := by rw [← hu, e1, e2, ho]; simp
          exact List.append_cancel_right this
        rw [this] at hm; simp [n1, n2] at hm
      · simpa using hdb
      · simpa using hdb
      · exfalso
        rename_i o
        have : used = u1 ++ u2 ++ [.crashLate] := by
          have : used ++ o = (u1 ++ u2 ++ [.crashLate]) ++ o := by rw [← hu, e1, e2, ho]; simp
          exact List.append_cancel_right this
        rw [this] at hm; simp [n1, n2] at hm

theorem noFail_transaction {ε α : Type} {conv : DbErr → ε} {body : Sql ε α} (hb : NoFail body) :
    NoFail (transaction conv body) := by
  intro w a w' h
  unfold transaction at h
  split at h
  · simp at h
  · simp at h
  · rename_i w1 h1
    obtain ⟨u1, e1, n1⟩ := noFail_stmt _ _ _ _ h1
    split at h
    · simp at h
    · simp at h
    · rename_i b w2 h2
      obtain ⟨u2, e2, n2⟩ := hb _ _ _ h2
      split at h <;> rename_i ho
      · simp only [Prod.mk.injEq] at h
        exact ⟨u1 ++ u2, by rw [e1, e2, h.2, List.append_assoc], by simp [n1, n2]⟩
      · rename_i o
        simp only [Prod.mk.injEq] at h
        exact ⟨u1 ++ u2 ++ [.ok], by rw [e1, e2, ho, ← h.2]; simp, by simp [n1, n2]⟩
      · simp at h
      · simp at h
      · simp at h

theorem noFail_insertMetadata (id : SubmissionId) (m : StrategicMetadata) :
    NoFail (insertSubmissionMetadataRaw id m) := by
  induction m with
  | nil => exact noFail_pure _
  | cons kv rest ih => exact noFail_bind (noFail_stmt _) fun _ => ih

theorem noFail_insertBatches (n : Nat) (rows : List ChunkRow) :
    NoFail (ChunkDb.insertBatches n rows) := by
  fun_induction ChunkDb.insertBatches n rows with
  | case1 => exact noFail_pure _
  | case2 r rs ih => exact noFail_bind (noFail_stmt _) fun _ => ih

theorem noFail_insertSubmissionBody (s : SubmissionRow) (m : StrategicMetadata) (cs : List ChunkRow) :
    NoFail (do
      insertSubmissionRaw s
      insertSubmissionMetadataRaw s.id m
      ChunkDb.insertManyChunks cs) :=
  noFail_bind (noFail_stmt _) fun _ =>
    noFail_bind (noFail_insertMetadata _ _) fun _ => noFail_insertBatches _ _

theorem noFail_maybeBody (id : SubmissionId) (t : Time) :
    NoFail (do
      let s ← getSubmission id
      if s.chunksDone = s.chunksTotal then
        completeSubmissionRaw id t
        pure true
      else
        pure false : Sql (E DbErr SubmissionNotFound) Bool) := by
  refine noFail_bind (noFail_bind (noFail_mapErr (noFail_stmt _)) fun r => ?_) fun s => ?_
  · cases r
    · exact noFail_throw _
    · exact noFail_pure _
  · split
    · refine noFail_bind (noFail_bind (noFail_mapErr (noFail_stmt _)) fun _ =>
        noFail_bind (noFail_mapErr (noFail_stmt _)) fun r => ?_) fun _ => noFail_pure _
      cases r
      · exact noFail_throw _
      · exact noFail_pure _
    · exact noFail_pure _

theorem noFail_completeBody (cid : ChunkId) (out : Content) (t1 t2 : Time) :
    NoFail (completeBody cid out t1 t2) :=
  noFail_bind (noFail_mapErr (noFail_bind (noFail_stmt _) fun _ =>
    noFail_bind (noFail_stmt _) fun _ => noFail_stmt _)) fun _ =>
    noFail_bind (noFail_mapErr (noFail_transaction (noFail_maybeBody _ _))) fun _ => noFail_pure _

theorem noFail_skip (id : SubmissionId) (t : Time) : NoFail (ChunkDb.skipRemainingChunks id t) :=
  noFail_bind (noFail_stmt _) fun _ => noFail_stmt _

theorem noFail_failBody (cid : ChunkId) (f : String) (m : Nat) (t1 t2 t3 : Time) :
    NoFail (failBody cid f m t1 t2 t3) := by
  refine noFail_bind (noFail_stmt _) fun r => ?_
  split
  · refine noFail_bind (noFail_bind (noFail_bind (noFail_stmt _) fun _ =>
      noFail_bind (noFail_stmt _) fun r => ?_) fun _ =>
      noFail_bind (noFail_bind (noFail_stmt _) fun _ => noFail_stmt _) fun _ => noFail_skip _ _)
      fun _ => noFail_pure _
    cases r
    · exact noFail_throw _
    · exact noFail_pure _
  · exact noFail_pure _

theorem noFail_cancelBody (id : SubmissionId) (t1 t2 : Time) : NoFail (cancelBody id t1 t2) := by
  intro w a w' h
  refine (?_ : NoFail (cancelSubmissionNotx id t1 t2)) w () w' (cancelBody_ok h)
  refine noFail_bind (noFail_bind (noFail_mapErr (noFail_stmt _)) fun _ =>
    noFail_bind (noFail_mapErr (noFail_stmt _)) fun r => ?_) fun _ => noFail_mapErr (noFail_skip _ _)
  cases r
  · exact noFail_throw _
  · exact noFail_pure _

theorem noFail_cleanupBody (t : Time) : NoFail (do
    stmt (Stmt.deleteMetadataOfOldCompleted t)
    stmt (Stmt.deleteMetadataOfOldFailed t)
    stmt (Stmt.deleteMetadataOfOldCancelled t)
    stmt (Stmt.deleteOldCompleted t)
    stmt (Stmt.deleteOldFailed t)
    stmt (Stmt.deleteOldCancelled t)
    stmt (Stmt.deleteOldChunksCompleted t)
    stmt (Stmt.deleteOldChunksFailed t) : Sql DbErr Unit) := by
  iterate 7 refine noFail_bind (noFail_stmt _) fun _ => ?_
  exact noFail_stmt _

/-- An error of the right kind (not a database error) is never caused by a fault. -/
def RFaithful {ε ε' α : Type} (x : Sql (E ε ε') α) : Prop :=
  ∀ w e w', x w = (.err (.R e), w') → (x ⟨[], w.db⟩).1 = .err (.R e)

theorem rFaithful_mapErr {ε ε' ε'' α : Type} {f : ε → ε''} (x : Sql ε α) :
    RFaithful (mapErr (fun e => (E.L (f e) : E ε'' ε')) x) := by
  intro w e w' h
  simp only [mapErr_run] at h
  split at h <;> simp at h

theorem rFaithful_throw {ε ε' α : Type} (e : E ε ε') : RFaithful (throw e : Sql (E ε ε') α) := by
  intro w e' w' h
  simp only [throw_run, Prod.mk.injEq] at h ⊢
  exact h.1

theorem rFaithful_pure {ε ε' α : Type} (a : α) : RFaithful (pure a : Sql (E ε ε') α) := by
  intro w e' w' h
  simp [pure_run] at h

theorem rFaithful_bind {ε ε' α β : Type} {x : Sql (E ε ε') α} {f : α → Sql (E ε ε') β}
    (fx : Faithful x) (hx : RFaithful x) (hf : ∀ a, RFaithful (f a)) : RFaithful (x >>= f) := by
  intro w e w' h
  rw [bind_run] at h ⊢
  rcases hw : x w with ⟨r, w1⟩
  rw [hw] at h
  cases r with
  | ok a =>
    simp only at h
    rw [fx _ _ _ hw]
    exact hf a _ _ _ h
  | err e' =>
    simp only [Prod.mk.injEq, Res.err.injEq] at h
    obtain ⟨rfl, _⟩ := h
    have := hx _ _ _ hw
    rcases hn : x ⟨[], w.db⟩ with ⟨r', w2⟩
    rw [hn] at this
    simp only at this
    subst this
    rfl
  | crash => simp at h

theorem rFaithful_getSubmission (id : SubmissionId) : RFaithful (getSubmission id) := by
  refine rFaithful_bind (faithful_mapErr (faithful_query _)) (rFaithful_mapErr _) fun r => ?_
  cases r
  · exact rFaithful_throw _
  · exact rFaithful_pure _

theorem rFaithful_maybeBody (id : SubmissionId) (t : Time) :
    RFaithful (do
      let s ← getSubmission id
      if s.chunksDone = s.chunksTotal then
        completeSubmissionRaw id t
        pure true
      else
        pure false : Sql (E DbErr SubmissionNotFound) Bool) := by
  refine rFaithful_bind (faithful_getSubmission _) (rFaithful_getSubmission _) fun s => ?_
  split
  · refine rFaithful_bind (faithful_completeSubmissionRaw _ _) ?_ fun _ => rFaithful_pure _
    refine rFaithful_bind (faithful_mapErr (faithful_stmt _)) (rFaithful_mapErr _) fun _ =>
      rFaithful_bind (faithful_mapErr (faithful_stmt _)) (rFaithful_mapErr _) fun r => ?_
    cases r
    · exact rFaithful_throw _
    · exact rFaithful_pure _
  · exact rFaithful_pure _

theorem rFaithful_transaction {ε' α : Type} {body : Sql (E DbErr ε') α} (hb : RFaithful body) :
    RFaithful (transaction E.L body) := by
  intro w e w' h
  rw [transaction_nil]
  unfold transaction at h
  split at h
  · simp at h
  · simp at h
  · rename_i w1 h1
    have hdb : w1.db = w.db := by
      have := stmt_ok h1
      simp only [Except.ok.injEq, Prod.mk.injEq, true_and] at this
      exact this.symm
    split at h
    · rename_i e' w2 h2
      simp only [Prod.mk.injEq, Res.err.injEq] at h
      obtain ⟨rfl, _⟩ := h
      have := hb _ _ _ h2
      rw [hdb] at this
      rcases hn : body ⟨[], w.db⟩ with ⟨r', w3⟩
      rw [hn] at this
      simp only at this
      subst this
      rfl
    · simp at h
    · split at h <;> simp at h

end Opsqueue
