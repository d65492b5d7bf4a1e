import Verif.Proofs.Faults
import Verif.Model.Query

/-! # A process nobody kills finishes every call -/

namespace Opsqueue
open Sql SubmissionDb

/-- Nothing kills the process. -/
def NoKill (o : List Fault) : Prop := ∀ f ∈ o, f = .ok ∨ f = .fail

/-- The program comes to an end unless the process is killed. -/
def Alive {ε α : Type} (x : Sql ε α) : Prop :=
  ∀ w, NoKill w.oracle → (x w).1 ≠ .crash ∧ NoKill (x w).2.oracle

theorem alive_pure {ε α : Type} (a : α) : Alive (pure a : Sql ε α) := fun w h => ⟨by simp [pure_run], h⟩

theorem alive_throw {ε α : Type} (e : ε) : Alive (throw e : Sql ε α) := fun w h => ⟨by simp [throw_run], h⟩

theorem noKill_tail {f : Fault} {o : List Fault} (h : NoKill (f :: o)) : NoKill o :=
  fun g hg => h g (by simp [hg])

theorem alive_stmt {α : Type} (f : DB → Except DbErr (α × DB)) : Alive (stmt f) := by
  intro w h
  unfold stmt
  cases hw : w.oracle with
  | nil => cases f w.db <;> exact ⟨by simp, by intro g hg; cases hg⟩
  | cons x o =>
    rw [hw] at h
    have ht := noKill_tail h
    rcases h x (by simp) with rfl | rfl
    · cases f w.db <;> exact ⟨by simp, ht⟩
    · exact ⟨by simp, ht⟩

theorem alive_query {α : Type} (f : DB → Except DbErr α) : Alive (query f) := alive_stmt _

theorem alive_bind {ε α β : Type} {x : Sql ε α} {f : α → Sql ε β} (hx : Alive x) (hf : ∀ a, Alive (f a)) :
    Alive (x >>= f) := by
  intro w h
  have h1 := hx w h
  rw [bind_run]
  rcases hxw : x w with ⟨r, w1⟩
  rw [hxw] at h1
  cases r with
  | ok a => exact hf a w1 h1.2
  | err e => exact ⟨by simp, h1.2⟩
  | crash => exact absurd rfl h1.1

theorem alive_mapErr {ε ε' α : Type} {f : ε → ε'} {x : Sql ε α} (hx : Alive x) : Alive (mapErr f x) := by
  intro w h
  have h1 := hx w h
  rw [mapErr_run]
  rcases hxw : x w with ⟨r, w1⟩
  rw [hxw] at h1
  cases r with
  | ok a => exact ⟨by simp, h1.2⟩
  | err e => exact ⟨by simp, h1.2⟩
  | crash => exact absurd rfl h1.1

theorem alive_matchRes {ε ε' α β : Type} {x : Sql ε α} {k : Except ε α → Sql ε' β} (hx : Alive x)
    (hk : ∀ r, Alive (k r)) : Alive (matchRes x k) := by
  intro w h
  have h1 := hx w h
  rw [matchRes_run]
  rcases hxw : x w with ⟨r, w1⟩
  rw [hxw] at h1
  cases r with
  | ok a => exact hk _ w1 h1.2
  | err e => exact hk _ w1 h1.2
  | crash => exact absurd rfl h1.1

theorem alive_transaction {ε α : Type} {conv : DbErr → ε} {body : Sql ε α} (hb : Alive body) :
    Alive (transaction conv body) := by
  intro w h
  have h1 := alive_stmt (fun db => .ok ((), db)) w h
  unfold transaction
  rcases hbeg : stmt (fun db => .ok ((), db)) w with ⟨r, w1⟩
  rw [hbeg] at h1
  cases r with
  | err e => exact ⟨by simp, h1.2⟩
  | crash => exact absurd rfl h1.1
  | ok u =>
    have h2 := hb w1 h1.2
    rcases hbody : body w1 with ⟨r2, w2⟩
    rw [hbody] at h2
    simp only [hbody]
    cases r2 with
    | err e => exact ⟨by simp, h2.2⟩
    | crash => exact absurd rfl h2.1
    | ok a =>
      obtain ⟨o, db2⟩ := w2
      replace h2 : NoKill o := h2.2
      cases o with
      | nil => exact ⟨by simp, h2⟩
      | cons x o =>
        have ht := noKill_tail h2
        rcases h2 x (by simp) with rfl | rfl <;> exact ⟨by simp, ht⟩

theorem alive_insertMetadata (id : SubmissionId) (m : StrategicMetadata) :
    Alive (insertSubmissionMetadataRaw id m) := by
  induction m with
  | nil => exact alive_pure _
  | cons kv rest ih => exact alive_bind (alive_stmt _) fun _ => ih

theorem alive_insertBatches (n : Nat) (rows : List ChunkRow) : Alive (ChunkDb.insertBatches n rows) := by
  fun_induction ChunkDb.insertBatches n rows with
  | case1 => exact alive_pure _
  | case2 r rs ih => exact alive_bind (alive_stmt _) fun _ => ih

theorem alive_insertSubmission (s : SubmissionRow) (m : StrategicMetadata) (cs : List ChunkRow) :
    Alive (insertSubmission s m cs) :=
  alive_transaction (alive_bind (alive_stmt _) fun _ =>
    alive_bind (alive_insertMetadata _ _) fun _ => alive_insertBatches _ _)

theorem alive_maybeComplete (id : SubmissionId) (t : Time) : Alive (maybeCompleteSubmission id t) := by
  refine alive_transaction (alive_bind (alive_bind (alive_mapErr (alive_query _)) fun r => ?_) fun s => ?_)
  · cases r
    · exact alive_throw _
    · exact alive_pure _
  · split
    · refine alive_bind (alive_bind (alive_mapErr (alive_stmt _)) fun _ =>
        alive_bind (alive_mapErr (alive_stmt _)) fun r => ?_) fun _ => alive_pure _
      cases r
      · exact alive_throw _
      · exact alive_pure _
    · exact alive_pure _

theorem alive_insert (a : InsertArgs) (t : Time) : Alive (insertSubmissionFromChunks a t) := by
  refine alive_bind (alive_insertSubmission _ _ _) fun _ => ?_
  split
  · refine alive_matchRes (alive_maybeComplete _ _) fun r => ?_
    rcases r with (e | e) | b
    · exact alive_throw _
    · exact alive_pure _
    · exact alive_pure _
  · exact alive_pure _

theorem alive_status (id : SubmissionId) : Alive (submissionStatus id) := by
  refine alive_bind (alive_query _) fun r => ?_
  cases r with
  | some s => exact alive_pure _
  | none =>
    refine alive_bind (alive_query _) fun r => ?_
    cases r with
    | some s => exact alive_pure _
    | none =>
      refine alive_bind (alive_query _) fun r => ?_
      cases r with
      | some s => exact alive_bind (alive_query _) fun _ => alive_pure _
      | none =>
        refine alive_bind (alive_query _) fun r => ?_
        cases r <;> exact alive_pure _

theorem alive_skip (id : SubmissionId) (t : Time) : Alive (ChunkDb.skipRemainingChunks id t) :=
  alive_bind (alive_stmt _) fun _ => alive_stmt _

theorem alive_cancel (id : SubmissionId) (t1 t2 : Time) : Alive (cancelSubmission id t1 t2) := by
  refine alive_transaction (alive_matchRes (alive_bind (alive_bind (alive_mapErr (alive_stmt _)) fun _ =>
    alive_bind (alive_mapErr (alive_stmt _)) fun r => ?_) fun _ => alive_mapErr (alive_skip _ _)) fun r => ?_)
  · cases r
    · exact alive_throw _
    · exact alive_pure _
  · rcases r with (e | e) | b
    · exact alive_throw _
    · refine alive_matchRes (alive_status _) fun r => ?_
      rcases r with e | (_ | (s | s | ⟨s, c⟩ | s)) <;> exact alive_throw _
    · exact alive_pure _

theorem alive_lookup (m : StrategicMetadata) (max : Nat) : Alive (lookupIdsByStrategicMetadata m max) := by
  refine alive_bind (alive_mapErr (alive_query _)) fun ids => ?_
  split
  · exact alive_throw _
  · exact alive_pure _

theorem alive_completeChunk (cid : ChunkId) (out : Content) (t1 t2 : Time) :
    Alive (ChunkDb.completeChunk cid out t1 t2) :=
  alive_matchRes (alive_transaction (alive_bind (alive_mapErr (alive_bind (alive_stmt _) fun _ =>
    alive_bind (alive_stmt _) fun _ => alive_stmt _)) fun _ =>
    alive_bind (alive_mapErr (alive_maybeComplete _ _)) fun _ => alive_pure _)) fun _ => alive_pure _

theorem alive_failChunk (cid : ChunkId) (f : String) (m : Nat) (t1 t2 t3 : Time) :
    Alive (ChunkDb.retryOrFailChunk cid f m t1 t2 t3) := by
  refine alive_transaction (alive_bind (alive_stmt _) fun r => ?_)
  split
  · refine alive_bind (alive_bind (alive_bind (alive_stmt _) fun _ => alive_bind (alive_stmt _) fun r => ?_) fun _ =>
      alive_bind (alive_bind (alive_stmt _) fun _ => alive_stmt _) fun _ => alive_skip _ _) fun _ => alive_pure _
    cases r
    · exact alive_throw _
    · exact alive_pure _
  · exact alive_pure _

theorem alive_cleanup (t : Time) : Alive (cleanupOld t) := by
  refine alive_transaction ?_
  iterate 7 refine alive_bind (alive_stmt _) fun _ => ?_
  exact alive_stmt _

/-! ## Reading under faults -/

theorem faithful_status (id : SubmissionId) : Faithful (submissionStatus id) := by
  refine faithful_bind (faithful_query _) fun r => ?_
  cases r with
  | some s => exact faithful_pure _
  | none =>
    refine faithful_bind (faithful_query _) fun r => ?_
    cases r with
    | some s => exact faithful_pure _
    | none =>
      refine faithful_bind (faithful_query _) fun r => ?_
      cases r with
      | some s => exact faithful_bind (faithful_query _) fun _ => faithful_pure _
      | none =>
        refine faithful_bind (faithful_query _) fun r => ?_
        cases r <;> exact faithful_pure _

theorem faithful_lookup (m : StrategicMetadata) (max : Nat) : Faithful (lookupIdsByStrategicMetadata m max) := by
  refine faithful_bind (faithful_mapErr (faithful_query _)) fun ids => ?_
  split
  · exact faithful_throw _
  · exact faithful_pure _

theorem rFaithful_lookup (m : StrategicMetadata) (max : Nat) : RFaithful (lookupIdsByStrategicMetadata m max) := by
  refine rFaithful_bind (faithful_mapErr (faithful_query _)) (rFaithful_mapErr _) fun ids => ?_
  split
  · exact rFaithful_throw _
  · exact rFaithful_pure _

theorem faithful_res {ε α : Type} {x : Sql ε α} (hx : Faithful x) {o : List Fault} {db : DB} {a : α}
    (h : (x ⟨o, db⟩).1 = .ok a) : (x ⟨[], db⟩).1 = .ok a := by
  rw [hx ⟨o, db⟩ a (x ⟨o, db⟩).2 (by rw [← h])]

end Opsqueue
