import Verif.Proofs.Metrics
import Verif.Proofs.Timeline

/-! # What a call counts, together with what it does -/

namespace Opsqueue
open SubmissionDb

/-- What a call counts whatever becomes of it. -/
def Op.base (m : Metrics) : Op → Metrics
  | .insert a _ _ => m.inserted a.contents.length
  | .complete _ _ _ _ _ => m.chunkCompleted
  | _ => m

/-- The possible effects of a call that did not kill the process, and what it counts. -/
inductive Counted : DB → Metrics → Op → DB → Metrics → Prop
  | quiet (db m op m') (hm : (op.base m).Le m')
      (hu : op.Undisturbed → op.ProperMetadata → op.insertId = none ∧ m' = op.base m) : Counted db m op db m'
  | insert (db m a now o m') (h : Eff.InsertOk a db) (hm : (m.inserted a.contents.length).Le m')
      (hu : o = [] → a.contents ≠ [] ∧ m' = m.inserted a.contents.length) :
      Counted db m (.insert a now o) (Eff.insert a db) m'
  | insertEmpty (db m a now o) (h : Eff.InsertOk a db) (he : a.contents = []) :
      Counted db m (.insert a now o) (Eff.finish a.row now (Eff.insert a db))
        (m.inserted a.contents.length).submissionCompleted
  | complete (db m c s out t1 t2 o) (hc : c ∈ db.chunks) (hs : s ∈ db.submissions)
      (hid : s.id = c.submissionId) (hl : s.chunksDone + 1 ≠ s.chunksTotal) :
      Counted db m (.complete c.key out t1 t2 o) (Eff.completeRaw c.key out t1 db) m.chunkCompleted
  | completeLast (db m c s out t1 t2 o) (hc : c ∈ db.chunks) (hs : s ∈ db.submissions)
      (hid : s.id = c.submissionId) (hl : s.chunksDone + 1 = s.chunksTotal) :
      Counted db m (.complete c.key out t1 t2 o)
        (Eff.finish { s with chunksDone := s.chunksDone + 1 } t2 (Eff.completeRaw c.key out t1 db))
        m.submissionCompleted.chunkCompleted
  | retry (db m c failure n t1 t2 t3 o) (hc : c ∈ db.chunks) (hr : c.retries + 1 < n) :
      Counted db m (.fail c.key failure n t1 t2 t3 o) (Eff.bump c.key db) m.chunkRetried
  | fail (db m c s failure n t1 t2 t3 o) (hc : c ∈ db.chunks) (hs : s ∈ db.submissions)
      (hid : s.id = c.submissionId) (hr : n ≤ c.retries + 1) :
      Counted db m (.fail c.key failure n t1 t2 t3 o) (Eff.fail s c failure t1 t2 t3 db)
        m.submissionFailed.chunkFailed
  | cancel (db m s t1 t2 o) (hs : s ∈ db.submissions) :
      Counted db m (.cancel s.id t1 t2 o) (Eff.cancel s t1 t2 db) m.submissionCancelled
  | cleanup (db m t o) : Counted db m (.cleanup t o) (Eff.cleanup t db) m

theorem Counted.effect {db db' : DB} {m m' : Metrics} {op : Op} (h : Counted db m op db' m') : Effect db op db' := by
  cases h with
  | quiet => exact .none _ _
  | insert a now o _ hok => exact .insert _ _ _ _ hok
  | insertEmpty a now o hok he => exact .insertEmpty _ _ _ _ hok he
  | complete c s out t1 t2 o hc hs hid hl => exact .complete _ _ s _ _ _ _ hc hs hid hl
  | completeLast c s out t1 t2 o hc hs hid hl => exact .completeLast _ _ s _ _ _ _ hc hs hid hl
  | retry c f n t1 t2 t3 o hc hr => exact .retry _ _ _ _ _ _ _ _ hc hr
  | fail c s f n t1 t2 t3 o hc hs hid hr => exact .fail _ _ _ _ _ _ _ _ _ hc hs hid hr
  | cancel s t1 t2 o hs => exact .cancel _ _ _ _ _ hs
  | cleanup t o => exact .cleanup _ _ _

/-- The metrics the call left, before it is known whether the process survives. -/
def Monitored.after (s : Monitored) : Op → Metrics
  | .insert a now o => (Metered.insertSubmissionFromChunks a now ⟨o, s.db⟩ s.metrics).2.2
  | .complete cid output now1 now2 o => (Metered.completeChunk cid output now1 now2 ⟨o, s.db⟩ s.metrics).2.2
  | .fail cid failure m now1 now2 now3 o =>
    (Metered.retryOrFailChunk cid failure m now1 now2 now3 ⟨o, s.db⟩ s.metrics).2.2
  | .cancel id now1 now2 o => (Metered.cancelSubmission id now1 now2 ⟨o, s.db⟩ s.metrics).2.2
  | .cleanup t o => (Metered.lift (cleanupOld t) ⟨o, s.db⟩ s.metrics).2.2

theorem surviving_eq {ε α : Type} {p : Metered ε α} {q : Sql ε α} (h : Metered.Tracks p q) (w : World) (m : Metrics)
    (f : Res ε α → Out) (hf : ∀ r, (f r).crashed = true ↔ r = .crash) :
    surviving (p w m) = ⟨(q w).2.db, if (f (q w).1).crashed then {} else (p w m).2.2⟩ := by
  have e := h w m
  rw [← e]
  rcases p w m with ⟨_ | _ | _, w', m'⟩
  · have := (not_congr (hf (.ok ‹α›))).2 (by simp); simp [surviving, this]
  · have := (not_congr (hf (.err ‹ε›))).2 (by simp); simp [surviving, this]
  · have := (hf .crash).2 rfl; simp [surviving, this]

/-- The server with metrics stores what the server stores; if the process survived, its metrics are those the call
left, and otherwise they start anew. -/
theorem step_call (s : Monitored) (op : Op) :
    Monitored.step s (.call op) =
      ⟨(Opsqueue.step s.db op).2, if (Opsqueue.step s.db op).1.crashed then {} else s.after op⟩ := by
  cases op with
  | insert a now o =>
    exact surviving_eq (Metered.tracks_insert a now) _ _ .inserted (by intro r; cases r <;> simp [Out.crashed])
  | complete cid out t1 t2 o =>
    exact surviving_eq (Metered.tracks_complete cid out t1 t2) _ _ .completed
      (by intro r; cases r <;> simp [Out.crashed])
  | fail cid f n t1 t2 t3 o =>
    exact surviving_eq (Metered.tracks_retryOrFail cid f n t1 t2 t3) _ _ .failed
      (by intro r; cases r <;> simp [Out.crashed])
  | cancel id t1 t2 o =>
    exact surviving_eq (Metered.tracks_cancel id t1 t2) _ _ .cancelled (by intro r; cases r <;> simp [Out.crashed])
  | cleanup t o =>
    exact surviving_eq (Metered.tracks_lift _) _ _ .cleaned (by intro r; cases r <;> simp [Out.crashed])

theorem counted_complete {db : DB} (hI : Inv db) (m : Metrics) (cid : ChunkId) (out : Content) (t1 t2 : Time)
    (o : List Fault) (hc : (step db (.complete cid out t1 t2 o)).1.crashed = false) :
    Counted db m (.complete cid out t1 t2 o) (step db (.complete cid out t1 t2 o)).2
      (Monitored.after ⟨db, m⟩ (.complete cid out t1 t2 o)) := by
  have ht := Metered.tracks_complete cid out t1 t2 ⟨o, db⟩ m
  have hdb : (step db (.complete cid out t1 t2 o)).2 = (Metered.completeChunk cid out t1 t2 ⟨o, db⟩ m).2.1.db := by
    simp only [step, ← ht]
  rw [hdb, Monitored.after]
  have hcr : (Metered.completeChunkTx cid out t1 t2 ⟨o, db⟩ m).1 ≠ .crash := by
    intro e
    simp only [step, ← ht] at hc
    unfold Metered.completeChunk Metered.matchRes at hc
    rcases h : Metered.completeChunkTx cid out t1 t2 ⟨o, db⟩ m with ⟨_ | _ | _, w, m1⟩ <;> rw [h] at e hc
    · cases e
    · cases e
    · simp [Out.crashed] at hc
  unfold Metered.completeChunk Metered.matchRes
  rcases h : Metered.completeChunkTx cid out t1 t2 ⟨o, db⟩ m with ⟨_ | _ | _, w, m1⟩
  · simp only [Metered.tick]
    obtain ⟨x, db1, b, h1, h2, hm⟩ := Metered.completeTx_ok h
    by_cases hmem : cid ∈ db.chunks.map ChunkRow.key
    · obtain ⟨c, hcm, rfl⟩ := mem_key_of hmem
      obtain ⟨s, hs, hid, _⟩ := hI.owner c hcm
      have g1 := completeRaw_ok (out := out) (t := t1) hI.chunkKeys hcm hI.subIds hs hid (hI.key_not_cc hcm)
      dsimp only at h1
      rw [g1] at h1
      simp only [Prod.mk.injEq, World.mk.injEq, true_and] at h1
      obtain ⟨_, rfl⟩ := h1
      have hk : c.key.submissionId = s.id := hid.symm
      by_cases hl : s.chunksDone + 1 = s.chunksTotal
      · have g2 := maybeComplete_done (s := { s with chunksDone := s.chunksDone + 1 })
          (db := Eff.completeRaw c.key out t1 db) t2
          (by rw [completeRaw_subIds]; exact hI.subIds) (completeRaw_sub_mem out t1 hs hid) hl
          (by have := hI.sub_comp hs; exact this)
        rw [hk, g2] at h2
        simp only [Prod.mk.injEq, World.mk.injEq, true_and, Res.ok.injEq] at h2
        obtain ⟨rfl, h2⟩ := h2
        rw [← h2, hm]
        exact .completeLast _ _ _ _ _ _ _ _ hcm hs hid hl
      · have g2 := maybeComplete_notYet (s := { s with chunksDone := s.chunksDone + 1 })
          (db := Eff.completeRaw c.key out t1 db) t2
          (by rw [completeRaw_subIds]; exact hI.subIds) (completeRaw_sub_mem out t1 hs hid) hl
        rw [hk, g2] at h2
        simp only [Prod.mk.injEq, World.mk.injEq, true_and, Res.ok.injEq] at h2
        obtain ⟨rfl, h2⟩ := h2
        rw [← h2, hm]
        exact .complete _ _ _ s _ _ _ _ hcm hs hid hl
    · dsimp only at h1
      rw [completeRaw_missing out t1 hmem] at h1
      simp at h1
  · simp only [Metered.tick]
    have ht2 := Metered.tracks_completeTx cid out t1 t2 ⟨o, db⟩ m
    have hmono := Metered.mono_completeTx cid out t1 t2 ⟨o, db⟩ m
    rw [h] at ht2 hmono
    have hb : ChunkDb.completeChunkTx cid out t1 t2 = Sql.transaction E.L (completeBody cid out t1 t2) := rfl
    rw [hb] at ht2
    have hw : w.db = db := by
      rcases Sql.transaction_spec (conv := E.L) (faithful_completeBody cid out t1 t2) ⟨o, db⟩ with ⟨_, g⟩ | ⟨a, _, g | g⟩
      · rw [← ht2] at g; exact g
      · rw [← ht2] at g; cases g
      · rw [← ht2] at g; cases g
    rw [hw]
    refine .quiet _ _ _ _ ?_ ?_
    · dsimp only at hmono
      obtain ⟨h1, h2, h3, h4, h5, h6, h7, h8, h9, h10⟩ := hmono
      constructor <;> simp only [Op.base, Metrics.chunkCompleted] <;> omega
    · intro hu _
      have ho : o = [] := by simpa [Op.Undisturbed, Op.clean] using hu
      subst ho
      refine ⟨rfl, ?_⟩
      by_cases hmem : cid ∈ db.chunks.map ChunkRow.key
      · exfalso
        obtain ⟨c, hcm, rfl⟩ := mem_key_of hmem
        obtain ⟨s, hs, hid, _⟩ := hI.owner c hcm
        rw [Sql.transaction_nil] at ht2
        by_cases hl : s.chunksDone + 1 = s.chunksTotal
        · rw [completeBody_last hI out t1 t2 hcm hs hid hl] at ht2; simp at ht2
        · rw [completeBody_notLast hI out t1 t2 hcm hs hid hl] at ht2; simp at ht2
      · have := Metered.completeTx_missing hmem out t1 t2 m
        rw [h] at this
        rw [show m1 = m from this]
        rfl
  · rw [h] at hcr; exact absurd rfl hcr

theorem counted_fail {db : DB} (hI : Inv db) (m : Metrics) (cid : ChunkId) (f : String) (n : Nat) (t1 t2 t3 : Time)
    (o : List Fault) (hc : (step db (.fail cid f n t1 t2 t3 o)).1.crashed = false) :
    Counted db m (.fail cid f n t1 t2 t3 o) (step db (.fail cid f n t1 t2 t3 o)).2
      (Monitored.after ⟨db, m⟩ (.fail cid f n t1 t2 t3 o)) := by
  have ht := Metered.tracks_retryOrFail cid f n t1 t2 t3 ⟨o, db⟩ m
  have hmono := Metered.mono_retryOrFail cid f n t1 t2 t3 ⟨o, db⟩ m
  have hb : ChunkDb.retryOrFailChunk cid f n t1 t2 t3 =
    Sql.transaction (fun e => e) (failBody cid f n t1 t2 t3) := rfl
  simp only [step, ← ht] at hc ⊢
  rw [Monitored.after]
  rcases h : Metered.retryOrFailChunk cid f n t1 t2 t3 ⟨o, db⟩ m with ⟨b | _ | _, w, m1⟩ <;> rw [h] at ht hmono hc
  · have hm := Metered.retryOrFail_ok h
    rw [hb] at ht
    dsimp only at ht ⊢
    have hbody : failBody cid f n t1 t2 t3 ⟨[], db⟩ = (.ok b, ⟨[], w.db⟩) := by
      rcases Sql.transaction_spec (conv := fun e => e) (faithful_failBody cid f n t1 t2 t3) ⟨o, db⟩ with
        ⟨g, _⟩ | ⟨a, g', g | g⟩
      · rw [← ht] at g; exact absurd rfl (g b)
      · rw [← ht] at g g'; cases g; exact g'
      · rw [← ht] at g; cases g
    by_cases hmem : cid ∈ db.chunks.map ChunkRow.key
    · obtain ⟨c, hcm, rfl⟩ := mem_key_of hmem
      obtain ⟨s, hs, hid, _⟩ := hI.owner c hcm
      by_cases hr : c.retries + 1 < n
      · rw [failBody_retry f t1 t2 t3 hI.chunkKeys hcm hr] at hbody
        simp only [Prod.mk.injEq, World.mk.injEq, Res.ok.injEq, true_and] at hbody
        obtain ⟨rfl, hbody⟩ := hbody
        rw [← hbody, hm]
        exact .retry _ _ _ _ _ _ _ _ _ hcm hr
      · rw [failBody_fail hI f t1 t2 t3 hcm hs hid (by omega)] at hbody
        simp only [Prod.mk.injEq, World.mk.injEq, Res.ok.injEq, true_and] at hbody
        obtain ⟨rfl, hbody⟩ := hbody
        rw [← hbody, hm]
        exact .fail _ _ _ _ _ _ _ _ _ _ hcm hs hid (by omega)
    · rw [failBody_missing f n t1 t2 t3 hmem] at hbody
      simp at hbody
  · rw [hb] at ht
    dsimp only at ht ⊢
    have hw : w.db = db := by
      rcases Sql.transaction_spec (conv := fun e => e) (faithful_failBody cid f n t1 t2 t3) ⟨o, db⟩ with
        ⟨_, g⟩ | ⟨a, _, g | g⟩
      · rw [← ht] at g; exact g
      · rw [← ht] at g; cases g
      · rw [← ht] at g; cases g
    rw [hw]
    refine .quiet _ _ _ _ hmono ?_
    intro hu _
    have ho : o = [] := by simpa [Op.Undisturbed, Op.clean] using hu
    subst ho
    refine ⟨rfl, ?_⟩
    by_cases hmem : cid ∈ db.chunks.map ChunkRow.key
    · exfalso
      obtain ⟨c, hcm, rfl⟩ := mem_key_of hmem
      obtain ⟨s, hs, hid, _⟩ := hI.owner c hcm
      rw [Sql.transaction_nil] at ht
      by_cases hr : c.retries + 1 < n
      · rw [failBody_retry f t1 t2 t3 hI.chunkKeys hcm hr] at ht; simp at ht
      · rw [failBody_fail hI f t1 t2 t3 hcm hs hid (by omega)] at ht; simp at ht
    · have := Metered.retryOrFail_missing hmem f n t1 t2 t3 m
      rw [h] at this
      exact this
  · simp [Out.crashed] at hc

theorem counted_cancel {db : DB} (hI : Inv db) (m : Metrics) (id : SubmissionId) (t1 t2 : Time)
    (o : List Fault) (hc : (step db (.cancel id t1 t2 o)).1.crashed = false) :
    Counted db m (.cancel id t1 t2 o) (step db (.cancel id t1 t2 o)).2
      (Monitored.after ⟨db, m⟩ (.cancel id t1 t2 o)) := by
  have ht := Metered.tracks_cancel id t1 t2 ⟨o, db⟩ m
  have hmono := Metered.mono_cancel id t1 t2 ⟨o, db⟩ m
  have heff := step_effect hI (.cancel id t1 t2 o) (by intro x hx; cases hx)
  have hok := fun s (hs : s ∈ db.submissions) => step_cancel_ok hI t1 t2 hs
  simp only [step, ← ht] at hc heff ⊢
  simp only [step, cancel_tx] at hok
  rw [cancel_tx] at ht
  rw [Monitored.after]
  have hspec := Sql.transaction_spec (conv := fun e => OrPanic.err (E.L e)) (faithful_cancelBody id t1 t2) ⟨o, db⟩
  rw [← ht] at hspec
  rcases h : Metered.cancelSubmission id t1 t2 ⟨o, db⟩ m with ⟨u | e | _, w, m1⟩ <;>
    rw [h] at ht hmono hc hspec heff <;> dsimp only at heff hspec ⊢
  · have hm := Metered.cancel_ok h
    rcases hspec with ⟨g, _⟩ | ⟨a, g, _⟩
    · exact absurd rfl (g u)
    · by_cases hmem : id ∈ db.submissions.map SubmissionRow.id
      · obtain ⟨s, hs, rfl⟩ := List.mem_map.1 hmem
        have h1 := hok s hs
        rw [Sql.transaction_nil, g] at h1
        simp only [Prod.mk.injEq] at h1
        rw [h1.2, hm]
        exact .cancel _ _ _ _ _ _ hs
      · have h1 := step_cancel_missing t1 t2 hmem
        simp only [step, cancel_tx, Sql.transaction_nil, g, Prod.mk.injEq, Out.cancelled.injEq] at h1
        unfold cancelAnswer at h1
        revert h1
        split <;> intro h1 <;> simp at h1
  · have hw : w.db = db := by
      rcases hspec with ⟨_, g⟩ | ⟨a, _, g | g⟩
      · exact g
      · cases g
      · cases g
    rw [hw]
    refine .quiet _ _ _ _ hmono ?_
    intro hu _
    have ho : o = [] := by simpa [Op.Undisturbed, Op.clean] using hu
    subst ho
    refine ⟨rfl, ?_⟩
    by_cases hmem : id ∈ db.submissions.map SubmissionRow.id
    · exfalso
      obtain ⟨s, hs, rfl⟩ := List.mem_map.1 hmem
      have h1 := hok s hs
      rw [← ht] at h1
      simp at h1
    · have := Metered.cancel_missing hmem t1 t2 m
      rw [h] at this
      exact this
  · simp [Out.crashed] at hc

theorem Metered.lift_tx {ε α : Type} (conv : DbErr → ε) (x : Sql ε α) (w : World) (m : Metrics) :
    (Metered.transaction conv (Metered.lift x) w m).2.2 = m := by
  unfold Metered.transaction
  rcases Sql.stmt (fun db => .ok ((), db)) w with ⟨_ | _ | _, w1⟩
  · dsimp only [Metered.lift]
    rcases x w1 with ⟨_ | _ | _, ⟨o, db⟩⟩
    · rcases o with _ | ⟨f, o⟩
      · rfl
      · cases f <;> rfl
    · rfl
    · rfl
  · rfl
  · rfl

/-- The counters of an insert are incremented whatever becomes of its transaction. -/
theorem Metered.insertSubmission_metrics (s : SubmissionRow) (strategic : StrategicMetadata) (chunks : List ChunkRow)
    (w : World) (m : Metrics) (h : (Metered.insertSubmission s strategic chunks w m).1 ≠ .crash) :
    (Metered.insertSubmission s strategic chunks w m).2.2 = m.inserted s.chunksTotal := by
  unfold Metered.insertSubmission Metered.matchRes at h ⊢
  have hl := Metered.lift_tx id (do
      insertSubmissionRaw s
      insertSubmissionMetadataRaw s.id strategic
      ChunkDb.insertManyChunks chunks) w m
  rcases e : Metered.transaction id (Metered.lift (do
      insertSubmissionRaw s
      insertSubmissionMetadataRaw s.id strategic
      ChunkDb.insertManyChunks chunks)) w m with ⟨_ | _ | _, w', m'⟩ <;> rw [e] at hl h
  · rw [show m' = m from hl]; rfl
  · rw [show m' = m from hl]; rfl
  · exact absurd rfl h

theorem counted_insert {db : DB} (hI : Inv db) (m : Metrics) (a : InsertArgs) (now : Time) (o : List Fault)
    (hfr : a.id ∉ usedIds db) (hc : (step db (.insert a now o)).1.crashed = false) :
    Counted db m (.insert a now o) (step db (.insert a now o)).2 (Monitored.after ⟨db, m⟩ (.insert a now o)) := by
  have ht := Metered.tracks_insert a now ⟨o, db⟩ m
  simp only [step, ← ht] at hc ⊢
  rw [Monitored.after]
  unfold Metered.insertSubmissionFromChunks at hc ⊢
  rw [Metered.bind_run] at hc ⊢
  have hm1 := Metered.insertSubmission_metrics a.row a.strategic (mkChunks a.id a.contents) ⟨o, db⟩ m
  have ht1 := Metered.tracks_insertSubmission a.row a.strategic (mkChunks a.id a.contents) ⟨o, db⟩ m
  have hb : SubmissionDb.insertSubmission a.row a.strategic (mkChunks a.id a.contents) =
      Sql.transaction (fun e => e) (insertBody a) := rfl
  have hspec := Sql.transaction_spec (conv := fun e => e) (faithful_insertBody a) ⟨o, db⟩
  rw [← hb, ← ht1] at hspec
  rcases e1 : Metered.insertSubmission a.row a.strategic (mkChunks a.id a.contents) ⟨o, db⟩ m with
    ⟨u | e | _, w1, m1⟩ <;> rw [e1] at hc hm1 ht1 hspec <;> dsimp only at hc hm1 ht1 hspec ⊢
  · have hm1 := hm1 (by simp)
    have hok : Eff.InsertOk a db ∧ w1.db = Eff.insert a db := by
      rcases hspec with ⟨g, _⟩ | ⟨x, hbody, _⟩
      · exact absurd rfl (g u)
      · by_cases hok : Eff.InsertOk a db
        · rw [insertBody_ok a db hok] at hbody
          simp only [Prod.mk.injEq, World.mk.injEq, true_and] at hbody
          exact ⟨hok, hbody.symm⟩
        · obtain ⟨db', h'⟩ := insertBody_err a db hok
          rw [h'] at hbody
          simp at hbody
    obtain ⟨hok, hdb⟩ := hok
    have hct : a.row.chunksTotal = a.contents.length := rfl
    rw [hct] at hm1
    by_cases hlen : a.contents.length = 0
    · have hnil : a.contents = [] := List.length_eq_zero_iff.1 hlen
      rw [if_pos hlen] at hc ⊢
      have hI' := inv_insert hI hok hfr
      have hmem : a.row ∈ (Eff.insert a db).submissions := by simp [Eff.insert]
      have hdone := maybeComplete_done (s := a.row) (db := Eff.insert a db) now hI'.subIds hmem
        (by simp [InsertArgs.row, hnil]) (hI'.sub_comp hmem)
      rw [show a.row.id = a.id from rfl] at hdone
      unfold Metered.matchRes at hc ⊢
      have ht2 := Metered.tracks_maybeComplete a.id now w1 m1
      have hmono := Metered.mono_maybeComplete a.id now w1 m1
      have hspec2 := Sql.transaction_spec (conv := E.L) (faithful_maybeBody a.id now) w1
      rcases e2 : Metered.maybeCompleteSubmission a.id now w1 m1 with ⟨b | e | _, w2, m2⟩ <;>
        rw [e2] at ht2 hmono hc <;> dsimp only at ht2 hmono
      · have hm2 := Metered.maybeComplete_ok e2
        have hf := faithful_maybeComplete _ _ _ _ _ ht2.symm
        rw [hdb, hdone] at hf
        simp only [Prod.mk.injEq, World.mk.injEq, true_and, Res.ok.injEq] at hf
        obtain ⟨rfl, hf⟩ := hf
        have : Counted db m (.insert a now o) w2.db m2 := by
          rw [← hf, hm2, hm1]
          exact .insertEmpty _ _ _ _ _ hok hnil
        exact this
      · have hw : w2.db = Eff.insert a db := by
          have ht2' := ht2
          rw [maybeCompleteSubmission] at ht2'
          rcases hspec2 with ⟨_, g⟩ | ⟨x, _, g | g⟩
          · rw [← hdb, ← g, ← ht2']
          · rw [← ht2'] at g; cases g
          · rw [← ht2'] at g; cases g
        have : Counted db m (.insert a now o) w2.db m2 := by
          rw [hw]
          refine .insert _ _ _ _ _ _ hok ?_ ?_
          · rw [← hm1]; exact hmono
          · intro ho
            exfalso
            subst ho
            rw [insertSubmission_ok a db hok] at ht1
            simp only [Prod.mk.injEq, true_and] at ht1
            rw [ht1, hdone] at ht2
            simp at ht2
        cases e <;> exact this
      · simp [Out.crashed] at hc
    · rw [if_neg hlen]
      rw [Metered.pure_run]
      dsimp only
      rw [hdb, hm1]
      exact .insert _ _ _ _ _ _ hok (.refl _) fun _ => ⟨fun h => hlen (by simp [h]), rfl⟩
  · have hw : w1.db = db := by
      rcases hspec with ⟨_, g⟩ | ⟨x, _, g | g⟩
      · exact g
      · cases g
      · cases g
    have hm1 := hm1 (by simp)
    have hct : a.row.chunksTotal = a.contents.length := rfl
    rw [hw, hm1, hct]
    refine .quiet _ _ _ _ (.refl _) ?_
    intro hu hp
    have ho : o = [] := by simpa [Op.Undisturbed, Op.clean] using hu
    subst ho
    rw [insertSubmission_ok a db (insertOk_of_fresh hI hfr hp)] at ht1
    simp at ht1
  · simp [Out.crashed] at hc

/-- What a call that did not kill the process does and counts. -/
theorem counted {db : DB} (hI : Inv db) (m : Metrics) (op : Op)
    (hfr : ∀ x, op.insertId = some x → x ∉ usedIds db) (hc : (step db op).1.crashed = false) :
    Counted db m op (step db op).2 (Monitored.after ⟨db, m⟩ op) := by
  cases op with
  | insert a now o => exact counted_insert hI m a now o (hfr _ rfl) hc
  | complete cid out t1 t2 o => exact counted_complete hI m cid out t1 t2 o hc
  | fail cid f n t1 t2 t3 o => exact counted_fail hI m cid f n t1 t2 t3 o hc
  | cancel id t1 t2 o => exact counted_cancel hI m id t1 t2 o hc
  | cleanup t o =>
    have he := step_effect hI (.cleanup t o) hfr
    have hm : Monitored.after ⟨db, m⟩ (.cleanup t o) = m := rfl
    rw [hm]
    generalize (step db (.cleanup t o)).2 = db' at he
    cases he with
    | none => exact .quiet _ _ _ _ (.refl _) fun _ _ => ⟨rfl, rfl⟩
    | cleanup => exact .cleanup _ _ _ _

end Opsqueue
