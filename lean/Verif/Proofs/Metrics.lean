import Verif.Spec.Metrics
import Verif.Proofs.Calls

/-! # Metered programs do what the programs do, and what they count -/

namespace Opsqueue
open SubmissionDb

/-- No counter is lower, and the backlog gauges only moved with the counter of failed chunks. -/
structure Metrics.Le (m m' : Metrics) : Prop where
  submissionsTotal : m.submissionsTotal ≤ m'.submissionsTotal
  submissionsCompleted : m.submissionsCompleted ≤ m'.submissionsCompleted
  submissionsFailed : m.submissionsFailed ≤ m'.submissionsFailed
  submissionsCancelled : m.submissionsCancelled ≤ m'.submissionsCancelled
  chunksTotal : m.chunksTotal ≤ m'.chunksTotal
  chunksCompleted : m.chunksCompleted ≤ m'.chunksCompleted
  chunksFailed : m.chunksFailed ≤ m'.chunksFailed
  chunksRetried : m.chunksRetried ≤ m'.chunksRetried
  chunksBacklog : m'.chunksBacklog + m'.chunksFailed = m.chunksBacklog + m.chunksFailed
  operationsBacklog : m'.operationsBacklog = m.operationsBacklog

theorem Metrics.Le.refl (m : Metrics) : m.Le m := by constructor <;> first | exact Nat.le_refl _ | rfl

theorem Metrics.Le.trans {a b c : Metrics} (h : a.Le b) (h' : b.Le c) : a.Le c := by
  obtain ⟨h1, h2, h3, h4, h5, h6, h7, h8, h9, h10⟩ := h
  obtain ⟨g1, g2, g3, g4, g5, g6, g7, g8, g9, g10⟩ := h'
  constructor <;> omega

namespace Metered

/-- The metered program does what the program does. -/
def Tracks {ε α : Type} (p : Metered ε α) (q : Sql ε α) : Prop := ∀ w m, ((p w m).1, (p w m).2.1) = q w

/-- The metered program never lowers a counter. -/
def Mono {ε α : Type} (p : Metered ε α) : Prop := ∀ (w : World) (m : Metrics), m.Le (p w m).2.2

theorem bind_run {ε α β : Type} (x : Metered ε α) (f : α → Metered ε β) (w : World) (m : Metrics) :
    (x >>= f) w m = match x w m with
      | (.ok a, w', m') => f a w' m'
      | (.err e, w', m') => (.err e, w', m')
      | (.crash, w', m') => (.crash, w', m') := rfl

theorem pure_run {ε α : Type} (a : α) (w : World) (m : Metrics) : (pure a : Metered ε α) w m = (.ok a, w, m) := rfl

theorem tracks_pure {ε α : Type} (a : α) : Tracks (pure a : Metered ε α) (pure a) := fun _ _ => rfl
theorem tracks_throw {ε α : Type} (e : ε) : Tracks (throw e : Metered ε α) (Sql.throw e) := fun _ _ => rfl
theorem tracks_lift {ε α : Type} (x : Sql ε α) : Tracks (lift x) x := fun _ _ => rfl
theorem tracks_tick {ε : Type} (f : Metrics → Metrics) : Tracks (tick f : Metered ε Unit) (pure ()) := fun _ _ => rfl

theorem tracks_bind {ε α β : Type} {x : Metered ε α} {x' : Sql ε α} {f : α → Metered ε β} {f' : α → Sql ε β}
    (hx : Tracks x x') (hf : ∀ a, Tracks (f a) (f' a)) : Tracks (x >>= f) (x' >>= f') := by
  intro w m
  have h := hx w m
  rw [bind_run, Sql.bind_run, ← h]
  rcases x w m with ⟨_ | _ | _, w', m'⟩
  · exact hf _ w' m'
  · rfl
  · rfl

/-- A tick after the last statement changes nothing. -/
theorem tracks_then_tick {ε : Type} {x : Metered ε Unit} {x' : Sql ε Unit} (hx : Tracks x x')
    (f : Metrics → Metrics) : Tracks (x >>= fun _ => tick f) x' := by
  intro w m
  have h := hx w m
  rw [bind_run, ← h]
  rcases x w m with ⟨_ | _ | _, w', m'⟩ <;> rfl

theorem tracks_tick_then {ε α : Type} {x : Metered ε α} {x' : Sql ε α} (hx : Tracks x x') (f : Metrics → Metrics) :
    Tracks (tick f >>= fun _ => x) x' := fun w m => hx w (f m)

theorem tracks_matchRes {ε ε' α β : Type} {x : Metered ε α} {x' : Sql ε α} {k : Except ε α → Metered ε' β}
    {k' : Except ε α → Sql ε' β} (hx : Tracks x x') (hk : ∀ r, Tracks (k r) (k' r)) :
    Tracks (matchRes x k) (Sql.matchRes x' k') := by
  intro w m
  have h := hx w m
  rw [matchRes, Sql.matchRes_run, ← h]
  rcases x w m with ⟨_ | _ | _, w', m'⟩
  · exact hk _ w' m'
  · exact hk _ w' m'
  · rfl

theorem tracks_mapErr {ε ε' α : Type} {x : Metered ε α} {x' : Sql ε α} (f : ε → ε') (hx : Tracks x x') :
    Tracks (mapErr f x) (Sql.mapErr f x') := by
  intro w m
  have h := hx w m
  rw [mapErr, Sql.mapErr_run, ← h]
  rcases x w m with ⟨_ | _ | _, w', m'⟩ <;> rfl

theorem tracks_transaction {ε α : Type} {x : Metered ε α} {x' : Sql ε α} (conv : DbErr → ε) (hx : Tracks x x') :
    Tracks (transaction conv x) (Sql.transaction conv x') := by
  intro w m
  unfold transaction Sql.transaction
  rcases Sql.stmt (fun db => .ok ((), db)) w with ⟨_ | _ | _, w1⟩
  · dsimp only
    have h := hx w1 m
    rw [← h]
    rcases x w1 m with ⟨_ | _ | _, w2, m2⟩
    · dsimp only
      obtain ⟨o, db⟩ := w2
      rcases o with _ | ⟨f, o⟩
      · rfl
      · cases f <;> rfl
    · rfl
    · rfl
  · rfl
  · rfl

theorem mono_pure {ε α : Type} (a : α) : Mono (pure a : Metered ε α) := fun _ m => .refl m
theorem mono_throw {ε α : Type} (e : ε) : Mono (throw e : Metered ε α) := fun _ m => .refl m
theorem mono_lift {ε α : Type} (x : Sql ε α) : Mono (lift x) := fun _ m => .refl m
theorem mono_tick {ε : Type} {f : Metrics → Metrics} (hf : ∀ m : Metrics, m.Le (f m)) :
    Mono (tick f : Metered ε Unit) := fun _ m => hf m

theorem mono_bind {ε α β : Type} {x : Metered ε α} {f : α → Metered ε β} (hx : Mono x) (hf : ∀ a, Mono (f a)) :
    Mono (x >>= f) := by
  intro w m
  have h := hx w m
  rw [bind_run]
  rcases e : x w m with ⟨_ | _ | _, w', m'⟩ <;> rw [e] at h
  · exact h.trans (hf _ w' m')
  · exact h
  · exact h

theorem mono_matchRes {ε ε' α β : Type} {x : Metered ε α} {k : Except ε α → Metered ε' β} (hx : Mono x)
    (hk : ∀ r, Mono (k r)) : Mono (matchRes x k) := by
  intro w m
  have h := hx w m
  unfold matchRes
  rcases e : x w m with ⟨_ | _ | _, w', m'⟩ <;> rw [e] at h
  · exact h.trans (hk _ w' m')
  · exact h.trans (hk _ w' m')
  · exact h

theorem mono_mapErr {ε ε' α : Type} {x : Metered ε α} (f : ε → ε') (hx : Mono x) : Mono (mapErr f x) := by
  intro w m
  have h := hx w m
  unfold mapErr
  rcases e : x w m with ⟨_ | _ | _, w', m'⟩ <;> rw [e] at h <;> exact h

theorem mono_transaction {ε α : Type} {x : Metered ε α} (conv : DbErr → ε) (hx : Mono x) :
    Mono (transaction conv x) := by
  intro w m
  unfold transaction
  rcases Sql.stmt (fun db => .ok ((), db)) w with ⟨_ | _ | _, w1⟩
  · dsimp only
    have h := hx w1 m
    rcases e : x w1 m with ⟨_ | _ | _, ⟨o, db⟩, m2⟩ <;> rw [e] at h
    · rcases o with _ | ⟨f, o⟩
      · exact h
      · cases f <;> exact h
    · exact h
    · exact h
  · exact .refl m
  · exact .refl m

theorem le_inserted (n : Nat) (m : Metrics) : m.Le (m.inserted n) := by constructor <;> simp [Metrics.inserted]
theorem le_submissionCompleted (m : Metrics) : m.Le m.submissionCompleted := by
  constructor <;> simp [Metrics.submissionCompleted]
theorem le_submissionFailed (m : Metrics) : m.Le m.submissionFailed := by
  constructor <;> simp [Metrics.submissionFailed]
theorem le_submissionCancelled (m : Metrics) : m.Le m.submissionCancelled := by
  constructor <;> simp [Metrics.submissionCancelled]
theorem le_chunkCompleted (m : Metrics) : m.Le m.chunkCompleted := by constructor <;> simp [Metrics.chunkCompleted]
theorem le_chunkRetried (m : Metrics) : m.Le m.chunkRetried := by constructor <;> simp [Metrics.chunkRetried]
theorem le_chunkFailed (m : Metrics) : m.Le m.chunkFailed := by
  constructor <;> simp [Metrics.chunkFailed] <;> omega

/-! ## The programs -/

theorem tracks_insertSubmission (s : SubmissionRow) (strategic : StrategicMetadata) (chunks : List ChunkRow) :
    Tracks (insertSubmission s strategic chunks) (SubmissionDb.insertSubmission s strategic chunks) := by
  intro w m
  have h := tracks_transaction id (tracks_lift (do
      insertSubmissionRaw s
      insertSubmissionMetadataRaw s.id strategic
      ChunkDb.insertManyChunks chunks)) w m
  rw [SubmissionDb.insertSubmission, ← h, insertSubmission, matchRes]
  rcases transaction id (lift (do
      insertSubmissionRaw s
      insertSubmissionMetadataRaw s.id strategic
      ChunkDb.insertManyChunks chunks)) w m with ⟨_ | _ | _, w', m'⟩ <;> rfl

theorem tracks_maybeComplete (id : SubmissionId) (now : Time) :
    Tracks (maybeCompleteSubmission id now) (SubmissionDb.maybeCompleteSubmission id now) := by
  refine tracks_transaction _ (tracks_bind (tracks_lift _) fun s => ?_)
  split
  · exact tracks_bind (tracks_then_tick (tracks_lift _) _) fun _ => tracks_pure _
  · exact tracks_pure _

theorem tracks_insert (a : InsertArgs) (now : Time) :
    Tracks (insertSubmissionFromChunks a now) (SubmissionDb.insertSubmissionFromChunks a now) := by
  refine tracks_bind (tracks_insertSubmission _ _ _) fun _ => ?_
  split
  · refine tracks_matchRes (tracks_maybeComplete _ _) fun r => ?_
    rcases r with (e | e) | b
    · exact tracks_throw _
    · exact tracks_pure _
    · exact tracks_pure _
  · exact tracks_pure _

theorem tracks_cancelNotx (id : SubmissionId) (t1 t2 : Time) :
    Tracks (cancelSubmissionNotx id t1 t2) (SubmissionDb.cancelSubmissionNotx id t1 t2) :=
  tracks_bind (tracks_then_tick (tracks_lift _) _) fun _ => tracks_lift _

theorem tracks_cancel (id : SubmissionId) (t1 t2 : Time) :
    Tracks (cancelSubmission id t1 t2) (SubmissionDb.cancelSubmission id t1 t2) := by
  refine tracks_transaction _ (tracks_matchRes (tracks_cancelNotx _ _ _) fun r => ?_)
  rcases r with (e | e) | b
  · exact tracks_throw _
  · refine tracks_matchRes (tracks_lift _) fun r => ?_
    rcases r with e | (_ | st)
    · exact tracks_throw _
    · exact tracks_throw _
    · cases st <;> exact tracks_throw _
  · exact tracks_pure _

theorem tracks_failNotx (id : SubmissionId) (i : ChunkIndex) (f : String) (t1 t2 t3 : Time) :
    Tracks (failSubmissionNotx id i f t1 t2 t3) (SubmissionDb.failSubmissionNotx id i f t1 t2 t3) :=
  tracks_bind (tracks_then_tick (tracks_lift _) _) fun _ =>
    tracks_bind (tracks_then_tick (tracks_lift _) _) fun _ => tracks_lift _

theorem tracks_completeTx (cid : ChunkId) (out : Content) (t1 t2 : Time) :
    Tracks (completeChunkTx cid out t1 t2) (ChunkDb.completeChunkTx cid out t1 t2) :=
  tracks_transaction _ (tracks_bind (tracks_lift _) fun _ =>
    tracks_bind (tracks_mapErr _ (tracks_maybeComplete _ _)) fun _ => tracks_pure _)

theorem tracks_complete (cid : ChunkId) (out : Content) (t1 t2 : Time) :
    Tracks (completeChunk cid out t1 t2) (ChunkDb.completeChunk cid out t1 t2) :=
  tracks_matchRes (tracks_completeTx _ _ _ _) fun _ => tracks_tick _

theorem tracks_retryOrFail (cid : ChunkId) (f : String) (n : Nat) (t1 t2 t3 : Time) :
    Tracks (retryOrFailChunk cid f n t1 t2 t3) (ChunkDb.retryOrFailChunk cid f n t1 t2 t3) := by
  refine tracks_transaction _ (tracks_bind (tracks_lift _) fun r => ?_)
  split
  · exact tracks_bind (tracks_failNotx _ _ _ _ _ _) fun _ => tracks_pure _
  · exact tracks_tick_then (tracks_pure _) _

theorem mono_insertSubmission (s : SubmissionRow) (strategic : StrategicMetadata) (chunks : List ChunkRow) :
    Mono (insertSubmission s strategic chunks) := by
  refine mono_matchRes (mono_transaction _ (mono_lift _)) fun r => mono_bind (mono_tick (le_inserted _)) fun _ => ?_
  rcases r with e | ⟨⟩
  · exact mono_throw _
  · exact mono_pure _

theorem mono_maybeComplete (id : SubmissionId) (now : Time) : Mono (maybeCompleteSubmission id now) := by
  refine mono_transaction _ (mono_bind (mono_lift _) fun s => ?_)
  split
  · exact mono_bind (mono_bind (mono_lift _) fun _ => mono_tick le_submissionCompleted) fun _ => mono_pure _
  · exact mono_pure _

theorem mono_insert (a : InsertArgs) (now : Time) : Mono (insertSubmissionFromChunks a now) := by
  refine mono_bind (mono_insertSubmission _ _ _) fun _ => ?_
  split
  · refine mono_matchRes (mono_maybeComplete _ _) fun r => ?_
    rcases r with (e | e) | b
    · exact mono_throw _
    · exact mono_pure _
    · exact mono_pure _
  · exact mono_pure _

theorem mono_cancelNotx (id : SubmissionId) (t1 t2 : Time) : Mono (cancelSubmissionNotx id t1 t2) :=
  mono_bind (mono_bind (mono_lift _) fun _ => mono_tick le_submissionCancelled) fun _ => mono_lift _

theorem mono_cancel (id : SubmissionId) (t1 t2 : Time) : Mono (cancelSubmission id t1 t2) := by
  refine mono_transaction _ (mono_matchRes (mono_cancelNotx _ _ _) fun r => ?_)
  rcases r with (e | e) | b
  · exact mono_throw _
  · refine mono_matchRes (mono_lift _) fun r => ?_
    rcases r with e | (_ | st)
    · exact mono_throw _
    · exact mono_throw _
    · cases st <;> exact mono_throw _
  · exact mono_pure _

theorem mono_failNotx (id : SubmissionId) (i : ChunkIndex) (f : String) (t1 t2 t3 : Time) :
    Mono (failSubmissionNotx id i f t1 t2 t3) :=
  mono_bind (mono_bind (mono_lift _) fun _ => mono_tick le_submissionFailed) fun _ =>
    mono_bind (mono_bind (mono_lift _) fun _ => mono_tick le_chunkFailed) fun _ => mono_lift _

theorem mono_completeTx (cid : ChunkId) (out : Content) (t1 t2 : Time) : Mono (completeChunkTx cid out t1 t2) :=
  mono_transaction _ (mono_bind (mono_lift _) fun _ =>
    mono_bind (mono_mapErr _ (mono_maybeComplete _ _)) fun _ => mono_pure _)

theorem mono_retryOrFail (cid : ChunkId) (f : String) (n : Nat) (t1 t2 t3 : Time) :
    Mono (retryOrFailChunk cid f n t1 t2 t3) := by
  refine mono_transaction _ (mono_bind (mono_lift _) fun r => ?_)
  split
  · exact mono_bind (mono_failNotx _ _ _ _ _ _) fun _ => mono_pure _
  · exact mono_bind (mono_tick le_chunkRetried) fun _ => mono_pure _

/-! ## What successful programs count -/

theorem bind_ok {ε α β : Type} {x : Metered ε α} {f : α → Metered ε β} {w w' : World} {m m' : Metrics} {b : β}
    (h : (x >>= f) w m = (.ok b, w', m')) :
    ∃ a w1 m1, x w m = (.ok a, w1, m1) ∧ f a w1 m1 = (.ok b, w', m') := by
  rw [bind_run] at h
  rcases e : x w m with ⟨_ | _ | _, w1, m1⟩ <;> rw [e] at h
  · exact ⟨_, _, _, rfl, h⟩
  · simp at h
  · simp at h

theorem lift_ok {ε α : Type} {x : Sql ε α} {w w' : World} {m m' : Metrics} {a : α}
    (h : lift x w m = (.ok a, w', m')) : x w = (.ok a, w') ∧ m' = m := by
  simp only [lift, Prod.mk.injEq] at h
  exact ⟨Prod.ext h.1 h.2.1, h.2.2.symm⟩

theorem tick_ok {ε : Type} {f : Metrics → Metrics} {w w' : World} {m m' : Metrics} {a : Unit}
    (h : (tick f : Metered ε Unit) w m = (.ok a, w', m')) : w' = w ∧ m' = f m := by
  simp only [tick, Prod.mk.injEq] at h
  exact ⟨h.2.1.symm, h.2.2.symm⟩

theorem pure_ok {ε α : Type} {w w' : World} {m m' : Metrics} {a b : α}
    (h : (pure a : Metered ε α) w m = (.ok b, w', m')) : b = a ∧ w' = w ∧ m' = m := by
  rw [pure_run] at h
  simp only [Prod.mk.injEq, Res.ok.injEq] at h
  exact ⟨h.1.symm, h.2.1.symm, h.2.2.symm⟩

theorem begin_db {w w1 : World} {r} (h : Sql.stmt (fun db => .ok ((), db)) w = (r, w1)) : w1.db = w.db := by
  unfold Sql.stmt at h
  obtain ⟨o, db⟩ := w
  rcases o with _ | ⟨_ | _ | _ | _, o⟩ <;> simp_all <;> obtain ⟨_, rfl⟩ := h <;> rfl

theorem transaction_ok {ε α : Type} {conv : DbErr → ε} {x : Metered ε α} {w w' : World} {m m' : Metrics} {a : α}
    (h : transaction conv x w m = (.ok a, w', m')) :
    ∃ w1 w2, w1.db = w.db ∧ w2.db = w'.db ∧ x w1 m = (.ok a, w2, m') := by
  unfold transaction at h
  rcases e0 : Sql.stmt (fun db => .ok ((), db)) w with ⟨_ | _ | _, w1⟩ <;> rw [e0] at h
  · dsimp only at h
    rcases e : x w1 m with ⟨_ | _ | _, ⟨o, db⟩, m2⟩ <;> rw [e] at h
    · dsimp only at h
      refine ⟨w1, ⟨o, db⟩, begin_db e0, ?_⟩
      rcases o with _ | ⟨f, o⟩
      · simp only [Prod.mk.injEq, Res.ok.injEq] at h
        obtain ⟨rfl, rfl, rfl⟩ := h
        exact ⟨rfl, e⟩
      · cases f <;> simp only [Prod.mk.injEq, Res.ok.injEq, reduceCtorEq, false_and] at h
        obtain ⟨rfl, rfl, rfl⟩ := h
        exact ⟨rfl, e⟩
    · simp at h
    · simp at h
  · simp at h
  · simp at h

theorem maybeComplete_ok {id : SubmissionId} {now : Time} {w w' : World} {m m' : Metrics} {b : Bool}
    (h : maybeCompleteSubmission id now w m = (.ok b, w', m')) :
    m' = if b then m.submissionCompleted else m := by
  obtain ⟨w1, w2, _, _, g1⟩ := transaction_ok h
  obtain ⟨s, w3, m3, g2, g3⟩ := bind_ok g1
  obtain ⟨_, e3⟩ := lift_ok g2
  split at g3
  · obtain ⟨_, w4, m4, g4, g5⟩ := bind_ok g3
    obtain ⟨_, w5, m5, g6, g7⟩ := bind_ok g4
    obtain ⟨_, e5⟩ := lift_ok g6
    obtain ⟨_, e4⟩ := tick_ok g7
    obtain ⟨e, _, e'⟩ := pure_ok g5
    rw [e', e4, e5, e3, e]; rfl
  · obtain ⟨e, _, e'⟩ := pure_ok g3
    rw [e', e3, e]; rfl

theorem cancelNotx_ok {id : SubmissionId} {t1 t2 : Time} {w w' : World} {m m' : Metrics} {u : Unit}
    (h : cancelSubmissionNotx id t1 t2 w m = (.ok u, w', m')) : m' = m.submissionCancelled := by
  obtain ⟨_, w1, m1, g1, g2⟩ := bind_ok h
  obtain ⟨_, w2, m2, g3, g4⟩ := bind_ok g1
  rw [(lift_ok g2).2, (tick_ok g4).2, (lift_ok g3).2]

theorem cancel_ok {id : SubmissionId} {t1 t2 : Time} {w w' : World} {m m' : Metrics} {u : Unit}
    (h : cancelSubmission id t1 t2 w m = (.ok u, w', m')) : m' = m.submissionCancelled := by
  obtain ⟨w1, w2, _, _, g⟩ := transaction_ok h
  unfold matchRes at g
  rcases e : cancelSubmissionNotx id t1 t2 w1 m with ⟨_ | (e' | e') | _, w3, m3⟩ <;> rw [e] at g
  · rw [(pure_ok g).2.2]; exact cancelNotx_ok e
  · simp [throw] at g
  · dsimp only at g
    rcases e2 : lift (submissionStatus id) w3 m3 with ⟨(_ | st) | _ | _, w4, m4⟩ <;> rw [e2] at g
    · simp [throw] at g
    · cases st <;> simp [throw] at g
    · simp [throw] at g
    · simp at g
  · simp at g

theorem failNotx_ok {id : SubmissionId} {i : ChunkIndex} {f : String} {t1 t2 t3 : Time} {w w' : World}
    {m m' : Metrics} {u : Unit} (h : failSubmissionNotx id i f t1 t2 t3 w m = (.ok u, w', m')) :
    m' = m.submissionFailed.chunkFailed := by
  obtain ⟨_, w1, m1, g1, g2⟩ := bind_ok h
  obtain ⟨_, w2, m2, g3, g4⟩ := bind_ok g1
  obtain ⟨_, w3, m3, g5, g6⟩ := bind_ok g2
  obtain ⟨_, w4, m4, g7, g8⟩ := bind_ok g5
  rw [(lift_ok g6).2, (tick_ok g8).2, (lift_ok g7).2, (tick_ok g4).2, (lift_ok g3).2]

theorem retryOrFail_ok {cid : ChunkId} {f : String} {n : Nat} {t1 t2 t3 : Time} {w w' : World} {m m' : Metrics}
    {b : Bool} (h : retryOrFailChunk cid f n t1 t2 t3 w m = (.ok b, w', m')) :
    m' = if b then m.submissionFailed.chunkFailed else m.chunkRetried := by
  obtain ⟨w1, w2, _, _, g⟩ := transaction_ok h
  obtain ⟨r, w3, m3, g3, g4⟩ := bind_ok g
  have e3 := (lift_ok g3).2
  split at g4
  · obtain ⟨_, w4, m4, g5, g6⟩ := bind_ok g4
    obtain ⟨e, _, e'⟩ := pure_ok g6
    rw [e', failNotx_ok g5, e3, e]; rfl
  · obtain ⟨_, w4, m4, g5, g6⟩ := bind_ok g4
    obtain ⟨e, _, e'⟩ := pure_ok g6
    rw [e', (tick_ok g5).2, e3, e]; rfl

theorem completeTx_ok {cid : ChunkId} {out : Content} {t1 t2 : Time} {w w' : World} {m m' : Metrics} {k : Int}
    (h : completeChunkTx cid out t1 t2 w m = (.ok k, w', m')) :
    ∃ x db1 b, ChunkDb.completeChunkRaw cid out t1 ⟨[], w.db⟩ = (.ok x, ⟨[], db1⟩) ∧
      SubmissionDb.maybeCompleteSubmission cid.submissionId t2 ⟨[], db1⟩ = (.ok b, ⟨[], w'.db⟩) ∧
      m' = if b then m.submissionCompleted else m := by
  obtain ⟨w1, w2, hw1, hw2, g⟩ := transaction_ok h
  obtain ⟨x, w3, m3, g3, g4⟩ := bind_ok g
  obtain ⟨g5, e3⟩ := lift_ok g3
  have f1 := faithful_completeRaw cid out t1 _ _ _ (Sql.mapErr_ok g5)
  obtain ⟨b, w4, m4, g6, g7⟩ := bind_ok g4
  obtain ⟨_, ew, em⟩ := pure_ok g7
  have h5 : maybeCompleteSubmission cid.submissionId t2 w3 m3 = (.ok b, w2, m') := by
    rw [ew, em]
    unfold mapErr at g6
    rcases e : maybeCompleteSubmission cid.submissionId t2 w3 m3 with ⟨_ | _ | _, w5, m5⟩ <;> rw [e] at g6
    · simpa using g6
    · simp at g6
    · simp at g6
  have ht := tracks_maybeComplete cid.submissionId t2 w3 m3
  rw [h5] at ht
  have f2 := faithful_maybeComplete _ _ _ _ _ ht.symm
  rw [hw1] at f1
  rw [hw2] at f2
  exact ⟨x, w3.db, b, f1, f2, by rw [maybeComplete_ok h5, e3]⟩

/-! ## Programs that do nothing count nothing -/

theorem retryOrFail_missing {db : DB} {cid : ChunkId} (h : cid ∉ db.chunks.map ChunkRow.key) (f : String) (n : Nat)
    (t1 t2 t3 : Time) (m : Metrics) : (retryOrFailChunk cid f n t1 t2 t3 ⟨[], db⟩ m).2.2 = m := by
  have h2 := find?_key_none.2 h
  simp [retryOrFailChunk, transaction, Sql.stmt_nil, bind_run, lift, Stmt.bumpRetries, h2]

theorem completeTx_missing {db : DB} {cid : ChunkId} (h : cid ∉ db.chunks.map ChunkRow.key) (out : Content)
    (t1 t2 : Time) (m : Metrics) : (completeChunkTx cid out t1 t2 ⟨[], db⟩ m).2.2 = m := by
  simp [completeChunkTx, transaction, Sql.stmt_nil, bind_run, lift, Sql.mapErr_run, completeRaw_missing out t1 h]

theorem cancel_missing {db : DB} {id : SubmissionId} (h : id ∉ db.submissions.map SubmissionRow.id)
    (t1 t2 : Time) (m : Metrics) : (cancelSubmission id t1 t2 ⟨[], db⟩ m).2.2 = m := by
  have hr : ∃ e db', SubmissionDb.cancelSubmissionRaw id t1 ⟨[], db⟩ = (.err e, ⟨[], db'⟩) := by
    have h1 := filter_key_nil.2 h
    have h2 := find?_key_none.2 h
    refine ⟨.R ⟨id⟩, { db with submissions := db.submissions.filter (fun r => !(r.id == id)) }, ?_⟩
    simp [SubmissionDb.cancelSubmissionRaw, Sql.bind_run, Sql.mapErr_run, Sql.stmt_nil, Stmt.insertCancelledSelect, h1,
      Stmt.insertRows_nil, ok_bind, err_bind, pure_eq, Stmt.deleteSubmission, h2, Sql.throw_run]
  obtain ⟨e, db', hr⟩ := hr
  have hn : cancelSubmissionNotx id t1 t2 ⟨[], db⟩ m = (.err e, ⟨[], db'⟩, m) := by
    simp [cancelSubmissionNotx, cancelSubmissionRaw, bind_run, lift, hr]
  simp only [cancelSubmission, transaction, Sql.stmt_nil, matchRes, hn]
  rcases e with e | e
  · rfl
  · dsimp only [matchRes, lift]
    rcases submissionStatus id ⟨[], db'⟩ with ⟨(_ | st) | _ | _, ⟨_ | ⟨f, o⟩, d⟩⟩ <;>
      first | rfl | (cases st <;> rfl)

end Metered
end Opsqueue
