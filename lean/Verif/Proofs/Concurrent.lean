import Verif.Spec.Concurrent
import Verif.Proofs.Alive

/-!
# Calls made at the same time
-/

namespace Opsqueue.Concurrent
open Sql SubmissionDb

theorem committed_undo (c : Conn) : c.undo.committed = c.committed := by
  obtain ⟨db, saved⟩ := c
  cases saved with
  | nil => rfl
  | cons d ds => cases ds <;> rfl

/-! ## Code for programs -/

/-- Sequencing. -/
def Code.bind {ρ σ : Type} : Code ρ → (ρ → Code σ) → Code σ
  | .ret r, f => f r
  | .stmt g k, f => .stmt g fun x => (k x).bind f
  | .begin k, f => .begin fun x => (k x).bind f
  | .commit k, f => .commit fun x => (k x).bind f
  | .rollback k, f => .rollback (k.bind f)

/-- Go on after the first part. -/
def andThen {ρ σ : Type} (x : Option ρ × List Fault × Conn) (f : ρ → Code σ) : Option σ × List Fault × Conn :=
  match x with
  | (some r, o, c) => (f r).exec o c
  | (none, o, c) => (none, o, c)

theorem exec_bind {ρ σ : Type} (x : Code ρ) (f : ρ → Code σ) : ∀ o c,
    (x.bind f).exec o c = andThen (x.exec o c) f := by
  induction x with
  | ret r => intro o c; rfl
  | stmt g k ih =>
    intro o c
    simp only [Code.bind, Code.exec]
    rcases next o with ⟨x, o'⟩
    cases x with
    | ok =>
      simp only
      cases g c.db with
      | ok b => exact ih _ _ _
      | error e => exact ih _ _ _
    | fail => exact ih _ _ _
    | crash => rfl
    | crashLate => rfl
  | begin k ih =>
    intro o c
    simp only [Code.bind, Code.exec]
    rcases next o with ⟨x, o'⟩
    cases x with
    | ok => exact ih _ _ _
    | fail => exact ih _ _ _
    | crash => rfl
    | crashLate => rfl
  | commit k ih =>
    intro o c
    simp only [Code.bind, Code.exec]
    rcases next o with ⟨x, o'⟩
    cases x with
    | ok => exact ih _ _ _
    | fail => exact ih _ _ _
    | crash => rfl
    | crashLate => rfl
  | rollback k ih =>
    intro o c
    exact ih _ _

/-- The end of a program that was started with these transactions open. -/
def embed {ε α : Type} (saved : List DB) : Res ε α × World → Option (Except ε α) × List Fault × Conn
  | (.ok a, w) => (some (.ok a), w.oracle, ⟨w.db, saved⟩)
  | (.err e, w) => (some (.error e), w.oracle, ⟨w.db, saved⟩)
  | (.crash, w) => (none, w.oracle, ⟨(⟨w.db, saved⟩ : Conn).committed, []⟩)

/-- Code for the program. -/
structure Does {ε α : Type} (p : Sql ε α) where
  code : Code (Except ε α)
  spec : ∀ o db saved, code.exec o ⟨db, saved⟩ = embed saved (p ⟨o, db⟩)

def does_pure {ε α : Type} (a : α) : Does (pure a : Sql ε α) := ⟨.ret (.ok a), fun _ _ _ => rfl⟩

def does_throw {ε α : Type} (e : ε) : Does (throw e : Sql ε α) := ⟨.ret (.error e), fun _ _ _ => rfl⟩

def does_stmt {α : Type} (f : DB → Except DbErr (α × DB)) : Does (stmt f) := by
  refine ⟨.stmt f .ret, fun o db saved => ?_⟩
  unfold stmt
  simp only [Code.exec]
  cases o with
  | nil =>
    simp only [next]
    cases f db with
    | ok b => rfl
    | error e => rfl
  | cons x o =>
    cases x with
    | ok =>
      simp only [next]
      cases f db with
      | ok b => rfl
      | error e => rfl
    | fail => rfl
    | crash => rfl
    | crashLate => rfl

def does_query {α : Type} (f : DB → Except DbErr α) : Does (query f) := does_stmt _

def does_matchRes {ε ε' α β : Type} {x : Sql ε α} {k : Except ε α → Sql ε' β} (hx : Does x)
    (hk : ∀ r, Does (k r)) : Does (matchRes x k) := by
  refine ⟨hx.code.bind fun r => (hk r).code, fun o db saved => ?_⟩
  rw [exec_bind, hx.spec, matchRes_run]
  rcases x ⟨o, db⟩ with ⟨r, w⟩
  cases r with
  | ok a => exact (hk _).spec _ _ _
  | err e => exact (hk _).spec _ _ _
  | crash => rfl

def does_bind {ε α β : Type} {x : Sql ε α} {f : α → Sql ε β} (hx : Does x) (hf : ∀ a, Does (f a)) :
    Does (x >>= f) := by
  refine ⟨hx.code.bind fun | .ok a => (hf a).code | .error e => .ret (.error e), fun o db saved => ?_⟩
  rw [exec_bind, hx.spec, bind_run]
  rcases x ⟨o, db⟩ with ⟨r, w⟩
  cases r with
  | ok a => exact (hf _).spec _ _ _
  | err e => rfl
  | crash => rfl

def does_mapErr {ε ε' α : Type} {f : ε → ε'} {x : Sql ε α} (hx : Does x) : Does (mapErr f x) := by
  refine ⟨hx.code.bind fun | .ok a => .ret (.ok a) | .error e => .ret (.error (f e)), fun o db saved => ?_⟩
  rw [exec_bind, hx.spec, mapErr_run]
  rcases x ⟨o, db⟩ with ⟨r, w⟩
  cases r <;> rfl

def does_ite {ε α : Type} {c : Prop} [Decidable c] {x y : Sql ε α} (hx : Does x) (hy : Does y) :
    Does (if c then x else y) := by
  refine ⟨if c then hx.code else hy.code, fun o db saved => ?_⟩
  by_cases h : c
  · rw [if_pos h, if_pos h]; exact hx.spec o db saved
  · rw [if_neg h, if_neg h]; exact hy.spec o db saved

def does_transaction {ε α : Type} {conv : DbErr → ε} {body : Sql ε α} (hb : Does body) :
    Does (transaction conv body) := by
  refine ⟨.begin fun
    | .error e => .ret (.error (conv e))
    | .ok () => hb.code.bind fun
      | .error e => .rollback (.ret (.error e))
      | .ok a => .commit fun
        | .ok () => .ret (.ok a)
        | .error e => .ret (.error (conv e)), fun o db saved => ?_⟩
  have after : ∀ o', (hb.code.bind fun
      | .error e => .rollback (.ret (.error e))
      | .ok a => .commit fun
        | .ok () => .ret (.ok a)
        | .error e => .ret (.error (conv e))).exec o' ⟨db, db :: saved⟩ =
      embed saved (match body ⟨o', db⟩ with
      | (.err e, w2) => (.err e, ⟨w2.oracle, db⟩)
      | (.crash, w2) => (.crash, ⟨w2.oracle, db⟩)
      | (.ok a, w2) =>
        match w2.oracle with
        | [] => (.ok a, w2)
        | .ok :: o => (.ok a, ⟨o, w2.db⟩)
        | .fail :: o => (.err (conv .io), ⟨o, db⟩)
        | .crash :: o => (.crash, ⟨o, db⟩)
        | .crashLate :: o => (.crash, ⟨o, w2.db⟩)) := by
    intro o'
    rw [exec_bind, hb.spec]
    rcases body ⟨o', db⟩ with ⟨r, w2⟩
    cases r with
    | err e => rfl
    | crash =>
      simp only [embed, andThen]
      cases saved <;> rfl
    | ok a =>
      simp only [embed, andThen, Code.exec]
      obtain ⟨o2, db2⟩ := w2
      cases o2 with
      | nil => rfl
      | cons x o2 =>
        cases x with
        | ok => rfl
        | fail => rfl
        | crash => cases saved <;> rfl
        | crashLate => rfl
  unfold transaction stmt
  simp only [Code.exec]
  cases o with
  | nil => exact after []
  | cons x o =>
    cases x with
    | ok => exact after o
    | fail => rfl
    | crash => rfl
    | crashLate => rfl

/-! ## Every call has its code -/

def does_insertMetadata (id : SubmissionId) (m : StrategicMetadata) :
    Does (insertSubmissionMetadataRaw id m) :=
  match m with
  | [] => does_pure _
  | _ :: rest => does_bind (does_stmt _) fun _ => does_insertMetadata id rest

def does_insertBatches (n : Nat) (rows : List ChunkRow) : Does (ChunkDb.insertBatches n rows) :=
  match rows with
  | [] => ⟨.ret (.ok ()), fun _ _ _ => by rw [ChunkDb.insertBatches]; rfl⟩
  | r :: rs =>
    let x := does_bind (does_stmt (Stmt.insertChunks ((r :: rs).take (n + 1)))) fun _ => does_insertBatches n (rs.drop n)
    ⟨x.code, fun o db saved => by rw [ChunkDb.insertBatches]; exact x.spec o db saved⟩
termination_by rows.length
decreasing_by simp; omega

/-- A transaction, and code for what is done in it. -/
structure DoesTx {ε α : Type} (p : Sql ε α) where
  conv : DbErr → ε
  body : Sql ε α
  eq : p = transaction conv body
  code : Does body

def DoesTx.does {ε α : Type} {p : Sql ε α} (h : DoesTx p) : Does p := h.eq ▸ does_transaction h.code

def tx_insertSubmission (s : SubmissionRow) (m : StrategicMetadata) (cs : List ChunkRow) :
    DoesTx (insertSubmission s m cs) :=
  ⟨_, _, rfl, does_bind (does_stmt _) fun _ =>
    does_bind (does_insertMetadata _ _) fun _ => does_insertBatches _ _⟩

def does_insertSubmission (s : SubmissionRow) (m : StrategicMetadata) (cs : List ChunkRow) :
    Does (insertSubmission s m cs) := (tx_insertSubmission s m cs).does

def tx_maybeComplete (id : SubmissionId) (t : Time) : DoesTx (maybeCompleteSubmission id t) := by
  refine ⟨_, _, rfl, does_bind (does_bind (does_mapErr (does_query _)) fun r => ?_) fun s => ?_⟩
  · cases r
    · exact does_throw _
    · exact does_pure _
  · refine does_ite ?_ ?_
    · refine does_bind (does_bind (does_mapErr (does_stmt _)) fun _ =>
        does_bind (does_mapErr (does_stmt _)) fun r => ?_) fun _ => does_pure _
      cases r
      · exact does_throw _
      · exact does_pure _
    · exact does_pure _

def does_maybeComplete (id : SubmissionId) (t : Time) : Does (maybeCompleteSubmission id t) :=
  (tx_maybeComplete id t).does

def does_insert (a : InsertArgs) (t : Time) : Does (insertSubmissionFromChunks a t) := by
  refine does_bind (does_insertSubmission _ _ _) fun _ => ?_
  refine does_ite ?_ ?_
  · refine does_matchRes (does_maybeComplete _ _) fun r => ?_
    rcases r with (e | e) | b
    · exact does_throw _
    · exact does_pure _
    · exact does_pure _
  · exact does_pure _

def does_status (id : SubmissionId) : Does (submissionStatus id) := by
  refine does_bind (does_query _) fun r => ?_
  cases r with
  | some s => exact does_pure _
  | none =>
    refine does_bind (does_query _) fun r => ?_
    cases r with
    | some s => exact does_pure _
    | none =>
      refine does_bind (does_query _) fun r => ?_
      cases r with
      | some s => exact does_bind (does_query _) fun _ => does_pure _
      | none =>
        refine does_bind (does_query _) fun r => ?_
        cases r <;> exact does_pure _

def does_skip (id : SubmissionId) (t : Time) : Does (ChunkDb.skipRemainingChunks id t) :=
  does_bind (does_stmt _) fun _ => does_stmt _

def tx_cancel (id : SubmissionId) (t1 t2 : Time) : DoesTx (cancelSubmission id t1 t2) := by
  refine ⟨_, _, rfl, does_matchRes (does_bind (does_bind (does_mapErr (does_stmt _)) fun _ =>
    does_bind (does_mapErr (does_stmt _)) fun r => ?_) fun _ => does_mapErr (does_skip _ _)) fun r => ?_⟩
  · cases r
    · exact does_throw _
    · exact does_pure _
  · rcases r with (e | e) | b
    · exact does_throw _
    · refine does_matchRes (does_status _) fun r => ?_
      rcases r with e | (_ | (s | s | ⟨s, c⟩ | s)) <;> exact does_throw _
    · exact does_pure _

def does_cancel (id : SubmissionId) (t1 t2 : Time) : Does (cancelSubmission id t1 t2) := (tx_cancel id t1 t2).does

def tx_completeChunk (cid : ChunkId) (out : Content) (t1 t2 : Time) :
    DoesTx (ChunkDb.completeChunkTx cid out t1 t2) :=
  ⟨_, _, rfl, does_bind (does_mapErr (does_bind (does_stmt _) fun _ =>
    does_bind (does_stmt _) fun _ => does_stmt _)) fun _ =>
    does_bind (does_mapErr (does_maybeComplete _ _)) fun _ => does_pure _⟩

def does_completeChunk (cid : ChunkId) (out : Content) (t1 t2 : Time) :
    Does (ChunkDb.completeChunk cid out t1 t2) :=
  does_matchRes (tx_completeChunk cid out t1 t2).does fun _ => does_pure _

def tx_failChunk (cid : ChunkId) (f : String) (m : Nat) (t1 t2 t3 : Time) :
    DoesTx (ChunkDb.retryOrFailChunk cid f m t1 t2 t3) := by
  refine ⟨_, _, rfl, does_bind (does_stmt _) fun r => ?_⟩
  refine does_ite ?_ ?_
  · refine does_bind (does_bind (does_bind (does_stmt _) fun _ => does_bind (does_stmt _) fun r => ?_) fun _ =>
      does_bind (does_bind (does_stmt _) fun _ => does_stmt _) fun _ => does_skip _ _) fun _ => does_pure _
    cases r
    · exact does_throw _
    · exact does_pure _
  · exact does_pure _

def does_failChunk (cid : ChunkId) (f : String) (m : Nat) (t1 t2 t3 : Time) :
    Does (ChunkDb.retryOrFailChunk cid f m t1 t2 t3) := (tx_failChunk cid f m t1 t2 t3).does

def tx_cleanup (t : Time) : DoesTx (cleanupOld t) := by
  refine ⟨_, _, rfl, ?_⟩
  iterate 7 refine does_bind (does_stmt _) fun _ => ?_
  exact does_stmt _

def does_cleanup (t : Time) : Does (cleanupOld t) := (tx_cleanup t).does

/-- Code that gives the result to the caller. -/
def Does.wrap {ε α : Type} {p : Sql ε α} (hp : Does p) (wrap : Res ε α → Out) : Code Out :=
  hp.code.bind fun | .ok a => .ret (wrap (.ok a)) | .error e => .ret (wrap (.err e))

theorem runs_wrap {ε α : Type} {p : Sql ε α} (hp : Does p) (op : Op) (wrap : Res ε α → Out)
    (hw : (wrap .crash).crashed = true)
    (h : ∀ o db, Opsqueue.step db (withFaults o op) = (wrap (p ⟨o, db⟩).1, (p ⟨o, db⟩).2.db)) :
    Runs (hp.wrap wrap) op := by
  intro o db
  unfold Does.wrap
  rw [exec_bind, hp.spec, h]
  rcases p ⟨o, db⟩ with ⟨r, w⟩
  cases r with
  | ok a =>
    refine ⟨fun r o' c he => ?_, fun o' c he => ?_⟩
    · simp only [embed, andThen, Code.exec, Prod.mk.injEq, Option.some.injEq] at he
      obtain ⟨rfl, rfl, rfl⟩ := he
      rfl
    · simp [embed, andThen, Code.exec] at he
  | err e =>
    refine ⟨fun r o' c he => ?_, fun o' c he => ?_⟩
    · simp only [embed, andThen, Code.exec, Prod.mk.injEq, Option.some.injEq] at he
      obtain ⟨rfl, rfl, rfl⟩ := he
      rfl
    · simp [embed, andThen, Code.exec] at he
  | crash =>
    refine ⟨fun r o' c he => ?_, fun o' c he => ?_⟩
    · simp [embed, andThen] at he
    · simp only [embed, andThen, Prod.mk.injEq, true_and] at he
      obtain ⟨rfl, rfl⟩ := he
      exact ⟨hw, rfl⟩

/-- The code of each call. -/
def codeOf : Op → Code Out
  | .insert a now _ => (does_insert a now).wrap .inserted
  | .complete cid out t1 t2 _ => (does_completeChunk cid out t1 t2).wrap .completed
  | .fail cid f m t1 t2 t3 _ => (does_failChunk cid f m t1 t2 t3).wrap .failed
  | .cancel id t1 t2 _ => (does_cancel id t1 t2).wrap .cancelled
  | .cleanup t _ => (does_cleanup t).wrap .cleaned

theorem runs_codeOf (op : Op) : Runs (codeOf op) op := by
  cases op with
  | insert a now o => exact runs_wrap _ _ _ rfl fun _ _ => rfl
  | complete cid out t1 t2 o => exact runs_wrap _ _ _ rfl fun _ _ => rfl
  | fail cid f m t1 t2 t3 o => exact runs_wrap _ _ _ rfl fun _ _ => rfl
  | cancel id t1 t2 o => exact runs_wrap _ _ _ rfl fun _ _ => rfl
  | cleanup t o => exact runs_wrap _ _ _ rfl fun _ _ => rfl

/-! ## One statement at a time -/

theorem step_exec {ρ : Type} {x : Code ρ} {fail : Bool} {c : Conn} {x' : Code ρ} {c' : Conn}
    (h : x.step fail c = some (x', c')) :
    ∃ g : List Fault, (∀ f ∈ g, f = if fail then .fail else .ok) ∧ ∀ o, x.exec (g ++ o) c = x'.exec o c' := by
  cases x with
  | ret r => simp [Code.step] at h
  | stmt f k =>
    refine ⟨[if fail then .fail else .ok], by simp, fun o => ?_⟩
    cases fail with
    | true =>
      simp only [Code.step, if_true, Option.some.injEq, Prod.mk.injEq] at h
      obtain ⟨rfl, rfl⟩ := h
      rfl
    | false =>
      simp only [Code.step, Bool.false_eq_true, if_false] at h
      simp only [Bool.false_eq_true, if_false, List.cons_append, List.nil_append, Code.exec, next]
      cases hf : f c.db with
      | ok b =>
        rw [hf] at h
        simp only [Option.some.injEq, Prod.mk.injEq] at h
        obtain ⟨rfl, rfl⟩ := h
        rfl
      | error e =>
        rw [hf] at h
        simp only [Option.some.injEq, Prod.mk.injEq] at h
        obtain ⟨rfl, rfl⟩ := h
        rfl
  | begin k =>
    refine ⟨[if fail then .fail else .ok], by simp, fun o => ?_⟩
    cases fail <;>
    · simp only [Code.step, if_true, Bool.false_eq_true, if_false, Option.some.injEq, Prod.mk.injEq] at h
      obtain ⟨rfl, rfl⟩ := h
      rfl
  | commit k =>
    refine ⟨[if fail then .fail else .ok], by simp, fun o => ?_⟩
    cases fail <;>
    · simp only [Code.step, if_true, Bool.false_eq_true, if_false, Option.some.injEq, Prod.mk.injEq] at h
      obtain ⟨rfl, rfl⟩ := h
      rfl
  | rollback k =>
    refine ⟨[], by simp, fun o => ?_⟩
    simp only [Code.step, Option.some.injEq, Prod.mk.injEq] at h
    obtain ⟨rfl, rfl⟩ := h
    rfl

theorem exec_crash {ρ : Type} (x : Code ρ) : ∀ c, (x.exec [.crash] c).2.2.committed = c.committed := by
  induction x with
  | ret r => intro c; rfl
  | stmt f k ih => intro c; rfl
  | begin k ih => intro c; rfl
  | commit k ih => intro c; rfl
  | rollback k ih => intro c; exact (ih c.undo).trans (committed_undo c)

theorem exec_leave (a : Active) (late : Bool) :
    ∃ f, (a.code.exec [f] a.conn).2.2.committed = a.leave late := by
  unfold Active.leave
  cases late with
  | false => exact ⟨.crash, exec_crash _ _⟩
  | true =>
    simp only [if_true]
    cases hx : a.code with
    | ret r => exact ⟨.crash, rfl⟩
    | stmt f k =>
      refine ⟨.crashLate, ?_⟩
      simp only [Code.step, Bool.false_eq_true, if_false, Code.exec, next, applyStmt]
      cases hf : f a.conn.db with
      | ok b => simp only; rfl
      | error e => simp only; rfl
    | begin k =>
      refine ⟨.crashLate, ?_⟩
      simp only [Code.step, Bool.false_eq_true, if_false, Code.exec, next]
      obtain ⟨i, x, ⟨db, saved⟩⟩ := a
      cases saved <;> rfl
    | commit k => exact ⟨.crashLate, rfl⟩
    | rollback k => exact ⟨.crash, (exec_crash _ _).trans (by simp [Code.step, committed_undo])⟩

/-! ## All events -/

theorem run_append (code : Nat → Code Out) : ∀ (es es' : List Event) (s : State),
    run code s (es ++ es') = (run code s es).bind fun s => run code s es'
  | [], es', s => rfl
  | e :: es, es', s => by
    simp only [List.cons_append, run]
    cases step code s e with
    | none => rfl
    | some s1 => exact run_append code es es' s1

theorem run_snoc {code : Nat → Code Out} {es : List Event} {e : Event} {s s' : State}
    (h : run code s (es ++ [e]) = some s') : ∃ s1, run code s es = some s1 ∧ step code s1 e = some s' := by
  rw [run_append] at h
  cases hs : run code s es with
  | none => rw [hs] at h; cases h
  | some s1 =>
    rw [hs] at h
    simp only [Option.bind_some, run] at h
    cases he : step code s1 e with
    | none => rw [he] at h; cases h
    | some s2 => rw [he] at h; exact ⟨s1, rfl, by rw [he]; simpa [run] using h⟩

theorem acquired_snoc (es : List Event) (e : Event) : acquired (es ++ [e]) = acquired es ++ acquired [e] := by
  simp [acquired]

/-- The faults of a call that was not killed, given what happened. -/
def Plain (es : List Event) (o : List Fault) : Prop := ∀ f ∈ o, f = .ok ∨ (f = .fail ∧ .statement true ∈ es)

theorem Plain.mono {es : List Event} {o : List Fault} (h : Plain es o) (e : Event) : Plain (es ++ [e]) o := by
  intro f hf
  rcases h f hf with h | ⟨h, h'⟩
  · exact .inl h
  · exact .inr ⟨h, by simp [h']⟩

/-- The result of a call is explained by its place in the history. -/
def Explained (op : Nat → Op) (es : List Event) (past : List (Nat × List Fault)) (i : Nat) (r : Out) : Prop :=
  ∃ pre o post, past = pre ++ (i, o) :: post ∧ Plain es o ∧
    (Opsqueue.step (Opsqueue.run (calls op pre)) (withFaults o (op i))).1 = r

/-- The invariant: `past` are the calls whose tasks have gone, with their faults, `act` is the call that is running, with its
faults so far. -/
structure Good (op : Nat → Op) (code : Nat → Code Out) (es : List Event) (s : State)
    (past : List (Nat × List Fault)) (act : Option (Nat × List Fault)) : Prop where
  idle : s.active = none → act = none ∧ acquired es = past.map (·.1) ∧ s.db = Opsqueue.run (calls op past)
  busy : ∀ a, s.active = some a → ∃ fs, act = some (a.task, fs) ∧ acquired es = past.map (·.1) ++ [a.task] ∧
    Plain es fs ∧ ∀ o, (code a.task).exec (fs ++ o) ⟨Opsqueue.run (calls op past), []⟩ = a.code.exec o a.conn
  returned : ∀ i r, (i, r) ∈ s.returned → Explained op es past i r

/-- What can become of past and running calls at an event. -/
inductive Later (past : List (Nat × List Fault)) : Option (Nat × List Fault) → List (Nat × List Fault) →
    Option (Nat × List Fault) → Prop
  | idle (act') : Later past none past act'
  | goes (i fs g) : Later past (some (i, fs)) past (some (i, fs ++ g))
  | ends (i fs g) : Later past (some (i, fs)) (past ++ [(i, fs ++ g)]) none

theorem Later.same (past : List (Nat × List Fault)) (act : Option (Nat × List Fault)) : Later past act past act := by
  rcases act with _ | ⟨i, fs⟩
  · exact .idle _
  · have := Later.goes (past := past) i fs []
    rwa [List.append_nil] at this

theorem Explained.mono {op : Nat → Op} {es : List Event} {past : List (Nat × List Fault)} {i : Nat} {r : Out}
    (h : Explained op es past i r) (e : Event) (more : List (Nat × List Fault)) :
    Explained op (es ++ [e]) (past ++ more) i r := by
  obtain ⟨pre, o, post, h1, h2, h3⟩ := h
  exact ⟨pre, o, post ++ more, by rw [h1]; simp, h2.mono e, h3⟩

theorem run_calls_snoc (op : Nat → Op) (past : List (Nat × List Fault)) (i : Nat) (o : List Fault) :
    Opsqueue.run (calls op (past ++ [(i, o)])) =
      (Opsqueue.step (Opsqueue.run (calls op past)) (withFaults o (op i))).2 := by
  simp [Opsqueue.run, runFrom, calls, List.foldl_append]

/-- What a killed task leaves behind is what the call with that fault leaves behind. -/
theorem killed {op : Op} {code : Code Out} (hr : Runs code op) {db : DB} {o : List Fault} :
    (Opsqueue.step db (withFaults o op)).2 = (code.exec o ⟨db, []⟩).2.2.committed := by
  obtain ⟨h1, h2⟩ := hr o db
  rcases he : code.exec o ⟨db, []⟩ with ⟨r, o', c⟩
  cases r with
  | none => exact (h2 o' c he).2
  | some r => rw [h1 r o' c he]

theorem good_step {op : Nat → Op} {code : Nat → Code Out} (hc : ∀ i, Runs (code i) (op i)) {es : List Event} {s s' : State}
    {past : List (Nat × List Fault)} {act : Option (Nat × List Fault)} {e : Event} (hg : Good op code es s past act)
    (h2 : step code s e = some s') :
    ∃ past' act', Good op code (es ++ [e]) s' past' act' ∧ Later past act past' act' := by
  have same : ∀ s' : State, s'.active = s.active → s'.db = s.db → s'.returned = s.returned → acquired [e] = [] →
      ∃ past' act', Good op code (es ++ [e]) s' past' act' ∧ Later past act past' act' := by
    intro s' ha hd hr hq
    refine ⟨past, act, ⟨fun h => ?_, fun a h => ?_, fun i r h => ?_⟩, .same _ _⟩
    · rw [acquired_snoc, hq, List.append_nil, hd]
      exact hg.idle (ha ▸ h)
    · rw [acquired_snoc, hq, List.append_nil]
      obtain ⟨fs, g0, g1, g2, g3⟩ := hg.busy a (ha ▸ h)
      exact ⟨fs, g0, g1, g2.mono e, g3⟩
    · have := (hg.returned i r (hr ▸ h)).mono e []
      simpa using this
  have gone : ∀ (a : Active) (late : Bool) (s' : State), s.active = some a → s'.active = none →
      s'.db = a.leave late → s'.returned = s.returned → acquired [e] = [] →
      ∃ past' act', Good op code (es ++ [e]) s' past' act' ∧ Later past act past' act' := by
    intro a late s' ha ha' hd hr hq
    obtain ⟨fs, g0, g1, g2, g3⟩ := hg.busy a ha
    obtain ⟨f, hf⟩ := exec_leave a late
    refine ⟨past ++ [(a.task, fs ++ [f])], none, ⟨fun _ => ⟨rfl, ?_, ?_⟩, fun a h => ?_, fun i r h => ?_⟩, ?_⟩
    · rw [acquired_snoc, hq, g1]; simp
    · rw [run_calls_snoc, killed (hc a.task), g3, hf, hd]
    · rw [ha'] at h; cases h
    · exact (hg.returned i r (hr ▸ h)).mono e _
    · rw [g0]; exact .ends _ _ _
  cases e with
  | call i =>
    simp only [step] at h2
    split at h2
    · cases h2
    · simp only [Option.some.injEq] at h2
      subst h2
      exact same _ rfl rfl rfl rfl
  | giveUp i =>
    simp only [step, Option.some.injEq] at h2
    subst h2
    exact same _ rfl rfl rfl rfl
  | acquire i =>
    simp only [step] at h2
    cases ha : s.active with
    | some a => rw [ha] at h2; cases h2
    | none =>
      rw [ha] at h2
      simp only at h2
      split at h2
      · simp only [Option.some.injEq] at h2
        subst h2
        obtain ⟨g0, g1, g2⟩ := hg.idle ha
        refine ⟨past, some (i, []), ⟨fun h => (by cases h), fun a h => ?_, fun j r h => ?_⟩, ?_⟩
        · simp only [Option.some.injEq] at h
          subst h
          refine ⟨[], rfl, by rw [acquired_snoc, g1]; rfl, (by intro f hf; cases hf), fun o => by rw [← g2]; rfl⟩
        · have := (hg.returned j r h).mono (.acquire i) []
          simpa using this
        · rw [g0]; exact .idle _
      · cases h2
  | statement fail =>
    simp only [step] at h2
    cases ha : s.active with
    | none => rw [ha] at h2; cases h2
    | some a =>
      rw [ha] at h2
      simp only at h2
      cases hs : a.code.step fail a.conn with
      | none => rw [hs] at h2; cases h2
      | some kc =>
        obtain ⟨k, c⟩ := kc
        rw [hs] at h2
        simp only [Option.some.injEq] at h2
        subst h2
        obtain ⟨fs, g0, g1, g2, g3⟩ := hg.busy a ha
        obtain ⟨g, hg1, hg2⟩ := step_exec hs
        refine ⟨past, some (a.task, fs ++ g), ⟨fun h => (by cases h), fun a' h => ?_, fun j r h => ?_⟩, ?_⟩
        · simp only [Option.some.injEq] at h
          subst h
          refine ⟨fs ++ g, rfl, by rw [acquired_snoc, g1]; simp [acquired], ?_, fun o => ?_⟩
          · intro f hf
            rcases List.mem_append.mp hf with hf | hf
            · exact g2.mono _ f hf
            · have := hg1 f hf
              cases fail with
              | true => exact .inr ⟨this, by simp⟩
              | false => exact .inl this
          · rw [List.append_assoc, g3, hg2]
        · have := (hg.returned j r h).mono (.statement fail) []
          simpa using this
        · rw [g0]; exact .goes _ _ _
  | «return» =>
    simp only [step] at h2
    split at h2
    · rename_i i r c ha
      simp only [Option.some.injEq] at h2
      subst h2
      obtain ⟨fs, g0, g1, g2, g3⟩ := hg.busy _ ha
      have he := g3 []
      rw [List.append_nil] at he
      have hst := (hc i fs _).1 r [] c he
      refine ⟨past ++ [(i, fs)], none, ⟨fun _ => ⟨rfl, ?_, ?_⟩, fun a h => (by cases h), fun j q h => ?_⟩, ?_⟩
      · rw [acquired_snoc, g1]; simp [acquired]
      · rw [run_calls_snoc, hst]
      · simp only [List.mem_append, List.mem_singleton, Prod.mk.injEq] at h
        rcases h with h | ⟨rfl, rfl⟩
        · exact (hg.returned j q h).mono _ _
        · exact ⟨past, fs, [], rfl, g2.mono _, by rw [hst]⟩
      · rw [g0]
        have := Later.ends (past := past) i fs []
        rwa [List.append_nil] at this
    · cases h2
  | drop late =>
    simp only [step] at h2
    cases ha : s.active with
    | none => rw [ha] at h2; cases h2
    | some a =>
      rw [ha] at h2
      simp only [Option.some.injEq] at h2
      subst h2
      exact gone a late _ ha rfl rfl rfl rfl
  | crash late =>
    simp only [step] at h2
    cases ha : s.active with
    | none =>
      rw [ha] at h2
      simp only [Option.some.injEq] at h2
      subst h2
      exact same _ ha.symm rfl rfl rfl
    | some a =>
      rw [ha] at h2
      simp only [Option.some.injEq] at h2
      subst h2
      exact gone a late _ ha rfl rfl rfl rfl

theorem good_init (op : Nat → Op) (code : Nat → Code Out) : Good op code [] {} [] none :=
  ⟨fun _ => ⟨rfl, rfl, rfl⟩, by simp, by simp⟩

theorem good_run {op : Nat → Op} {code : Nat → Code Out} (hc : ∀ i, Runs (code i) (op i)) (es : List Event) :
    ∀ s, run code {} es = some s → ∃ past act, Good op code es s past act := by
  induction es using snoc_induction with
  | nil =>
    intro s h
    simp only [run, Option.some.injEq] at h
    subst h
    exact ⟨[], none, good_init _ _⟩
  | snoc es e ih =>
    intro s' h
    obtain ⟨s, h1, h2⟩ := run_snoc h
    obtain ⟨past, act, hg⟩ := ih s h1
    obtain ⟨past', act', hg', -⟩ := good_step hc hg h2
    exact ⟨past', act', hg'⟩

/-! ## Who got the connection -/

theorem called_step {code : Nat → Code Out} {s s' : State} {e : Event} (h : step code s e = some s') (j : Nat)
    (hj : j ∈ s.called) : j ∈ s'.called := by
  cases e with
  | call i =>
    simp only [step] at h
    split at h
    · cases h
    · simp only [Option.some.injEq] at h
      subst h
      exact List.mem_cons_of_mem _ hj
  | giveUp i =>
    simp only [step, Option.some.injEq] at h
    subst h
    exact hj
  | acquire i =>
    simp only [step] at h
    split at h
    · cases h
    · split at h
      · simp only [Option.some.injEq] at h
        subst h
        exact hj
      · cases h
  | statement fail =>
    simp only [step] at h
    split at h
    · cases h
    · split at h
      · simp only [Option.some.injEq] at h
        subst h
        exact hj
      · cases h
  | «return» =>
    simp only [step] at h
    split at h
    · simp only [Option.some.injEq] at h
      subst h
      exact hj
    · cases h
  | drop late =>
    simp only [step] at h
    split at h
    · simp only [Option.some.injEq] at h
      subst h
      exact hj
    · cases h
  | crash late =>
    simp only [step] at h
    split at h
    all_goals
      simp only [Option.some.injEq] at h
      subst h
      exact hj

theorem step_some {ρ : Type} (x : Code ρ) (fail : Bool) (c : Conn) :
    (∃ r, x = .ret r) ∨ ∃ x' c', x.step fail c = some (x', c') := by
  cases x with
  | ret r => exact .inl ⟨r, rfl⟩
  | stmt f k =>
    refine .inr ?_
    simp only [Code.step]
    split
    · exact ⟨_, _, rfl⟩
    · split <;> exact ⟨_, _, rfl⟩
  | begin k => refine .inr ?_; simp only [Code.step]; split <;> exact ⟨_, _, rfl⟩
  | commit k => refine .inr ?_; simp only [Code.step]; split <;> exact ⟨_, _, rfl⟩
  | rollback k => exact .inr ⟨_, _, rfl⟩

/-- Statements come to an end. -/
theorem finishes {ρ : Type} (x : Code ρ) : ∀ (fails : Nat → Bool) (c : Conn),
    ∃ n r c', (∃ tr : Nat → Code ρ × Conn, tr 0 = (x, c) ∧ tr n = (.ret r, c') ∧
      ∀ k < n, (tr k).1.step (fails k) (tr k).2 = some (tr (k + 1))) := by
  have go : ∀ (x : Code ρ) (fails : Nat → Bool) (c : Conn) (x' : Code ρ) (c' : Conn),
      x.step (fails 0) c = some (x', c') →
      (∃ n r c2, (∃ tr : Nat → Code ρ × Conn, tr 0 = (x', c') ∧ tr n = (.ret r, c2) ∧
        ∀ k < n, (tr k).1.step (fails (k + 1)) (tr k).2 = some (tr (k + 1)))) →
      ∃ n r c2, (∃ tr : Nat → Code ρ × Conn, tr 0 = (x, c) ∧ tr n = (.ret r, c2) ∧
        ∀ k < n, (tr k).1.step (fails k) (tr k).2 = some (tr (k + 1))) := by
    rintro x fails c x' c' h ⟨n, r, c2, tr, h0, hn, hs⟩
    refine ⟨n + 1, r, c2, fun | 0 => (x, c) | k + 1 => tr k, rfl, hn, fun k hk => ?_⟩
    cases k with
    | zero => simpa [h0] using h
    | succ k => exact hs k (by omega)
  induction x with
  | ret r => exact fun fails c => ⟨0, r, c, fun _ => (.ret r, c), rfl, rfl, by intro k hk; omega⟩
  | stmt f k ih =>
    intro fails c
    by_cases hf : fails 0 = true
    · exact go _ fails c _ _ (by simp only [Code.step, hf, if_true]; rfl) (ih _ (fun k => fails (k + 1)) _)
    · cases hr : f c.db with
      | ok b => exact go _ fails c _ _ (by simp only [Code.step, hf, hr]; rfl) (ih _ (fun k => fails (k + 1)) _)
      | error e => exact go _ fails c _ _ (by simp only [Code.step, hf, hr]; rfl) (ih _ (fun k => fails (k + 1)) _)
  | begin k ih =>
    intro fails c
    by_cases hf : fails 0 = true
    · exact go _ fails c _ _ (by simp only [Code.step, hf, if_true]; rfl) (ih _ (fun k => fails (k + 1)) _)
    · exact go _ fails c _ _ (by simp only [Code.step, hf, if_false]; rfl) (ih _ (fun k => fails (k + 1)) _)
  | commit k ih =>
    intro fails c
    by_cases hf : fails 0 = true
    · exact go _ fails c _ _ (by simp only [Code.step, hf, if_true]; rfl) (ih _ (fun k => fails (k + 1)) _)
    · exact go _ fails c _ _ (by simp only [Code.step, hf, if_false]; rfl) (ih _ (fun k => fails (k + 1)) _)
  | rollback k ih =>
    intro fails c
    exact go _ fails c _ _ rfl (ih (fun k => fails (k + 1)) _)

structure Ordered (es : List Event) (s : State) : Prop where
  nodup : (acquired es).Nodup
  called : ∀ i ∈ s.called, .call i ∈ es
  acquired : ∀ i ∈ Concurrent.acquired es, i ∈ s.called
  waiting : ∀ i ∈ s.waiting, i ∈ s.called ∧ i ∉ Concurrent.acquired es
  active : ∀ a, s.active = some a → ∃ pre, Concurrent.acquired es = pre ++ [a.task] ∧ (s.returned.map (·.1)).Sublist pre
  returned : (s.returned.map (·.1)).Sublist (Concurrent.acquired es)

theorem ordered_run {code : Nat → Code Out} (es : List Event) :
    ∀ s, run code {} es = some s → Ordered es s := by
  induction es using snoc_induction with
  | nil =>
    intro s h
    simp only [run, Option.some.injEq] at h
    subst h
    refine ⟨by simp [Concurrent.acquired], by simp, by simp [Concurrent.acquired], by simp, by simp, by simp⟩
  | snoc es e ih =>
    intro s' h
    obtain ⟨s, h1, h2⟩ := run_snoc h
    have hg := ih s h1
    cases e with
    | call i =>
      simp only [step] at h2
      split at h2
      · cases h2
      · rename_i hi
        simp only [Option.some.injEq] at h2
        subst h2
        have e : Concurrent.acquired (es ++ [.call i]) = Concurrent.acquired es := by simp [Concurrent.acquired]
        refine ⟨e ▸ hg.nodup, ?_, ?_, ?_, ?_, ?_⟩
        · intro j hj
          rcases List.mem_cons.mp hj with rfl | hj
          · simp
          · simp [hg.called j hj]
        · intro j hj
          rw [e] at hj
          exact List.mem_cons_of_mem _ (hg.acquired j hj)
        · intro j hj
          rw [e]
          rcases List.mem_cons.mp hj with rfl | hj
          · exact ⟨by simp, fun h => hi (hg.acquired j h)⟩
          · exact ⟨List.mem_cons_of_mem _ (hg.waiting j hj).1, (hg.waiting j hj).2⟩
        · rw [e]; exact hg.active
        · rw [e]; exact hg.returned
    | giveUp i =>
      simp only [step, Option.some.injEq] at h2
      subst h2
      have e : Concurrent.acquired (es ++ [.giveUp i]) = Concurrent.acquired es := by simp [Concurrent.acquired]
      refine ⟨e ▸ hg.nodup, fun j hj => by simp [hg.called j hj], by rw [e]; exact hg.acquired, ?_, by rw [e]; exact hg.active,
        by rw [e]; exact hg.returned⟩
      intro j hj
      rw [e]
      exact hg.waiting j (List.mem_filter.mp hj |>.1)
    | acquire i =>
      simp only [step] at h2
      cases ha : s.active with
      | some a => rw [ha] at h2; cases h2
      | none =>
        rw [ha] at h2
        simp only at h2
        split at h2
        · rename_i hi
          simp only [Option.some.injEq] at h2
          subst h2
          have e : Concurrent.acquired (es ++ [.acquire i]) = Concurrent.acquired es ++ [i] := by
            simp [Concurrent.acquired]
          obtain ⟨hw1, hw2⟩ := hg.waiting i hi
          refine ⟨?_, fun j hj => by simp [hg.called j hj], ?_, ?_, ?_, ?_⟩
          · rw [e, List.nodup_append]
            refine ⟨hg.nodup, by simp, fun a ha b hb => ?_⟩
            simp only [List.mem_singleton] at hb
            subst hb
            exact fun h => hw2 (h ▸ ha)
          · intro j hj
            rw [e] at hj
            rcases List.mem_append.mp hj with hj | hj
            · exact hg.acquired j hj
            · simp only [List.mem_singleton] at hj
              subst hj
              exact hw1
          · intro j hj
            simp only [List.mem_filter, decide_eq_true_eq, ne_eq] at hj
            rw [e]
            refine ⟨(hg.waiting j hj.1).1, fun h => ?_⟩
            rcases List.mem_append.mp h with h | h
            · exact (hg.waiting j hj.1).2 h
            · exact hj.2 (by simpa using h)
          · intro a h
            simp only [Option.some.injEq] at h
            subst h
            exact ⟨_, e, hg.returned⟩
          · rw [e]
            exact hg.returned.trans (List.sublist_append_left _ _)
        · cases h2
    | statement fail =>
      simp only [step] at h2
      cases ha : s.active with
      | none => rw [ha] at h2; cases h2
      | some a =>
        rw [ha] at h2
        simp only at h2
        cases hs : a.code.step fail a.conn with
        | none => rw [hs] at h2; cases h2
        | some kc =>
          rw [hs] at h2
          simp only [Option.some.injEq] at h2
          subst h2
          have e : Concurrent.acquired (es ++ [.statement fail]) = Concurrent.acquired es := by simp [Concurrent.acquired]
          refine ⟨e ▸ hg.nodup, fun j hj => by simp [hg.called j hj], by rw [e]; exact hg.acquired,
            by rw [e]; exact hg.waiting, ?_, by rw [e]; exact hg.returned⟩
          intro a' h
          simp only [Option.some.injEq] at h
          subst h
          rw [e]
          exact hg.active a ha
    | «return» =>
      simp only [step] at h2
      split at h2
      · rename_i i r c ha
        simp only [Option.some.injEq] at h2
        subst h2
        have e : Concurrent.acquired (es ++ [.return]) = Concurrent.acquired es := by simp [Concurrent.acquired]
        refine ⟨e ▸ hg.nodup, fun j hj => by simp [hg.called j hj], by rw [e]; exact hg.acquired,
          by rw [e]; exact hg.waiting, (fun a h => by cases h), ?_⟩
        rw [e]
        obtain ⟨pre, h3, h4⟩ := hg.active _ ha
        rw [h3]
        simp only [List.map_append, List.map_cons, List.map_nil]
        exact h4.append (List.Sublist.refl _)
      · cases h2
    | drop late =>
      simp only [step] at h2
      cases ha : s.active with
      | none => rw [ha] at h2; cases h2
      | some a =>
        rw [ha] at h2
        simp only [Option.some.injEq] at h2
        subst h2
        have e : Concurrent.acquired (es ++ [.drop late]) = Concurrent.acquired es := by simp [Concurrent.acquired]
        exact ⟨e ▸ hg.nodup, fun j hj => by simp [hg.called j hj], by rw [e]; exact hg.acquired,
          by rw [e]; exact hg.waiting, (fun a h => by cases h), by rw [e]; exact hg.returned⟩
    | crash late =>
      simp only [step] at h2
      have e : Concurrent.acquired (es ++ [.crash late]) = Concurrent.acquired es := by simp [Concurrent.acquired]
      cases ha : s.active with
      | none =>
        rw [ha] at h2
        simp only [Option.some.injEq] at h2
        subst h2
        exact ⟨e ▸ hg.nodup, fun j hj => by simp [hg.called j hj], by rw [e]; exact hg.acquired,
          by simp, (fun a h => by cases h), by rw [e]; exact hg.returned⟩
      | some a =>
        rw [ha] at h2
        simp only [Option.some.injEq] at h2
        subst h2
        exact ⟨e ▸ hg.nodup, fun j hj => by simp [hg.called j hj], by rw [e]; exact hg.acquired,
          by simp, (fun a h => by cases h), by rw [e]; exact hg.returned⟩

end Opsqueue.Concurrent
