import Verif.Proofs.Savepoints
import Verif.Spec.Observe

/-!
# C100: no call leaves a transaction open

`Model/Savepoints.lean` has the transactions and savepoints as they are sent to SQLite, with those that are never released because
sqlx stops reading a text when it has the row it was asked for.
-/

namespace Opsqueue
open Savepoints

/-- **C100.** Whatever call is made on a connection without an open transaction, and whatever faults strike it, the connection has no
open transaction afterwards; the result and the database are those of the call in `Model/System.lean`, with the same faults. This is
so whether or not sqlx runs the rest of a text after the row it was asked for (`rest`). -/
theorem C100_nothing_is_left_open (rest : Bool) (db : DB) (op : Op) :
    Savepoints.step rest ⟨db, [], 0⟩ op = ((Opsqueue.step db op).1, ⟨(Opsqueue.step db op).2, [], 0⟩) :=
  step_eq rest db op

/-- **C100.** So one connection can be used for any calls one after another: each finds committed what those before it did. -/
theorem C100_one_connection (rest : Bool) (db : DB) (ops : List Op) :
    ops.foldl (fun c op => (Savepoints.step rest c op).2) ⟨db, [], 0⟩ = ⟨runFrom db ops, [], 0⟩ ∧
    (ops.foldl (fun c op => (Savepoints.step rest c op).2) ⟨db, [], 0⟩).committed = runFrom db ops := by
  have h : ops.foldl (fun c op => (Savepoints.step rest c op).2) ⟨db, [], 0⟩ = ⟨runFrom db ops, [], 0⟩ := by
    induction ops generalizing db with
    | nil => rfl
    | cons op ops ih =>
      rw [List.foldl_cons, step_eq]
      exact ih _
  exact ⟨h, by rw [h]; rfl⟩

/-- During a call savepoints do stay open: after the chunk has been moved, and its submission too, the stack has one more. -/
example :
    let db := run [.insert { id := 1, contents := [some [1], some [2]] } 10 []]
    let r := moveChunkToFailedChunks false ⟨1, 0⟩ "bad" 11 ⟨[], ⟨db, [⟨none, db⟩], 1⟩⟩
    r.1 = .ok () ∧ r.2.conn.stack = [⟨some (.text "move_chunk_to_failed_chunks"), db⟩, ⟨none, db⟩] := by decide +kernel

/-- The last chunk is completed: a nested transaction and a savepoint inside of it, which is never released. -/
example :
    let db := run [.insert { id := 1, contents := [some [1]] } 10 []]
    Savepoints.step false ⟨db, [], 0⟩ (.complete ⟨1, 0⟩ none 11 12 []) =
      (.completed (.ok ()), ⟨run [.insert { id := 1, contents := [some [1]] } 10 [], .complete ⟨1, 0⟩ none 11 12 []], [], 0⟩) ∧
    (Savepoints.step false ⟨db, [], 0⟩ (.complete ⟨1, 0⟩ none 11 12 [])).2.db.submissions = [] := by decide +kernel

/-- **C100, where it ends.** `move_chunk_to_failed_chunks` may be called on a connection without a transaction, too (its type does
not ask for one; only a test does so). Then, as sqlx does not run the rest, a transaction is left open that nothing ever closes: every
later call on the connection fails (a completion report excepted, which reports success whatever happened) and does nothing, and
what was changed is lost when the process ends. -/
theorem C100_needs_a_transaction :
    let db := run [.insert { id := 1, contents := [some [1], some [2]] } 10 []]
    let c := (moveChunkToFailedChunks false ⟨1, 0⟩ "bad" 11 ⟨[], ⟨db, [], 0⟩⟩).2.conn
    (moveChunkToFailedChunks false ⟨1, 0⟩ "bad" 11 ⟨[], ⟨db, [], 0⟩⟩).1 = .ok () ∧
    c.stack ≠ [] ∧ c.db ≠ db ∧ c.committed = db ∧
    ∀ op : Op, op.clean = op → (Savepoints.step false c op).2 = c ∧
      ((Savepoints.step false c op).1.isErr = true ∨ ∃ id out t1 t2 o, op = .complete id out t1 t2 o) := by
  refine ⟨by decide +kernel, by decide +kernel, by decide +kernel, by decide +kernel, ?_⟩
  generalize hc : (moveChunkToFailedChunks false ⟨1, 0⟩ "bad" 11
    ⟨[], ⟨run [.insert { id := 1, contents := [some [1], some [2]] } 10 []], [], 0⟩⟩).2.conn = c
  have h1 : c.stack ≠ [] := by rw [← hc]; decide +kernel
  have h2 : c.depth = 0 := by rw [← hc]; decide +kernel
  have hstart : Prog.start c = .error .io := by
    unfold Prog.start Conn.begin
    rw [if_pos h2]
    cases hs : c.stack with
    | nil => exact absurd hs h1
    | cons m st => rfl
  have htx : ∀ {ε α : Type} (conv : DbErr → ε) (body : Prog ε α), Prog.transaction conv body ⟨[], c⟩ = (.err (conv .io), ⟨[], c⟩) := by
    intro ε α conv body
    unfold Prog.transaction Prog.command
    dsimp only
    rw [hstart]
  intro op hclean
  cases op with
  | insert a t o =>
    cases o with
    | cons => cases hclean
    | nil =>
      have h : insertSubmissionFromChunks false a t ⟨[], c⟩ = (.err .io, ⟨[], c⟩) := by
        show Prog.bind (insertSubmission _ _ _) _ ⟨[], c⟩ = _
        unfold Prog.bind insertSubmission
        rw [htx]; rfl
      simp only [Savepoints.step, h]
      exact ⟨trivial, .inl rfl⟩
  | complete cid out t1 t2 o =>
    cases o with
    | cons => cases hclean
    | nil =>
      refine ⟨?_, .inr ⟨cid, out, t1, t2, [], rfl⟩⟩
      show (completeChunk false cid out t1 t2 ⟨[], c⟩).2.conn = c
      unfold completeChunk Prog.matchRes
      rw [htx]; rfl
  | fail cid f m t1 t2 t3 o =>
    cases o with
    | cons => cases hclean
    | nil =>
      simp only [Savepoints.step, retryOrFailChunk, htx]
      exact ⟨trivial, .inl rfl⟩
  | cancel id t1 t2 o =>
    cases o with
    | cons => cases hclean
    | nil =>
      simp only [Savepoints.step, cancelSubmission, htx]
      exact ⟨trivial, .inl rfl⟩
  | cleanup t o =>
    cases o with
    | cons => cases hclean
    | nil =>
      simp only [Savepoints.step, cleanupOld, htx]
      exact ⟨trivial, .inl rfl⟩

end Opsqueue
