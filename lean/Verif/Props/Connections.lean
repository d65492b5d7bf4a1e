import Verif.Proofs.Connections
import Verif.Props.Fetch

/-!
# C81: what ends a consumer's connection

The server is in the state after an arbitrary history `h` of actions of any number of consumers and producers, the
completer and the clock. The action `disconnect c` is the end of the connection by something that the consumer, the
network or the disk does: the websocket is closed, a message cannot be sent or understood, heartbeats are missed, a
database error occurs where the code expects none.
-/

namespace Opsqueue
open Server
open Conn (Request)

/-- **C81, the reasons.** If a connection ends, that is either by an action `disconnect` of its own, or the whole
process dies, or it is in the middle of a reserve request and has just picked a chunk of a submission that is not in
progress any more. In particular, nothing that happens elsewhere ends it at once. -/
theorem C81_why_connections_end (ttl m : Nat) (h : List Action) (a : Action) (c : ConnId)
    (hf : FreshIds (Server.run ttl m h).calls)
    (hup : ((Server.run ttl m h).conn c).isSome) (hend : (Server.run ttl m (h ++ [a])).conn c = none) :
    let s := Server.run ttl m h
    a = .disconnect c ∨ Dies s a ∨
    (a = .join c ∧ ∃ f id, fetchOf s c = some f ∧ f.joining = some id ∧ ¬ InProgress s id.submissionId) := by
  intro s
  have hI : Opsqueue.Inv s.db := by rw [show s.db = _ from db_run ttl m h]; exact inv_run hf
  rw [run_snoc'] at hend
  rcases ends_why hup hend with h | h | ⟨f, id, h1, h2, h3, h4⟩
  · exact .inl h
  · exact .inr (.inl h)
  · refine .inr (.inr ⟨h1, f, id, h2, h3, fun hp => ?_⟩)
    obtain ⟨y, hy⟩ := getSubmission_inProgress hI hp
    exact h4 y hy

/-- Consumer 1 asks for two chunks. It has collected the chunk of submission 1 and picked the chunk of submission 2. -/
def pickedHistory : List Action :=
  [.connect 1, .connect 2,
   .producer (.insert { id := 1, contents := [some [10]] } 0 []), .notify,
   .producer (.insert { id := 2, contents := [some [20], some [21]] } 0 []), .notify,
   .request 2 ⟨0, 1, .newest⟩ ⟨0, fun _ => false, fun _ => []⟩, .row 2, .join 2,
   .request 1 ⟨0, 2, .oldest⟩ ⟨0, fun _ => false, fun _ => []⟩, .row 1, .join 1, .row 1, .row 1]

/-- The connection can end in each of the three ways: consumer 1 disconnects, the process dies in a call that inserts
a submission, or submission 2 is cancelled just before its chunk is joined with it. -/
example :
    let s := Server.run 1000 0 pickedHistory
    FreshIds s.calls ∧ (s.conn 1).isSome ∧ (fetchOf s 1).map (·.joining) = some (some ⟨2, 1⟩) ∧
    (Server.run 1000 0 (pickedHistory ++ [.disconnect 1])).conn 1 = none ∧
    (Server.run 1000 0 (pickedHistory ++ [.producer (.insert { id := 3, contents := [] } 0 [.crash])])).conn 1 = none ∧
    ((Server.run 1000 0 (pickedHistory ++ [.producer (.cancel 2 0 0 [])])).conn 1).isSome ∧
    (Server.run 1000 0 (pickedHistory ++ [.producer (.cancel 2 0 0 [])] ++ [.join 1])).conn 1 = none := by
  decide +kernel

/-- Full statement of C81: a connection that is up stays up as long as it does not disconnect and the process does not
die. -/
def C81_full : Prop :=
  ∀ (ttl m : Nat) (h es : List Action) (c : ConnId), 0 < ttl → FreshIds (Server.run ttl m (h ++ es)).calls →
    ((Server.run ttl m h).conn c).isSome → .disconnect c ∉ es →
    (∀ p a q, es = p ++ a :: q → ¬ Dies (Server.run ttl m (h ++ p)) a) →
    ((Server.run ttl m (h ++ es)).conn c).isSome

/-- **C81 is violated: a cancelled submission.** While a reserve request is being served, a producer cancels a
submission of which a chunk was just picked. The connection ends without an answer to the request, and the chunk of
submission 1 that was collected before stays reserved, although submission 1 is in progress and nobody works on it. -/
theorem C81_refuted_by_cancel :
    let s := Server.run 1000 0 (pickedHistory ++ [.producer (.cancel 2 0 0 []), .join 1])
    s.conn 1 = none ∧ answersTo s 1 = [] ∧ holder s ⟨1, 0⟩ = some 1 ∧
    chunkAt s.db ⟨1, 0⟩ = .ok ⟨1, 0, some [10], 0⟩ := by
  decide +kernel

/-- **C81 is violated: a failed submission.** Another consumer reports that a chunk of a submission failed, for the
last time allowed, while a reserve request that has just picked another chunk of the submission is being served. The
report of one consumer ends the connection of another. -/
theorem C81_refuted_by_failure :
    let s := Server.run 1000 0 (pickedHistory ++
      [.report 2 (.fail ⟨2, 0⟩ "bad"), .handle true 5 5 5 [], .release true, .join 1])
    s.conn 1 = none ∧ (s.conn 2).isSome ∧ answersTo s 1 = [] ∧ holder s ⟨1, 0⟩ = some 1 ∧
    chunkAt s.db ⟨1, 0⟩ = .ok ⟨1, 0, some [10], 0⟩ := by
  decide +kernel

theorem C81_refuted : ¬ C81_full := by
  intro hfull
  have := hfull 1000 0 pickedHistory [.producer (.cancel 2 0 0 []), .join 1] 1 (by decide) (by decide +kernel)
    (by decide +kernel) (by simp) (fun p a q he => by
      rw [Server.run_append]; exact lives_of_test (by decide +kernel) he)
  rw [C81_refuted_by_cancel.1] at this
  cases this

/-- **C81.** A connection that is up and idle stays up as long as it does not disconnect and the process does not die,
provided that no submission stops being in progress while the connection is being served. (Missing: submissions that
are completed, fail or are cancelled during a reserve request; then the claim is false.) -/
theorem C81_survives_partial (ttl m : Nat) (h es : List Action) (c : ConnId)
    (hf : FreshIds (Server.run ttl m (h ++ es)).calls) (hidle : Idle (Server.run ttl m h) c)
    (hno : .disconnect c ∉ es)
    (hlive : ∀ p a q, es = p ++ a :: q → ¬ Dies (Server.run ttl m (h ++ p)) a)
    (hstay : ∀ p a q, es = p ++ a :: q → Busy (Server.run ttl m (h ++ p)) c →
      ∀ id, InProgress (Server.run ttl m (h ++ p)) id → InProgress (Server.run ttl m (h ++ p ++ [a])) id) :
    ((Server.run ttl m (h ++ es)).conn c).isSome :=
  (survives hf hidle hno hlive hstay).1

/-- While consumer 1 is being served, a submission is inserted and another consumer asks for chunks; afterwards consumer
1 completes submission 1, submission 2 is cancelled, and consumer 1 asks again. -/
def calmHistory : List Action :=
  [.request 1 ⟨0, 2, .oldest⟩ ⟨0, fun _ => false, fun _ => []⟩, .row 1, .join 1, .row 1,
   .producer (.insert { id := 3, contents := [some [30]] } 0 []), .request 2 ⟨0, 1, .newest⟩ ⟨0, fun _ => false, fun _ => []⟩,
   .join 1, .row 2, .join 2, .report 1 (.complete ⟨1, 0⟩ none), .handle true 5 5 5 [], .release true,
   .producer (.cancel 2 7 7 []), .request 1 ⟨1, 1, .oldest⟩ ⟨0, fun _ => false, fun _ => []⟩]

example :
    let h := pickedHistory.take 6
    Idle (Server.run 1000 0 h) 1 ∧
    ((Server.run 1000 0 (h ++ calmHistory)).conn 1).isSome ∧
    answersTo (Server.run 1000 0 (h ++ calmHistory)) 1 = [(0, some [⟨1, 0⟩, ⟨2, 0⟩])] ∧
    (Server.run 1000 0 (h ++ calmHistory)).db.submissions.map (·.id) = [3] :=
  ⟨by decide +kernel,
   C81_survives_partial 1000 0 (pickedHistory.take 6) calmHistory 1 (by decide +kernel) (by decide +kernel)
    (by simp [calmHistory])
    (fun _ _ _ he => by rw [Server.run_append]; exact lives_of_test (by decide +kernel) he)
    (fun _ _ _ he hb id hi => stays_of_test (by decide +kernel) (by decide +kernel) he hb id hi),
   by decide +kernel⟩

end Opsqueue
