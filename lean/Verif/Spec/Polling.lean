import Verif.Spec.Observe
import Verif.Model.Polling
import Verif.Model.Retention

/-!
# Vocabulary for statements about waiting in time

A timed history lists the calls of the server in their order, with the times at which they took effect.
-/

namespace Opsqueue.Polling
open Python Retention

/-- What a producer is told about a submission if the server looks at the time `t`. -/
def answerAt (h : List (Time × Op)) (id : SubmissionId) (t : Time) : Answer :=
  match statusAt (run ((h.takeWhile fun x => x.1 ≤ t).map (·.2))) id with
  | .ok st => .ok st
  | _ => .error ()

/-- The calls `xs` are the planned calls `ys`, each made at its planned time or later. -/
def Performs : List (Time × Op) → List (Time × Op) → Prop
  | [], [] => True
  | x :: xs, y :: ys => x.2 = y.2 ∧ y.1 ≤ x.1 ∧ Performs xs ys
  | _, _ => False

/-- The server sees a request while it is made, no request takes longer than `R`, and no sleep is late by more than `δ`. -/
def Quick (R δ : Nat) (polls : Nat → Poll) : Prop :=
  ∀ k, (polls k).seen ≤ (polls k).took ∧ (polls k).took ≤ R ∧ (polls k).lag ≤ δ

/-- The result that tells of the end `st`. -/
def Tells (st : SubmissionStatus) (w : Waited) : Prop :=
  (∃ s, st = .completed s ∧ w = .stream (s.pfx.getD "") s.chunksTotal) ∨
  (∃ s c, st = .failed s c ∧ w = .failed (PyFailed.ofRust s) (PyChunkFailed.ofRust c))

end Opsqueue.Polling
