import Verif.Spec.Observe

/-!
# Work on a submission

What counts as work on a submission: a report by a consumer about one of its chunks that changed something. Used
by `C73`.
-/

namespace Opsqueue

/-- The call reports on a chunk of this submission. -/
def Op.reportsOn (id : SubmissionId) : Op → Bool
  | .complete cid _ _ _ _ => cid.submissionId == id
  | .fail cid _ _ _ _ _ _ => cid.submissionId == id
  | _ => false

/-- How many reports on chunks of submission `id` had any effect on the database, in a sequence of calls that starts
from `db`. -/
def effectiveReports (id : SubmissionId) : DB → List Op → Nat
  | _, [] => 0
  | db, op :: ops =>
    (if op.reportsOn id = true ∧ (step db op).2 ≠ db then 1 else 0) + effectiveReports id (step db op).2 ops

/-- Every failure report allows a chunk `m` failures (`max_chunk_retries`). -/
def Budget (m : Nat) (ops : List Op) : Prop :=
  ∀ cid f m' t1 t2 t3 o, Op.fail cid f m' t1 t2 t3 o ∈ ops → m' = m

/-- The first `n` calls of an unending sequence. -/
def firstCalls (calls : Nat → Op) (n : Nat) : List Op := (List.range n).map calls

end Opsqueue
