import Verif.Model.Http
import Verif.Spec.Observe

/-!
# Vocabulary for the producer's HTTP interface
-/

namespace Opsqueue.Http
open SubmissionDb Wire

/-- A failure that may go away by itself: no connection, a timeout, a body that could not be decoded, or a 5xx
answer. -/
def Transient : ClientErr → Prop
  | .http e => e.connect = true ∨ e.timeout = true ∨ e.decode = true ∨ ∃ s, e.status = some s ∧ 500 ≤ s ∧ s < 600
  | .decoding => True
  | .unexpectedStatus s => 500 ≤ s ∧ s < 600
  | _ => False

/-- The server's history after the first `k` attempts, if the client made them all. -/
def historyAfter (max : Nat) (c : Call) (env : Nat → Attempt) (hist : List Op) : Nat → List Op
  | 0 => hist
  | k + 1 => (attempt max c (env k) (historyAfter max c env hist k)).2

/-- The outcome of attempt `k` (counted from 0), if the client made it. -/
def outcome (max : Nat) (c : Call) (env : Nat → Attempt) (hist : List Op) (k : Nat) : Except ClientErr Result :=
  (attempt max c (env k) (historyAfter max c env hist k)).1

/-- The call makes `n + 1 ≤ 101` attempts and returns the outcome of the last one; the earlier ones all failed with an
error in `T`; and the last one did not, unless it was the 101st. -/
def RetriesExactly (T : ClientErr → Prop) (max : Nat) (c : Call) (env : Nat → Attempt) (hist : List Op) : Prop :=
  ∃ n, n ≤ 100 ∧ call max c env hist = (outcome max c env hist n, historyAfter max c env hist (n + 1), n + 1) ∧
    (∀ k < n, ∃ e, outcome max c env hist k = .error e ∧ T e) ∧
    (n = 100 ∨ ∀ e, outcome max c env hist n = .error e → ¬ T e)

/-- Nothing goes wrong on the way or at the server. -/
def Attempt.Smooth (a : Attempt) : Prop := a.net = .ok ∧ a.server.connOk = true ∧ a.server.faults = []

/-- The server died while handling attempt `k`. -/
def DiedAt (max : Nat) (c : Call) (env : Nat → Attempt) (hist : List Op) (k : Nat) : Prop :=
  (handle max (env k).server (request c) (historyAfter max c env hist k ++ (env k).before)).1 = none

/-- Attempt `k` of an insert call created a submission: the id generated for it was unknown when the attempt arrived
at the server and known when the attempt was over. -/
def Created (max : Nat) (r : InsertSubmission) (env : Nat → Attempt) (hist : List Op) (k : Nat) : Prop :=
  statusAt (run (historyAfter max (.insert r) env hist k ++ (env k).before)) (env k).server.id = .ok none ∧
  statusAt (run (historyAfter max (.insert r) env hist (k + 1))) (env k).server.id ≠ .ok none

/-- A successful insert call created exactly one submission, in its last attempt, and returns its id; a failed one
created none. -/
def OneEffect (max : Nat) (r : InsertSubmission) (env : Nat → Attempt) (hist : List Op) : Prop :=
  match (call max (.insert r) env hist).1 with
  | .ok (.inserted id) => ∃ k, k + 1 = (call max (.insert r) env hist).2.2 ∧ (env k).server.id = id ∧
      ∀ j < (call max (.insert r) env hist).2.2, Created max r env hist j ↔ j = k
  | .ok _ => False
  | .error _ => ∀ j < (call max (.insert r) env hist).2.2, ¬ Created max r env hist j

/-- The request has at least one chunk. -/
def HasChunks (r : InsertSubmission) : Prop :=
  match r.chunkContents with
  | .direct contents => contents ≠ []
  | .seeObjectStorage _ count => count ≠ 0

/-- A prefix none of whose characters means something in a URL, such as a UUID. -/
def PlainPrefix (p : String) : Prop :=
  p ≠ "" ∧ p ≠ "." ∧ p ≠ ".." ∧ ∀ c ∈ p.toList, c ∉ ['?', '#', '/', '\\', '%'] ∧ 32 < c.toNat

end Opsqueue.Http
