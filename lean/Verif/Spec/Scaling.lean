import Verif.Model.Scaling
import Verif.Spec.Metrics

/-!
# What the backlog gauges should show, and when
-/

namespace Opsqueue.Scaling

/-- How long a history lasts. -/
def elapsed (h : List Event) : Nat := (h.map fun | .tick d => d | _ => 0).sum

/-- The calls in a history. -/
def calls (h : List Event) : List Op :=
  h.filterMap fun
    | .call op => some op
    | _ => none

/-- There are so many chunks that are not done, of all submissions in progress. -/
def ChunksIn (db : DB) (n : Nat) : Prop := ∃ ids, InProgressIds db ids ∧ n = (ids.map (remaining db)).sum

/-- There are so many operations in them, by their chunk sizes. -/
def OperationsIn (db : DB) (k : Int) : Prop := ∃ ids, InProgressIds db ids ∧ k = (ids.map (remainingOperations db)).sum

/-- From this state on, nothing goes wrong with the calculations, the process does not end, and the loop neither. -/
def Undisturbed (p : Pace) (s : State) : List Event → Prop
  | [] => True
  | e :: es =>
    (match e with
      | .call op => (Opsqueue.step s.mon.db op).1.crashed = false
      | .connected ok => ok = true
      | .read ok => ok = true
      | .cancel => False
      | .notice => False
      | .restart => False
      | _ => True) ∧
    ∀ s', step p s e = some s' → Undisturbed p s' es

/-- How old the gauges may be: the interval, and the duration of two calculations, and the lateness of a timer. -/
def age (p : Pace) : Nat := 5000 + p.lag + 2 * p.work

end Opsqueue.Scaling
