import Verif.Model.Maintenance
import Verif.Spec.Reserver

/-!
# Vocabulary for statements about the maintenance of reservations
-/

namespace Opsqueue.Maintenance
variable {κ ν σ : Type} [DecidableEq κ]

/-- How late the maintenance can be: two passes (something can fall due just after the first has looked at it), the sleep
between them, and the lateness of its timer. -/
def late (p : Pace) : Nat := 2 * p.pass + 10 + p.lag

/-- What an event does to the reserver. -/
def Event.op? : Event κ ν σ → Option (Reserver.Op κ ν σ)
  | .use op => some op
  | .tick d => some (.advance d)
  | .sweep => some .runPendingTasks
  | _ => none

/-- What a history does to the reserver. -/
def trace (es : List (Event κ ν σ)) : List (Reserver.Op κ ν σ) := es.filterMap Event.op?

end Opsqueue.Maintenance
