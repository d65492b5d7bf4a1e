import Verif.Model.Concurrent

/-!
# Vocabulary for statements about calls made at the same time
-/

namespace Opsqueue.Concurrent

/-- What happens at the next statement, if these faults are still to come. -/
def next : List Fault → Fault × List Fault
  | [] => (.ok, [])
  | f :: o => (f, o)

/-- A task that has the connection and is not interrupted by others: its result (`none`: it has been killed), the faults
that are left, and the connection at the end. -/
def Code.exec {ρ : Type} : Code ρ → List Fault → Conn → Option ρ × List Fault × Conn
  | .ret r, o, c => (some r, o, c)
  | .rollback k, o, c => k.exec o c.undo
  | .stmt f k, o, c =>
    match next o with
    | (.ok, o) =>
      match f c.db with
      | .ok (b, db) => (k (.ok b)).exec o { c with db }
      | .error e => (k (.error e)).exec o c
    | (.fail, o) => (k (.error .io)).exec o c
    | (.crash, o) => (none, o, ⟨c.committed, []⟩)
    | (.crashLate, o) => (none, o, ⟨({ c with db := (Sql.applyStmt f c.db).2 } : Conn).committed, []⟩)
  | .begin k, o, c =>
    match next o with
    | (.ok, o) => (k (.ok ())).exec o { c with saved := c.db :: c.saved }
    | (.fail, o) => (k (.error .io)).exec o c
    | (.crash, o) => (none, o, ⟨c.committed, []⟩)
    | (.crashLate, o) => (none, o, ⟨c.committed, []⟩)
  | .commit k, o, c =>
    match next o with
    | (.ok, o) => (k (.ok ())).exec o { c with saved := c.saved.drop 1 }
    | (.fail, o) => (k (.error .io)).exec o c.undo
    | (.crash, o) => (none, o, ⟨c.committed, []⟩)
    | (.crashLate, o) => (none, o, ⟨({ c with saved := c.saved.drop 1 } : Conn).committed, []⟩)

/-- The call with these faults. -/
def withFaults (o : List Fault) : Op → Op
  | .insert a now _ => .insert a now o
  | .complete cid output now1 now2 _ => .complete cid output now1 now2 o
  | .fail cid failure m now1 now2 now3 _ => .fail cid failure m now1 now2 now3 o
  | .cancel id now1 now2 _ => .cancel id now1 now2 o
  | .cleanup t _ => .cleanup t o

/-- The code is that of the call: undisturbed it has the same result and the same effect, whatever faults strike at
whichever statement. -/
def Runs (code : Code Out) (op : Op) : Prop :=
  ∀ o db,
    (∀ r o' c, code.exec o ⟨db, []⟩ = (some r, o', c) → Opsqueue.step db (withFaults o op) = (r, c.committed)) ∧
    (∀ o' c, code.exec o ⟨db, []⟩ = (none, o', c) →
      (Opsqueue.step db (withFaults o op)).1.crashed = true ∧ (Opsqueue.step db (withFaults o op)).2 = c.committed)

/-- The tasks in the order in which they got the connection. -/
def acquired (es : List Event) : List Nat :=
  es.filterMap fun | .acquire i => some i | _ => none

/-- The calls of a history, each with its faults. -/
def calls (op : Nat → Op) (hist : List (Nat × List Fault)) : List Op :=
  hist.map fun h => withFaults h.2 (op h.1)

end Opsqueue.Concurrent
