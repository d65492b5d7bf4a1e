import Verif.Model.Reserver

/-!
# Vocabulary for statements about reservations
-/

namespace Opsqueue.Reserver
variable {κ ν σ : Type} [DecidableEq κ]

/-- The time that passes during an operation. -/
def Op.elapsed : Op κ ν σ → Nat
  | .advance d => d
  | _ => 0

/-- The time that passes during a history. -/
def elapsed (h : List (Op κ ν σ)) : Nat := (h.map Op.elapsed).sum

/-- The removals that are due. -/
def due (r : Reserver κ ν σ) : List (κ × Nat) := r.pending.filter fun p => decide (p.2 ≤ r.now)

/-- The operation releases the key, whatever its reservation (state before: `r`). -/
def Op.releases (key : κ) (r : Reserver κ ν σ) : Op κ ν σ → Prop
  | .finish k delayed => k = key ∧ delayed = false
  | .finishSync k => k = key
  | .purgeNext => r.due.head?.map (·.1) = some key
  | .runPendingTasks => key ∈ r.due.map (·.1)
  | _ => False

instance (key : κ) (r : Reserver κ ν σ) : DecidablePred (Op.releases (ν := ν) (σ := σ) key r) := fun op => by
  cases op <;> (unfold Op.releases; infer_instance)

/-- No operation of the history, run from `r`, releases the key. -/
def NeverReleased (key : κ) : Reserver κ ν σ → List (Op κ ν σ) → Prop
  | _, [] => True
  | r, op :: h => ¬ op.releases key r ∧ NeverReleased key (r.step op) h

/-- Some operation of the history, run from `r`, releases the key when less than `ttl` has passed. -/
def ReleasedWithin (ttl : Nat) (key : κ) (r : Reserver κ ν σ) (h : List (Op κ ν σ)) : Prop :=
  ∃ h1 op h2, h = h1 ++ op :: h2 ∧ elapsed h1 < ttl ∧ op.releases key (r.exec h1)

/-- No reservation of the key succeeds in the history, run from `r`. -/
def NeverReserved (key : κ) : Reserver κ ν σ → List (Op κ ν σ) → Prop
  | _, [] => True
  | r, op :: h => (∀ v s, op = .tryReserve key v s → (r.tryReserve key v s).1.isNone) ∧
      NeverReserved key (r.step op) h

/-- The operation reserves something with value `v`. -/
def Op.uses (v : ν) : Op κ ν σ → Prop
  | .tryReserve _ v' _ => v' = v
  | _ => False

variable [DecidableEq ν]

/-- The notices sent so far that carry the value `v`. -/
def noticesOf (v : ν) (r : Reserver κ ν σ) : List (σ × ν) := r.notices.filter fun n => n.2 = v

end Opsqueue.Reserver
