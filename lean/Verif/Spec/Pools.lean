import Verif.Model.Pools

/-! What it means that a call which waits for a connection gets it. -/

namespace Opsqueue.Pools

/-- Something goes on with the connections of the pool: one of them is handed out, or a task that has one takes a step. -/
def moves (p : Pool) (s : State) : Event → Bool
  | .grant p' => p' = p
  | .run i => (i, p) ∈ s.taken
  | _ => false

/-- How often something goes on with the connections of the pool while `es` happens. -/
def movesIn (max : Nat) (p : Pool) : State → List Event → Nat
  | _, [] => 0
  | s, e :: es =>
    match step max s e with
    | some s' => (if moves p s e then 1 else 0) + movesIn max p s' es
    | none => 0

/-- The task waits for a connection of the pool all the time while `es` happens. -/
def waitsDuring (max : Nat) (p : Pool) (i : Nat) : State → List Event → Prop
  | s, [] => i ∈ s.waiting p
  | s, e :: es => i ∈ s.waiting p ∧ ∀ s', step max s e = some s' → waitsDuring max p i s' es

/-- The steps of a task for one action: to acquire a connection it asks for it and is given it. -/
def Act.steps : Act → Nat
  | .acquire _ => 2
  | _ => 1

/-- The steps a task still has to take, its end included. -/
def State.steps (s : State) (t : Task) : Nat :=
  (t.todo.map Act.steps).sum + 1 - if t.id ∈ s.waiting .reader ∨ t.id ∈ s.waiting .writer then 1 else 0

/-- The tasks that keep `i` waiting for a connection of the pool: those that have one, and those that have waited longer. -/
def State.before (s : State) (p : Pool) (i : Nat) : List Task :=
  s.tasks.filter fun t => (t.id, p) ∈ s.taken ∨ t.id ∈ (s.waiting p).takeWhile (· ≠ i)

/-- Is the call `fetch_and_reserve_chunks`? -/
def Call.isFetch : Call → Bool
  | .fetch _ _ => true
  | _ => false

/-- Fetches that are going on. -/
def State.fetches (s : State) : Nat := s.tasks.countP (·.call.isFetch)

/-- A state of a server with this `--max-read-pool-size`. -/
def Reachable (max : Nat) (s : State) : Prop := ∃ es, run max {} es = some s

/-- The event is one the server does by itself, with nobody calling or leaving. -/
def Event.own : Event → Bool
  | .run _ => true
  | .grant _ => true
  | _ => false

end Opsqueue.Pools
