/-!
# The two pools of connections

Models who takes connections out of `DBPools` (`opsqueue/src/db/mod.rs` 163-360, 465-497) and when they go back. The
database behind them is not part of this model (`Model/Concurrent.lean` has it).

Trusted: sqlx's pool is fair (its default): the connection goes to whoever has waited longest. Simplifications: which
statements a call runs is not modelled here, only how many (any number); a call that fails, is dropped by its client, or
has waited 30 seconds for a connection (sqlx's default) is one event `leave`, possible at any moment.
-/

namespace Opsqueue.Pools

/-- The pool of the readers and that of the writer (db/mod.rs 188-192). -/
inductive Pool where
  | reader
  | writer
deriving DecidableEq, Repr

/-- The number of connections in each: `--max-read-pool-size` and one (db/mod.rs 469-495, config.rs 73-74). -/
def Pool.size (maxReadPoolSize : Nat) : Pool → Nat
  | .reader => maxReadPoolSize
  | .writer => 1

/-- What a task does next as far as the pools are concerned: `pool.acquire().await` (db/mod.rs 299-301), one statement (or
another thing that does not wait for a connection), or the connection goes out of scope. -/
inductive Act where
  | acquire (p : Pool)
  | statement
  | release (p : Pool)
deriving DecidableEq, Repr

/-- A connection is taken out, used for `k` statements and given back. -/
def useConn (p : Pool) (k : Nat) : List Act :=
  .acquire p :: (List.replicate k .statement ++ [.release p])

/-- The tasks of the server that use the database, with the number of their statements. For a fetch: for each row of its
query, how many statements (steps of the query, callbacks) precede it, and whether the chunk could be reserved. -/
inductive Call where
  | insert (k : Nat)
  | cancel (k : Nat)
  | status (k : Nat)
  | lookupPrefix (k : Nat)
  | lookupMetadata (k : Nat)
  | count (k : Nat)
  | countCompleted (k : Nat)
  | report (k : Nat)
  | cleanup (k : Nat)
  | checkpoint
  | health (k : Nat)
  | metrics (k : Nat)
  | fetch (rows : List (Nat × Bool)) (rest : Nat)
deriving DecidableEq, Repr

/-- `join_chunk_with_submission_info`, dispatcher/mod.rs 306-325: another connection of the same pool, for two queries. -/
def join : List Act := useConn .reader 2

/-- One row of the stream, dispatcher/mod.rs 226-231: a chunk that could be reserved is joined, while the connection of the
stream is still taken. -/
def row : Nat × Bool → List Act
  | (k, reserved) => List.replicate k .statement ++ if reserved then join else []

/-- What each of them does. producer/server.rs 120-139 (`cancel`), 141-182 (`status`, the lookups), 184-215 (`insert`, with the
checkpoint on the same connection), 222-234 (the counts); consumer/server/mod.rs 226-309 (`report`: the completer handles one
message); submission.rs 1170-1185 (`cleanup`); db/mod.rs 323-345 (`checkpoint`), 203-227 (`health`); prometheus.rs 212-223
(`metrics`); dispatcher/mod.rs 211-236 (`fetch`: the connection `conn` is given back at the end of the function). -/
def Call.acts : Call → List Act
  | .insert k => useConn .writer (k + 1)
  | .cancel k => useConn .writer k
  | .status k => useConn .reader k
  | .lookupPrefix k => useConn .reader k
  | .lookupMetadata k => useConn .reader k
  | .count k => useConn .reader k
  | .countCompleted k => useConn .reader k
  | .report k => useConn .writer k
  | .cleanup k => useConn .writer k
  | .checkpoint => useConn .writer 1
  | .health k => useConn .writer k
  | .metrics k => useConn .reader k
  | .fetch rows rest =>
    .acquire .reader :: (rows.flatMap row ++ (List.replicate rest .statement ++ [.release .reader]))

/-- A task with what it still has to do (one for each request, tokio's `spawn` or the loops of main.rs 54-80). -/
structure Task where
  id : Nat
  call : Call
  todo : List Act
deriving DecidableEq, Repr

/-- The tasks that are running; the connections that are taken, with who has them; who waits for a connection of which pool,
the one that has waited longest first (sqlx `PoolInner`, used in db/mod.rs 299-301). -/
structure State where
  tasks : List Task := []
  taken : List (Nat × Pool) := []
  waiting : Pool → List Nat := fun _ => []

/-- The number of connections of the pool that are taken. -/
def State.used (s : State) (p : Pool) : Nat := s.taken.countP (·.2 = p)

/-- What can happen.
* `call i c`: a task starts;
* `run i`: it goes on: it asks for a connection, or runs a statement, or gives a connection back, or ends;
* `grant p`: a free connection of the pool goes to the one that has waited longest;
* `leave i`: the task ends early: it was dropped, or failed, or has waited too long. -/
inductive Event where
  | call (i : Nat) (c : Call)
  | run (i : Nat)
  | grant (p : Pool)
  | leave (i : Nat)
deriving DecidableEq, Repr

/-- The next action of a task is done (part of `step`). -/
def State.advance (s : State) (i : Nat) : State :=
  { s with tasks := s.tasks.map fun t => if t.id = i then { t with todo := t.todo.tail } else t }

/-- The queue of one of the pools is changed (part of `step`). -/
def State.setWaiting (s : State) (p : Pool) (q : List Nat) : State :=
  { s with waiting := fun p' => if p' = p then q else s.waiting p' }

/-- One event, `none` if it cannot happen. `max`: `--max-read-pool-size` (config.rs 73-74). The connections are
`Conn`s, which go back when they are dropped (db/mod.rs 299-301). -/
def step (max : Nat) (s : State) : Event → Option State
  | .call i c =>
    if i ∈ s.tasks.map (·.id) then none else some { s with tasks := s.tasks ++ [⟨i, c, c.acts⟩] }
  | .run i =>
    match s.tasks.find? (·.id = i) with
    | none => none
    | some t =>
      match t.todo with
      | [] => some { s with tasks := s.tasks.filter (·.id ≠ i) }
      | .statement :: _ => some (s.advance i)
      | .release p :: _ => some { s.advance i with taken := s.taken.erase (i, p) }
      | .acquire p :: _ =>
        if i ∈ s.waiting p then none else some (s.setWaiting p (s.waiting p ++ [i]))
  | .grant p =>
    match s.waiting p with
    | [] => none
    | i :: q =>
      if s.used p < p.size max then some { (s.advance i).setWaiting p q with taken := (i, p) :: s.taken } else none
  | .leave i =>
    some { tasks := s.tasks.filter (·.id ≠ i), taken := s.taken.filter (·.1 ≠ i),
           waiting := fun p => (s.waiting p).filter (· ≠ i) }

/-- A run (of what is started in main.rs 54-80). -/
def run (max : Nat) : State → List Event → Option State
  | s, [] => some s
  | s, e :: es => (step max s e).bind fun s => run max s es

end Opsqueue.Pools
