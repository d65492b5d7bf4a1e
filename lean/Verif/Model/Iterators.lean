import Verif.Model.PyCalls

/-!
# The iterators over results

Models `PyChunksIter` and `PyChunksAsyncIter` (`libs/opsqueue_python/src/producer.rs` 574-668), which the calls
`*_stream_completed_submission_chunks` and `*run_submission_chunks` give to the caller. The stream they share is
`retrieve_chunks` (`opsqueue/src/object_store/mod.rs` 307-326). Every call of `__next__` or `__anext__` is a task that
waits for the lock of the stream, takes the next element and gives it to the caller, if the caller still waits for it.
-/

namespace Opsqueue.Python

/-- The stream made by `stream::unfold`, opsqueue/src/object_store/mod.rs 313-325; `ended`: it has yielded `None`. -/
structure ChunkStream where
  pfx : String
  count : Nat
  index : Nat := 0
  ended : Bool := false
deriving DecidableEq, Repr

/-- What a caller gets from a call: an exception, a chunk, or (`none`) `StopIteration` or `StopAsyncIteration`. -/
abbrev Outcome := Except Exn (Option Bytes)

/-- A panic, as Python sees it. Simplification: `__anext__` raises `RustPanic` and not `PanicException`. -/
def panicked : Exn := ⟨.panic, .message "Top-level spawn to succeed"⟩

/-- `next` of the stream, opsqueue/src/object_store/mod.rs 315-325, and the conversions of its result, src/producer.rs
587-588, 600-617, 658-664. A stream made by `unfold` panics when it is polled after its end. `reachable`: the object
store answers. -/
def ChunkStream.next (base : List Char) (store : ObjectStore.Store) (reachable : Bool) (s : ChunkStream) :
    Outcome × ChunkStream :=
  if s.ended then (.error panicked, s)
  else if s.index ≥ s.count then (.ok none, { s with ended := true })
  else
    let element : Except RustErr Bytes :=
      match ObjectStore.retrieveChunk base store s.pfx s.index .output with
      | .ok bytes => if reachable then .ok bytes else .error (.retrieval s.pfx s.index .output)
      | .error _ => .error (.retrieval s.pfx s.index .output)
    ((raising element).map some, { s with index := s.index + 1 })

/-- An iterator and the calls made on it. `waiting`: the tasks that wait for the lock; `holder`: the one that has it;
`got`: what was given to the callers, in this order. `taken` is a ghost: what the tasks took from the stream. -/
structure Results where
  stream : ChunkStream
  asked : Nat := 0
  waiting : List Nat := []
  holder : Option Nat := none
  cancelled : List Nat := []
  got : List (Nat × Outcome) := []
  taken : List (Nat × Outcome) := []

/-- What happens to an iterator. -/
inductive Event where
  /-- The caller calls `__next__` or `__anext__`: a task is spawned (src/producer.rs 612, 653). -/
  | ask
  /-- A task gets the lock (`stream.lock().await`). Simplification: any of the waiting tasks may be next. -/
  | lock (k : Nat)
  /-- The task with the lock has its element, and ends. -/
  | take (store : ObjectStore.Store) (reachable : Bool)
  /-- The caller gives up waiting for a call of `__anext__` (asyncio cancels the future): the task goes on by itself, as
  dropping a `JoinHandle` does not end a task; only if it was not `spawned` yet it does not exist. -/
  | cancel (k : Nat) (spawned : Bool)
deriving DecidableEq, Repr

/-- One event, src/producer.rs 600-617 and 643-667. -/
def Results.step (base : List Char) (r : Results) : Event → Results
  | .ask => { r with asked := r.asked + 1, waiting := r.waiting ++ [r.asked] }
  | .lock k => if r.holder = none ∧ k ∈ r.waiting then { r with holder := some k, waiting := r.waiting.erase k } else r
  | .take store reachable =>
    match r.holder with
    | none => r
    | some k =>
      let (o, s) := r.stream.next base store reachable
      { r with
        stream := s
        holder := none
        taken := r.taken ++ [(k, o)]
        got := if k ∈ r.cancelled then r.got else r.got ++ [(k, o)] }
  | .cancel k spawned =>
    if k < r.asked ∧ k ∉ r.got.map (·.1) then
      { r with
        cancelled := if k ∈ r.cancelled then r.cancelled else r.cancelled ++ [k]
        waiting := if spawned then r.waiting else r.waiting.erase k }
    else r

/-- `PyChunksIter::new`, src/producer.rs 583-594, and what then happens. -/
def Results.run (base : List Char) (pfx : String) (count : Nat) (events : List Event) : Results :=
  events.foldl (Results.step base) { stream := { pfx, count } }

/-- `n` calls of `__next__`, one after the other, as a `for` loop makes them. -/
def inTurn (store : ObjectStore.Store) : Nat → Nat → List Event
  | 0, _ => []
  | n + 1, k => .ask :: .lock k :: .take store true :: inTurn store n (k + 1)

end Opsqueue.Python
