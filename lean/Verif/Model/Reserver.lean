import Verif.Model.Map

/-!
# The reserver

Models `opsqueue/src/consumer/dispatcher/reserver.rs`: a cache of reservations with a time to live
(`moka::sync::Cache`) and a queue of delayed removals (`tokio_util::time::DelayQueue`).

Times are in milliseconds of one clock. What is assumed about moka: an entry counts as absent for
`get`, `contains_key` and `entry().or_insert_with` from `reserved_at + time_to_live` on; the eviction
listener is called exactly once for each entry that is physically removed or replaced, with cause
`Expired` iff that happens at or after that time.
-/

namespace Opsqueue

/-- The value type `(V, UnboundedSender<V>, Instant)` of the cache, reserver.rs 18. `σ` stands for the
channel to the consumer. -/
structure Reservation (ν σ : Type) where
  val : ν
  sender : σ
  reservedAt : Nat
deriving DecidableEq, Repr

/-- `Reserver<K, V>`, reserver.rs 16-20, with the clock. `pending` is the queue of delayed removals
with their deadlines. `notices` records what was sent over the channels so far (reserver.rs 44-51). -/
structure Reserver (κ ν σ : Type) where
  ttl : Nat
  now : Nat := 0
  cache : Map κ (Reservation ν σ) := []
  pending : List (κ × Nat) := []
  notices : List (σ × ν) := []
deriving DecidableEq, Repr

namespace Reserver
variable {κ ν σ : Type} [DecidableEq κ]

/-- `Reserver::new`, reserver.rs 41-60. -/
def new (ttl : Nat) : Reserver κ ν σ := { ttl }

/-- Whether a cache entry has not outlived the `time_to_live` (reserver.rs 43; moka). -/
def alive (r : Reserver κ ν σ) (e : Reservation ν σ) : Bool := decide (r.now < e.reservedAt + r.ttl)

/-- `Cache::get`: expired entries count as absent. -/
def lookup (r : Reserver κ ν σ) (key : κ) : Option (Reservation ν σ) :=
  (r.cache.get key).filter r.alive

/-- `Cache::remove` with the eviction listener, reserver.rs 44-51 (also the removal of the old entry
when an expired one is replaced). -/
def drop (r : Reserver κ ν σ) (key : κ) : Reserver κ ν σ :=
  match r.cache.get key with
  | none => r
  | some e => { r with
      cache := r.cache.erase key
      notices := if r.alive e then r.notices else r.notices ++ [(e.sender, e.val)] }

/-- `try_reserve`, reserver.rs 67-84. -/
def tryReserve (r : Reserver κ ν σ) (key : κ) (val : ν) (sender : σ) : Option ν × Reserver κ ν σ :=
  match r.lookup key with
  | some _ => (none, r)
  | none =>
    let r := r.drop key
    (some val, { r with cache := r.cache.set key ⟨val, sender, r.now⟩ })

/-- `is_reserved`, reserver.rs 87-89. -/
def isReserved (r : Reserver κ ν σ) (key : κ) : Bool := (r.lookup key).isSome

/-- The delay of a delayed removal, reserver.rs 112. -/
def removalDelay : Nat := 1000

/-- The insertion into the queue of delayed removals, reserver.rs 109-112. -/
def schedule (r : Reserver κ ν σ) (key : κ) : Reserver κ ν σ :=
  { r with pending := r.pending ++ [(key, r.now + removalDelay)] }

/-- `finish_reservation`, reserver.rs 95-120. -/
def finish (r : Reserver κ ν σ) (key : κ) (delayed : Bool) : Option Nat × Reserver κ ν σ :=
  match r.lookup key with
  | none => (none, r)
  | some e => if delayed then (some e.reservedAt, r.schedule key) else (some e.reservedAt, r.drop key)

/-- `finish_reservation_sync`, reserver.rs 124-128. -/
def finishSync (r : Reserver κ ν σ) (key : κ) : Reserver κ ν σ := r.drop key

/-- One iteration of `purge_pending_removals`, reserver.rs 151-160: take a removal whose deadline has
passed, if any, and remove the key. Simplification: deadlines are exact (the queue rounds them up to
the next millisecond) and are taken in the order of insertion. -/
def purgeNext (r : Reserver κ ν σ) : Reserver κ ν σ :=
  match r.pending.find? (fun p => decide (p.2 ≤ r.now)) with
  | none => r
  | some p => { r with pending := r.pending.eraseP (fun p => decide (p.2 ≤ r.now)) }.drop p.1

/-- `purge_pending_removals`, reserver.rs 148-161, undisturbed: all that are due. -/
def purge (r : Reserver κ ν σ) : Reserver κ ν σ :=
  (r.pending.filter (fun p => decide (p.2 ≤ r.now))).foldl (fun r _ => r.purgeNext) r

/-- moka removes an entry if it has expired. -/
def evict (r : Reserver κ ν σ) (key : κ) : Reserver κ ν σ :=
  match r.cache.get key with
  | some e => if r.alive e then r else r.drop key
  | none => r

/-- `run_pending_tasks`, reserver.rs 135-144: purge, then moka's maintenance (which evicts what has
expired). The gauge it sets is in `Model/ConsumerGauges.lean`. -/
def runPendingTasks (r : Reserver κ ν σ) : Reserver κ ν σ :=
  let r := r.purge
  (r.cache.map (·.1)).foldl evict r

/-- What can happen to a reserver. Besides the calls there are the passing of time, `evict` (moka's
own maintenance, at any time) and the second halves of calls that are not atomic: `schedule` and
`finishSync` of `finish` (reserver.rs 96 reads and 109-114 act later), `purgeNext` of
`runPendingTasks`. -/
inductive Op (κ ν σ : Type) where
  | tryReserve (key : κ) (val : ν) (sender : σ)
  | finish (key : κ) (delayed : Bool)
  | finishSync (key : κ)
  | schedule (key : κ)
  | purgeNext
  | runPendingTasks
  | evict (key : κ)
  | advance (d : Nat)
deriving DecidableEq, Repr

/-- The effect of one `Op`. -/
def step (r : Reserver κ ν σ) : Op κ ν σ → Reserver κ ν σ
  | .tryReserve k v s => (r.tryReserve k v s).2
  | .finish k d => (r.finish k d).2
  | .finishSync k => r.finishSync k
  | .schedule k => r.schedule k
  | .purgeNext => r.purgeNext
  | .runPendingTasks => r.runPendingTasks
  | .evict k => r.evict k
  | .advance d => { r with now := r.now + d }

/-- A history. -/
def exec (r : Reserver κ ν σ) (h : List (Op κ ν σ)) : Reserver κ ν σ := h.foldl step r

end Reserver
end Opsqueue
