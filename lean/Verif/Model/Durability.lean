import Verif.Model.System

/-!
# What survives when the machine loses power

Models the database file under the settings of `db_options` (opsqueue/src/db/mod.rs 424-441): write-ahead log with
`synchronous = NORMAL` and no automatic checkpoints; and the explicit checkpoints of `periodically_checkpoint_wal` (260-268)
and `perform_explicit_wal_checkpoint` (337-343). As SQLite documents it for these settings: a commit appends to the log
without syncing it; a checkpoint syncs; after a power failure the log is valid up to some commit. A crash of the process
alone loses nothing that was committed (that is in `Model/Sql`).
-/

namespace Opsqueue.Durability

/-- The database as the connections see it, the database that is safe on disk, and the calls made since it became safe. -/
structure Disk where
  db : DB := DB.empty
  safe : DB := DB.empty
  since : List Op := []
deriving Repr

/-- A call with other faults injected. -/
def withFaults (o : List Fault) : Op → Op
  | .insert a now _ => .insert a now o
  | .complete cid out t1 t2 _ => .complete cid out t1 t2 o
  | .fail cid f m t1 t2 t3 _ => .fail cid f m t1 t2 t3 o
  | .cancel id t1 t2 _ => .cancel id t1 t2 o
  | .cleanup t _ => .cleanup t o

/-- What happens to the disk. `powerLoss n o`: of the calls that are not yet safe, `n` are in the log completely; of the
next one, as much as if it had been hit by the faults `o` (it may consist of two transactions). -/
inductive Event where
  | call (op : Op)
  | checkpoint (ok : Bool)
  | powerLoss (n : Nat) (o : List Fault)
deriving Repr

/-- What is left of the calls that are not yet safe. -/
def survivors (since : List Op) (n : Nat) (o : List Fault) : List Op :=
  since.take n ++ ((since.drop n).head?.map (withFaults o)).toList

/-- One event. A checkpoint that fails changes nothing (its error is ignored, db/mod.rs 265); after a power loss the server
starts on what is on disk (`open_and_setup`, 413-422). -/
def step (d : Disk) : Event → Disk
  | .call op => { d with db := (Opsqueue.step d.db op).2, since := d.since ++ [op] }
  | .checkpoint true => { db := d.db, safe := d.db, since := [] }
  | .checkpoint false => d
  | .powerLoss n o =>
    let db := runFrom d.safe (survivors d.since n o)
    { db := db, safe := db, since := [] }

/-- A history of events. -/
def run (es : List Event) : Disk := es.foldl step {}

/-- The calls of a history. -/
def callsOf (es : List Event) : List Op :=
  es.filterMap fun
    | .call op => some op
    | _ => none

end Opsqueue.Durability
