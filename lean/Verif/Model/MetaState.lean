import Verif.Model.Map

/-!
# In-flight counters

Models `opsqueue/src/consumer/dispatcher/metastate.rs`: first the calls executed one at a time, then
the same calls split into the steps that are atomic under the locks of the two levels of `DashMap`.
-/

namespace Opsqueue

/-- `MetaStateField`, metastate.rs 70-73: value ↦ count. -/
abbrev MetaStateField := Map Int Nat

namespace MetaStateField

/-- `MetaStateField::increment`, metastate.rs 80-85 (one `entry` call: atomic). -/
def increment (f : MetaStateField) (v : Int) : MetaStateField :=
  match f.get v with
  | some n => f.set v (n + 1)
  | none => f.set v 1

/-- `MetaStateField::decrement`, metastate.rs 87-96 (the entry's lock is held throughout: atomic).
The count is a `usize`; `none` is the overflow panic of `*count -= 1` at zero. -/
def decrement (f : MetaStateField) (v : Int) : Option MetaStateField :=
  match f.get v with
  | none => some f
  | some 0 => none
  | some (n + 1) => if n = 0 then some (f.erase v) else some (f.set v n)

end MetaStateField

/-- `MetaState`, metastate.rs 6. -/
abbrev MetaState := Map String MetaStateField

namespace MetaState

/-- `MetaState::increment`, metastate.rs 14-19, executed without interference. -/
def increment (m : MetaState) (key : String) (v : Int) : MetaState :=
  match m.get key with
  | some f => m.set key (f.increment v)
  | none => m.set key (MetaStateField.increment [] v)

/-- `MetaState::decrement`, metastate.rs 21-48, executed without interference. `none` = panic. -/
def decrement (m : MetaState) (key : String) (v : Int) : Option MetaState :=
  match m.get key with
  | none => some m
  | some f =>
    match f.decrement v with
    | none => none
    | some f' => some (if f'.isEmpty then m.erase key else m.set key f')

/-- `get(key)` followed by `get(&val)`, metastate.rs 55-58 and 103-105. -/
def count (m : MetaState) (key : String) (v : Int) : Option Nat :=
  (m.get key).bind fun f => f.get v

/-- The value ↦ count pairs of a key as handed to SQLite as JSON, metastate.rs 107-113 and
dispatcher/mod.rs 131-157 (`{}` for an absent key). -/
def countsOf (m : MetaState) (key : String) : List (Int × Nat) := (m.get key).getD []

/-- A call of the structure's interface. -/
inductive Call where
  | inc (key : String) (v : Int)
  | dec (key : String) (v : Int)
deriving DecidableEq, Repr

/-- Calls executed one after another (metastate.rs 14-48); `none` = panic. -/
def exec : MetaState → List Call → Option MetaState
  | m, [] => some m
  | m, .inc k v :: rest => exec (m.increment k v) rest
  | m, .dec k v :: rest => (m.decrement k v).bind fun m' => exec m' rest

end MetaState

namespace MetaConc

/-- A call that has started and not yet finished, by what it does next:
`incSlow`: the key was absent, next is `entry(key).or_default().increment(val)` (metastate.rs 17);
`check`: the field was decremented, next is `is_empty` (metastate.rs 25);
`remove`: the check said empty, next is `remove_if` (metastate.rs 46). -/
inductive Task where
  | incSlow (key : String) (v : Int)
  | check (key : String)
  | remove (key : String)
deriving DecidableEq, Repr

/-- The shared map and the calls in progress on all threads; `panicked` records an underflow. -/
structure State where
  map : MetaState := []
  tasks : List Task := []
  panicked : Bool := false
deriving DecidableEq, Repr

/-- One atomic step: a thread starts an increment or a decrement, or the `i`-th call in progress
takes its next step. -/
inductive Action where
  | startInc (key : String) (v : Int)
  | startDec (key : String) (v : Int)
  | advance (i : Nat)
deriving DecidableEq, Repr

/-- Next step of a call in progress (removed from the list of tasks beforehand). -/
def runTask (s : State) : Task → State
  | .incSlow key v =>
    { s with map := s.map.set key (((s.map.get key).getD []).increment v) }
  | .check key =>
    -- the `Ref` is still held, so the field cannot have been removed from the outer map; should it
    -- be absent nevertheless, the answer does not matter
    if ((s.map.get key).getD []).isEmpty then { s with tasks := s.tasks ++ [.remove key] } else s
  | .remove key =>
    match s.map.get key with
    | some f => if f.isEmpty then { s with map := s.map.erase key } else s
    | none => s

/-- One step (metastate.rs 14-48). -/
def step (s : State) : Action → State
  | .startInc key v =>
    match s.map.get key with
    | some f => { s with map := s.map.set key (f.increment v) }
    | none => { s with tasks := s.tasks ++ [.incSlow key v] }
  | .startDec key v =>
    match s.map.get key with
    | none => s
    | some f =>
      match f.decrement v with
      | none => { s with panicked := true }
      | some f' => { s with map := s.map.set key f', tasks := s.tasks ++ [.check key] }
  | .advance i =>
    match s.tasks[i]? with
    | none => s
    | some t => runTask { s with tasks := s.tasks.eraseIdx i } t

/-- A schedule from the empty structure. -/
def run (as : List Action) : State := as.foldl step {}

end MetaConc
end Opsqueue
