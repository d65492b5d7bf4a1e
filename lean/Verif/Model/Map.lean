/-!
# Finite maps

Stand-in for `HashMap`, `DashMap` and the like: an association list whose iteration order is
arbitrary.
-/

namespace Opsqueue

/-- A finite map (`std::collections::HashMap`, `dashmap::DashMap`, `moka::sync::Cache`; used in
opsqueue/src/consumer/dispatcher/metastate.rs 6 and 72, reserver.rs 20, consumer/client.rs 207). -/
abbrev Map (κ ν : Type) := List (κ × ν)

namespace Map
variable {κ ν : Type} [DecidableEq κ]

/-- `get`. -/
def get (m : Map κ ν) (k : κ) : Option ν := (m.find? (fun e => e.1 = k)).map (·.2)

/-- `insert`: replaces the value of an existing key. -/
def set (m : Map κ ν) (k : κ) (v : ν) : Map κ ν :=
  if m.any (fun e => e.1 = k) then m.map (fun e => if e.1 = k then (k, v) else e) else m ++ [(k, v)]

/-- `remove`. -/
def erase (m : Map κ ν) (k : κ) : Map κ ν := m.filter (fun e => e.1 ≠ k)

/-- No key occurs twice: what every hash map guarantees. -/
def WF (m : Map κ ν) : Prop := (m.map (·.1)).Nodup

end Map
end Opsqueue
