import Verif.Model.Iterators

/-!
# Vocabulary for statements about the iterators over results
-/

namespace Opsqueue.Python

/-- Whenever the object store is asked, the output of each chunk `i` of the submission is `c i`. -/
def Stored (base : List Char) (pfx : String) (count : Nat) (c : Nat → Bytes) (events : List Event) : Prop :=
  ∀ store reachable, .take store reachable ∈ events →
    ∀ i < count, ObjectStore.retrieveChunk base store pfx i .output = .ok (c i)

/-- The object store always answers. -/
def Reachable (events : List Event) : Prop := ∀ store reachable, .take store reachable ∈ events → reachable = true

/-- The caller waits for the end of all calls. -/
def Patient (events : List Event) : Prop := ∀ k spawned, .cancel k spawned ∉ events

/-- The caller is told that chunk `i` could not be read. -/
def ToldUnread (i : Nat) (o : Outcome) : Prop :=
  ∃ e, o = .error e ∧ e.cls = .chunkRetrieval ∧ ∃ pfx,
    e.args = .message ("Failed to retrieve chunk " ++ chunkText pfx i .output ++ " from object store")

/-- What the taking number `i` may give: chunk `i` or an error that names it, then the end, then panics. -/
def Gives (count : Nat) (c : Nat → Bytes) (i : Nat) (o : Outcome) : Prop :=
  (i < count ∧ (o = .ok (some (c i)) ∨ ToldUnread i o)) ∨ (i = count ∧ o = .ok none) ∨
    (count < i ∧ ∃ e, o = .error e ∧ e.cls = .panic)

/-- All calls that were not given up are answered. -/
def AllAnswered (r : Results) : Prop := ∀ k < r.asked, k ∉ r.cancelled → ∃ o, (k, o) ∈ r.got

end Opsqueue.Python
