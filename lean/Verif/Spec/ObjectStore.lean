import Verif.Spec.Observe
import Verif.Model.ObjectStore

/-!
# Vocabulary for statements about the object store
-/

namespace Opsqueue.ObjectStore

/-- A prefix without a slash, like the ones the producer makes (`Uuid::now_v7().to_string()`). -/
def Plain (pfx : String) : Prop := '/' ∉ pfx.toList

instance (pfx : String) : Decidable (Plain pfx) := inferInstanceAs (Decidable (¬ _))

/-- All the chunks put into the store belong to other submissions, or are of the other type. -/
def Elsewhere (pfx : String) (t : ChunkType) (ws : List Write) : Prop :=
  ∀ w ∈ ws, Plain w.pfx ∧ (w.pfx ≠ pfx ∨ w.type ≠ t)

instance (pfx : String) (t : ChunkType) (ws : List Write) : Decidable (Elsewhere pfx t ws) :=
  inferInstanceAs (Decidable (∀ w ∈ ws, _))

end Opsqueue.ObjectStore
