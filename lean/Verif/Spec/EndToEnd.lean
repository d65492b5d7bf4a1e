import Verif.Spec.Observe
import Verif.Spec.ObjectStore
import Verif.Spec.Python
import Verif.Model.EndToEnd

/-!
# Vocabulary for statements about producers, server, consumers and object store together
-/

namespace Opsqueue.EndToEnd

/-- In the history some producer starts to insert a submission with these chunks and gets the fresh prefix `pfx` (which
no one got before) for it. -/
def Started (h : List Ev) (pfx : String) (chunks : List Bytes) : Prop :=
  ObjectStore.Plain pfx ∧ ∃ h1 h2, h = h1 ++ .start pfx chunks :: h2 ∧ ∀ other, Ev.start pfx other ∉ h1

/-- The possible results of consumers that apply `g` to every operation of a chunk: one if `g` does not raise (an
execution may still end without a result, by an error or a crash), none otherwise. -/
def applying {α : Type} (F : Python.Format α) (g : α → Except Python.PyErr α) (input : Bytes) : List Bytes :=
  match Python.rawCallback F g input with
  | .ok output => [output]
  | .error _ => []

/-- The ordinary working of server and consumers: nobody submits or cancels anything, nothing fails, no connection is
lost. -/
def Calm : Ev → Prop
  | .server (.producer _) | .server (.fetchFails _) | .server (.disconnect _) => False
  | .server (.report _ (.fail _ _)) => False
  | .server (.handle writerOk _ _ _ o) => writerOk = true ∧ o = []
  | .server (.release metadataOk) => metadataOk = true
  | .server _ => True
  | .start _ _ | .upload _ _ | .submit _ _ _ _ => False
  | .take _ reachable => reachable = true
  | .finish _ _ put => put = .ok
  | .send _ _ => True

end Opsqueue.EndToEnd
