import Verif.Model.Streaming

/-!
# Vocabulary for statements about streaming
-/

namespace Opsqueue.Streaming
open Python (PyErr Format)

/-- The iterable of the operations in a list. -/
def listed {α : Type} (ops : List α) (i : Nat) : Draw α :=
  match ops[i]? with
  | some a => .op a
  | none => .stop

/-- The first operations of an iterable, which has at least so many, are these. -/
def Begins {α : Type} (src : Nat → Draw α) (ops : List α) : Prop := ∀ i a, ops[i]? = some a → src i = .op a

/-- The chunks are the encodings of these batches. -/
def Encodes {α : Type} (f : Format α) : List (List α) → List Bytes → Prop
  | [], [] => True
  | b :: bs, c :: cs => f.dumps b = .ok c ∧ Encodes f bs cs
  | _, _ => False

/-- The operations that the client has: those of the chunk that is being stored and of the batch that is not complete. -/
def Upload.held {α : Type} (s : Upload α) : List α := ((s.pending.map (·.1)).getD []) ++ s.batch

/-- The first chunks, from index `i` on, can be retrieved and decoded, with these results. -/
def Decodes {α : Type} (f : Format α) (chunk : Nat → Except PyErr Bytes) : Nat → List (List α) → Prop
  | _, [] => True
  | i, rs :: rest => (∃ bytes, chunk i = .ok bytes ∧ f.loads bytes = .ok (some rs)) ∧ Decodes f chunk (i + 1) rest

end Opsqueue.Streaming
