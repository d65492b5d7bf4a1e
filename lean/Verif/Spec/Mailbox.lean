import Verif.Model.Mailbox

/-!
# What is expected of the reports that wait
-/

namespace Opsqueue.Mailbox
open Server (ConnId)
open Conn (Report)

/-- The reports of one connection among others, in order. -/
def of (c : ConnId) (l : List (ConnId × Report)) : List Report := (l.filter fun p => p.1 = c).map (·.2)

/-- The process does not die in this part of a history. -/
def Lives (cap : Nat) (s : State) (h : List Action) : Prop :=
  ∀ p a q, h = p ++ .server a :: q → Leftover.dies (exec cap s p).server a = false

/-- The messages that the completer took out between two states of the same process. -/
def takenSince (s s' : State) : List (ConnId × Report) := s'.taken.drop s.taken.length

end Opsqueue.Mailbox
