import Verif.Model.Recovery

/-!
# Specification of the recovery of a consumer from the loss of its connection
-/

namespace Opsqueue.Recovery

open Reconnect (Result Phase)

/-- One call at a time: a call starts only when those before it are over. -/
def OneAtATime (es : List Event) : Prop :=
  ∀ pre op post, es = pre ++ .call op :: post → ∀ p ∈ (run pre).outer.calls, p.over = true

/-- Connection `c` is lost as a whole: nothing more will be read from it and it accepts no more messages. -/
def Lost (s : State) (c : Nat) : Prop :=
  ∃ cl, s.conns[c]? = some cl ∧ cl.background = .returned ∧ cl.sinkClosed = true

/-- Call `i` was using connection `c` before the last event `e` and ends there with result `r`. -/
def Ends (pre : List Event) (e : Event) (i c : Nat) (r : Result) : Prop :=
  (run pre).outer.calls[i]? = some (.busy c) ∧
  ((run (pre ++ [e])).outer.calls[i]? = some (.ending r) ∨ (run (pre ++ [e])).outer.calls[i]? = some (.returned r))

end Opsqueue.Recovery
