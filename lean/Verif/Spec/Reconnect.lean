import Verif.Model.Reconnect

/-!
# Specification of the reconnecting consumer client
-/

namespace Opsqueue.Reconnect

/-- One call at a time: a call starts only when those before it are over. -/
def OneAtATime (es : List Event) : Prop :=
  ∀ pre post, es = pre ++ .call :: post → ∀ p ∈ (run pre).calls, p.over = true

/-- Connection `c` has failed: it was found unhealthy, or a call over it failed. -/
def Failed (es : List Event) (c : Nat) : Prop :=
  (run es).healthy[c]? = some false ∨
  ∃ pre i post, es = pre ++ .finish i .failed :: post ∧ (run pre).calls[i]? = some (.busy c)

/-- Over connection `c` the server has refused the arguments of a call. -/
def Misused (es : List Event) (c : Nat) : Prop :=
  ∃ pre i post, es = pre ++ .finish i .misused :: post ∧ (run pre).calls[i]? = some (.busy c)

end Opsqueue.Reconnect
