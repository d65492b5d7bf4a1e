import Verif.Model.Interrupt

/-!
# Vocabulary for statements about interrupts
-/

namespace Opsqueue.Interrupt

/-- Everything goes well in the round: its request is answered with a chunk (or not answered at all), not in no time, the
callback is interrupted at most `q` after the signal, and the report succeeds and takes at most `D`. -/
structure Well {ε α : Type} (q D : Nat) (r : Round ε α) : Prop where
  chunk : ∃ c cs, (r.tries 0).answer = .ok (c :: cs)
  time : ∀ d, (r.tries 0).request.took = some d → 1 ≤ d
  delay : r.callback.delay ≤ q
  report : ∃ d, r.report.took = some d ∧ d ≤ D
  reported : r.reported = true

end Opsqueue.Interrupt
