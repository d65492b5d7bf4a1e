/-!
# Numerals
-/

namespace Opsqueue

/-- `s` is a decimal numeral, possibly with a leading `+`, standing for `n`. -/
def Denotes (s : List Char) (n : Nat) : Prop :=
  ∃ ds : List Char, (s = ds ∨ s = '+' :: ds) ∧ ds ≠ [] ∧
    (∀ c ∈ ds, '0'.toNat ≤ c.toNat ∧ c.toNat ≤ '9'.toNat) ∧
    n = ds.foldl (fun a c => 10 * a + (c.toNat - '0'.toNat)) 0

end Opsqueue
