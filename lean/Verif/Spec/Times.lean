import Verif.Model.Types

/-!
# What the text of a time looks like

RFC 3339 in UTC, by the rules of the Gregorian calendar: independent of how the text is computed.
-/

namespace Opsqueue.Times

/-- `s` consists of `k` decimal digits and stands for `n`. -/
def Digits (k : Nat) (s : List Char) (n : Nat) : Prop :=
  s.length = k ∧ (∀ c ∈ s, '0'.toNat ≤ c.toNat ∧ c.toNat ≤ '9'.toNat) ∧
    n = s.foldl (fun a c => 10 * a + (c.toNat - '0'.toNat)) 0

/-- A leap year. -/
def Leap (y : Nat) : Prop := y % 4 = 0 ∧ (y % 100 ≠ 0 ∨ y % 400 = 0)

instance (y : Nat) : Decidable (Leap y) := by unfold Leap; infer_instance

/-- How many days a month has. -/
def daysIn (y m : Nat) : Nat :=
  if m = 2 then if Leap y then 29 else 28
  else if m = 4 ∨ m = 6 ∨ m = 9 ∨ m = 11 then 30 else 31

/-- How many days there are before a year, from the beginning of 1970. Before that there were 477 leap years. -/
def daysBefore (y : Nat) : Nat := 365 * (y - 1970) + ((y - 1) / 4 - (y - 1) / 100 + (y - 1) / 400 - 477)

/-- How many days of a year there are before a month. -/
def daysBeforeMonth (y m : Nat) : Nat := ((List.range (m - 1)).map fun i => daysIn y (i + 1)).sum

/-- The year in four digits, or in as many as it needs after a `+`. -/
def Year (s : List Char) (y : Nat) : Prop :=
  y ≤ 9999 ∧ Digits 4 s y ∨ ∃ k ds, 9999 < y ∧ s = '+' :: ds ∧ Digits k ds y ∧ 10 ^ (k - 1) ≤ y

/-- The decimals of a second: none, or as few of three, six or nine as can be. -/
def Decimals (s : List Char) (nanos : Nat) : Prop :=
  nanos = 0 ∧ s = [] ∨ ∃ k ds v, nanos ≠ 0 ∧ s = '.' :: ds ∧ Digits k ds v ∧ nanos = v * 10 ^ (9 - k) ∧
    (k = 3 ∨ k = 6 ∧ nanos % 1000000 ≠ 0 ∨ k = 9 ∧ nanos % 1000 ≠ 0)

/-- The text says that it is this time: nanoseconds since the beginning of 1970. -/
def Says (text : List Char) (t : Nat) : Prop :=
  ∃ y m d h i s nanos, 1970 ≤ y ∧ 1 ≤ m ∧ m ≤ 12 ∧ 1 ≤ d ∧ d ≤ daysIn y m ∧ h < 24 ∧ i < 60 ∧ s < 60 ∧ nanos < 1000000000 ∧
    t = ((((daysBefore y + daysBeforeMonth y m + (d - 1)) * 24 + h) * 60 + i) * 60 + s) * 1000000000 + nanos ∧
    ∃ ys ms ds hs is ss fs, Year ys y ∧ Digits 2 ms m ∧ Digits 2 ds d ∧ Digits 2 hs h ∧ Digits 2 is i ∧ Digits 2 ss s ∧
      Decimals fs nanos ∧
      text = ys ++ ['-'] ++ ms ++ ['-'] ++ ds ++ ['T'] ++ hs ++ [':'] ++ is ++ [':'] ++ ss ++ fs ++ ['Z']

end Opsqueue.Times
