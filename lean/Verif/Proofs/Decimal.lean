import Verif.Model.Decimal

/-! # Decimal text: digits only, and parsing gives the number back -/

namespace Opsqueue.Decimal

theorem digit_char {d : Nat} (h : d < 10) : (digitChar d).toNat = 48 + d := by
  have : d = 0 ∨ d = 1 ∨ d = 2 ∨ d = 3 ∨ d = 4 ∨ d = 5 ∨ d = 6 ∨ d = 7 ∨ d = 8 ∨ d = 9 := by omega
  rcases this with rfl | rfl | rfl | rfl | rfl | rfl | rfl | rfl | rfl | rfl <;> decide

theorem digit?_char {d : Nat} (h : d < 10) : digit? (digitChar d) = some d := by
  have := digit_char h
  unfold digit?
  rw [this, if_pos (by omega)]
  congr 1; omega

def IsDigit (c : Char) : Prop := 48 ≤ c.toNat ∧ c.toNat ≤ 57

theorem digits_isDigit (fuel : Nat) : ∀ (n : Nat) (acc : List Char), (∀ c ∈ acc, IsDigit c) →
    ∀ c ∈ digits fuel n acc, IsDigit c := by
  induction fuel with
  | zero => intro n acc h; exact h
  | succ f ih =>
    intro n acc h
    have hd : n % 10 < 10 := Nat.mod_lt _ (by decide)
    have h' : ∀ c ∈ digitChar (n % 10) :: acc, IsDigit c := by
      intro c hc
      rcases List.mem_cons.1 hc with rfl | hc
      · unfold IsDigit; rw [digit_char hd]; omega
      · exact h c hc
    unfold digits
    split
    · exact h'
    · exact ih _ _ h'

theorem decimal_isDigit (n : Nat) : ∀ c ∈ decimal n, IsDigit c :=
  digits_isDigit _ _ _ (by simp)

/-- The value of digits `cs` read after `v`. -/
theorem digits_parse (fuel : Nat) : ∀ (n : Nat) (acc : List Char) (v : Nat), n < fuel →
    parseLoop v (digits fuel n acc) = parseLoop (v * 10 ^ (digits fuel n []).length + n) acc := by
  induction fuel with
  | zero => intro n acc v h; omega
  | succ f ih =>
    intro n acc v h
    have hd : n % 10 < 10 := Nat.mod_lt _ (by decide)
    unfold digits
    by_cases h0 : n / 10 = 0
    · have hn : n % 10 = n := by omega
      simp only [h0, if_true, List.length_cons, List.length_nil, parseLoop, digit?_char hd]
      simp [hn]
    · simp only [h0, if_false]
      have hlt : n / 10 < f := by omega
      have hlen : ∀ m a b, m < f → (digits f m (a :: b)).length = (digits f m []).length + (b.length + 1) := by
        clear ih
        have key : ∀ g m acc, (digits g m acc).length = (digits g m []).length + acc.length := by
          intro g
          induction g with
          | zero => intro m acc; simp [digits]
          | succ g ig =>
            intro m acc
            unfold digits
            by_cases hm : m / 10 = 0
            · simp [hm]; omega
            · simp only [hm, if_false]
              rw [ig _ (_ :: acc), ig _ [_]]
              simp; omega
        intro m a b _
        rw [key]; simp
      rw [ih _ _ _ hlt, hlen _ _ _ hlt]
      simp only [parseLoop, digit?_char hd, List.length_nil]
      congr 1
      rw [Nat.pow_add, Nat.pow_one, ← Nat.mul_assoc]
      generalize v * 10 ^ (digits f (n / 10) []).length = x
      omega

theorem decimal_ne_nil (n : Nat) : decimal n ≠ [] := by
  have key : ∀ g m acc, acc ≠ [] → digits g m acc ≠ [] := by
    intro g
    induction g with
    | zero => intro m acc h; exact h
    | succ g ig =>
      intro m acc h
      unfold digits
      split
      · simp
      · exact ig _ _ (by simp)
  unfold decimal digits
  split
  · simp
  · exact key _ _ _ (by simp)

theorem parse_decimal (n : Nat) : parse (decimal n) = some n := by
  have hl : parseLoop 0 (decimal n) = some n := by
    unfold decimal
    rw [digits_parse _ _ _ _ (by omega)]
    simp [parseLoop]
  have hne := decimal_ne_nil n
  have hd := decimal_isDigit n
  revert hl hne hd
  generalize decimal n = cs
  intro hl hne hd
  have hp : ∀ c rest, cs = c :: rest → c ≠ '+' := by
    rintro c rest rfl rfl
    have := hd '+' (by simp)
    revert this; unfold IsDigit; decide
  cases cs with
  | nil => exact absurd rfl hne
  | cons c rest =>
    have hc := hp c rest rfl
    unfold parse
    split
    · simp_all
    · simp_all
    · simp_all
    · exact hl

theorem decimal_inj {m n : Nat} (h : decimal m = decimal n) : m = n := by
  have := parse_decimal m
  rw [h, parse_decimal] at this
  exact (Option.some.inj this).symm

end Opsqueue.Decimal
