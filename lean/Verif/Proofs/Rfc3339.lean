import Verif.Model.Rfc3339
import Verif.Proofs.Decimal

/-! Reading back the text of a time. -/

namespace Opsqueue.Rfc3339
open Decimal

theorem pad_isDigit (k n : Nat) : ∀ c ∈ pad k n, IsDigit c := by
  induction k generalizing n with
  | zero => simp [pad]
  | succ k ih =>
    intro c hc
    rcases List.mem_append.1 hc with h | h
    · exact ih _ c h
    · rw [List.mem_singleton.1 h]
      unfold IsDigit
      rw [digit_char (Nat.mod_lt _ (by decide))]
      have := Nat.mod_lt n (show 0 < 10 by decide)
      omega

theorem parseLoop_append (acc : Nat) (a b : List Char) :
    parseLoop acc (a ++ b) = (parseLoop acc a).bind fun x => parseLoop x b := by
  induction a generalizing acc with
  | nil => rfl
  | cons c cs ih =>
    simp only [List.cons_append, parseLoop]
    cases digit? c with
    | none => rfl
    | some d => exact ih _

theorem parseLoop_pad (k n : Nat) : parseLoop 0 (pad k n) = some (n % 10 ^ k) := by
  induction k generalizing n with
  | zero => simp [pad, parseLoop, Nat.mod_one]
  | succ k ih =>
    rw [pad, parseLoop_append, ih]
    simp only [Option.bind_some, parseLoop, digit?_char (Nat.mod_lt n (show 0 < 10 by decide))]
    congr 1
    rw [Nat.pow_succ, Nat.mul_comm (10 ^ k) 10, Nat.mod_mul]
    omega

theorem pad_length (k n : Nat) : (pad k n).length = k := by
  induction k generalizing n with
  | zero => rfl
  | succ k ih => simp [pad, ih]

theorem pad_two (n : Nat) : pad 2 n = [digitChar (n / 10 % 10), digitChar (n % 10)] := rfl

theorem parseLoop_two {n : Nat} (h : n < 100) :
    parseLoop 0 [digitChar (n / 10 % 10), digitChar (n % 10)] = some n := by
  rw [← pad_two, parseLoop_pad, Nat.mod_eq_of_lt h]

theorem parse_of_digits {cs : List Char} (hne : cs ≠ []) (hd : ∀ c ∈ cs, IsDigit c) : Decimal.parse cs = parseLoop 0 cs := by
  cases cs with
  | nil => exact absurd rfl hne
  | cons c rest =>
    have hc : c ≠ '+' := by
      rintro rfl
      have := hd '+' (by simp)
      revert this; unfold IsDigit; decide
    unfold Decimal.parse
    split
    · simp_all
    · simp_all
    · simp_all
    · rfl

theorem parse_yearText (y : Nat) : Decimal.parse (yearText y) = some y := by
  unfold yearText
  split
  · rename_i h
    rw [parse_of_digits (by intro h; have := congrArg List.length h; rw [pad_length] at this; cases this)
      (pad_isDigit 4 y), parseLoop_pad, Nat.mod_eq_of_lt (by omega)]
  · have h1 := parse_decimal y
    rw [parse_of_digits (decimal_ne_nil y) (decimal_isDigit y)] at h1
    have hne := decimal_ne_nil y
    revert h1 hne
    generalize decimal y = cs
    intro h1 hne
    cases cs with
    | nil => exact absurd rfl hne
    | cons c cs => exact h1

theorem yearText_no_dash (y : Nat) : ∀ c ∈ yearText y, c ≠ '-' := by
  have hd : ∀ c, IsDigit c → c ≠ '-' := by
    rintro c h rfl
    revert h; unfold IsDigit; decide
  intro c hc
  unfold yearText at hc
  split at hc
  · exact hd c (pad_isDigit _ _ c hc)
  · rcases List.mem_cons.1 hc with rfl | h
    · decide
    · exact hd c (decimal_isDigit _ c h)

theorem span_stop {p : Char → Bool} {a : List Char} {x : Char} {b : List Char} (ha : ∀ c ∈ a, p c = true) (hx : p x = false) :
    (a ++ x :: b).takeWhile p = a ∧ (a ++ x :: b).dropWhile p = x :: b := by
  induction a with
  | nil => simp [hx]
  | cons c a ih =>
    obtain ⟨h1, h2⟩ := ih fun d hd => ha d (List.mem_cons_of_mem _ hd)
    have := ha c List.mem_cons_self
    simp [this, h1, h2]

theorem readFraction_fraction {n : Nat} (h : n < 1000000000) : readFraction (fraction n ++ ['Z']) = some n := by
  have key : ∀ k m, m < 10 ^ k → m * 10 ^ (9 - k) = n → readFraction ('.' :: pad k m ++ ['Z']) = some n := by
    intro k m hm hn
    have : ((pad k m ++ ['Z']).takeWhile (· ≠ 'Z')) = pad k m := by
      refine (span_stop (x := 'Z') (b := []) ?_ (by decide)).1
      intro c hc
      have := pad_isDigit _ _ c hc
      simp only [decide_not, Bool.not_eq_eq_eq_not, Bool.not_true, decide_eq_false_iff_not]
      rintro rfl
      revert this; unfold IsDigit; decide
    show ((parseLoop 0 ((pad k m ++ ['Z']).takeWhile (· ≠ 'Z'))).map fun n =>
      n * 10 ^ (9 - ((pad k m ++ ['Z']).takeWhile (· ≠ 'Z')).length)) = _
    rw [this, parseLoop_pad, pad_length, Nat.mod_eq_of_lt hm]
    exact congrArg some hn
  unfold fraction
  split
  · rename_i h0; subst h0; rfl
  · split
    · exact key 3 _ (by omega) (by show n / 1000000 * 1000000 = n; omega)
    · split
      · exact key 6 _ (by omega) (by show n / 1000 * 1000 = n; omega)
      · exact key 9 _ (by omega) (by show n * 1 = n; omega)

/-- The days of `n` years from year `y`. -/
def daysFrom (y : Nat) : Nat → Nat
  | 0 => 0
  | n + 1 => daysFrom y n + yearLength (y + n)

theorem daysFrom_succ (y n : Nat) : daysFrom y (n + 1) = yearLength y + daysFrom (y + 1) n := by
  induction n with
  | zero => simp [daysFrom]
  | succ n ih =>
    rw [daysFrom, ih, daysFrom]
    have : y + (n + 1) = y + 1 + n := by omega
    rw [this]; omega

theorem firstDay_eq (n : Nat) : firstDay (1970 + n) = daysFrom 1970 n := by
  unfold firstDay
  rw [show 1970 + n - 1970 = n by omega]
  induction n with
  | zero => rfl
  | succ n ih => rw [List.range_succ, List.map_append, List.sum_append, ih, daysFrom]; simp

theorem yearLength_pos (y : Nat) : 365 ≤ yearLength y ∧ yearLength y ≤ 366 := by
  unfold yearLength; split <;> omega

theorem yearOf_spec (fuel y d : Nat) (h : d < fuel) :
    ∃ n, (yearOf fuel y d).1 = y + n ∧ d = daysFrom y n + (yearOf fuel y d).2 ∧
      (yearOf fuel y d).2 < yearLength (y + n) := by
  induction fuel generalizing y d with
  | zero => omega
  | succ fuel ih =>
    unfold yearOf
    split
    · rename_i h1; exact ⟨0, rfl, by simp [daysFrom], h1⟩
    · rename_i h1
      have := yearLength_pos y
      obtain ⟨n, h2, h3, h4⟩ := ih (y + 1) (d - yearLength y) (by omega)
      refine ⟨n + 1, by rw [h2]; omega, ?_, ?_⟩
      · rw [daysFrom_succ]; omega
      · rw [show y + (n + 1) = y + 1 + n by omega]; exact h4

theorem monthOf_spec (ls : List Nat) (m d : Nat) (h : d < ls.sum) :
    ∃ k, k < ls.length ∧ (monthOf ls m d).1 = m + k ∧ d = (ls.take k).sum + (monthOf ls m d).2 ∧
      ∃ l ∈ ls, (monthOf ls m d).2 < l := by
  induction ls generalizing m d with
  | nil => simp at h
  | cons l ls ih =>
    unfold monthOf
    split
    · rename_i h1; exact ⟨0, by simp, rfl, by simp, l, by simp, h1⟩
    · rename_i h1
      obtain ⟨k, h2, h3, h4, l', h5, h6⟩ := ih (m + 1) (d - l) (by simp at h; omega)
      refine ⟨k + 1, by simpa using h2, by rw [h3]; omega, ?_, l', List.mem_cons_of_mem _ h5, h6⟩
      simp only [List.take_succ_cons, List.sum_cons]; omega

theorem monthLengths_sum (y : Nat) : (monthLengths y).sum = yearLength y := by
  unfold monthLengths yearLength; split <;> rfl

theorem monthLengths_le (y : Nat) : ∀ l ∈ monthLengths y, l ≤ 31 := by
  intro l hl
  unfold monthLengths at hl
  simp only [List.mem_cons, List.not_mem_nil, or_false] at hl
  rcases hl with h | h | h | h | h | h | h | h | h | h | h | h
  all_goals first | omega | (split at h <;> omega)

theorem readFields_of {cs rest : List Char} {m1 m2 d1 d2 h1 h2 i1 i2 s1 s2 : Char}
    (hd : cs.dropWhile (· ≠ '-') =
      '-' :: m1 :: m2 :: '-' :: d1 :: d2 :: 'T' :: h1 :: h2 :: ':' :: i1 :: i2 :: ':' :: s1 :: s2 :: rest) :
    readFields cs = (do
      let y ← Decimal.parse (cs.takeWhile (· ≠ '-'))
      let m ← parseLoop 0 [m1, m2]
      let d ← parseLoop 0 [d1, d2]
      let h ← parseLoop 0 [h1, h2]
      let i ← parseLoop 0 [i1, i2]
      let s ← parseLoop 0 [s1, s2]
      let nanos ← readFraction rest
      let day := firstDay y + ((monthLengths y).take (m - 1)).sum + (d - 1)
      some (((day * 86400) + h * 3600 + i * 60 + s) * 1000000000 + nanos)) := by
  unfold readFields
  rw [hd]
  rfl

theorem readFields_print (t : Time) : readFields (print t) = some t := by
  unfold print
  dsimp only
  obtain ⟨n, h1, h2, h3⟩ := yearOf_spec (t / 1000000000 / 86400 + 1) 1970 (t / 1000000000 / 86400) (by omega)
  generalize yearOf (t / 1000000000 / 86400 + 1) 1970 (t / 1000000000 / 86400) = yd at h1 h2 h3
  obtain ⟨y, dy⟩ := yd
  dsimp only at h1 h2 h3 ⊢
  rw [← h1] at h3
  rw [← monthLengths_sum] at h3
  obtain ⟨k, g1, g2, g3, l, g4, g5⟩ := monthOf_spec (monthLengths y) 0 dy h3
  generalize monthOf (monthLengths y) 0 dy = md at g2 g3 g5
  obtain ⟨m, d⟩ := md
  dsimp only at g2 g3 g5 ⊢
  have hl := monthLengths_le y l g4
  have g1 : k < 12 := g1
  rw [Nat.zero_add] at g2
  subst g2
  have hfd : firstDay y = daysFrom 1970 n := by rw [h1]; exact firstDay_eq n
  simp only [pad_two, List.cons_append, List.nil_append]
  obtain ⟨e1, e2⟩ := span_stop (p := (· ≠ '-')) (a := yearText y) (x := '-') (b :=
    digitChar ((m + 1) / 10 % 10) :: digitChar ((m + 1) % 10) :: '-' ::
      digitChar ((d + 1) / 10 % 10) :: digitChar ((d + 1) % 10) :: 'T' ::
      digitChar (t / 1000000000 % 86400 / 3600 / 10 % 10) :: digitChar (t / 1000000000 % 86400 / 3600 % 10) :: ':' ::
      digitChar (t / 1000000000 % 86400 / 60 % 60 / 10 % 10) :: digitChar (t / 1000000000 % 86400 / 60 % 60 % 10) :: ':' ::
      digitChar (t / 1000000000 % 86400 % 60 / 10 % 10) :: digitChar (t / 1000000000 % 86400 % 60 % 10) ::
      (fraction (t % 1000000000) ++ ['Z']))
    (by intro c hc; simpa using yearText_no_dash y c hc) (by decide)
  rw [readFields_of e2, e1]
  rw [parse_yearText, parseLoop_two (by omega), parseLoop_two (by omega), parseLoop_two (by omega),
    parseLoop_two (by omega), parseLoop_two (by omega), readFraction_fraction (Nat.mod_lt _ (by decide))]
  simp only [Option.bind_eq_bind, Option.bind_some, Nat.add_sub_cancel, Option.some.injEq]
  rw [hfd]
  refine @id (@Eq Nat _ _) ?_
  omega

theorem parse_print (t : Time) : parse (print t) = some t := by
  unfold parse
  rw [readFields_print]
  simp [Option.filter]

theorem parse_iff {cs : List Char} {t : Time} : parse cs = some t ↔ cs = print t := by
  constructor
  · intro h
    unfold parse at h
    obtain ⟨_, h⟩ := Option.filter_eq_some_iff.1 h
    exact (by simpa using h : print t = cs).symm
  · rintro rfl; exact parse_print t

end Opsqueue.Rfc3339
