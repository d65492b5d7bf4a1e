import Verif.Spec.Times
import Verif.Proofs.Rfc3339

/-! What the text of a time says. -/

namespace Opsqueue.Rfc3339
open Decimal Times

theorem digits_pad {k n : Nat} (h : n < 10 ^ k) : Digits k (pad k n) n := by
  refine ⟨pad_length k n, pad_isDigit k n, ?_⟩
  induction k generalizing n with
  | zero => simp at h; simp [pad, h]
  | succ k ih =>
    rw [pad, List.foldl_append, ← ih (n := n / 10) (by rw [Nat.pow_succ] at h; omega)]
    simp only [List.foldl_cons, List.foldl_nil]
    rw [digit_char (Nat.mod_lt n (by decide)), show '0'.toNat = 48 from rfl]
    omega

theorem eq_pad {k n : Nat} {s : List Char} (h : Digits k s n) : s = pad k n ∧ n < 10 ^ k := by
  induction k generalizing n s with
  | zero =>
    obtain ⟨h1, _, h3⟩ := h
    rw [List.length_eq_zero_iff] at h1
    subst h1
    exact ⟨rfl, by simp [h3]⟩
  | succ k ih =>
    obtain ⟨h1, h2, h3⟩ := h
    have hne : s ≠ [] := by rintro rfl; simp at h1
    obtain ⟨a, c, rfl⟩ : ∃ a c, s = a ++ [c] := ⟨s.dropLast, s.getLast hne, (List.dropLast_concat_getLast hne).symm⟩
    have hc := h2 c (by simp)
    rw [show '0'.toNat = 48 from rfl, show '9'.toNat = 57 from rfl] at hc
    rw [List.foldl_append] at h3
    simp only [List.foldl_cons, List.foldl_nil] at h3
    rw [show '0'.toNat = 48 from rfl] at h3
    obtain ⟨e1, e2⟩ := ih (s := a) ⟨by simpa using h1, fun x hx => h2 x (by simp [hx]), rfl⟩
    rw [show '0'.toNat = 48 from rfl] at e1 e2
    generalize List.foldl (fun a c => 10 * a + (c.toNat - 48)) 0 a = v at e1 e2 h3
    refine ⟨?_, by rw [Nat.pow_succ]; omega⟩
    rw [pad, show n / 10 = v by omega, ← e1]
    congr 2
    unfold digitChar
    rw [show 48 + n % 10 = c.toNat by omega]
    exact (Char.ofNat_toNat c).symm

theorem digits_eq_pad (k : Nat) : ∀ (fuel n : Nat) (acc : List Char), k < fuel → 10 ^ k ≤ n ∨ k = 0 → n < 10 ^ (k + 1) →
    digits fuel n acc = pad (k + 1) n ++ acc := by
  induction k with
  | zero =>
    intro fuel n acc hf _ h2
    obtain ⟨f, rfl⟩ : ∃ f, fuel = f + 1 := ⟨fuel - 1, by omega⟩
    simp only [digits, pad]
    rw [if_pos (by simp at h2; omega)]; rfl
  | succ k ih =>
    intro fuel n acc hf h1 h2
    obtain ⟨f, rfl⟩ : ∃ f, fuel = f + 1 := ⟨fuel - 1, by omega⟩
    have h1 : 10 ^ (k + 1) ≤ n := by omega
    have h3 : 10 ^ k ≤ n / 10 := by rw [Nat.pow_succ] at h1; omega
    have : 0 < 10 ^ k := Nat.pow_pos (by decide)
    simp only [digits]
    rw [if_neg (by omega), ih f (n / 10) _ (by omega) (.inl h3) (by rw [Nat.pow_succ] at h2; omega)]
    show _ = pad (k + 1) (n / 10) ++ [digitChar (n % 10)] ++ acc
    simp

theorem decimal_eq_pad {k n : Nat} (h1 : 10 ^ (k - 1) ≤ n) (h2 : n < 10 ^ k) : decimal n = pad k n := by
  cases k with
  | zero => simp at h1 h2; omega
  | succ k =>
    unfold decimal
    rw [digits_eq_pad k _ _ _ (by have := Nat.lt_pow_self (n := k) (show 1 < 10 by decide); simp at h1; omega)
      (.inl h1) h2]
    simp

theorem exists_digits (n : Nat) (h : 0 < n) : ∃ k, 10 ^ (k - 1) ≤ n ∧ n < 10 ^ k := by
  induction n using Nat.strongRecOn with
  | ind n ih =>
    by_cases h1 : n < 10
    · exact ⟨1, by simp; omega, by simpa using h1⟩
    · obtain ⟨k, h2, h3⟩ := ih (n / 10) (by omega) (by omega)
      refine ⟨k + 1, ?_, by rw [Nat.pow_succ]; omega⟩
      cases k with
      | zero => simp at h3; omega
      | succ k => simp only [Nat.add_sub_cancel] at h2 ⊢; rw [Nat.pow_succ]; omega

theorem year_iff {s : List Char} {y : Nat} : Year s y ↔ s = yearText y := by
  unfold Year yearText
  constructor
  · rintro (⟨h1, h2⟩ | ⟨k, ds, h1, rfl, h2, h3⟩)
    · rw [if_pos h1]; exact (eq_pad h2).1
    · obtain ⟨rfl, h4⟩ := eq_pad h2
      rw [if_neg (by omega), decimal_eq_pad h3 h4]
  · rintro rfl
    split
    · exact .inl ⟨by assumption, digits_pad (by omega)⟩
    · rename_i h
      obtain ⟨k, h1, h2⟩ := exists_digits y (by omega)
      exact .inr ⟨k, _, by omega, rfl, by rw [decimal_eq_pad h1 h2]; exact digits_pad h2, h1⟩

theorem decimals_iff {s : List Char} {n : Nat} (h : n < 1000000000) : Decimals s n ↔ s = fraction n := by
  unfold Decimals fraction
  constructor
  · rintro (⟨h1, rfl⟩ | ⟨k, ds, v, h1, rfl, h2, h3, h4⟩)
    · rw [if_pos h1]
    · obtain ⟨rfl, h5⟩ := eq_pad h2
      rw [if_neg h1]
      rcases h4 with rfl | ⟨rfl, h6⟩ | ⟨rfl, h6⟩
      · have h3 : n = v * 1000000 := h3
        rw [if_pos (by omega), show n / 1000000 = v by omega]
      · have h3 : n = v * 1000 := h3
        rw [if_neg h6, if_pos (by omega), show n / 1000 = v by omega]
      · have h3 : n = v := by simpa using h3
        rw [if_neg (by omega), if_neg h6, h3]
  · rintro rfl
    by_cases h0 : n = 0
    · exact .inl ⟨h0, by rw [if_pos h0]⟩
    rw [if_neg h0]
    refine .inr ?_
    split
    · exact ⟨3, _, _, h0, rfl, digits_pad (by omega), by show n = n / 1000000 * 1000000; omega, .inl rfl⟩
    · split
      · exact ⟨6, _, _, h0, rfl, digits_pad (by omega), by show n = n / 1000 * 1000; omega, .inr (.inl ⟨rfl, by assumption⟩)⟩
      · exact ⟨9, _, _, h0, rfl, digits_pad (by omega), by simp, .inr (.inr ⟨rfl, by assumption⟩)⟩

/-! ## The calendar -/

theorem leap_iff (y : Nat) : leap y = true ↔ Leap y := by
  unfold leap Leap
  simp

theorem yearLength_eq (y : Nat) : yearLength y = if Leap y then 366 else 365 := by
  unfold yearLength
  simp only [leap_iff]

theorem daysFrom_eq (n : Nat) : daysFrom 1970 n = daysBefore (1970 + n) := by
  unfold daysBefore
  induction n with
  | zero => rfl
  | succ n ih =>
    rw [daysFrom, ih, yearLength_eq]
    by_cases h : Leap (1970 + n)
    · rw [if_pos h]; unfold Leap at h; omega
    · rw [if_neg h]; unfold Leap at h; omega

theorem monthLengths_eq (y : Nat) : monthLengths y = (List.range 12).map fun i => daysIn y (i + 1) := by
  have : (List.range 12) = [0, 1, 2, 3, 4, 5, 6, 7, 8, 9, 10, 11] := rfl
  rw [this]
  simp [monthLengths, daysIn, leap_iff]

theorem take_monthLengths (y m : Nat) (h : m ≤ 12) : ((monthLengths y).take m).sum = daysBeforeMonth y (m + 1) := by
  unfold daysBeforeMonth
  rw [monthLengths_eq, ← List.map_take, List.take_range, Nat.min_eq_left h]
  rfl

theorem yearOf_daysFrom (n : Nat) : ∀ (fuel y d : Nat), n < fuel → d < yearLength (y + n) →
    yearOf fuel y (daysFrom y n + d) = (y + n, d) := by
  induction n with
  | zero =>
    intro fuel y d hf h
    obtain ⟨f, rfl⟩ : ∃ f, fuel = f + 1 := ⟨fuel - 1, by omega⟩
    simp only [daysFrom, Nat.zero_add, yearOf]
    rw [if_pos (by simpa using h)]; rfl
  | succ n ih =>
    intro fuel y d hf h
    obtain ⟨f, rfl⟩ : ∃ f, fuel = f + 1 := ⟨fuel - 1, by omega⟩
    rw [daysFrom_succ, yearOf, if_neg (by omega),
      show yearLength y + daysFrom (y + 1) n + d - yearLength y = daysFrom (y + 1) n + d by omega,
      ih f (y + 1) d (by omega) (by rw [show y + 1 + n = y + (n + 1) by omega]; exact h)]
    congr 1; omega

theorem monthOf_take (ls : List Nat) : ∀ (k m d : Nat) (hk : k < ls.length), d < ls[k] →
    monthOf ls m ((ls.take k).sum + d) = (m + k, d) := by
  induction ls with
  | nil => intro k m d hk; simp at hk
  | cons l ls ih =>
    intro k m d hk h
    cases k with
    | zero => simp only [List.take_zero, List.sum_nil, Nat.zero_add, monthOf]; rw [if_pos (by simpa using h)]; rfl
    | succ k =>
      simp only [List.take_succ_cons, List.sum_cons]
      rw [monthOf, if_neg (by omega), show l + (ls.take k).sum + d - l = (ls.take k).sum + d by omega,
        ih k (m + 1) d (by simpa using hk) (by simpa using h)]
      congr 1; omega

theorem monthOf_spec' (ls : List Nat) (m d : Nat) (h : d < ls.sum) :
    ∃ k, ∃ hk : k < ls.length, (monthOf ls m d).1 = m + k ∧ d = (ls.take k).sum + (monthOf ls m d).2 ∧
      (monthOf ls m d).2 < ls[k] := by
  induction ls generalizing m d with
  | nil => simp at h
  | cons l ls ih =>
    unfold monthOf
    split
    · rename_i h1; exact ⟨0, by simp, rfl, by simp, h1⟩
    · rename_i h1
      obtain ⟨k, hk, h3, h4, h6⟩ := ih (m + 1) (d - l) (by simp at h; omega)
      refine ⟨k + 1, by simpa using hk, by rw [h3]; omega, ?_, by simpa using h6⟩
      simp only [List.take_succ_cons, List.sum_cons]; omega

theorem daysIn_le (y m : Nat) : daysIn y m ≤ 31 := by
  unfold daysIn; repeat' split
  all_goals omega

theorem monthLengths_get (y k : Nat) (hk : k < (monthLengths y).length) : (monthLengths y)[k] = daysIn y (k + 1) := by
  simp [monthLengths_eq]

/-- The text of a date and a time of day. -/
def layout (y m d h i s nanos : Nat) : List Char :=
  yearText y ++ '-' :: (pad 2 m ++ '-' :: (pad 2 d ++ 'T' :: (pad 2 h ++ ':' ::
    (pad 2 i ++ ':' :: (pad 2 s ++ (fraction nanos ++ ['Z']))))))

theorem take_lt_sum (ls : List Nat) (k : Nat) (hk : k < ls.length) : (ls.take k).sum + ls[k] ≤ ls.sum := by
  induction ls generalizing k with
  | nil => simp at hk
  | cons l ls ih =>
    cases k with
    | zero => simp
    | succ k => have := ih k (by simpa using hk); simp; omega

theorem print_eq {t day h i s nanos y dy m d : Nat} (e1 : t / 1000000000 / 86400 = day)
    (e2 : t / 1000000000 % 86400 / 3600 = h) (e3 : t / 1000000000 % 86400 / 60 % 60 = i)
    (e4 : t / 1000000000 % 86400 % 60 = s) (e5 : t % 1000000000 = nanos) (hY : yearOf (day + 1) 1970 day = (y, dy))
    (hM : monthOf (monthLengths y) 0 dy = (0 + m, d)) : print t = layout y (m + 1) (d + 1) h i s nanos := by
  rw [Nat.zero_add] at hM
  unfold print layout
  dsimp only
  rw [e1, e2, e3, e4, e5, hY]
  dsimp only
  rw [hM]

theorem print_of {y m d h i s nanos : Nat} (hy : 1970 ≤ y) (hm1 : 1 ≤ m) (hm2 : m ≤ 12) (hd1 : 1 ≤ d) (hd2 : d ≤ daysIn y m)
    (hh : h < 24) (hi : i < 60) (hs : s < 60) (hn : nanos < 1000000000) :
    print (((((daysBefore y + daysBeforeMonth y m + (d - 1)) * 24 + h) * 60 + i) * 60 + s) * 1000000000 + nanos) =
      layout y m d h i s nanos := by
  obtain ⟨n, rfl⟩ : ∃ n, y = 1970 + n := ⟨y - 1970, by omega⟩
  obtain ⟨k, rfl⟩ : ∃ k, m = k + 1 := ⟨m - 1, by omega⟩
  obtain ⟨e, rfl⟩ : ∃ e, d = e + 1 := ⟨d - 1, by omega⟩
  rw [← daysFrom_eq, ← take_monthLengths _ _ (by omega), Nat.add_sub_cancel]
  have hk : k < (monthLengths (1970 + n)).length := by show k < 12; omega
  have he : e < (monthLengths (1970 + n))[k] := by rw [monthLengths_get]; omega
  have hlt : ((monthLengths (1970 + n)).take k).sum + e < yearLength (1970 + n) := by
    have := take_lt_sum _ k hk
    rw [← monthLengths_sum]; omega
  have hf : n ≤ daysFrom 1970 n := by
    clear hk he hlt hd2 hy
    induction n with
    | zero => omega
    | succ n ih => have := yearLength_pos (1970 + n); rw [daysFrom]; omega
  have hY : yearOf (daysFrom 1970 n + (((monthLengths (1970 + n)).take k).sum + e) + 1) 1970
      (daysFrom 1970 n + (((monthLengths (1970 + n)).take k).sum + e)) =
      (1970 + n, ((monthLengths (1970 + n)).take k).sum + e) :=
    yearOf_daysFrom n _ 1970 _ (by omega) hlt
  have hM := monthOf_take (monthLengths (1970 + n)) k 0 e hk he
  exact print_eq (by omega) (by omega) (by omega) (by omega) (by omega) hY hM

theorem layout_says {y m d h i s nanos : Nat} {text : List Char} (hm : m < 100) (hd : d < 100) (hh : h < 100) (hi : i < 100)
    (hs : s < 100) (hn : nanos < 1000000000) :
    (∃ ys ms ds hs is ss fs, Year ys y ∧ Digits 2 ms m ∧ Digits 2 ds d ∧ Digits 2 hs h ∧ Digits 2 is i ∧ Digits 2 ss s ∧
      Decimals fs nanos ∧
      text = ys ++ ['-'] ++ ms ++ ['-'] ++ ds ++ ['T'] ++ hs ++ [':'] ++ is ++ [':'] ++ ss ++ fs ++ ['Z']) ↔
      text = layout y m d h i s nanos := by
  unfold layout
  constructor
  · rintro ⟨ys, ms, ds, hs, is, ss, fs, h1, h2, h3, h4, h5, h6, h7, rfl⟩
    rw [year_iff.1 h1, (eq_pad h2).1, (eq_pad h3).1, (eq_pad h4).1, (eq_pad h5).1, (eq_pad h6).1, (decimals_iff hn).1 h7]
    simp
  · rintro rfl
    exact ⟨_, _, _, _, _, _, _, year_iff.2 rfl, digits_pad hm, digits_pad hd, digits_pad hh, digits_pad hi, digits_pad hs,
      (decimals_iff hn).2 rfl, by simp⟩

theorem exists_fields (t : Nat) : ∃ y m d h i s nanos, 1970 ≤ y ∧ 1 ≤ m ∧ m ≤ 12 ∧ 1 ≤ d ∧ d ≤ daysIn y m ∧ h < 24 ∧ i < 60 ∧
    s < 60 ∧ nanos < 1000000000 ∧
    t = ((((daysBefore y + daysBeforeMonth y m + (d - 1)) * 24 + h) * 60 + i) * 60 + s) * 1000000000 + nanos := by
  obtain ⟨n, h1, h2, h3⟩ := yearOf_spec (t / 1000000000 / 86400 + 1) 1970 (t / 1000000000 / 86400) (by omega)
  generalize yearOf (t / 1000000000 / 86400 + 1) 1970 (t / 1000000000 / 86400) = yd at h1 h2 h3
  obtain ⟨y, dy⟩ := yd
  dsimp only at h1 h2 h3
  subst h1
  rw [← monthLengths_sum] at h3
  obtain ⟨k, hk, g2, g3, g5⟩ := monthOf_spec' (monthLengths (1970 + n)) 0 dy h3
  generalize monthOf (monthLengths (1970 + n)) 0 dy = md at g2 g3 g5
  obtain ⟨m, d⟩ := md
  dsimp only at g2 g3 g5
  rw [monthLengths_get] at g5
  have hk : k < 12 := hk
  rw [daysFrom_eq] at h2
  rw [take_monthLengths _ _ (by omega)] at g3
  exact ⟨1970 + n, k + 1, d + 1, t / 1000000000 % 86400 / 3600, t / 1000000000 % 86400 / 60 % 60,
    t / 1000000000 % 86400 % 60, t % 1000000000, by omega, by omega, by omega, by omega, by omega, by omega, by omega,
    by omega, by omega, by omega⟩

/-- The text written for a time is the one that says so. -/
theorem says_iff {text : List Char} {t : Time} : Says text t ↔ text = print t := by
  unfold Says
  constructor
  · rintro ⟨y, m, d, h, i, s, nanos, h1, h2, h3, h4, h5, h6, h7, h8, h9, rfl, h10⟩
    have := daysIn_le y m
    rw [layout_says (by omega) (by omega) (by omega) (by omega) (by omega) h9] at h10
    rw [h10]
    exact (print_of h1 h2 h3 h4 h5 h6 h7 h8 h9).symm
  · rintro rfl
    obtain ⟨y, m, d, h, i, s, nanos, h1, h2, h3, h4, h5, h6, h7, h8, h9, h10⟩ := exists_fields t
    have := daysIn_le y m
    refine ⟨y, m, d, h, i, s, nanos, h1, h2, h3, h4, h5, h6, h7, h8, h9, h10, ?_⟩
    rw [layout_says (by omega) (by omega) (by omega) (by omega) (by omega) h9, h10]
    exact print_of h1 h2 h3 h4 h5 h6 h7 h8 h9

end Opsqueue.Rfc3339
