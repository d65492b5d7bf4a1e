import Verif.Spec.Polling
import Verif.Spec.Python
import Verif.Proofs.Python

/-!
# Waiting in time: lemmas
-/

namespace Opsqueue.Polling
open Python Retention

theorem nextInterval_le {i : Nat} (h : i ≤ 5000) : nextInterval i ≤ 5000 ∧ i ≤ nextInterval i ∧ nextInterval i ≤ i + i := by
  unfold nextInterval pollingInterval
  split <;> omega

/-- The loop ends soon after `c` if until `c` it is told to go on and from `c` to `x` it is told `a`. -/
theorem loop_ends {look : Time → Answer} {polls : Nat → Poll} {R δ start c x : Nat} {w : Waited} {a : Answer}
    (hq : Quick R δ polls) (hbefore : ∀ t : Nat, start ≤ t → t < c → maybeStream (look t) = none)
    (hafter : ∀ t : Nat, c ≤ t → t ≤ x → look t = a) (hw : maybeStream a = some w)
    (hx : c + 2 * R + δ + min 5000 (10 + (c - start)) ≤ x) (n : Nat) :
    ∀ (k t i : Nat), c - t ≤ n → start ≤ t → 1 ≤ i → i ≤ 5000 → i ≤ 10 + (t - start) →
      t ≤ c + R + δ + min 5000 (10 + (c - start)) →
      ∃ (fuel T : Nat), loop look polls fuel k t i = some (T, w) ∧ c ≤ T ∧
        T ≤ c + 2 * R + δ + min 5000 (10 + (c - start)) := by
  induction n with
  | zero =>
    intro k t i hn hs hi1 hi hi' ht
    obtain ⟨h1, h2, h3⟩ := hq k
    refine ⟨1, t + (polls k).took, ?_, by omega, by omega⟩
    unfold loop
    rw [hafter _ (by omega) (by omega), hw]
  | succ n ih =>
    intro k t i hn hs hi1 hi hi' ht
    obtain ⟨h1, h2, h3⟩ := hq k
    by_cases hc : c ≤ t + (polls k).seen
    · refine ⟨1, t + (polls k).took, ?_, by omega, by omega⟩
      unfold loop
      rw [hafter _ hc (by omega), hw]
    · obtain ⟨g1, g2, g3⟩ := nextInterval_le hi
      obtain ⟨fuel, T, e, hT⟩ := ih (k + 1) (t + (polls k).took + i + (polls k).lag) (nextInterval i)
        (by omega) (by omega) (by omega) g1 (by omega) (by omega)
      refine ⟨fuel + 1, T, ?_, hT⟩
      unfold loop
      rw [hbefore _ (by omega) (by omega)]
      exact e

/-- When a round begins, and the sleep after it. -/
def begins (polls : Nat → Poll) (k : Nat) (t : Time) (i : Nat) : Nat → Time × Nat
  | 0 => (t, i)
  | n + 1 =>
    let b := begins polls k t i n
    (b.1 + (polls (k + n)).took + b.2 + (polls (k + n)).lag, nextInterval b.2)

theorem begins_shift (polls : Nat → Poll) (k : Nat) (t : Time) (i n : Nat) :
    begins polls (k + 1) (t + (polls k).took + i + (polls k).lag) (nextInterval i) n = begins polls k t i (n + 1) := by
  induction n with
  | zero => rfl
  | succ n ih =>
    unfold begins
    rw [ih, show k + 1 + n = k + (n + 1) by omega]

/-- Up to the times, the loop is the one without times. -/
theorem loop_waitLoop (look : Time → Answer) (polls : Nat → Poll) (answers : Nat → Answer) (fuel : Nat) :
    ∀ (k t i : Nat), (∀ n : Nat, answers (k + n) = look ((begins polls k t i n).1 + (polls (k + n)).seen)) →
      (loop look polls fuel k t i).map (·.2) = (waitLoop answers fuel k i).2 := by
  induction fuel with
  | zero => intro k t i _; rfl
  | succ fuel ih =>
    intro k t i h
    have h0 := h 0
    simp only [Nat.add_zero, begins] at h0
    unfold loop waitLoop
    rw [h0]
    cases hm : maybeStream (look (t + (polls k).seen)) with
    | some w => rfl
    | none =>
      refine ih (k + 1) _ _ fun n => ?_
      have := h (n + 1)
      rw [begins_shift, show k + 1 + n = k + (n + 1) by omega]
      exact this

theorem begins_mono (polls : Nat → Poll) (k t i n m : Nat) (h : n ≤ m) :
    (begins polls k t i n).1 ≤ (begins polls k t i m).1 := by
  induction m with
  | zero => rw [Nat.le_zero.1 h]; exact Nat.le_refl _
  | succ m ih =>
    rcases Nat.lt_or_ge m n with h' | h'
    · rw [show n = m + 1 by omega]; exact Nat.le_refl _
    · refine Nat.le_trans (ih h') ?_
      rw [show (begins polls k t i (m + 1)).1 =
        (begins polls k t i m).1 + (polls (k + m)).took + (begins polls k t i m).2 + (polls (k + m)).lag from rfl]
      exact Nat.le_trans (Nat.le_trans (Nat.le_add_right _ _) (Nat.le_add_right _ _)) (Nat.le_add_right _ _)

theorem Performs.mem {xs ys : List (Time × Op)} (h : Performs xs ys) {x : Time × Op} (hx : x ∈ xs) :
    ∃ y ∈ ys, x.2 = y.2 ∧ y.1 ≤ x.1 := by
  induction xs generalizing ys with
  | nil => cases hx
  | cons z zs ih =>
    cases ys with
    | nil => exact h.elim
    | cons y ys =>
      rcases List.mem_cons.1 hx with rfl | hx
      · exact ⟨y, List.mem_cons_self .., h.1, h.2.1⟩
      · obtain ⟨y', hm, h'⟩ := ih h.2.2 hx
        exact ⟨y', List.mem_cons_of_mem _ hm, h'⟩

theorem mem_takeWhile {xs : List (Time × Op)} {t : Time} {x : Time × Op} (h : x ∈ xs.takeWhile fun x => x.1 ≤ t) :
    x.1 ≤ t := by
  induction xs with
  | nil => cases h
  | cons y ys ih =>
    rw [List.takeWhile_cons] at h
    split at h
    · rename_i hy
      rcases List.mem_cons.1 h with rfl | h
      · simpa using hy
      · exact ih h
    · cases h

theorem takeWhile_later {xs ys : List (Time × Op)} {c t : Nat} (hx : ∀ x ∈ xs, x.1 ≤ c) (ht : c ≤ t) :
    (xs ++ ys).takeWhile (fun x => x.1 ≤ t) = xs ++ ys.takeWhile fun x => x.1 ≤ t := by
  induction xs with
  | nil => rfl
  | cons x xs ih =>
    have h : x.1 ≤ t := Nat.le_trans (hx x (List.mem_cons_self ..)) ht
    rw [List.cons_append, List.takeWhile_cons, if_pos (by simpa using h), ih fun y hy => hx y (List.mem_cons_of_mem _ hy)]
    rfl

end Opsqueue.Polling
