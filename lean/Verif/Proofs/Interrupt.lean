import Verif.Spec.Interrupt

/-!
# Interrupts: lemmas
-/

namespace Opsqueue.Interrupt

theorem checkLoop_bounds (interval s : Nat) (hi : 1 ≤ interval) (n : Nat) : ∀ t : Nat, s - t ≤ n →
    t + interval ≤ checkLoop interval s n t ∧ s ≤ checkLoop interval s n t ∧
      checkLoop interval s n t ≤ max s t + interval := by
  induction n with
  | zero => intro t h; simp only [checkLoop]; omega
  | succ n ih =>
    intro t h
    unfold checkLoop
    split
    · omega
    · have := ih (t + interval) (by omega)
      omega

/-- The check never notices a signal before it arrives, nor before its first sleep is over, nor later than a check interval
after it has started and the signal has arrived. -/
theorem noticed_bounds (interval s t : Nat) (hi : 1 ≤ interval) :
    t + interval ≤ noticed interval s t ∧ s ≤ noticed interval s t ∧ noticed interval s t ≤ max s t + interval :=
  checkLoop_bounds interval s hi (s - t) t (Nat.le_refl _)

theorem block_ends (interval s t : Nat) (hi : 1 ≤ interval) (stage : Stage) :
    ∃ T b, block interval (some s) t stage = some (T, b) ∧ T ≤ max s t + interval := by
  obtain ⟨h1, h2, h3⟩ := noticed_bounds interval s t hi
  unfold block
  cases stage.took with
  | none => exact ⟨_, _, rfl, h3⟩
  | some d =>
    dsimp only
    split
    · exact ⟨_, _, rfl, by omega⟩
    · exact ⟨_, _, rfl, h3⟩

theorem block_result (interval t : Nat) (hi : 1 ≤ interval) (sig : Option Nat) (stage : Stage) (T : Nat) (b : Bool)
    (h : block interval sig t stage = some (T, b)) :
    (b = true → ∃ s, sig = some s ∧ s ≤ T) ∧ (b = false → ∃ d, stage.took = some d ∧ T = t + d) := by
  unfold block at h
  cases hd : stage.took with
  | none =>
    cases sig with
    | none => rw [hd] at h; cases h
    | some s =>
      rw [hd] at h
      cases h
      exact ⟨fun _ => ⟨s, rfl, (noticed_bounds interval s t hi).2.1⟩, fun h => by cases h⟩
  | some d =>
    cases sig with
    | none =>
      rw [hd] at h
      cases h
      exact ⟨fun h => (by cases h), fun _ => ⟨d, rfl, rfl⟩⟩
    | some s =>
      rw [hd] at h
      dsimp only at h
      split at h
      · cases h; exact ⟨fun h => (by cases h), fun _ => ⟨d, rfl, rfl⟩⟩
      · cases h; exact ⟨fun _ => ⟨s, rfl, (noticed_bounds interval s t hi).2.1⟩, fun h => by cases h⟩

theorem block_done {interval s t d : Nat} (hi : 1 ≤ interval) {b : Bool} (h : d < interval) :
    block interval (some s) t ⟨some d, b⟩ = some (t + d, false) := by
  have := noticed_bounds interval s t hi
  simp only [block]
  rw [if_pos (.inl (by omega))]

theorem block_pending {interval s t d : Nat} (hi : 1 ≤ interval) {b : Bool} (h : interval < d) (hs : s ≤ t) :
    block interval (some s) t ⟨some d, b⟩ = some (noticed interval s t, true) := by
  have := noticed_bounds interval s t hi
  simp only [block]
  rw [if_neg (by omega)]

/-- A call of `reserve_chunks` whose next request is made when the signal is pending. -/
theorem reserve_pending {ε α : Type} (interval s : Nat) (hi : 1 ≤ interval) (hp : interval < 500)
    (tries : Nat → Attempt ε α) (k t : Nat) (hs : s ≤ t) :
    ∃ T o, reserve interval (some s) tries 1 k t = some (T, o) ∧ T ≤ t + 2 * interval := by
  obtain ⟨T, b, h, hT⟩ := block_ends interval s t hi (tries k).request
  have hge := block_result interval t hi (some s) (tries k).request T b h
  cases b with
  | true => exact ⟨T, .interrupted, by simp only [reserve, h], by omega⟩
  | false =>
    obtain ⟨d, -, hd⟩ := hge.2 rfl
    cases ha : (tries k).answer with
    | error e => exact ⟨T, .failed e, by simp only [reserve, h, ha], by omega⟩
    | ok l =>
      cases l with
      | cons c cs => exact ⟨T, .chunks (c :: cs), by simp only [reserve, h, ha], by omega⟩
      | nil =>
        have hb := noticed_bounds interval s T hi
        refine ⟨noticed interval s T, .interrupted, ?_, by omega⟩
        simp only [reserve, h, ha, block_pending hi (show interval < pollInterval from hp) (show s ≤ T by omega)]

theorem block_no_signal {interval t d : Nat} {stage : Stage} (h : stage.took = some d) :
    block interval none t stage = some (t + d, false) := by
  simp only [block, h]

theorem reserve_chunks {ε α : Type} {interval t T : Nat} {sig : Option Nat} {tries : Nat → Attempt ε α} {c : α} {cs : List α}
    (h : block interval sig t (tries 0).request = some (T, false)) (ha : (tries 0).answer = .ok (c :: cs)) (fuel : Nat) :
    reserve interval sig tries (fuel + 1) 0 t = some (T, .chunks (c :: cs)) := by
  simp only [reserve, h, ha]

theorem consume_raised {ε α : Type} {interval t T T2 d : Nat} {sig : Option Nat} {rounds : Nat → Round ε α} {k : Nat}
    {l : List α} {fuel : Nat} (h : reserve interval sig (rounds k).tries (fuel + 1) 0 t = some (T, .chunks l))
    (hc : (rounds k).callback.call sig T = (T2, true)) (hr : (rounds k).report.took = some d) :
    consume interval rounds (fuel + 1) k sig t =
      if (rounds k).reported then some (T2 + d) else consume interval rounds fuel (k + 1) none (T2 + d) := by
  rw [consume]
  simp only [h, hc, if_true, block_no_signal hr, Bool.true_and]

theorem consume_returned {ε α : Type} {interval t T T2 T3 : Nat} {sig : Option Nat} {rounds : Nat → Round ε α} {k : Nat}
    {l : List α} {fuel : Nat} {b : Bool} (h : reserve interval sig (rounds k).tries (fuel + 1) 0 t = some (T, .chunks l))
    (hc : (rounds k).callback.call sig T = (T2, false)) (hr : block interval sig T2 (rounds k).report = some (T3, b)) :
    consume interval rounds (fuel + 1) k sig t = if b then some T3 else consume interval rounds fuel (k + 1) sig T3 := by
  rw [consume]
  cases b <;> simp [h, hc, hr]

theorem reserve_no_signal {ε α : Type} (interval : Nat) (tries : Nat → Attempt ε α) (fuel : Nat) :
    ∀ k t T : Nat, reserve interval none tries fuel k t ≠ some (T, .interrupted) := by
  induction fuel with
  | zero => intro k t T h; cases h
  | succ fuel ih =>
    intro k t T h
    rw [reserve] at h
    cases hd : (tries k).request.took with
    | none => simp only [block, hd] at h; cases h
    | some d =>
      rw [block_no_signal hd] at h
      dsimp only at h
      split at h
      · cases h
      · exact ih _ _ _ h
      · cases h

/-- Without a signal the loop does not end. -/
theorem no_signal {ε α : Type} (interval : Nat) (rounds : Nat → Round ε α) (fuel : Nat) :
    ∀ k t : Nat, consume interval rounds fuel k none t = none := by
  induction fuel with
  | zero => intro k t; rfl
  | succ fuel ih =>
    intro k t
    cases h : reserve interval none (rounds k).tries (fuel + 1) 0 t with
    | none => rw [consume, h]
    | some r =>
      obtain ⟨T, o⟩ := r
      cases o with
      | interrupted => exact absurd h (reserve_no_signal interval _ _ _ _ _)
      | failed e => rw [consume, h]; exact ih _ _
      | chunks l =>
        cases hd : (rounds k).report.took with
        | none =>
          rw [consume, h]
          simp only [Callback.call, block, hd]
          rfl
        | some d => rw [consume_returned h rfl (block_no_signal hd)]; exact ih _ _

end Opsqueue.Interrupt
