import Verif.Proofs.Reserver

/-!
# C23, C25, C26: reservations

The reserver is in the state after an arbitrary history `h0`; `h` is what happens afterwards. Both
contain arbitrary calls (by any number of consumers), the passing of time, and maintenance.
-/

namespace Opsqueue
open Reserver
variable {κ ν σ : Type} [DecidableEq κ]

/-- **C23.** After a successful reservation of `key`, and as long as less than the time to live has
passed and nothing has released `key`, it is reserved and no attempt to reserve it succeeds. -/
theorem C23_exclusive (ttl : Nat) (h0 h : List (Reserver.Op κ ν σ)) (key : κ) (v : ν) (c : σ)
    (hok : (((Reserver.new ttl).exec h0).tryReserve key v c).1 = some v)
    (hrel : NeverReleased key (((Reserver.new ttl).exec h0).tryReserve key v c).2 h)
    (ht : elapsed h < ttl) :
    let r := (((Reserver.new ttl).exec h0).tryReserve key v c).2.exec h
    r.isReserved key = true ∧ ∀ v' c', (r.tryReserve key v' c').1 = none := by
  intro r
  have htt : ((Reserver.new ttl : Reserver κ ν σ).exec h0).ttl = ttl := ttl_exec _ _
  obtain ⟨h1, h2, h3⟩ := tryReserve_here (by omega) hok
  have := here_exec h1 h hrel (by rw [h2, h3, htt]; dsimp only; omega)
  have hl : (r.lookup key).isSome := by rw [this.lookup]; rfl
  exact ⟨hl, fun v' c' => by rw [tryReserve_none hl]⟩

/-- Two consumers compete; maintenance runs; another key is released. -/
example :
    let h0 : List (Reserver.Op Nat Nat String) := [.tryReserve 7 70 "b", .advance 400]
    let r := (((Reserver.new 1000).exec h0).tryReserve 1 10 "a")
    let h : List (Reserver.Op Nat Nat String) := [.tryReserve 1 11 "b", .advance 300, .runPendingTasks,
      .finish 7 false, .evict 1, .finish 1 true, .advance 600, .runPendingTasks]
    r.1 = some 10 ∧ NeverReleased 1 r.2 h ∧ elapsed h = 900 ∧ (r.2.exec h).now = 1300 ∧
      (r.2.exec h).isReserved 7 = false ∧ (r.2.exec h).isReserved 1 = true := by
  refine ⟨by decide +kernel, ?_, by decide +kernel, by decide +kernel, by decide +kernel,
    by decide +kernel⟩
  simp only [NeverReleased]; decide +kernel

/-- **C25, expiry.** Once the time to live has passed since the reservation, and unless `key` was
reserved anew in the meantime, it is not reserved any more and can be reserved. -/
theorem C25_expires (ttl : Nat) (h0 h : List (Reserver.Op κ ν σ)) (key : κ) (v : ν) (c : σ)
    (hok : (((Reserver.new ttl).exec h0).tryReserve key v c).1 = some v)
    (hnew : NeverReserved key (((Reserver.new ttl).exec h0).tryReserve key v c).2 h)
    (ht : ttl ≤ elapsed h) :
    let r := (((Reserver.new ttl).exec h0).tryReserve key v c).2.exec h
    r.isReserved key = false ∧ ∀ v' c', (r.tryReserve key v' c').1 = some v' := by
  have htt : ((Reserver.new ttl : Reserver κ ν σ).exec h0).ttl = ttl := ttl_exec _ _
  generalize (Reserver.new ttl : Reserver κ ν σ).exec h0 = r0 at *
  intro r
  have hlook : r0.lookup key = none := by
    cases hl : r0.lookup key with
    | none => rfl
    | some e => rw [tryReserve_none (by rw [hl]; rfl)] at hok; cases hok
  have hr1 := tryReserve_some hlook v c
  have hold : ∀ e, (r0.tryReserve key v c).2.cache.get key = some e → e.reservedAt ≤ r0.now := by
    intro e he
    rw [hr1] at he
    replace he : Map.get (Map.set _ _ _) _ = _ := he
    rw [Map.get_set, if_pos rfl] at he
    cases he; exact Nat.le_refl _
  have h2 := old_exec hold h hnew
  have hnow : r.now = r0.now + elapsed h := by
    show Reserver.now (Reserver.exec _ h) = _
    rw [now_exec, hr1]; simp
  have httl : r.ttl = ttl := by
    show Reserver.ttl (Reserver.exec _ h) = _
    rw [ttl_exec, hr1, ← htt]; simp
  have hl : r.lookup key = none := by
    unfold Reserver.lookup
    cases hg : r.cache.get key with
    | none => rfl
    | some e =>
      have h3 := h2 e hg
      have : r.alive e = false := by
        refine decide_eq_false ?_
        rw [hnow, httl]; omega
      simp [this]
  refine ⟨by unfold isReserved; rw [hl]; rfl, fun v' c' => by rw [tryReserve_some hl]⟩

variable [DecidableEq ν]

/-- **C25, notices.** Let the reservation carry a value `v` that no other reservation carries, so that
notices with the value `v` are the notices about this reservation. Then
* if it is released before its time is over, no notice about it is ever sent;
* before its time is over, none has been sent;
* if it was not released in time, then as soon as maintenance has run after its time was over,
  exactly one has been sent, to the consumer that made the reservation;
* at no time more than one has been sent. -/
theorem C25_notices (ttl : Nat) (h0 h : List (Reserver.Op κ ν σ)) (key : κ) (v : ν) (c : σ)
    (hok : (((Reserver.new ttl).exec h0).tryReserve key v c).1 = some v)
    (hu : ∀ op ∈ h0 ++ h, ¬ op.uses v) :
    let r1 := (((Reserver.new ttl).exec h0).tryReserve key v c).2
    let r := r1.exec h
    (ReleasedWithin ttl key r1 h → r.noticesOf v = []) ∧
    (elapsed h < ttl → r.noticesOf v = []) ∧
    (∀ h1 h2, h = h1 ++ .runPendingTasks :: h2 → ttl ≤ elapsed h1 → ¬ ReleasedWithin ttl key r1 h →
      r.noticesOf v = [(c, v)]) ∧
    (r.noticesOf v = [] ∨ r.noticesOf v = [(c, v)]) := by
  have htt : ((Reserver.new ttl : Reserver κ ν σ).exec h0).ttl = ttl := ttl_exec _ _
  have hg0 : Gone v [] ((Reserver.new ttl : Reserver κ ν σ).exec h0) :=
    gone_exec (r := Reserver.new ttl) ⟨fun k e' hk => (by cases hk), rfl⟩ h0 fun op ho => hu op (List.mem_append_left _ ho)
  have hu2 : ∀ op ∈ h, ¬ op.uses v := fun op ho => hu op (List.mem_append_right _ ho)
  generalize (Reserver.new ttl : Reserver κ ν σ).exec h0 = r0 at *
  intro r1 r
  have hlook : r0.lookup key = none := by
    cases hl : r0.lookup key with
    | none => rfl
    | some e => rw [tryReserve_none (by rw [hl]; rfl)] at hok; cases hok
  have hr1 : r1 = { r0.drop key with cache := (r0.drop key).cache.set key ⟨v, c, r0.now⟩ } := by
    show (r0.tryReserve key v c).2 = _
    rw [tryReserve_some hlook v c]
  have hd := gone_drop hg0 key
  have hheld : Held key ⟨v, c, r0.now⟩ r1 := by
    rw [hr1]
    refine ⟨?_, ?_, hd.sent⟩
    · show Map.get (Map.set _ _ _) _ = _
      rw [Map.get_set, if_pos rfl]
    · intro k e' hk hv
      replace hk : Map.get (Map.set _ _ _) _ = _ := hk
      rw [Map.get_set] at hk
      split at hk
      · rename_i h; exact h.symm
      · exact absurd hv (hd.absent k e' hk)
  have hnow : r1.now = r0.now := by rw [hr1]; exact drop_now _ _
  have httl : r1.ttl = ttl := by rw [hr1]; show (r0.drop key).ttl = ttl; rw [drop_ttl, htt]
  have halive : ∀ hs, (r1.exec hs).alive ⟨v, c, r0.now⟩ = decide (elapsed hs < ttl) := by
    intro hs
    unfold alive
    rw [now_exec, ttl_exec, hnow, httl]
    apply decide_eq_decide.2
    dsimp only; omega
  have hsub : (⟨v, c, r0.now⟩ : Reservation ν σ).reservedAt + r1.ttl - r1.now = ttl := by
    rw [hnow, httl]; dsimp only; omega
  -- a reservation with time to live zero is over at once
  by_cases hz : ttl = 0
  · have h1 := late_exec ⟨Or.inl hheld, by have := halive []; simpa [exec, hz] using this⟩ h hu2
    refine ⟨?_, fun hlt => by omega, ?_, ?_⟩
    · rintro ⟨_, _, _, _, hlt, _⟩; omega
    · rintro h1' h2 rfl _ _
      have h3 := late_exec ⟨Or.inl hheld, by have := halive []; simpa [exec, hz] using this⟩ h1'
        (fun o ho => hu2 o (List.mem_append_left _ ho))
      have h4 := late_runPendingTasks h3
      have h5 := gone_exec h4 h2 (fun o ho => hu2 o (List.mem_append_right _ (List.mem_cons_of_mem _ ho)))
      show noticesOf v (r1.exec (h1' ++ .runPendingTasks :: h2)) = _
      rw [exec_append]; exact h5.sent
    · rcases h1.1 with h1 | h1
      · exact Or.inl h1.quiet
      · exact Or.inr h1.sent
  have ha1 : r1.alive ⟨v, c, r0.now⟩ = true := by
    have := halive []
    rw [show r1.exec [] = r1 from rfl] at this
    rw [this]; exact decide_eq_true (show elapsed ([] : List (Reserver.Op κ ν σ)) < ttl from
      Nat.pos_of_ne_zero hz)
  have hfate := fate hheld ha1 h hu2
  rw [hsub, halive h] at hfate
  refine ⟨fun hrel => ?_, fun hlt => ?_, ?_, ?_⟩
  · rcases hfate with ⟨_, hg⟩ | ⟨hn, _⟩ | ⟨hn, _⟩
    · exact hg.sent
    · exact absurd hrel hn
    · exact absurd hrel hn
  · rcases hfate with ⟨_, hg⟩ | ⟨_, _, hh⟩ | ⟨_, hna, _⟩
    · exact hg.sent
    · exact hh.quiet
    · exact absurd hlt (of_decide_eq_false hna)
  · rintro h1 h2 rfl hle hn
    have hfate := fate hheld ha1 h1 (fun o ho => hu2 o (List.mem_append_left _ ho))
    rw [hsub, halive h1] at hfate
    have hn1 : ¬ ReleasedWithin ttl key r1 h1 := by
      rintro ⟨a, op, b, rfl, hlt, hrel⟩
      exact hn ⟨a, op, b ++ .runPendingTasks :: h2, by simp, hlt, hrel⟩
    rcases hfate with ⟨hr, _⟩ | ⟨_, ha, _⟩ | ⟨_, hna, hh⟩
    · exact absurd hr hn1
    · exact absurd (of_decide_eq_true ha) (by omega)
    · have h4 := late_runPendingTasks ⟨hh, by rw [halive h1]; exact hna⟩
      have h5 := gone_exec h4 h2 (fun o ho => hu2 o (List.mem_append_right _ (List.mem_cons_of_mem _ ho)))
      show noticesOf v (r1.exec (h1 ++ .runPendingTasks :: h2)) = _
      rw [exec_append]; exact h5.sent
  · rcases hfate with ⟨_, hg⟩ | ⟨_, _, hh⟩ | ⟨_, _, hh | hg⟩
    · exact Or.inl hg.sent
    · exact Or.inl hh.quiet
    · exact Or.inl hh.quiet
    · exact Or.inr hg.sent

/-- Key 1 is reserved by `a`, expires and is reserved again by `b`, who finishes in time. -/
example :
    let h0 : List (Reserver.Op Nat Nat String) := [.advance 5]
    let r1 := (((Reserver.new 1000).exec h0).tryReserve 1 10 "a")
    let h : List (Reserver.Op Nat Nat String) := [.advance 999, .runPendingTasks, .advance 1,
      .tryReserve 1 11 "b", .runPendingTasks, .finish 1 false, .advance 2000, .runPendingTasks]
    r1.1 = some 10 ∧ (r1.2.exec h).notices = [("a", 10)] ∧ (r1.2.exec (h.take 2)).notices = [] := by
  decide +kernel

omit [DecidableEq ν] in
/-- **C26, retry.** A chunk put back for retry is reservable at once. -/
theorem C26_retry_at_once (r : Reserver κ ν σ) (key : κ) (v : ν) (c : σ) :
    (r.finish key false).2.isReserved key = false ∧
    ((r.finish key false).2.tryReserve key v c).1 = some v := by
  have hl : (r.finish key false).2.lookup key = none := by
    unfold finish
    cases hl : r.lookup key with
    | none => exact hl
    | some e => simp [Reserver.lookup, drop_get]
  exact ⟨by unfold isReserved; rw [hl]; rfl, by rw [tryReserve_some hl]⟩

example : ((Reserver.new 1000 : Reserver Nat Nat String).exec
    [.tryReserve 1 10 "a", .advance 3]).isReserved 1 = true := by decide +kernel

/-- Full statement of the first half of C26: after any delayed finish of a reserved key, and until one
second has passed or its reservation has expired, the key stays reserved unless someone explicitly
releases it. -/
def C26_full (κ ν σ : Type) [DecidableEq κ] : Prop :=
  ∀ (ttl : Nat) (h0 h : List (Reserver.Op κ ν σ)) (key : κ) (reservedAt : Nat),
    let r0 := (Reserver.new ttl).exec h0
    (r0.finish key true).1 = some reservedAt →
    (∀ op ∈ h, op ≠ .finish key false ∧ op ≠ .finishSync key) →
    elapsed h < 1000 → r0.now + elapsed h < reservedAt + ttl →
    ((r0.finish key true).2.exec h).isReserved key = true

/-- **C26, refuted in full generality.** If the same key was finished before (for instance a report
that was sent twice), the earlier delayed removal ends the reservation too early. -/
theorem C26_refuted_for_repeated_finish : ¬ C26_full Nat Nat String := by
  intro h
  have := h 60000 [.tryReserve 1 10 "a", .finish 1 true, .advance 999] [.advance 1, .runPendingTasks]
    1 0
  revert this
  decide +kernel

omit [DecidableEq ν] in
/-- **C26.** After a delayed finish (completion, permanent failure) of a reserved key for which no
delayed removal is pending yet: until one second has passed or the reservation has expired, the key
stays reserved, and no attempt to reserve it succeeds, unless someone explicitly releases it.
(Missing: keys with an earlier delayed removal pending, for which the claim is false.) -/
theorem C26_stays_reserved_partial (ttl : Nat) (h0 h : List (Reserver.Op κ ν σ)) (key : κ)
    (reservedAt : Nat)
    (hok : (((Reserver.new ttl).exec h0).finish key true).1 = some reservedAt)
    (hpend : ∀ p ∈ ((Reserver.new ttl : Reserver κ ν σ).exec h0).pending, p.1 ≠ key)
    (hrel : ∀ op ∈ h, op ≠ .finish key false ∧ op ≠ .finishSync key)
    (h1s : elapsed h < 1000)
    (ht : ((Reserver.new ttl : Reserver κ ν σ).exec h0).now + elapsed h < reservedAt + ttl) :
    let r := (((Reserver.new ttl).exec h0).finish key true).2.exec h
    r.isReserved key = true ∧ ∀ v' c', (r.tryReserve key v' c').1 = none := by
  have htt : ((Reserver.new ttl : Reserver κ ν σ).exec h0).ttl = ttl := ttl_exec _ _
  generalize (Reserver.new ttl : Reserver κ ν σ).exec h0 = r0 at *
  intro r
  cases hl : r0.lookup key with
  | none => unfold finish at hok; rw [hl] at hok; cases hok
  | some e =>
    have hf : r0.finish key true = (some e.reservedAt, r0.schedule key) := by
      unfold finish; rw [hl]; rfl
    rw [hf] at hok
    have he : e.reservedAt = reservedAt := by simpa using hok
    have hhere : Here key e (r0.schedule key) := by
      have hg : r0.cache.get key = some e ∧ r0.alive e = true := by
        unfold Reserver.lookup at hl
        exact Option.filter_eq_some_iff.1 hl
      exact ⟨hg.1, hg.2⟩
    have hn : NeverReleased key (r0.schedule key) h := by
      refine neverReleased_of_pending (r := r0.schedule key) (t := r0.now + removalDelay) ?_ (Nat.le_refl _) h ?_ hrel
      · intro p hp hk
        simp only [schedule, List.mem_append, List.mem_singleton] at hp
        rcases hp with hp | rfl
        · exact absurd hk (hpend p hp)
        · exact Nat.le_refl _
      · show r0.now + elapsed h < r0.now + 1000; omega
    have := here_exec hhere h hn (by show r0.now + _ < _ + r0.ttl; rw [he, htt]; exact ht)
    have hl : (r.lookup key).isSome := by
      show (Reserver.lookup (Reserver.exec (r0.finish key true).2 h) key).isSome
      rw [hf, this.lookup]; rfl
    exact ⟨hl, fun v' c' => by rw [tryReserve_none hl]⟩

example :
    let r0 := (Reserver.new 60000 : Reserver Nat Nat String).exec
      [.tryReserve 1 10 "a", .tryReserve 2 20 "b", .finish 2 true, .advance 700]
    let h : List (Reserver.Op Nat Nat String) := [.advance 600, .runPendingTasks, .tryReserve 1 11 "b",
      .advance 399]
    (r0.finish 1 true).1 = some 0 ∧ (∀ p ∈ r0.pending, p.1 ≠ 1) ∧
    ((r0.finish 1 true).2.exec h).isReserved 1 = true ∧
    ((r0.finish 1 true).2.exec h).isReserved 2 = false ∧
    ((r0.finish 1 true).2.exec (h ++ [.advance 1, .runPendingTasks])).isReserved 1 = false := by
  decide +kernel

end Opsqueue
