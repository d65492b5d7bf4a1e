import Verif.Spec.Durations

/-!
# C103: the server works with the durations it was given
-/

namespace Opsqueue.Durations

/-- The full statement: with all durations that the command line accepts, the server runs and serves its consumers. -/
def C103_full : Prop := ∀ cfg, Accepted cfg → ∀ h, Plausible h → Works cfg h

private theorem works_from (cfg : Config) (hp : 0 < cfg.heartbeatInterval)
    (hp2 : cfg.heartbeatInterval + 1000 * year < 2 ^ 63 * 1000000000)
    (ha : cfg.maxSubmissionAge ≤ 8334601228800 * 1000000000) :
    ∀ (h : List Entry) (s : State) (b : Nat → Bool), Plausible h → s.up = true → (∀ c, c ∈ s.conns ↔ b c = true) →
      (h.foldl (step cfg) s).up = true ∧ ∀ c, c ∈ (h.foldl (step cfg) s).conns ↔ joined c h (b c) = true := by
  intro h
  induction h with
  | nil => intro s b _ hu hc; exact ⟨hu, hc⟩
  | cons e h ih =>
    intro s b hpl hu hc
    have hm : e.mono ≤ 1000 * year := hpl e (List.mem_cons_self ..)
    have hpl' : Plausible h := fun x hx => hpl x (List.mem_cons_of_mem _ hx)
    have hadd : ∀ t, t ≤ e.mono → (instantAdd t cfg.heartbeatInterval).isSome = true := by
      intro t ht
      unfold instantAdd second
      rw [if_pos (by omega)]; rfl
    simp only [List.foldl_cons, joined]
    refine ih _ (fun c => match e.event with
      | .connect d => b c || d == c
      | .leave d => b c && d != c
      | _ => b c) hpl' ?_ ?_
    all_goals (unfold step; rw [if_pos hu])
    · cases hev : e.event with
      | connect c => simp only; split <;> exact hu
      | message c => simp only; split <;> exact hu
      | tick c due => simp only; split; exact hu; split <;> exact hu
      | leave c => exact hu
      | cleanup =>
        simp only
        rw [if_pos]; exact hu
        unfold dateSub minDate second
        rw [if_neg (by omega), if_neg (by omega)]; rfl
    · intro c
      cases hev : e.event with
      | connect d =>
        simp only
        rw [if_pos (by unfold intervalBuilds; simp; omega)]
        simp only [List.mem_cons, hc, Bool.or_eq_true, beq_iff_eq]
        constructor
        · rintro (h | h); exact .inr h.symm; exact .inl h
        · rintro (h | h); exact .inr h; exact .inl h.symm
      | message d => simp only; rw [if_pos (hadd _ (Nat.le_refl _))]; exact hc c
      | tick d due =>
        simp only
        split
        · exact hc c
        · rw [if_pos (hadd _ (by omega))]; exact hc c
      | leave d =>
        simp only [State.drop, List.mem_filter, hc, Bool.and_eq_true, bne_iff_ne, ne_eq]
        constructor
        · rintro ⟨a, b⟩; exact ⟨a, fun h => b h.symm⟩
        · rintro ⟨a, b⟩; exact ⟨a, fun h => b h.symm⟩
      | cleanup =>
        simp only
        rw [if_pos]; exact hc c
        unfold dateSub minDate second
        rw [if_neg (by omega), if_neg (by omega)]; rfl

/-- **C103, what works.** The durations with which the server always works are exactly these: reservations that expire after at most
1000 years, a heartbeat interval that is not zero and less than 2^63 seconds less 1000 years, and an age of at most 8334601228800
seconds (about 264000 years). -/
theorem C103_exactly (cfg : Config) :
    (∀ h, Plausible h → Works cfg h) ↔
      cfg.reservationExpiration ≤ 1000 * year ∧
      0 < cfg.heartbeatInterval ∧ cfg.heartbeatInterval + 1000 * year < 2 ^ 63 * 1000000000 ∧
      cfg.maxSubmissionAge ≤ 8334601228800 * 1000000000 := by
  constructor
  · intro hw
    have h0 := (hw [] (by intro e he; cases he)).1
    have hstart : cacheBuilds cfg.reservationExpiration = true := h0
    have hz := (hw [⟨0, 0, .connect 1⟩] (by intro e he; simp at he; subst he; simp)).2 1
    have hl := (hw [⟨0, 0, .connect 1⟩, ⟨0, 1000 * year, .message 1⟩]
      (by intro e he; simp at he; rcases he with rfl | rfl <;> simp)).2 1
    have hc := (hw [⟨0, 0, .cleanup⟩] (by intro e he; simp at he; subst he; simp)).1
    have hp : 0 < cfg.heartbeatInterval := by
      rcases Nat.eq_zero_or_pos cfg.heartbeatInterval with hp | hp
      · simp [run, start, step, hstart, joined, intervalBuilds, hp] at hz
      · exact hp
    refine ⟨?_, hp, ?_, ?_⟩
    · unfold cacheBuilds second at hstart; simp at hstart; unfold year; omega
    · apply Classical.byContradiction
      intro hn
      have hi : instantAdd (1000 * year) cfg.heartbeatInterval = none := by
        unfold instantAdd second; rw [if_neg (by omega)]
      have hb : intervalBuilds cfg.heartbeatInterval = true := by unfold intervalBuilds; simp; omega
      simp [run, start, step, hstart, joined, State.drop, hi, hb] at hl
    · apply Classical.byContradiction
      intro hn
      have hd : dateSub 0 cfg.maxSubmissionAge = none := by
        unfold dateSub minDate second
        split
        · rfl
        · rw [if_pos (by omega)]
      simp [run, start, step, hstart, hd] at hc
  · rintro ⟨h1, h2, h3, h4⟩ h hpl
    refine works_from cfg h2 h3 h4 h (start cfg) (fun _ => false) hpl ?_ ?_
    · unfold start cacheBuilds second; simp; unfold year at h1; omega
    · intro c; simp [start]

/-- **C103, what is missing**: it holds of all durations of at most 1000 years, if the heartbeat interval is not zero. -/
theorem C103_up_to_a_thousand_years_partial (cfg : Config) (h1 : cfg.reservationExpiration ≤ 1000 * year)
    (h2 : cfg.heartbeatInterval ≤ 1000 * year) (h3 : cfg.maxSubmissionAge ≤ 1000 * year) (h0 : cfg.heartbeatInterval ≠ 0)
    (h : List Entry) (hp : Plausible h) : Works cfg h := by
  refine (C103_exactly cfg).2 ⟨h1, by omega, ?_, ?_⟩ h hp
  · unfold year at *; omega
  · unfold year at *; omega

/-- The default durations, and reservations that expire at once. -/
example : (default.reservationExpiration ≤ 1000 * year ∧ default.heartbeatInterval ≤ 1000 * year ∧
    default.maxSubmissionAge ≤ 1000 * year ∧ default.heartbeatInterval ≠ 0) ∧ Accepted default ∧
    ({ default with reservationExpiration := 0 } : Config).reservationExpiration ≤ 1000 * year := by
  refine ⟨by decide +kernel, ?_, by decide⟩
  unfold Accepted; decide +kernel

/-- A day of a server with two consumers, one of which leaves. -/
example : run default [⟨5, 5, .cleanup⟩, ⟨6, 6, .connect 1⟩, ⟨7, 7, .connect 2⟩, ⟨7, 7, .tick 1 6⟩, ⟨9000000, 9000000, .tick 2 7⟩,
    ⟨10000000, 10000000, .message 1⟩, ⟨11000000, 11000000, .leave 1⟩] = ⟨true, [2]⟩ := by decide +kernel

/-- **C103, no heartbeats.** With a heartbeat interval of zero the server runs all the same, whatever happens, and no consumer ever has
a connection. -/
theorem C103_zero_heartbeat_interval (cfg : Config) (h0 : cfg.heartbeatInterval = 0)
    (h1 : cfg.reservationExpiration ≤ 1000 * year) (h2 : cfg.maxSubmissionAge ≤ 1000 * year) (h : List Entry) :
    (run cfg h).up = true ∧ (run cfg h).conns = [] := by
  suffices ∀ (h : List Entry) (s : State), s.up = true → s.conns = [] →
      (h.foldl (step cfg) s).up = true ∧ (h.foldl (step cfg) s).conns = [] by
    refine this h (start cfg) ?_ rfl
    unfold start cacheBuilds second; simp; unfold year at h1; omega
  intro h
  induction h with
  | nil => intro s a b; exact ⟨a, b⟩
  | cons e h ih =>
    intro s hu hc
    simp only [List.foldl_cons]
    have hd : ∀ c, (s.drop c).up = true ∧ (s.drop c).conns = [] := fun c => ⟨hu, by simp [State.drop, hc]⟩
    have : (step cfg s e).up = true ∧ (step cfg s e).conns = [] := by
      unfold step
      rw [if_pos hu]
      cases e.event with
      | connect c => simp [intervalBuilds, h0, hu, hc]
      | message c => simp only; split; exact ⟨hu, hc⟩; exact hd c
      | tick c due => simp only; split; exact ⟨hu, hc⟩; split; exact ⟨hu, hc⟩; exact hd c
      | leave c => exact hd c
      | cleanup =>
        simp only
        rw [if_pos]; exact ⟨hu, hc⟩
        unfold dateSub minDate second
        unfold year at h2
        rw [if_neg (by omega), if_neg (by omega)]; rfl
    exact ih _ this.1 this.2

example : ({ default with heartbeatInterval := 0 } : Config).heartbeatInterval = 0 ∧
    ({ default with heartbeatInterval := 0 } : Config).maxSubmissionAge ≤ 1000 * year ∧
    run { default with heartbeatInterval := 0 } [⟨5, 5, .cleanup⟩, ⟨6, 6, .connect 1⟩, ⟨7, 7, .connect 1⟩] = ⟨true, []⟩ := by
  decide +kernel

/-- **C103, too long an interval.** With a heartbeat interval of 2^63 seconds or more, a connection ends with the first message
that is received on it. -/
theorem C103_long_heartbeat_interval (cfg : Config) (h0 : 2 ^ 63 * 1000000000 ≤ cfg.heartbeatInterval) (h : List Entry)
    (wall mono c : Nat) : c ∉ (run cfg (h ++ [⟨wall, mono, .message c⟩])).conns ∨ (run cfg h).up = false := by
  unfold run
  rw [List.foldl_append]
  generalize h.foldl (step cfg) (start cfg) = s
  rcases hu : s.up with _ | _
  · exact .inr rfl
  · refine .inl ?_
    have hi : instantAdd mono cfg.heartbeatInterval = none := by
      unfold instantAdd second; rw [if_neg (by omega)]
    simp [step, hu, hi, State.drop]

/-- The command line accepts such an interval, and the connection was open before. -/
example : parses (2 ^ 63 * 1000000000) = true ∧
    run { default with heartbeatInterval := 2 ^ 63 * 1000000000 } [⟨6, 6, .connect 1⟩, ⟨6, 6, .tick 1 6⟩] = ⟨true, [1]⟩ ∧
    run { default with heartbeatInterval := 2 ^ 63 * 1000000000 } [⟨6, 6, .connect 1⟩, ⟨6, 6, .tick 1 6⟩, ⟨7, 7, .message 1⟩] =
      ⟨true, []⟩ := by decide +kernel

/-- **C103, too great an age.** If `--max-submission-age` goes back beyond the year -262143, the server ends with the first round of
the cleanup; if `--reservation-expiration` is more than 1000 years, it ends at once. -/
theorem C103_ends_at_start (cfg : Config) (h : List Entry) (wall mono : Nat) :
    (1000 * year < cfg.reservationExpiration → (run cfg h).up = false) ∧
    (wall + 8334601228800 * 1000000000 < cfg.maxSubmissionAge → (run cfg (⟨wall, mono, .cleanup⟩ :: h)).up = false) := by
  have down : ∀ (h : List Entry) (s : State), s.up = false → (h.foldl (step cfg) s).up = false := by
    intro h
    induction h with
    | nil => intro s a; exact a
    | cons e h ih => intro s a; refine ih _ ?_; unfold step; rw [if_neg (by simp [a])]; exact a
  constructor
  · intro h1
    refine down h _ ?_
    unfold start cacheBuilds second; simp; unfold year at h1; omega
  · intro h1
    refine down h _ ?_
    unfold step
    split
    · have hd : dateSub wall cfg.maxSubmissionAge = none := by
        unfold dateSub minDate second
        split
        · rfl
        · rw [if_pos (by omega)]
      simp [hd]
    · next hn => simpa using hn

/-- Three hundred thousand years, in the year 2026, and ten thousand years. -/
example : 1800000000 * 1000000000 + 8334601228800 * 1000000000 < 300000 * year ∧ parses (300000 * year) = true ∧
    1000 * year < 10000 * year ∧ parses (10000 * year) = true := by decide +kernel

/-- **C103 is refuted**, by a heartbeat interval of zero: a consumer who connects has no connection. -/
theorem C103_refuted : ¬ C103_full := by
  intro hf
  have hw := (hf { default with heartbeatInterval := 0 } (by unfold Accepted; decide +kernel) [⟨0, 0, .connect 1⟩]
    (by intro e he; simp at he; subst he; simp)).2 1
  have h2 := (C103_zero_heartbeat_interval { default with heartbeatInterval := 0 } rfl (by decide +kernel) (by decide +kernel)
    [⟨0, 0, .connect 1⟩]).2
  rw [h2] at hw
  simp [joined] at hw

/-- **C103 is refuted in four ways**: the command line accepts all of these, and the server does not always work with any of them. -/
theorem C103_refuted_in_four_ways (cfg : Config) (h : cfg ∈ [{ default with heartbeatInterval := 0 },
      { default with heartbeatInterval := 2 ^ 63 * 1000000000 }, { default with reservationExpiration := 10000 * year },
      { default with maxSubmissionAge := 300000 * year }]) :
    Accepted cfg ∧ ¬ ∀ h, Plausible h → Works cfg h := by
  rw [C103_exactly]
  simp only [List.mem_cons, List.not_mem_nil, or_false] at h
  rcases h with rfl | rfl | rfl | rfl
  all_goals (refine ⟨?_, by decide +kernel⟩; unfold Accepted; decide +kernel)

end Opsqueue.Durations
