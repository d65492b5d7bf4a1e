import Verif.Proofs.Interrupt

/-!
# C90: Ctrl-C ends the calls of the Python client
-/

namespace Opsqueue.Interrupt

/-- **C90, single calls.** A blocking call that begins at `t` (for instance a producer that waits for a submission, or a
consumer that waits for work), whatever it waits for and however long, ends at most one check interval after a signal at
`s` (if it begins while the signal is pending: after its beginning). -/
theorem C90_blocking_call (interval s t : Nat) (hi : 1 ≤ interval) (stage : Stage) :
    ∃ T b, block interval (some s) t stage = some (T, b) ∧ T ≤ max s t + interval :=
  block_ends interval s t hi stage

/-- **C90, no false alarm.** A call is interrupted only if there was a signal; otherwise it takes the time that what it waits
for takes. -/
theorem C90_no_false_alarm (interval t : Nat) (hi : 1 ≤ interval) (sig : Option Nat) (stage : Stage) (T : Nat) (b : Bool)
    (h : block interval sig t stage = some (T, b)) :
    (b = true → ∃ s, sig = some s ∧ s ≤ T) ∧ (b = false → ∃ d, stage.took = some d ∧ T = t + d) :=
  block_result interval t hi sig stage T b h

/-- A wait of 10 minutes that begins at 300, and Ctrl-C at 4711: it ends at 5300. -/
example : block (checkInterval false) (some 4711) 300 ⟨some 600000, true⟩ = some (5300, true) ∧
    block (checkInterval false) (some 4711) 300 ⟨none, true⟩ = some (5300, true) ∧
    block (checkInterval false) (some 4711) 300 ⟨some 4500, true⟩ = some (4800, false) ∧
    block (checkInterval false) none 300 ⟨some 600000, true⟩ = some (600300, false) := by decide +kernel

/-! ## Reserving chunks -/

/-- **C90, reserving.** If no answer is an empty list, `reserve_chunks` ends at most one check interval after the signal.
(A server whose database works does not answer with an empty list: it waits for work.) -/
theorem C90_reserve_partial {ε α : Type} (interval s t : Nat) (hi : 1 ≤ interval) (tries : Nat → Attempt ε α)
    (hans : ∀ k, (tries k).answer ≠ .ok []) :
    ∃ fuel T o, reserve interval (some s) tries fuel 0 t = some (T, o) ∧ T ≤ max s t + interval := by
  obtain ⟨T, b, h, hT⟩ := C90_blocking_call interval s t hi (tries 0).request
  cases b with
  | true => exact ⟨1, T, .interrupted, by simp only [reserve, h], hT⟩
  | false =>
    cases ha : (tries 0).answer with
    | error e => exact ⟨1, T, .failed e, by simp only [reserve, h, ha], hT⟩
    | ok l =>
      cases l with
      | nil => exact absurd ha (hans 0)
      | cons c cs => exact ⟨1, T, .chunks (c :: cs), by simp only [reserve, h, ha], hT⟩

/-- **C90 for the check interval of debug builds**, or any that is shorter than the pause after an empty answer: whatever
the answers are, `reserve_chunks` ends at most three check intervals after the signal. -/
theorem C90_reserve_short_interval {ε α : Type} (interval s t : Nat) (hi : 1 ≤ interval) (hp : interval < 500)
    (tries : Nat → Attempt ε α) :
    ∃ fuel T o, reserve interval (some s) tries fuel 0 t = some (T, o) ∧ T ≤ max s t + 3 * interval := by
  suffices h : ∀ (n k t : Nat), s - t ≤ n →
      ∃ fuel T o, reserve interval (some s) tries fuel k t = some (T, o) ∧ T ≤ max s t + 3 * interval from
    h (s - t) 0 t (Nat.le_refl _)
  intro n
  induction n using Nat.strongRecOn with
  | _ n ih =>
    intro k t hn
    by_cases hst : s ≤ t
    · obtain ⟨T, o, h, hT⟩ := reserve_pending interval s hi hp tries k t hst
      exact ⟨1, T, o, h, by omega⟩
    obtain ⟨T, b, h, hT⟩ := C90_blocking_call interval s t hi (tries k).request
    have hge := C90_no_false_alarm interval t hi (some s) (tries k).request T b h
    cases b with
    | true => exact ⟨1, T, .interrupted, by simp only [reserve, h], by omega⟩
    | false =>
      obtain ⟨d, -, hd⟩ := hge.2 rfl
      cases ha : (tries k).answer with
      | error e => exact ⟨1, T, .failed e, by simp only [reserve, h, ha], by omega⟩
      | ok l =>
        cases l with
        | cons c cs => exact ⟨1, T, .chunks (c :: cs), by simp only [reserve, h, ha], by omega⟩
        | nil =>
          obtain ⟨T', b', h', hT'⟩ := C90_blocking_call interval s T hi ⟨some pollInterval, (tries k).chosen⟩
          cases b' with
          | true => exact ⟨1, T', .interrupted, by simp only [reserve, h, ha, h'], by omega⟩
          | false =>
            obtain ⟨d', hd', e'⟩ := (C90_no_false_alarm interval T hi (some s) _ T' false h').2 rfl
            have : d' = 500 := by cases hd'; rfl
            subst this
            by_cases hs' : s ≤ T'
            · by_cases hs2 : s ≤ T
              · rw [block_pending hi (show interval < pollInterval from hp) hs2] at h'
                cases h'
              · obtain ⟨T2, o, h2, hT2⟩ := reserve_pending interval s hi hp tries (k + 1) T' hs'
                exact ⟨2, T2, o, by rw [reserve]; simp only [h, ha, h', h2], by omega⟩
            · obtain ⟨fuel, T2, o, h2, hT2⟩ := ih (s - T') (by omega) (k + 1) T' (Nat.le_refl _)
              exact ⟨fuel + 1, T2, o, by simp only [reserve, h, ha, h', h2], by omega⟩

/-- **C90, reserving, no false alarm.** Whatever `reserve_chunks` returns, a request was answered with; it is interrupted only
after a signal. -/
theorem C90_reserve_honest {ε α : Type} (interval : Nat) (hi : 1 ≤ interval) (sig : Option Nat) (tries : Nat → Attempt ε α)
    (fuel : Nat) : ∀ (k t T : Nat) (o : Outcome ε α), reserve interval sig tries fuel k t = some (T, o) →
    match o with
    | .interrupted => ∃ s, sig = some s ∧ s ≤ T
    | .failed e => ∃ j, (tries j).answer = .error e
    | .chunks l => l ≠ [] ∧ ∃ j, (tries j).answer = .ok l := by
  induction fuel with
  | zero => intro k t T o h; cases h
  | succ fuel ih =>
    intro k t T o h
    rw [reserve] at h
    cases h1 : block interval sig t (tries k).request with
    | none => rw [h1] at h; cases h
    | some r =>
      obtain ⟨T1, b⟩ := r
      rw [h1] at h
      cases b with
      | true => cases h; exact (block_result interval t hi sig _ _ _ h1).1 rfl
      | false =>
        dsimp only at h
        cases ha : (tries k).answer with
        | error e => rw [ha] at h; cases h; exact ⟨k, ha⟩
        | ok l =>
          rw [ha] at h
          cases l with
          | cons c cs => cases h; exact ⟨by simp, k, ha⟩
          | nil =>
            dsimp only at h
            cases h2 : block interval sig T1 ⟨some pollInterval, (tries k).chosen⟩ with
            | none => rw [h2] at h; cases h
            | some r =>
              obtain ⟨T2, b⟩ := r
              rw [h2] at h
              cases b with
              | true => cases h; exact (block_result interval T1 hi sig _ _ _ h2).1 rfl
              | false => exact ih _ _ _ _ h

example : reserve (ε := Unit) (checkInterval false) (some 9999)
      (fun k => ⟨⟨some 5, true⟩, if k < 3 then .ok [] else .ok [7, 8], true⟩) 10 0 0 = some (1520, .chunks [7, 8]) := by
  decide +kernel

/-- A server whose database fails answers after 5 ms with an empty list; Ctrl-C at 1234. With a check every 100 ms the call
ends at 1315. -/
example : reserve (ε := Unit) (α := Nat) (checkInterval true) (some 1234) (fun _ => ⟨⟨some 5, true⟩, .ok [], true⟩) 10 0 0 =
    some (1315, .interrupted) ∧ checkInterval true < 500 := by decide +kernel

/-- **C90, in full** (for `reserve_chunks` of a release build): whatever the answers, as long as each is given within a
second, the call ends at some time after the signal. -/
def C90_full : Prop :=
  ∀ (s t : Nat) (tries : Nat → Attempt Unit Nat), (∀ k, ∃ d, (tries k).request.took = some d ∧ d < 1000) →
    ∃ fuel T o, reserve (checkInterval false) (some s) tries fuel 0 t = some (T, o)

/-- **C90 is refuted by empty answers.** A server whose database fails answers at once with an empty list. Then the client
sleeps for half a second and asks again. Each of these waits begins the second anew after which a signal would be noticed:
it never is. -/
theorem C90_refuted_by_empty_answers {ε α : Type} (s : Nat) (tries : Nat → Attempt ε α)
    (hans : ∀ k, (tries k).answer = .ok []) (hq : ∀ k, ∃ d, (tries k).request.took = some d ∧ d < 1000) (fuel : Nat) :
    ∀ k t : Nat, reserve (checkInterval false) (some s) tries fuel k t = none := by
  induction fuel with
  | zero => intro k t; rfl
  | succ fuel ih =>
    intro k t
    obtain ⟨d, hd, hlt⟩ := hq k
    have h1 : block (checkInterval false) (some s) t (tries k).request = some (t + d, false) := by
      have := block_done (interval := checkInterval false) (s := s) (t := t) (b := (tries k).request.chosen) (by decide) hlt
      rw [← this, ← hd]
    have h2 := block_done (interval := checkInterval false) (s := s) (t := t + d) (d := pollInterval)
      (b := (tries k).chosen) (by decide) (by decide)
    rw [reserve]
    simp only [h1, hans k, h2]
    exact ih _ _

theorem C90_refuted : ¬ C90_full := by
  intro h
  obtain ⟨fuel, T, o, h⟩ := h 0 0 (fun _ => ⟨⟨some 5, true⟩, .ok [], true⟩) (fun _ => ⟨5, rfl, by decide⟩)
  rw [C90_refuted_by_empty_answers 0 _ (fun _ => rfl) (fun _ => ⟨5, rfl, by decide⟩)] at h
  cases h

/-! ## The consumer's loop -/

/-- **C90, the loop.** If all goes well (also: if there is no work), the loop of a consumer ends after Ctrl-C, at most two
check intervals and the times that the interpreter takes to interrupt the callback and the server to receive the report
later. -/
theorem C90_consumer_stops_partial {ε α : Type} (interval s q D : Nat) (hi : 1 ≤ interval) (rounds : Nat → Round ε α)
    (hw : ∀ k, Well q D (rounds k)) (t : Nat) (ht : t ≤ s) :
    ∃ fuel T, consume interval rounds fuel 0 (some s) t = some T ∧ s ≤ T ∧ T ≤ s + q + 2 * interval + D := by
  -- rounds that begin after the signal
  have late : ∀ k t, s ≤ t →
      ∃ T, consume interval rounds 1 k (some s) t = some T ∧ s ≤ T ∧ T ≤ t + interval + D := by
    intro k t hs
    obtain ⟨T, b, h, hT⟩ := C90_blocking_call interval s t hi ((rounds k).tries 0).request
    obtain ⟨f1, f2⟩ := C90_no_false_alarm interval t hi (some s) _ T b h
    obtain ⟨c, cs, ha⟩ := (hw k).chunk
    cases b with
    | true =>
      obtain ⟨s', e, hs'⟩ := f1 rfl
      cases e
      exact ⟨T, by simp only [consume, reserve, h], hs', by omega⟩
    | false =>
      obtain ⟨d, -, hd⟩ := f2 rfl
      obtain ⟨d', hr, hD⟩ := (hw k).report
      refine ⟨T + d', ?_, by omega, by omega⟩
      rw [consume_raised (reserve_chunks h ha 0) (T2 := T) (by simp only [Callback.call, if_pos (show s ≤ T by omega)]) hr,
        if_pos (hw k).reported]
  suffices h : ∀ (n k t : Nat), s - t ≤ n → t ≤ s →
      ∃ fuel T, consume interval rounds fuel k (some s) t = some T ∧ s ≤ T ∧ T ≤ s + q + 2 * interval + D from
    h (s - t) 0 t (Nat.le_refl _) ht
  intro n
  induction n with
  | zero =>
    intro k t hn hs
    obtain ⟨T, h1, h2, h3⟩ := late k t (by omega)
    exact ⟨1, T, h1, h2, by omega⟩
  | succ n ih =>
    intro k t hn hs
    obtain ⟨T, b, h, hT⟩ := C90_blocking_call interval s t hi ((rounds k).tries 0).request
    obtain ⟨f1, f2⟩ := C90_no_false_alarm interval t hi (some s) _ T b h
    obtain ⟨c, cs, ha⟩ := (hw k).chunk
    cases b with
    | true =>
      obtain ⟨s', e, hs'⟩ := f1 rfl
      cases e
      exact ⟨1, T, by simp only [consume, reserve, h], hs', by omega⟩
    | false =>
      obtain ⟨d, hd1, hd⟩ := f2 rfl
      have hd2 := (hw k).time d hd1
      have hq := (hw k).delay
      obtain ⟨d', hr, hD⟩ := (hw k).report
      by_cases hsT : s ≤ T
      · refine ⟨1, T + d', ?_, by omega, by omega⟩
        rw [consume_raised (reserve_chunks h ha 0) (T2 := T) (by simp only [Callback.call, if_pos hsT]) hr,
          if_pos (hw k).reported]
      · by_cases hc : s + (rounds k).callback.delay ≤ T + (rounds k).callback.took
        · refine ⟨1, s + (rounds k).callback.delay + d', ?_, by omega, by omega⟩
          rw [consume_raised (reserve_chunks h ha 0) (T2 := s + (rounds k).callback.delay)
            (by simp only [Callback.call, if_neg hsT, if_pos hc]) hr, if_pos (hw k).reported]
        · -- the callback has returned
          obtain ⟨T3, b3, h3, hT3⟩ := C90_blocking_call interval s (T + (rounds k).callback.took) hi (rounds k).report
          obtain ⟨g1, g2⟩ := C90_no_false_alarm interval _ hi (some s) _ T3 b3 h3
          cases b3 with
          | true =>
            obtain ⟨s', e, hs'⟩ := g1 rfl
            cases e
            refine ⟨1, T3, ?_, hs', by omega⟩
            rw [consume_returned (reserve_chunks h ha 0) (by simp only [Callback.call, if_neg hsT, if_neg hc]) h3]
            rfl
          | false =>
            obtain ⟨d3, -, hd3⟩ := g2 rfl
            have key : ∀ fuel, consume interval rounds (fuel + 1) k (some s) t =
                consume interval rounds fuel (k + 1) (some s) T3 := by
              intro fuel
              rw [consume_returned (reserve_chunks h ha fuel) (by simp only [Callback.call, if_neg hsT, if_neg hc]) h3]
              rfl
            by_cases hs3 : T3 ≤ s
            · obtain ⟨fuel, T4, h4, h5⟩ := ih (k + 1) T3 (by omega) hs3
              exact ⟨fuel + 1, T4, by rw [key, h4], h5⟩
            · obtain ⟨T4, h4, h5, h6⟩ := late (k + 1) T3 (by omega)
              exact ⟨2, T4, by rw [key, h4], h5, by omega⟩

/-- A busy consumer: a chunk is there within 3 ms, the callback takes 70 ms and notices a signal after 20 ms, a report takes
2 ms. -/
def busy : Round Unit Nat :=
  { tries := fun _ => ⟨⟨some 3, true⟩, .ok [1], true⟩, callback := ⟨70, 20⟩, report := ⟨some 2, true⟩, reported := true }

example : Well 20 2 busy ∧ consume (checkInterval false) (fun _ => busy) 20 0 (some 1000) 0 = some 1022 ∧
    consume (checkInterval false) (fun _ => busy) 20 0 (some 974) 0 = some 980 := by
  refine ⟨⟨⟨1, [], rfl⟩, ?_, by decide, ⟨2, rfl, by decide⟩, rfl⟩, by decide +kernel, by decide +kernel⟩
  intro d h
  cases h
  decide

/-- **C90 is refuted by errors that come at once**: if every reservation fails in less than a second, for instance because
the object store refuses to hand out any input, the loop of a release build goes on and does not notice the signal. -/
theorem C90_refuted_by_quick_errors {ε α : Type} (s : Nat) (rounds : Nat → Round ε α)
    (herr : ∀ k, ∃ e, ((rounds k).tries 0).answer = .error e)
    (hq : ∀ k, ∃ d, ((rounds k).tries 0).request.took = some d ∧ d < 1000) (fuel : Nat) :
    ∀ k t : Nat, consume (checkInterval false) rounds fuel k (some s) t = none := by
  induction fuel with
  | zero => intro k t; rfl
  | succ fuel ih =>
    intro k t
    obtain ⟨d, hd, hlt⟩ := hq k
    obtain ⟨e, he⟩ := herr k
    have h1 : block (checkInterval false) (some s) t ((rounds k).tries 0).request = some (t + d, false) := by
      have := block_done (interval := checkInterval false) (s := s) (t := t) (b := ((rounds k).tries 0).request.chosen)
        (by decide) hlt
      rw [← this, ← hd]
    rw [consume]
    simp only [reserve, h1, he]
    exact ih _ _

/-- A consumer that cannot read the input of any chunk. -/
example : let rounds : Nat → Round Unit Nat := fun _ => { busy with tries := fun _ => ⟨⟨some 40, true⟩, .error (), true⟩ }
    (∀ k, ∃ e, ((rounds k).tries 0).answer = .error e) ∧
      ∀ k, ∃ d, ((rounds k).tries 0).request.took = some d ∧ d < 1000 :=
  ⟨fun _ => ⟨(), rfl⟩, fun _ => ⟨40, rfl, by decide⟩⟩

/-- **C90 is refuted by a report that fails**: Ctrl-C during the callback raises `KeyboardInterrupt` there. The chunk is
reported as failed; if that report is not possible (the connection is lost), the loop goes on, and the signal is gone. -/
theorem C90_refuted_by_failed_report {ε α : Type} (interval : Nat) (rounds : Nat → Round ε α) (s t d dr : Nat) (c : α)
    (cs : List α) (hreq : ((rounds 0).tries 0).request.took = some d) (hans : ((rounds 0).tries 0).answer = .ok (c :: cs))
    (hd : d < interval) (hs : t + d < s) (hc : s + (rounds 0).callback.delay ≤ t + d + (rounds 0).callback.took)
    (hr : (rounds 0).report.took = some dr) (hf : (rounds 0).reported = false) (fuel : Nat) :
    consume interval rounds fuel 0 (some s) t = none := by
  cases fuel with
  | zero => rfl
  | succ fuel =>
    have h1 : block interval (some s) t ((rounds 0).tries 0).request = some (t + d, false) := by
      have := block_done (interval := interval) (s := s) (t := t) (b := ((rounds 0).tries 0).request.chosen) (by omega) hd
      rw [← this, ← hreq]
    rw [consume_raised (reserve_chunks h1 hans fuel) (T2 := s + (rounds 0).callback.delay)
      (by simp only [Callback.call, if_neg (show ¬ s ≤ t + d by omega), if_pos hc]) hr, hf]
    exact no_signal interval rounds fuel _ _

/-- Ctrl-C 30 ms after the callback began; the connection has just been lost. -/
example : let rounds : Nat → Round Unit Nat := fun _ => { busy with reported := false }
    ((rounds 0).tries 0).request.took = some 3 ∧ ((rounds 0).tries 0).answer = .ok [1] ∧ 3 < checkInterval false ∧
    0 + 3 < 33 ∧ 33 + (rounds 0).callback.delay ≤ 0 + 3 + (rounds 0).callback.took ∧ (rounds 0).report.took = some 2 ∧
    (rounds 0).reported = false ∧ consume (checkInterval false) rounds 30 0 (some 33) 0 = none :=
  ⟨rfl, rfl, by decide, by decide, by decide, rfl, rfl, by decide +kernel⟩

end Opsqueue.Interrupt
