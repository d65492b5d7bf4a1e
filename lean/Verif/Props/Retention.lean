import Verif.Model.Retention
import Verif.Props.Lifecycle
import Verif.Props.Cleanup
import Verif.Props.Atomicity

/-!
# C70: how long the record of a finished submission is kept

Histories here are lists of calls with the time at which they were made. The cleanups in them are those of the loop, at
their times; all other calls are made by anybody at any time.
-/

namespace Opsqueue.Retention

/-- The calls of a timed history. -/
abbrev calls (h : List (Time × Op)) : List Op := h.map (·.2)

/-- The cleanups of a timed history. -/
abbrev cleanups (h : List (Time × Op)) : List (Time × Op) := h.filter fun x => x.2.isCleanup

theorem rounds_cutoff {maxAge : Time} {x : Time × Op} (rs : List Round) : ∀ {start : Time},
    x ∈ rounds maxAge start rs → ∃ o, x.2 = .cleanup (x.1 - maxAge) o := by
  induction rs with
  | nil => intro s h; cases h
  | cons r rs ih =>
    intro s h
    rcases List.mem_cons.1 h with rfl | h
    · exact ⟨_, rfl⟩
    · exact ih h

/-- One call whose cutoff, if it is a cleanup, is not after the end of the submission, leaves the record. -/
theorem step_kept {xs : List Op} {op : Op} (hf : FreshIds (xs ++ [op])) {id : SubmissionId} {st : SubmissionStatus}
    {e : Nat} (hst : st.endedAt = some e) (h : statusAt (run xs) id = .ok (some st))
    (hclock : st.DatesOk)
    (hc : ∀ t o, op = .cleanup t o → t ≤ e) : statusAt (run (xs ++ [op])) id = .ok (some st) := by
  have hfx : FreshIds xs := by
    unfold FreshIds at hf ⊢
    rw [List.filterMap_append] at hf
    exact (List.nodup_append.1 hf).1
  have hT : st.Terminal := by cases st <;> simp_all [SubmissionStatus.endedAt, SubmissionStatus.Terminal]
  have hrun : run (xs ++ [op]) = (step (run xs) op).2 := by
    unfold run runFrom; rw [List.foldl_append]; rfl
  by_cases hcl : op.isCleanup = true
  · cases op with
    | cleanup t o =>
      have ht := hc t o rfl
      rw [hrun]
      rcases (C11_atomic (run xs) (.cleanup t o) rfl).1 with h' | h'
      · rw [h']; exact h
      · rw [h']
        have := C16_cleanup_exact xs hfx t _ _ (rfl : step (run xs) (.cleanup t []) = (_, _))
        rcases (this.2.2.1 id st e h hst ht).2 with h' | ⟨s, c, rfl, -, hlt, -⟩
        · exact h'
        · exact absurd hclock (Nat.not_le.2 hlt)
    | _ => cases hcl
  · rcases C03_terminal_final xs [op] hf id st hT h with h' | ⟨⟨op', hm, h'⟩, -⟩ | ⟨⟨op', hm, h'⟩, -⟩
    · exact h'
    · rw [List.mem_singleton.1 hm] at h'; exact absurd h' hcl
    · rw [List.mem_singleton.1 hm] at h'; exact absurd h' hcl

theorem kept {id : SubmissionId} {st : SubmissionStatus} {e : Nat} (hst : st.endedAt = some e) (ys : List Op) :
    ∀ (xs : List Op), FreshIds (xs ++ ys) → statusAt (run xs) id = .ok (some st) →
    st.DatesOk →
    (∀ t o, Op.cleanup t o ∈ ys → t ≤ e) → statusAt (run (xs ++ ys)) id = .ok (some st) := by
  induction ys with
  | nil => intro xs _ h _ _; simpa using h
  | cons op ys ih =>
    intro xs hf h hclock hc
    have e1 : xs ++ op :: ys = (xs ++ [op]) ++ ys := by simp
    rw [e1] at hf ⊢
    refine ih (xs ++ [op]) hf ?_ hclock fun t o hm =>
      hc t o (List.mem_cons_of_mem _ hm)
    refine step_kept ?_ hst h hclock ?_
    · unfold FreshIds at hf ⊢
      rw [List.filterMap_append] at hf
      exact (List.nodup_append.1 hf).1
    · rintro t o rfl
      exact hc t o (List.mem_cons_self ..)

/-- **C70.** The record of a finished submission is there, unchanged, until `max_submission_age` after the submission
ended, whatever calls, restarts and failures there are. (For a failed submission: provided that it shows its failed chunk with a
date not before its own; it is so unless the clock was set back in the middle of the failure report.) -/
theorem C70_record_is_kept (maxAge T : Nat) (ls : List (Time × List Round)) (xs ys : List (Time × Op))
    (hf : FreshIds (calls (xs ++ ys))) (hl : cleanups (xs ++ ys) = lives maxAge ls)
    (hT : ∀ x ∈ cleanups ys, x.1 ≤ T)
    (id : SubmissionId) (st : SubmissionStatus) (e : Nat) (hst : st.endedAt = some e)
    (h : statusAt (run (calls xs)) id = .ok (some st))
    (hclock : st.DatesOk)
    (hage : T ≤ e + maxAge) :
    statusAt (run (calls (xs ++ ys))) id = .ok (some st) := by
  have ea : calls (xs ++ ys) = calls xs ++ calls ys := List.map_append
  rw [ea] at hf ⊢
  refine kept hst (calls ys) (calls xs) hf h hclock fun t o hm => ?_
  obtain ⟨⟨t', op⟩, hx, he⟩ := List.mem_map.1 hm
  simp only at he
  subst he
  have h1 := hT _ (List.mem_filter.2 ⟨hx, rfl⟩)
  have h2 : (t', Op.cleanup t o) ∈ lives maxAge ls := by
    rw [← hl]; exact List.mem_filter.2 ⟨List.mem_append_right _ hx, rfl⟩
  obtain ⟨l, -, h3⟩ := List.mem_flatMap.1 h2
  obtain ⟨o', h4⟩ := rounds_cutoff _ h3
  simp only [Op.cleanup.injEq] at h4
  simp only at h1
  rw [h4.1]
  exact Nat.sub_le_of_le_add (Nat.le_trans h1 hage)

/-- **C70.** A round of the loop that succeeds removes the record of every submission that ended more than
`max_submission_age` before it, and the record never comes back. -/
theorem C70_record_is_removed (maxAge now : Nat) (xs ys : List Op) (o : List Fault)
    (hf : FreshIds (xs ++ .cleanup (now - maxAge) o :: ys))
    (id : SubmissionId) (st : SubmissionStatus) (e : Nat) (hst : st.endedAt = some e)
    (h : statusAt (run xs) id = .ok (some st)) (hage : e + maxAge < now)
    (hok : (step (run xs) (.cleanup (now - maxAge) o)).1 = .cleaned (.ok ())) :
    statusAt (run (xs ++ .cleanup (now - maxAge) o :: ys)) id = .ok none := by
  have e1 : xs ++ Op.cleanup (now - maxAge) o :: ys = (xs ++ [.cleanup (now - maxAge) o]) ++ ys := by simp
  rw [e1] at hf ⊢
  have hfx : FreshIds xs := by
    unfold FreshIds at hf ⊢
    rw [List.filterMap_append, List.filterMap_append] at hf
    exact (List.nodup_append.1 (List.nodup_append.1 hf).1).1
  have hrun : run (xs ++ [.cleanup (now - maxAge) o]) = (step (run xs) (.cleanup (now - maxAge) o)).2 := by
    unfold run runFrom; rw [List.foldl_append]; rfl
  have hfull := C11_success_is_full_effect (run xs) (.cleanup (now - maxAge) o) rfl (by intros; simp) (by rw [hok]; rfl)
  have hnone : statusAt (run (xs ++ [.cleanup (now - maxAge) o])) id = .ok none := by
    rw [hrun, hfull]
    have := C16_cleanup_exact xs hfx (now - maxAge) _ _ (rfl : step (run xs) (.cleanup (now - maxAge) []) = (_, _))
    exact (this.2.1 id st e h hst (Nat.lt_sub_of_add_lt hage)).1
  obtain ⟨a, t, o', hm, hid⟩ : ∃ a t o', Op.insert a t o' ∈ xs ∧ a.id = id := by
    obtain ⟨a, t, o', hm, hid, -⟩ := C21_attributes_partial xs hfx id st h
    exact ⟨a, t, o', hm, hid⟩
  subst hid
  exact C03_gone_forever _ ys hf a t o' (List.mem_append_left _ hm) hnone

theorem last_round {maxAge d T : Nat} (rs : List Round) : ∀ {start : Nat}, (∀ r ∈ rs, r.took ≤ d ∧ r.faults = []) →
    start ≤ T → T < next start rs →
    ∃ pre, ∃ t : Nat, rounds maxAge start rs = pre ++ [(t, .cleanup (t - maxAge) [])] ∧ T < t + d + interval := by
  induction rs with
  | nil => intro start _ h1 h2; unfold next at h2; omega
  | cons r rs ih =>
    intro start hr h1 h2
    obtain ⟨h3, h4⟩ := hr r (List.mem_cons_self ..)
    by_cases h5 : start + r.took + interval ≤ T
    · obtain ⟨pre, t, e, h6⟩ := ih (fun r' hr' => hr r' (List.mem_cons_of_mem _ hr')) h5 h2
      refine ⟨(start, .cleanup (start - maxAge) r.faults) :: pre, t, ?_, h6⟩
      unfold rounds
      rw [e]; rfl
    · cases rs with
      | nil => exact ⟨[], start, by unfold rounds; rw [h4]; rfl, by omega⟩
      | cons r' rs =>
        obtain ⟨pre, t, e, h6⟩ : ∃ pre, ∃ t : Nat, rounds maxAge (start + r.took + interval) (r' :: rs) =
            pre ++ [(t, .cleanup (t - maxAge) [])] ∧ start + r.took + interval ≤ t := by
          clear ih h2 h1 h3 h4
          have gen : ∀ (rs : List Round) (s : Nat) (_ : rs ≠ []), (∀ r ∈ rs, r.faults = []) →
              ∃ pre, ∃ t : Nat, rounds maxAge s rs = pre ++ [(t, .cleanup (t - maxAge) [])] ∧ s ≤ t := by
            intro rs
            induction rs with
            | nil => intro s h; exact absurd rfl h
            | cons q qs ihq =>
              intro s _ hq
              cases qs with
              | nil => exact ⟨[], s, by unfold rounds; rw [hq q (List.mem_cons_self ..)]; rfl, Nat.le_refl _⟩
              | cons q' qs =>
                obtain ⟨pre, t, e, h⟩ := ihq (s + q.took + interval) (by simp) fun r' hr' =>
                  hq r' (List.mem_cons_of_mem _ hr')
                refine ⟨(s, .cleanup (s - maxAge) q.faults) :: pre, t, ?_, by omega⟩
                unfold rounds
                rw [e]; rfl
          exact gen _ _ (by simp) fun r'' hr'' => (hr r'' (List.mem_cons_of_mem _ hr'')).2
        refine ⟨(start, .cleanup (start - maxAge) r.faults) :: pre, t, ?_, by omega⟩
        unfold rounds
        rw [e]; rfl

/-- **C70.** While the server runs, its database works and a round of the loop takes at most `d`, the record of a
submission is gone a minute plus `d` after its time is up. `T` is the present: the loop has done the rounds that are due,
and the next one starts later. -/
theorem C70_record_goes_in_time (maxAge d start T : Nat) (rs : List Round) (xs ys : List (Time × Op))
    (hf : FreshIds (calls (xs ++ ys))) (hl : cleanups ys = rounds maxAge start rs)
    (hr : ∀ r ∈ rs, r.took ≤ d ∧ r.faults = []) (hs : start ≤ T) (hn : T < next start rs)
    (id : SubmissionId) (st : SubmissionStatus) (e : Nat) (hst : st.endedAt = some e)
    (h : statusAt (run (calls xs)) id = .ok (some st)) (hage : e + maxAge + d + 60000 ≤ T) :
    statusAt (run (calls (xs ++ ys))) id = .ok none := by
  obtain ⟨pre, t, e1, ht⟩ := last_round (maxAge := maxAge) (T := T) rs hr hs hn
  rw [e1] at hl
  have hmem : (t, Op.cleanup (t - maxAge) []) ∈ ys :=
    (List.mem_filter.1 (hl ▸ List.mem_append_right _ (List.mem_singleton.2 rfl) :
      (t, Op.cleanup (t - maxAge) []) ∈ cleanups ys)).1
  obtain ⟨us, vs, rfl⟩ := List.append_of_mem hmem
  have e2 : calls (xs ++ (us ++ (t, .cleanup (t - maxAge) []) :: vs)) =
      (calls xs ++ calls us) ++ .cleanup (t - maxAge) [] :: calls vs := by simp
  rw [e2] at hf ⊢
  have hfa : FreshIds (calls xs ++ calls us) := by
    unfold FreshIds at hf ⊢
    rw [List.filterMap_append] at hf
    exact (List.nodup_append.1 hf).1
  have hT : st.Terminal := by cases st <;> simp_all [SubmissionStatus.endedAt, SubmissionStatus.Terminal]
  have hok : (step (run (calls xs ++ calls us)) (.cleanup (t - maxAge) [])).1 = .cleaned (.ok ()) :=
    (C16_cleanup_exact _ hfa (t - maxAge) _ _ (rfl : step _ (.cleanup (t - maxAge) []) = (_, _))).1
  rcases C03_terminal_final _ _ hfa id st hT h with h' | ⟨-, h'⟩ | ⟨-, ⟨s, c, rfl, -⟩, h'⟩
  · exact C70_record_is_removed maxAge t _ _ [] hf id st e hst h' (by unfold interval at ht; omega) hok
  · obtain ⟨a, t', o', hm, hid, -⟩ := C21_attributes_partial _ (FreshIds.prefix hfa) id st h
    subst hid
    refine C03_gone_forever _ _ hf a t' o' (List.mem_append_left _ hm) h'
  · have hI := inv_run hfa
    obtain ⟨a, t', o', hm, hid, -⟩ := C21_attributes_partial _ (FreshIds.prefix hfa) id _ h
    obtain ⟨r, hr, rfl, rfl, d', hd, hk, rfl⟩ := statusAt_failed h
    simp only [SubmissionStatus.endedAt, Option.some.injEq, failView] at hst
    have hr' : r ∈ (run (calls xs ++ calls us)).submissionsFailed := by
      rcases failedChunk_stable hfa hr hd hk with ⟨h1, -⟩ | ⟨-, hn⟩ | ⟨-, -, h1, -⟩
      · exact h1
      · rw [statusAt_none hn] at h'; cases h'
      · exact h1
    have hgone : statusAt (run (calls xs ++ calls us ++ [.cleanup (t - maxAge) []])) r.id = .ok none := by
      have hrun : run (calls xs ++ calls us ++ [.cleanup (t - maxAge) []]) =
          Eff.cleanup (t - maxAge) (run (calls xs ++ calls us)) := by
        rw [run_snoc]; simp only [step, cleanup_ok]
      rw [hrun]
      refine statusAt_none (oldIds_gone hI (oldIds_fail hr' ?_))
      rw [hst]
      exact Nat.lt_sub_of_add_lt (by unfold interval at ht; omega)
    rw [show calls xs ++ calls us ++ Op.cleanup (t - maxAge) [] :: calls vs =
      (calls xs ++ calls us ++ [.cleanup (t - maxAge) []]) ++ calls vs by simp] at hf ⊢
    rw [← hid] at hgone ⊢
    exact C03_gone_forever _ _ hf a t' o' (by simp [hm]) hgone

/-- A submission of two chunks that is completed at 2000, and whose record is kept for 100 seconds. -/
def begun : List (Time × Op) :=
  [(500, .cleanup 0 []), (1000, .insert { id := 7, contents := [none, some [1]], strategic := [("customer", 3)] } 1000 []),
   (1500, .complete ⟨7, 1⟩ none 1500 1500 []), (1990, .complete ⟨7, 0⟩ (some [9]) 1995 2000 [])]

/-- Then: a failing round, a restart with a first round, another call. -/
def early : List (Time × Op) :=
  [(60510, .cleanup 0 [.fail]), (95000, .cleanup 0 []), (96000, .complete ⟨7, 0⟩ none 96000 96000 [])]

/-- And later: the loop of the restarted server has its next round. -/
def late : List (Time × Op) :=
  [(155007, .cleanup 55007 []), (156000, .cancel 7 156000 156000 [])]

example : FreshIds (calls (begun ++ early)) ∧
    cleanups (begun ++ early) = lives 100000 [(500, [⟨10, []⟩, ⟨7, [.fail]⟩]), (95000, [⟨7, []⟩])] ∧
    (∀ x ∈ cleanups early, x.1 ≤ 102000) ∧
    statusAt (run (calls begun)) 7 = .ok (some (.completed
      { id := 7, pfx := none, chunksTotal := 2, chunkSize := 1, metadata := none, strategic := [("customer", 3)],
        completedAt := 2000, otel := "{}" })) := by
  decide +kernel

example : FreshIds (calls (begun ++ (early ++ late))) ∧
    cleanups (begun ++ (early ++ late)) =
      lives 100000 [(500, [⟨10, []⟩, ⟨7, [.fail]⟩]), (95000, [⟨7, []⟩, ⟨12, []⟩])] ∧
    cleanups ((95000, .cleanup 0 []) :: late) = rounds 100000 95000 [⟨7, []⟩, ⟨12, []⟩] ∧
    (95000 : Nat) ≤ 165000 ∧ 165000 < next 95000 [⟨7, []⟩, ⟨12, []⟩] ∧
    2000 + 100000 + 12 + 60000 ≤ 165000 ∧
    statusAt (run (calls (begun ++ (early ++ late)))) 7 = .ok none := by
  decide +kernel

end Opsqueue.Retention
