import Verif.Proofs.Polling
import Verif.Props.Retention

/-!
# C89: a producer that waits for a submission learns of its end

The English: whoever waits for a submission that is completed or fails learns of it soon afterwards, as long as the record of
the end is not removed first.
-/

namespace Opsqueue.Polling
open Python Retention

/-- The loop with times does what the loop of C49 does with the answers that the server gives at those times. -/
theorem C89_same_wait (look : Time → Answer) (polls : Nat → Poll) (start : Time) :
    ∃ answers, ∀ fuel, (wait look polls start fuel).map (·.2) = (waitCompleted answers fuel).2 :=
  ⟨fun n => look ((begins polls 0 start 10 n).1 + (polls n).seen), fun fuel =>
    loop_waitLoop look polls _ fuel 0 start 10 fun n => by rw [Nat.zero_add]⟩

/-- **C89.** Let a producer wait from the time `start` on for a submission that is in progress until the calls `xs` bring
it, at the time `c`, to its end `st` (completed or failed, recorded with the time `e`). Let the cleanups be those of the
server's loop with the retention time `maxAge`, and let a request take at most `R` and a sleep be late by at most `δ`. Then
the wait ends with the result of the submission, not before `c`, and at most two requests, the lateness and the smaller of
5 seconds and the time already waited (plus 10 ms) after `c`, provided that the record has to be kept until then. Whatever
else is called in the meantime. (If the submission is over already when the wait begins, take `c = start`.)

What is missing: `C89_full` asks for an end of the wait also if the record is kept for a shorter time. -/
theorem C89_producer_learns_partial (maxAge R δ : Nat) (start c : Time) (polls : Nat → Poll) (hq : Quick R δ polls)
    (ls : List (Time × List Round)) (xs ys : List (Time × Op)) (hf : FreshIds (calls (xs ++ ys)))
    (hl : Performs (cleanups (xs ++ ys)) (lives maxAge ls))
    (hxs : ∀ x ∈ xs, x.1 ≤ c) (id : SubmissionId)
    (hbefore : ∀ t : Nat, start ≤ t → t < c → StillRunning (answerAt (xs ++ ys) id t))
    (st : SubmissionStatus) (e : Nat) (hst : st.endedAt = some e) (hnc : st.isCancelled = false)
    (h : statusAt (run (calls xs)) id = .ok (some st))
    (hclock : st.DatesOk)
    (hsc : start ≤ c) (hage : c + 2 * R + δ + min 5000 (10 + (c - start)) ≤ e + maxAge) :
    ∃ (fuel T : Nat) (w : Waited), wait (answerAt (xs ++ ys) id) polls start fuel = some (T, w) ∧ Tells st w ∧ c ≤ T ∧
      T ≤ c + 2 * R + δ + min 5000 (10 + (c - start)) := by
  have hafter : ∀ t : Nat, c ≤ t → t ≤ e + maxAge → answerAt (xs ++ ys) id t = .ok (some st) := by
    intro t h1 h2
    unfold answerAt
    rw [takeWhile_later hxs h1, List.map_append]
    obtain ⟨zs, hz⟩ := List.takeWhile_prefix (l := ys) (fun x : Time × Op => decide (x.1 ≤ t))
    have ea : calls (xs ++ ys) = (calls xs ++ calls (ys.takeWhile fun x => x.1 ≤ t)) ++ calls zs := by
      unfold calls
      rw [← List.map_append, ← List.map_append, List.append_assoc, hz]
    have hk := kept hst (calls (ys.takeWhile fun x => x.1 ≤ t)) (calls xs)
      (by rw [ea] at hf; exact FreshIds.prefix hf) h hclock ?_
    · rw [hk]
    · intro t' o hm
      obtain ⟨x, hx, ex⟩ := List.mem_map.1 hm
      have hxt : x.1 ≤ t := mem_takeWhile hx
      have hxy : x ∈ ys := by rw [← hz]; exact List.mem_append_left _ hx
      have hxc : x ∈ cleanups (xs ++ ys) :=
        List.mem_filter.2 ⟨List.mem_append_right _ hxy, by rw [ex]; rfl⟩
      obtain ⟨y, hy, e1, e2⟩ := hl.mem hxc
      obtain ⟨l, -, hl'⟩ := List.mem_flatMap.1 hy
      obtain ⟨o', ho'⟩ := rounds_cutoff l.2 hl'
      rw [← e1, ex] at ho'
      injection ho' with ho' _
      subst ho'
      exact Nat.sub_le_of_le_add (Nat.le_trans e2 (Nat.le_trans hxt h2))
  have go : ∀ w, maybeStream (.ok (some st)) = some w →
      ∃ (fuel T : Nat), wait (answerAt (xs ++ ys) id) polls start fuel = some (T, w) ∧ c ≤ T ∧
        T ≤ c + 2 * R + δ + min 5000 (10 + (c - start)) := fun w hw =>
    loop_ends hq (fun t h1 h2 => by obtain ⟨s, hs⟩ := hbefore t h1 h2; rw [hs]; rfl) hafter hw hage (c - start)
      0 start 10 (Nat.le_refl _) (Nat.le_refl _) (by omega) (by omega) (by omega)
      (Nat.le_trans hsc (Nat.le_trans (Nat.le_add_right _ _) (Nat.le_trans (Nat.le_add_right _ _) (Nat.le_add_right _ _))))
  cases st with
  | inProgress s => cases hst
  | cancelled s => cases hnc
  | completed s =>
    obtain ⟨fuel, T, h1, h2⟩ := go _ rfl
    exact ⟨fuel, T, _, h1, .inl ⟨s, rfl, rfl⟩, h2⟩
  | failed s c =>
    obtain ⟨fuel, T, h1, h2⟩ := go _ rfl
    exact ⟨fuel, T, _, h1, .inr ⟨s, c, rfl, rfl⟩, h2⟩

/-- A submission of two chunks, inserted at 1000, completed at 2000; then a round of the cleanup loop, late by 3 ms, and
another call. -/
def history : List (Time × Op) × List (Time × Op) :=
  ([(500, .cleanup 0 []), (1000, .insert { id := 7, contents := [none, some [1]], pfx := some "p" } 1000 []),
    (1500, .complete ⟨7, 1⟩ none 1500 1500 []), (2000, .complete ⟨7, 0⟩ (some [9]) 1995 1999 [])],
   [(60513, .cleanup 0 []), (60600, .cancel 7 60600 60600 [])])

/-- The producer waits from 1100 on; its requests take 30 ms, its sleeps are late by 2 ms. It has the results at 2564: the
last look before the completion was at 1904. -/
example :
    let polls : Nat → Poll := fun _ => ⟨30, 20, 2⟩
    let h := history.1 ++ history.2
    Quick 30 2 polls ∧ FreshIds (calls h) ∧
    Performs (cleanups h) (lives 3600000 [(500, [⟨10, []⟩, ⟨7, []⟩])]) ∧ (∀ x ∈ history.1, x.1 ≤ 2000) ∧
    (∀ t : Nat, 1100 ≤ t → t < 2000 → StillRunning (answerAt h 7 t)) ∧
    (∃ s, statusAt (run (calls history.1)) 7 = .ok (some (.completed s)) ∧ s.completedAt = 1999) ∧
    wait (answerAt h 7) polls 1100 9 = some (1100 + 7 * 32 + 1270 + 30, .stream "p" 2) ∧
    (1100 + 7 * 32 + 1270 + 30 : Nat) ≤ 2000 + 2 * 30 + 2 + min 5000 (10 + (2000 - 1100)) ∧
    2000 + 2 * 30 + 2 + min 5000 (10 + (2000 - 1100)) ≤ 1999 + 3600000 := by
  intro polls h
  refine ⟨fun k => by simp [polls], by decide +kernel, ?_, by decide +kernel, ?_, ?_, by decide +kernel, by decide,
    by decide⟩
  · exact ⟨rfl, by decide, rfl, by decide, trivial⟩
  · intro t h1 h2
    have e : (h.takeWhile fun x => x.1 ≤ t) =
        if t < 1500 then h.take 2 else h.take 3 := by
      have a1 : decide ((500 : Nat) ≤ t) = true := by simp; omega
      have a2 : decide ((1000 : Nat) ≤ t) = true := by simp; omega
      have a4 : decide ((2000 : Nat) ≤ t) = false := by simp; omega
      by_cases h3 : t < 1500
      · have a3 : decide ((1500 : Nat) ≤ t) = false := by simp; omega
        rw [if_pos h3]
        simp only [h, history, List.cons_append, List.takeWhile_cons, a1, a2, a3]
        rfl
      · have a3 : decide ((1500 : Nat) ≤ t) = true := by simp; omega
        rw [if_neg h3]
        simp only [h, history, List.cons_append, List.takeWhile_cons, a1, a2, a3, a4]
        rfl
    have key : ∀ b : Bool, ∃ s, statusAt (run ((if b then h.take 2 else h.take 3).map (·.2))) 7 =
        .ok (some (.inProgress s)) := by
      intro b
      cases b
      · exact ⟨{ id := 7, pfx := some "p", chunksTotal := 2, chunksDone := 1, chunkSize := 1, metadata := none,
                 strategic := [], otel := "{}" }, by decide +kernel⟩
      · exact ⟨{ id := 7, pfx := some "p", chunksTotal := 2, chunksDone := 0, chunkSize := 1, metadata := none,
                 strategic := [], otel := "{}" }, by decide +kernel⟩
    obtain ⟨s, hs⟩ := key (decide (t < 1500))
    refine ⟨s, ?_⟩
    unfold answerAt
    rw [e]
    simp only [decide_eq_true_eq] at hs
    rw [hs]
  · exact ⟨{ id := 7, pfx := some "p", chunksTotal := 2, chunkSize := 1, metadata := none, strategic := [],
             completedAt := 1999, otel := "{}" }, by decide +kernel, rfl⟩

/-- **C89, in full**: whoever waits for a submission that is completed or fails while they wait learns of it, whatever the
retention time. -/
def C89_full : Prop :=
  ∀ (maxAge R δ : Nat) (start c : Time) (polls : Nat → Poll), Quick R δ polls →
    ∀ (ls : List (Time × List Round)) (xs ys : List (Time × Op)), FreshIds (calls (xs ++ ys)) →
    Performs (cleanups (xs ++ ys)) (lives maxAge ls) → (∀ x ∈ xs, x.1 ≤ c) →
    ∀ (id : SubmissionId) (st : SubmissionStatus) (e : Nat), st.endedAt = some e → st.isCancelled = false →
    statusAt (run (calls xs)) id = .ok (some st) → st.DatesOk → start ≤ c →
    ∃ fuel, wait (answerAt (xs ++ ys) id) polls start fuel ≠ none

/-- A server that keeps records for one second: the submission is completed at 103000, the loop removes its record in the
round at 104100. -/
def shortLived : List (Time × Op) × List (Time × Op) :=
  ([(44000, .cleanup 43000 []), (99000, .insert { id := 7, contents := [none] } 99000 []),
    (103000, .complete ⟨7, 0⟩ none 103000 103000 [])],
   [(104100, .cleanup 103100 [])])

/-- **C89 is refuted for a short retention time.** The producer looks at 102550 and again at 105110 (all its requests are
immediate). In between, the submission was completed and its record removed: the producer waits forever. -/
theorem C89_refuted_by_short_retention : ¬ C89_full := by
  intro hfull
  obtain ⟨fuel, hne⟩ := hfull 1000 0 0 100000 103000 (fun _ => ⟨0, 0, 0⟩) (fun _ => by simp)
    [(44000, [⟨100, []⟩, ⟨5, []⟩])] shortLived.1 shortLived.2 (by decide +kernel)
    ⟨rfl, by decide, rfl, by decide, trivial⟩ (by decide +kernel) 7
    (.completed { id := 7, pfx := none, chunksTotal := 1, chunkSize := 1, metadata := none, strategic := [],
                  completedAt := 103000, otel := "{}" }) 103000 rfl rfl (by decide +kernel)
    trivial (by decide)
  obtain ⟨answers, ha⟩ : ∃ answers : Nat → Answer, answers = fun n => answerAt (shortLived.1 ++ shortLived.2) 7
      ((begins (fun _ => ⟨0, 0, 0⟩) 0 100000 10 n).1 + 0) := ⟨_, rfl⟩
  have hnone : (waitLoop answers fuel 0 10).2 = none := by
    refine waitLoop_never answers fuel 0 10 fun j _ => ?_
    rw [ha]
    by_cases hj : j < 9
    · have : ∀ j : Fin 9, maybeStream (answerAt (shortLived.1 ++ shortLived.2) 7
          ((begins (fun _ => ⟨0, 0, 0⟩) 0 100000 10 j.1).1 + 0)) = none := by decide +kernel
      exact this ⟨j, hj⟩
    · have hm := begins_mono (fun _ => ⟨0, 0, 0⟩) 0 100000 10 9 j (by omega)
      have h9 : (begins (fun _ => ⟨0, 0, 0⟩) 0 100000 10 9).1 = (105110 : Nat) := by decide +kernel
      rw [h9] at hm
      show maybeStream (answerAt (shortLived.1 ++ shortLived.2) 7 (begins (fun _ => ⟨0, 0, 0⟩) 0 100000 10 j).1) = none
      generalize (begins (fun _ => ⟨0, 0, 0⟩) 0 100000 10 j).1 = t at hm ⊢
      show maybeStream (answerAt (shortLived.1 ++ shortLived.2) 7 t) = none
      have e : ((shortLived.1 ++ shortLived.2).takeWhile fun x => x.1 ≤ t) = shortLived.1 ++ shortLived.2 := by
        rw [takeWhile_later (c := 104100) (t := t) (by decide +kernel) (Nat.le_trans (by decide) hm)]
        have a : decide ((104100 : Nat) ≤ t) = true := decide_eq_true (Nat.le_trans (by decide) hm)
        simp only [shortLived, List.takeWhile_cons, a]
        rfl
      unfold answerAt
      rw [e, show statusAt (run ((shortLived.1 ++ shortLived.2).map (·.2))) 7 = .ok none by decide +kernel]
      rfl
  have := loop_waitLoop (answerAt (shortLived.1 ++ shortLived.2) 7) (fun _ => ⟨0, 0, 0⟩) answers fuel 0 100000 10
    fun n => by rw [Nat.zero_add, ha]
  rw [hnone] at this
  exact hne (Option.map_eq_none_iff.1 this)

end Opsqueue.Polling
