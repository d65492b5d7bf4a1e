import Verif.Proofs.Work
import Verif.Props.Settled

/-!
# C73: the work on a submission ends

A report of a consumer on a chunk has an effect when it changes the database: the chunk is completed, or one more of
its failures is recorded. Whatever the consumers, the clocks, the faults of the database and the restarts of the
server do, only so many reports on the chunks of one submission can have an effect.
-/

namespace Opsqueue
open SubmissionDb Server

/-- **C73.** When a chunk is allowed `m` failures, at most `max 1 m` reports per chunk of a submission ever have an
effect, in every history with fresh ids: chunks handed out again and again, reports repeated, crashes and failing
statements do not make it more. -/
theorem C73_bounded_work (m : Nat) (ops : List Op) (hf : FreshIds ops) (hb : Budget m ops) (a : InsertArgs)
    (now : Time) (o : List Fault) (hm : Op.insert a now o ∈ ops) :
    effectiveReports a.id DB.empty ops ≤ a.contents.length * max 1 m := by
  have := (work_run hf hb).2 a.id
  rw [insertedChunks_eq hf hm] at this
  omega

/-- **C73.** Before the insert, no report on the submission has an effect. -/
theorem C73_no_work_before (m : Nat) (ops : List Op) (hf : FreshIds ops) (hb : Budget m ops) (id : SubmissionId)
    (h : ∀ a now o, Op.insert a now o ∈ ops → a.id ≠ id) : effectiveReports id DB.empty ops = 0 := by
  have := (work_run hf hb).2 id
  rw [insertedChunks_none (by
    intro hm
    obtain ⟨op, h1, h2⟩ := List.mem_filterMap.1 hm
    cases op with
    | insert a now o =>
      simp only [Op.insertId, Option.some.injEq] at h2
      exact h a now o h1 h2
    | complete | fail | cancel | cleanup => simp [Op.insertId] at h2)] at this
  omega

/-- **C73, unending.** In an unending sequence of calls, a submission that was inserted, and on which, as long as it
is in progress, sooner or later another report has an effect, is not in progress for ever: from some call on its status
is never `InProgress` again. Nothing is assumed about which chunks the reports are on, whether they are successes or
failures, or what else happens. -/
theorem C73_work_ends (m : Nat) (calls : Nat → Op) (hf : ∀ n, FreshIds (firstCalls calls n))
    (hb : ∀ n, Budget m (firstCalls calls n)) (i : Nat) (a : InsertArgs) (now : Time) (o : List Fault)
    (hi : calls i = .insert a now o)
    (hfair : ∀ n, i < n → (∃ s, InProgressAt (run (firstCalls calls n)) a.id s) →
      ∃ k, n ≤ k ∧ (((calls k).reportsOn a.id = true ∧ run (firstCalls calls (k + 1)) ≠ run (firstCalls calls k)) ∨
        ¬ ∃ s, InProgressAt (run (firstCalls calls k)) a.id s)) :
    ∃ n, ∀ n', n ≤ n' → ¬ ∃ s, InProgressAt (run (firstCalls calls n')) a.id s := by
  have hmem : ∀ n, i < n → Op.insert a now o ∈ firstCalls calls n := by
    intro n hn
    simp only [firstCalls, List.mem_map, List.mem_range]
    exact ⟨i, hn, hi⟩
  by_cases h : ∃ n, i < n ∧ ¬ ∃ s, InProgressAt (run (firstCalls calls n)) a.id s
  · obtain ⟨n, hn, hno⟩ := h
    refine ⟨n, fun n' hn' => ?_⟩
    obtain ⟨j, rfl⟩ := Nat.le.dest hn'
    have hfn := hf (n + j)
    rw [firstCalls_add] at hfn ⊢
    rw [inProgress_iff (inv_run hfn)]
    rw [inProgress_iff (inv_run (hf n))] at hno
    exact not_running_stays hfn (List.mem_filterMap.2 ⟨_, hmem n hn, rfl⟩) hno
  · have hall : ∀ n, i < n → ∃ s, InProgressAt (run (firstCalls calls n)) a.id s := fun n hn =>
      Classical.byContradiction fun hno => h ⟨n, hn, hno⟩
    obtain ⟨n, hn, hbig⟩ := unbounded_reports a.id calls (i + 1) (fun n hn => by
      obtain ⟨k, hk, hk'⟩ := hfair n hn (hall n hn)
      rcases hk' with hk' | hk'
      · exact ⟨k, hk, hk'⟩
      · exact absurd (hall k (by omega)) hk') (a.contents.length * max 1 m + 1)
    have := C73_bounded_work m _ (hf n) (hb n) a now o (hmem n hn)
    omega

/-- **C73, at the server.** In every history of a server started with retry budget `m`, at most `max 1 m` reports per
chunk of a submission have an effect, whatever its consumers, producers and timers do. -/
theorem C73_server_bounded_work (ttl m : Nat) (h : List Action) (hf : FreshIds (Server.run ttl m h).calls)
    (a : InsertArgs) (now : Time) (o : List Fault) (hm : Op.insert a now o ∈ (Server.run ttl m h).calls) :
    effectiveReports a.id DB.empty (Server.run ttl m h).calls ≤ a.contents.length * max 1 m :=
  C73_bounded_work m _ hf (fun cid f m' t1 t2 t3 o' h' => C07_server_uses_its_budget ttl m h cid f m' t1 t2 t3 o' h')
    a now o hm

/-- Two chunks with two failures each allowed: four reports have an effect (the bound is reached); the others, with
faults or too late, have none. -/
def exampleWork : List Op :=
  [ .insert { id := 7, contents := [some [1], some [2]] } 10 [],
    .fail ⟨7, 0⟩ "a" 2 11 11 11 [], .fail ⟨7, 1⟩ "b" 2 12 12 12 [], .fail ⟨7, 1⟩ "b" 2 12 12 12 [.ok, .crash],
    .complete ⟨7, 0⟩ (some [9]) 13 13 [], .complete ⟨7, 0⟩ (some [9]) 14 14 [], .complete ⟨7, 5⟩ none 14 14 [],
    .complete ⟨7, 1⟩ (some [9]) 15 15 [.fail], .complete ⟨7, 1⟩ (some [9]) 16 16 [], .fail ⟨7, 1⟩ "c" 2 17 17 17 [] ]

example : FreshIds exampleWork ∧ Budget 2 exampleWork ∧ effectiveReports 7 DB.empty exampleWork = 4 ∧
    (∃ s, statusAt (run exampleWork) 7 = .ok (some (.completed s))) := by
  refine ⟨by decide +kernel, ?_, by decide +kernel, ⟨⟨7, none, 2, 1, none, [], 16, "{}"⟩, by decide +kernel⟩⟩
  intro cid f m' t1 t2 t3 o h
  simp [exampleWork] at h
  omega

/-- An unending sequence: after an insert the one chunk fails again and again; the second failure ends the
submission. -/
def exampleCalls : Nat → Op
  | 0 => .insert { id := 7, contents := [some [1]] } 10 []
  | n + 1 => .fail ⟨7, 0⟩ "again" 2 (20 + n) (20 + n) (20 + n) []

theorem exampleCalls_ids (n : Nat) : (firstCalls exampleCalls (n + 1)).filterMap Op.insertId = [7] := by
  induction n with
  | zero => decide
  | succ n ih =>
    rw [firstCalls_succ, List.filterMap_append, ih]
    rfl

theorem exampleCalls_fresh (n : Nat) : FreshIds (firstCalls exampleCalls n) := by
  cases n with
  | zero => decide
  | succ n => rw [FreshIds, exampleCalls_ids]; decide

/-- The hypotheses of `C73_work_ends` are met by it. -/
example : (∀ n, FreshIds (firstCalls exampleCalls n)) ∧ (∀ n, Budget 2 (firstCalls exampleCalls n)) ∧
    (∀ n, 0 < n → (∃ s, InProgressAt (run (firstCalls exampleCalls n)) 7 s) →
      ∃ k, n ≤ k ∧ (((exampleCalls k).reportsOn 7 = true ∧
        run (firstCalls exampleCalls (k + 1)) ≠ run (firstCalls exampleCalls k)) ∨
        ¬ ∃ s, InProgressAt (run (firstCalls exampleCalls k)) 7 s)) ∧
    (∃ s, InProgressAt (run (firstCalls exampleCalls 2)) 7 s) := by
  refine ⟨exampleCalls_fresh, ?_, ?_, ⟨⟨7, none, 1, 0, 1, none, [], "{}"⟩, by unfold InProgressAt; decide +kernel⟩⟩
  · intro n cid f m' t1 t2 t3 o h
    simp only [firstCalls, List.mem_map] at h
    obtain ⟨j, _, hj⟩ := h
    cases j with
    | zero => simp [exampleCalls] at hj
    | succ j => simp only [exampleCalls, Op.fail.injEq] at hj; exact hj.2.2.1.symm
  · intro n hn _
    refine ⟨3 + n, by omega, .inr ?_⟩
    have hf := exampleCalls_fresh (3 + n)
    rw [firstCalls_add] at hf ⊢
    rw [inProgress_iff (inv_run hf)]
    exact not_running_stays hf (by decide) (by decide +kernel)

end Opsqueue
