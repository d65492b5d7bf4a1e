import Verif.Proofs.Gauges

/-!
# C66, C67: the numbers of the metrics endpoint

`hs` is an arbitrary sequence of calls, of periodic calculations of the backlog metrics and of restarts, from a new
database on; the calls may fail at any statement. `more` is what happens next. `FreshIds` says that generated ids do
not repeat.
-/

namespace Opsqueue

/-- A server that has just been installed. -/
def monitored (hs : List Happening) : Monitored := Monitored.run {} hs

theorem monitored_run (hs : List Happening) : (monitored hs).db = run (callsOf hs) := monitored_db hs {}

theorem callsOf_append (xs ys : List Happening) : callsOf (xs ++ ys) = callsOf xs ++ callsOf ys :=
  List.filterMap_append

theorem monitored_append (xs ys : List Happening) : monitored (xs ++ ys) = (monitored xs).run ys :=
  List.foldl_append

/-! ## C66 -/

/-- The full claim: as long as the process lives, every counter goes up by exactly the number of times that what it
counts happened. -/
def C66_full : Prop :=
  ∀ hs more : List Happening, FreshIds (callsOf (hs ++ more)) → (monitored hs).Alive more →
    Grew (· = ·) (monitored hs).metrics (monitored (hs ++ more)).metrics (deeds (monitored hs).db (callsOf more))

/-- No counter misses anything: whatever statements failed, each counter went up at least as often as what it counts
happened. -/
theorem C66_nothing_is_missed (hs more : List Happening) (hf : FreshIds (callsOf (hs ++ more)))
    (ha : (monitored hs).Alive more) :
    Grew (· ≤ ·) (monitored hs).metrics (monitored (hs ++ more)).metrics
      (deeds (monitored hs).db (callsOf more)) := by
  rw [monitored_append]
  rw [callsOf_append] at hf
  exact run_tally more _ _ (monitored_run hs) hf ha

/-- The counters are exact while no statement fails, save that the counter of completed chunks also counts the reports
of chunks that were not in the backlog. Missing: calls of which a statement failed. -/
theorem C66_exact_when_undisturbed_partial (hs more : List Happening) (hf : FreshIds (callsOf (hs ++ more)))
    (ha : (monitored hs).Alive more) (hu : ∀ op ∈ callsOf more, op.Undisturbed ∧ op.ProperMetadata) :
    let ds := deeds (monitored hs).db (callsOf more)
    let m := (monitored hs).metrics
    let m' := (monitored (hs ++ more)).metrics
    m'.submissionsTotal = m.submissionsTotal + times Deed.Entered ds ∧
    m'.submissionsCompleted = m.submissionsCompleted + times Deed.Completed ds ∧
    m'.submissionsFailed = m.submissionsFailed + times Deed.Failed ds ∧
    m'.submissionsCancelled = m.submissionsCancelled + times Deed.Cancelled ds ∧
    m'.chunksTotal = m.chunksTotal + chunksEntered ds ∧
    m'.chunksCompleted = m.chunksCompleted + times Deed.ChunkCompleted ds + times Deed.LateReport ds ∧
    m'.chunksFailed = m.chunksFailed + times Deed.ChunkFailed ds ∧
    m'.chunksRetried = m.chunksRetried + times Deed.ChunkRetried ds := by
  rw [monitored_append]
  rw [callsOf_append] at hf
  exact run_exact more _ _ (monitored_run hs) hf ha hu

/-- Without failing statements and without reports of chunks that are not in the backlog the full claim holds. -/
theorem C66_full_when_undisturbed_partial (hs more : List Happening) (hf : FreshIds (callsOf (hs ++ more)))
    (ha : (monitored hs).Alive more) (hu : ∀ op ∈ callsOf more, op.Undisturbed ∧ op.ProperMetadata)
    (hl : ∀ d ∈ deeds (monitored hs).db (callsOf more), ¬ d.LateReport) :
    Grew (· = ·) (monitored hs).metrics (monitored (hs ++ more)).metrics
      (deeds (monitored hs).db (callsOf more)) := by
  obtain ⟨h1, h2, h3, h4, h5, h6, h7, h8⟩ := C66_exact_when_undisturbed_partial hs more hf ha hu
  have h0 : times Deed.LateReport (deeds (monitored hs).db (callsOf more)) = 0 := by
    simp only [times, List.length_eq_zero_iff, List.filter_eq_nil_iff, decide_eq_true_eq]
    exact hl
  rw [h0, Nat.add_zero] at h6
  exact ⟨h1.symm, h2.symm, h3.symm, h4.symm, h5.symm, h6.symm, h7.symm, h8.symm⟩

/-- While no statement fails, the submissions that entered, less those that completed, failed or were cancelled, are
those that are in progress now more than before. -/
theorem C66_submissions_balance_partial (hs more : List Happening) (hf : FreshIds (callsOf (hs ++ more)))
    (ha : (monitored hs).Alive more) (hu : ∀ op ∈ callsOf more, op.Undisturbed ∧ op.ProperMetadata)
    {ids ids' : List SubmissionId} (hi : InProgressIds (monitored hs).db ids)
    (hi' : InProgressIds (monitored (hs ++ more)).db ids') :
    let m := (monitored hs).metrics
    let m' := (monitored (hs ++ more)).metrics
    ids'.length + (m'.submissionsCompleted + m'.submissionsFailed + m'.submissionsCancelled) + m.submissionsTotal =
      ids.length + (m.submissionsCompleted + m.submissionsFailed + m.submissionsCancelled) + m'.submissionsTotal := by
  have hdb : (monitored (hs ++ more)).db = run (callsOf (hs ++ more)) := monitored_run _
  have hI' : Inv (monitored (hs ++ more)).db := by rw [hdb]; exact inv_run hf
  rw [callsOf_append] at hf
  have hI : Inv (monitored hs).db := by rw [monitored_run]; exact inv_run (FreshIds.prefix hf)
  have e := (inProgressIds_perm hI hi).length_eq
  have e' := (inProgressIds_perm hI' hi').length_eq
  have b := run_balance more _ _ (monitored_run hs) hf ha hu
  rw [← monitored_append] at b
  simp only [List.length_map] at e e'
  simp only [Metrics.open] at b
  dsimp only
  omega

/-- All counters start at zero when the process starts. -/
theorem C66_restart (hs : List Happening) : (monitored (hs ++ [.restart])).metrics = {} := by
  rw [monitored_append]; rfl

/-- What is stored is the same with metrics and without. -/
theorem C66_metrics_do_not_interfere (hs : List Happening) : (monitored hs).db = run (callsOf hs) := monitored_run hs

/-! The full claim fails. -/

theorem idle_deeds (op : Op) (db : DB) (h : (step db op).2 = db) : deeds db [op] = [⟨db, op, db⟩] := by
  simp [deeds, h]

/-- A submission that could not be stored. -/
def failedInsert : Op := .insert { id := 1, contents := [some [7], some [8]] } 5 [.fail]

/-- An insert that fails is counted: nothing entered, the counters say one submission with two chunks. -/
theorem C66_refuted_failed_insert : ¬ C66_full := by
  intro h
  have := (h [] [.call failedInsert] (by decide +kernel) ⟨by decide +kernel, trivial⟩).1
  rw [show callsOf [.call failedInsert] = [failedInsert] from rfl, idle_deeds _ _ (by decide +kernel)] at this
  have h0 : times Deed.Entered [⟨(monitored []).db, failedInsert, (monitored []).db⟩] = 0 := by
    simp only [times, List.length_eq_zero_iff, List.filter_eq_nil_iff, decide_eq_true_eq, List.mem_singleton]
    rintro _ rfl ⟨id, h1, h2⟩
    exact h2 h1
  rw [h0] at this
  revert this
  decide +kernel

/-- A submission of one chunk, and the report that completes it, of which the last statement, the commit, fails. -/
def oneChunk : Happening := .call (.insert { id := 1, contents := [some [7]] } 5 [])
def lostCompletion : Op := .complete ⟨1, 0⟩ (some [9]) 6 7 (List.replicate 9 .ok ++ [.fail])

/-- A completion that was rolled back is counted. -/
theorem C66_refuted_rolled_back_completion : ¬ C66_full := by
  intro h
  have := (h [oneChunk] [.call lostCompletion] (by decide +kernel) ⟨by decide +kernel, trivial⟩).2.1
  rw [show callsOf [.call lostCompletion] = [lostCompletion] from rfl, idle_deeds _ _ (by decide +kernel)] at this
  have h0 : times Deed.Completed [⟨(monitored [oneChunk]).db, lostCompletion, (monitored [oneChunk]).db⟩] = 0 := by
    simp only [times, List.length_eq_zero_iff, List.filter_eq_nil_iff, decide_eq_true_eq, List.mem_singleton]
    rintro _ rfl ⟨id, h1, h2⟩
    exact h2 h1
  rw [h0] at this
  revert this
  decide +kernel

/-- A report of a chunk that is not in the backlog is counted as a completed chunk, even though no statement failed. -/
theorem C66_refuted_late_report : ¬ C66_full := by
  intro h
  have := (h [] [.call (.complete ⟨1, 0⟩ none 6 7 [])] (by decide +kernel)
    ⟨by decide +kernel, trivial⟩).2.2.2.2.2.1
  rw [show callsOf [.call (.complete ⟨1, 0⟩ none 6 7 [])] = [.complete ⟨1, 0⟩ none 6 7 []] from rfl,
    idle_deeds _ _ (by decide +kernel)] at this
  have h0 : times Deed.ChunkCompleted
      [⟨(monitored []).db, .complete ⟨1, 0⟩ none 6 7 [], (monitored []).db⟩] = 0 := by
    simp only [times, List.length_eq_zero_iff, List.filter_eq_nil_iff, decide_eq_true_eq, List.mem_singleton]
    rintro _ rfl ⟨id, _, h1, h2⟩
    simp only at h1 h2
    omega
  rw [h0] at this
  revert this
  decide +kernel

/-- Three submissions: one completes, one fails after a retry, one is cancelled; a fourth is in progress. -/
def busyHour : List Happening :=
  [.call (.insert { id := 1, contents := [some [1]], chunkSize := 10 } 1 []),
   .call (.insert { id := 2, contents := [some [2], none, some [4]], chunkSize := 10 } 2 []),
   .refresh true [],
   .call (.complete ⟨1, 0⟩ none 3 3 []),
   .call (.fail ⟨2, 1⟩ "x" 2 4 4 4 []),
   .call (.insert { id := 3, contents := [some [5]], chunkSize := 10 } 5 []),
   .call (.fail ⟨2, 1⟩ "x" 2 6 6 6 []),
   .call (.cancel 3 7 7 []),
   .refresh true [],
   .call (.insert { id := 4, contents := [some [6], some [7], some [8]], chunkSize := 3 } 8 []),
   .call (.complete ⟨4, 1⟩ none 9 9 [])]

/-- A decidable form of `Alive`. -/
def Monitored.alive (s : Monitored) : List Happening → Bool
  | [] => true
  | h :: hs =>
    (match h with
      | .call op => !(Opsqueue.step s.db op).1.crashed
      | .refresh connOk o => match connOk, (Metered.calculateScalingMetrics ⟨o, s.db⟩ s.metrics).1 with
        | true, .crash => false
        | _, _ => true
      | .restart => false) && Monitored.alive (Monitored.step s h) hs

theorem Monitored.alive_spec (hs : List Happening) : ∀ s : Monitored, s.alive hs = true → s.Alive hs := by
  induction hs with
  | nil => intro s _; trivial
  | cons h hs ih =>
    intro s ha
    simp only [Monitored.alive, Bool.and_eq_true] at ha
    refine ⟨?_, ih _ ha.2⟩
    cases h with
    | call op => simpa using ha.1
    | refresh c o =>
      intro hc e
      subst hc
      have := ha.1
      simp only [e] at this
      cases this
    | restart => exact absurd ha.1 (by simp)

example : (monitored []).Alive busyHour ∧ FreshIds (callsOf busyHour) ∧
    (∀ op ∈ callsOf busyHour, op.Undisturbed ∧ op.ProperMetadata) ∧
    (monitored busyHour).metrics =
      { submissionsTotal := 4, submissionsCompleted := 1, submissionsFailed := 1, submissionsCancelled := 1,
        chunksTotal := 8, chunksCompleted := 2, chunksFailed := 1, chunksRetried := 1, chunksBacklog := 0,
        operationsBacklog := 0 } :=
  ⟨Monitored.alive_spec _ _ (by decide +kernel), by decide +kernel,
    by simp [busyHour, callsOf, Op.Undisturbed, Op.clean, Op.ProperMetadata], by decide +kernel⟩

/-- A process that is alive although statements of its calls fail. -/
example : (monitored [oneChunk]).Alive [.call lostCompletion, .call (.cancel 1 9 9 [.ok, .fail])] :=
  Monitored.alive_spec _ _ (by decide +kernel)

/-! ## C67 -/

/-- The gauges show how much work there is: the chunks that are not done of all submissions in progress, and the
operations these are. -/
def GaugesTrue (s : Monitored) : Prop :=
  ∃ ids, InProgressIds s.db ids ∧
    s.metrics.chunksBacklog = ((ids.map (remaining s.db)).sum : Nat) ∧
    s.metrics.operationsBacklog = (ids.map (remainingOperations s.db)).sum

/-- The full claim: the gauges are always right. -/
def C67_full : Prop := ∀ hs : List Happening, FreshIds (callsOf hs) → GaugesTrue (monitored hs)

/-- The gauges are right whenever they have just been calculated, whatever happened before. -/
theorem C67_right_when_calculated (hs : List Happening) (o : List Fault) (hf : FreshIds (callsOf hs))
    (hok : (Metered.calculateScalingMetrics ⟨o, (monitored hs).db⟩ (monitored hs).metrics).1 = .ok ()) :
    GaugesTrue (monitored (hs ++ [.refresh true o])) := by
  rw [monitored_append]
  obtain ⟨h1, h2, h3⟩ := refresh_ok hok
  have hI : Inv (monitored hs).db := by rw [monitored_run]; exact inv_run hf
  have hp : Prov (callsOf hs) (monitored hs).db := by rw [monitored_run]; exact prov_run _ hf
  have hi : InProgressIds (monitored hs).db ((monitored hs).db.submissions.map SubmissionRow.id) := by
    refine ⟨hI.subIds, fun id => ⟨?_, ?_⟩⟩
    · intro hm
      obtain ⟨r, hr, rfl⟩ := List.mem_map.1 hm
      exact ⟨_, statusAt_sub hI hr⟩
    · rintro ⟨s, hs⟩
      obtain ⟨r, hr, rfl, _⟩ := statusAt_inProgress hs
      exact List.mem_map_of_mem hr
  refine ⟨(monitored hs).db.submissions.map SubmissionRow.id, ?_, ?_, ?_⟩
  · show InProgressIds ((monitored hs).step (.refresh true o)).db _
    rw [h1]; exact hi
  · show ((monitored hs).step (.refresh true o)).metrics.chunksBacklog = _
    rw [h2, show ((monitored hs).run [.refresh true o]).db = (monitored hs).db from h1]
    exact backlog_sum hI hi
  · show ((monitored hs).step (.refresh true o)).metrics.operationsBacklog = _
    rw [h3, show ((monitored hs).run [.refresh true o]).db = (monitored hs).db from h1]
    refine operations_sum hI ?_ hi
    intro r hr
    obtain ⟨a, _, _, _, e⟩ := hp.sub r hr
    exact ⟨a.chunkSize, by rw [e]; rfl⟩

/-- Between two calculations the gauges do not follow the backlog: that of chunks only goes down by the chunks that
were counted as failed, that of operations stays as it is. Missing: submissions that come in and chunks that complete
or are skipped. -/
theorem C67_between_calculations_partial (hs : List Happening) (ops : List Op)
    (hf : FreshIds (callsOf hs ++ ops)) (ha : (monitored hs).Alive (ops.map .call)) :
    let m := (monitored hs).metrics
    let m' := (monitored (hs ++ ops.map .call)).metrics
    m'.chunksBacklog = m.chunksBacklog - ((m'.chunksFailed : Int) - m.chunksFailed) ∧
    m'.operationsBacklog = m.operationsBacklog := by
  rw [monitored_append]
  have h := alive_calls_le ops _ _ (monitored_run hs) hf ha
  have h1 := h.chunksBacklog
  exact ⟨by omega, h.operationsBacklog⟩

/-- Nothing that comes in is counted until the next calculation. -/
theorem C67_refuted : ¬ C67_full := by
  intro h
  obtain ⟨ids, hi, hc, _⟩ := h [oneChunk] (by decide +kernel)
  have hm : 1 ∈ ids := (hi.2 1).2 ⟨⟨1, none, 1, 0, 1, none, [], "{}"⟩, by unfold InProgressAt; decide +kernel⟩
  have hr : remaining (monitored [oneChunk]).db 1 = 1 := by decide +kernel
  have hz : (monitored [oneChunk]).metrics.chunksBacklog = 0 := by decide +kernel
  rw [hz] at hc
  have : (ids.map (remaining (monitored [oneChunk]).db)).sum = 0 := by omega
  have := List.sum_eq_zero_iff_forall_eq_nat.1 this 1 (hr ▸ List.mem_map_of_mem hm)
  cases this

/-- The gauge of chunks can even be negative. -/
theorem C67_refuted_negative :
    ∃ hs, FreshIds (callsOf hs) ∧ (monitored hs).metrics.chunksBacklog < 0 :=
  ⟨[oneChunk, .call (.fail ⟨1, 0⟩ "x" 0 6 6 6 [])], by decide +kernel, by decide +kernel⟩

example :
    let s := monitored (busyHour ++ [.refresh true [.ok, .ok]])
    (Metered.calculateScalingMetrics ⟨[.ok, .ok], (monitored busyHour).db⟩ (monitored busyHour).metrics).1 = .ok () ∧
    s.metrics.chunksBacklog = 2 ∧ s.metrics.operationsBacklog = 6 ∧ remaining s.db 4 = 2 ∧
    remainingOperations s.db 4 = 6 := by
  decide +kernel

end Opsqueue
