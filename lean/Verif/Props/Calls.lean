import Verif.Proofs.Calls
import Verif.Props.Lifecycle

/-!
# C06 - C10, C56: exact effects of the individual calls

`run ops` ranges over the reachable databases. A call with the empty fault list `[]` is undisturbed;
what faults can do is the subject of C11/C12.
-/

namespace Opsqueue
open SubmissionDb

/-- **C06.** A complete-chunk call for a chunk that is not in the backlog changes nothing at all,
whatever faults strike it. -/
theorem C06_stale_completion_harmless (ops : List Op) (hf : FreshIds ops) (cid : ChunkId)
    (h : backlogCount (run ops) cid = 0) (out : Content) (t1 t2 : Time) (o : List Fault) :
    (step (run ops) (.complete cid out t1 t2 o)).2 = run ops := by
  have hn := backlogCount_zero.1 h
  have he := effect_run (hf.add (op := .complete cid out t1 t2 o) rfl)
  rw [run_snoc] at he
  generalize (step (run ops) (.complete cid out t1 t2 o)).2 = db' at he
  cases he with
  | none => rfl
  | complete c s out t1 t2 o hc hs hid hl => exact absurd (keys_of_mem hc) hn
  | completeLast c s out t1 t2 o hc hs hid hl => exact absurd (keys_of_mem hc) hn

/-- C06, second part: the reported number of finished chunks never exceeds the total. -/
theorem C06_done_le_total (ops : List Op) (hf : FreshIds ops) (id : SubmissionId) (s : Submission)
    (h : statusAt (run ops) id = .ok (some (.inProgress s))) : s.chunksDone ≤ s.chunksTotal := by
  obtain ⟨r, hr, _, rfl⟩ := statusAt_inProgress h
  have := (inv_run hf).done r hr
  simp only [subView]
  omega

/-- Already completed (1), of a finished submission (9), unknown. -/
example : FreshIds exampleOps ∧ backlogCount (run exampleOps) ⟨7, 1⟩ = 0 ∧
    backlogCount (run exampleOps) ⟨9, 0⟩ = 0 ∧ backlogCount (run exampleOps) ⟨4, 0⟩ = 0 ∧
    run exampleOps ≠ DB.empty := by decide +kernel

/-- **C07.** An undisturbed failure report on a backlog chunk with `c.retries` recorded failures, when
the budget is not exhausted by it: the call answers "not failed permanently", the chunk stays in the
backlog with one more recorded failure, every other backlog entry is unchanged, and so is the rest of
the database (so every status). -/
theorem C07_retry_below_budget (ops : List Op) (hf : FreshIds ops) (cid : ChunkId) (c : ChunkRow)
    (h : chunkAt (run ops) cid = .ok c) (f : String) (m : Nat) (t1 t2 t3 : Time)
    (hm : c.retries + 1 < m) (out : Out) (db' : DB)
    (hstep : step (run ops) (.fail cid f m t1 t2 t3 []) = (out, db')) :
    out = .failed (.ok false) ∧
    chunkAt db' cid = .ok { c with retries := c.retries + 1 } ∧
    (∀ cid', cid' ≠ cid → chunkAt db' cid' = chunkAt (run ops) cid') ∧
    (∀ id, statusAt db' id = statusAt (run ops) id) ∧
    db' = { run ops with chunks := db'.chunks } := by
  have hI := inv_run hf
  obtain ⟨hc, rfl⟩ := (chunkAt_ok_iff hI.chunkKeys).1 h
  have hI' := inv_step hf (op := .fail c.key f m t1 t2 t3 []) rfl
  rw [step_fail_retry hI f t1 t2 t3 hc hm] at hstep hI'
  simp only [Prod.mk.injEq] at hstep
  obtain ⟨rfl, rfl⟩ := hstep
  refine ⟨rfl, ?_, ?_, ?_, rfl⟩
  · rw [chunkAt_ok_iff hI'.chunkKeys]
    refine ⟨?_, rfl⟩
    simp only [Eff.bump, List.mem_map]
    exact ⟨c, hc, by simp⟩
  · intro cid' hne
    apply chunkAt_congr
    simp only [Eff.bump]
    generalize (run ops).chunks = l
    induction l with
    | nil => rfl
    | cons x xs ih =>
      by_cases hx : x.key = c.key
      · have hx1 : ¬ x.key = cid' := fun e => hne (e.symm.trans hx)
        have hx2 : ¬ ({ x with retries := x.retries + 1 } : ChunkRow).key = cid' := hx1
        have hxb : (x.key == c.key) = true := by simpa using hx
        have h1b : (x.key == cid') = false := by simpa using hx1
        have h2b : (({ x with retries := x.retries + 1 } : ChunkRow).key == cid') = false := by
          simpa using hx2
        simp only [List.map_cons, hxb, if_true, List.filter_cons, h1b, h2b, Bool.false_eq_true, if_false]
        exact ih
      · have hxb : (x.key == c.key) = false := by simpa using hx
        simp only [List.map_cons, hxb, Bool.false_eq_true, if_false, List.filter_cons, ih]
  · intro id
    simp only [statusAt_eq]
    rfl

/-- C07, second half: when the budget is exhausted by the report, the call answers "failed
permanently" and the submission is Failed. (What else happens then is C08.) -/
theorem C07_fail_at_budget (ops : List Op) (hf : FreshIds ops) (cid : ChunkId) (c : ChunkRow)
    (h : chunkAt (run ops) cid = .ok c) (f : String) (m : Nat) (t1 t2 t3 : Time)
    (hm : m ≤ c.retries + 1) (out : Out) (db' : DB)
    (hstep : step (run ops) (.fail cid f m t1 t2 t3 []) = (out, db')) :
    out = .failed (.ok true) ∧
    ∃ s d, statusAt db' cid.submissionId = .ok (some (.failed s d)) := by
  have hI := inv_run hf
  obtain ⟨hc, rfl⟩ := (chunkAt_ok_iff hI.chunkKeys).1 h
  obtain ⟨s, hs, hid, _⟩ := hI.owner c hc
  have hI' := inv_step hf (op := .fail c.key f m t1 t2 t3 []) rfl
  rw [step_fail_fail hI f t1 t2 t3 hc hs hid hm] at hstep hI'
  simp only [Prod.mk.injEq] at hstep
  obtain ⟨rfl, rfl⟩ := hstep
  refine ⟨rfl, ?_⟩
  have h1 : toFailed c.chunkIndex t1 s ∈ (Eff.fail s c f t1 t2 t3 (run ops)).submissionsFailed := by
    simp [Eff.fail]
  have h2 : toChunkFailed f t2 false c ∈ (Eff.fail s c f t1 t2 t3 (run ops)).chunksFailed := by
    simp [Eff.fail]
  have hk : (toChunkFailed f t2 false c).key =
      ⟨(toFailed c.chunkIndex t1 s).id, (toFailed c.chunkIndex t1 s).failedChunkId⟩ := by
    simp [toChunkFailed, ChunkFailedRow.key, toFailed, hid]
  have := statusAt_fail_ok hI' h1 h2 hk
  rw [show (toFailed c.chunkIndex t1 s).id = c.key.submissionId from hid] at this
  exact ⟨_, _, this⟩

/-- C07 over histories: the recorded failures of a backlog chunk never exceed the number of failure
reports on it since its submission was inserted, and are exactly that number when none of these
reports was disturbed by a fault. -/
theorem C07_retries_are_reports (pre post : List Op) (a : InsertArgs) (now : Time) (o : List Fault)
    (hf : FreshIds (pre ++ .insert a now o :: post)) (i : ChunkIndex) (c : ChunkRow)
    (h : chunkAt (run (pre ++ .insert a now o :: post)) ⟨a.id, i⟩ = .ok c) :
    c.retries ≤ (post.filter (Op.fails ⟨a.id, i⟩)).length ∧
    ((∀ f m t1 t2 t3 o', Op.fail ⟨a.id, i⟩ f m t1 t2 t3 o' ∈ post → o' = []) →
      c.retries = (post.filter (Op.fails ⟨a.id, i⟩)).length) := by
  have e : pre ++ .insert a now o :: post = (pre ++ [.insert a now o]) ++ post := by simp
  rw [e] at hf h
  obtain ⟨hc, hk⟩ := (chunkAt_ok_iff (inv_run hf).chunkKeys).1 h
  have := retries_run hf hc (congrArg ChunkId.submissionId hk)
  rw [hk] at this
  exact ⟨this.1, this.2.1⟩

/-- C07, the budget counted over a history: if all failure reports on a chunk since its insertion used
budget `m` and were undisturbed, and the chunk is still in the backlog, there were fewer than
`max 1 m` of them, and the next one fails the submission permanently exactly when it is number
`max 1 m`. -/
theorem C07_fails_at_exactly_max_one_m (pre post : List Op) (a : InsertArgs) (now : Time)
    (o : List Fault) (hf : FreshIds (pre ++ .insert a now o :: post)) (i : ChunkIndex) (m : Nat)
    (hpost : ∀ f m' t1 t2 t3 o', Op.fail ⟨a.id, i⟩ f m' t1 t2 t3 o' ∈ post → m' = m ∧ o' = [])
    (h : backlogCount (run (pre ++ .insert a now o :: post)) ⟨a.id, i⟩ = 1)
    (f : String) (t1 t2 t3 : Time) (n : Nat)
    (hn : n = (post.filter (Op.fails ⟨a.id, i⟩)).length) :
    n < max 1 m ∧
    (step (run (pre ++ .insert a now o :: post)) (.fail ⟨a.id, i⟩ f m t1 t2 t3 [])).1 =
      .failed (.ok (decide (n + 1 = max 1 m))) := by
  have hI := inv_run hf
  obtain ⟨c, hc, hk⟩ := List.mem_map.1 ((backlogCount_one hI).1 h)
  have hcat := (chunkAt_ok_iff hI.chunkKeys).2 ⟨hc, hk⟩
  have hr := (C07_retries_are_reports pre post a now o hf i c hcat).2
    (fun f m' t1 t2 t3 o' h => (hpost f m' t1 t2 t3 o' h).2)
  have e : pre ++ .insert a now o :: post = (pre ++ [.insert a now o]) ++ post := by simp
  have hlt : c.retries < max 1 m := by
    rw [e] at hf hc
    have := (retries_run hf hc (congrArg ChunkId.submissionId hk)).2.2 m
    rw [hk] at this
    exact this fun f m' t1 t2 t3 o' h => (hpost f m' t1 t2 t3 o' h).1
  rw [← hn] at hr
  refine ⟨by omega, ?_⟩
  by_cases hm : c.retries + 1 < m
  · rw [(C07_retry_below_budget _ hf _ c hcat f m t1 t2 t3 hm
      (step _ (.fail ⟨a.id, i⟩ f m t1 t2 t3 [])).1 _ rfl).1]
    have : ¬ (n + 1 = max 1 m) := by omega
    simp [this]
  · rw [(C07_fail_at_budget _ hf _ c hcat f m t1 t2 t3 (by omega)
      (step _ (.fail ⟨a.id, i⟩ f m t1 t2 t3 [])).1 _ rfl).1]
    have : n + 1 = max 1 m := by omega
    simp [this]

/-- Two reports with budget 3 leave the chunk in the backlog, the third one is the last. -/
def exampleFailing : List Op :=
  [ .fail ⟨7, 0⟩ "a" 3 20 20 20 [], .fail ⟨7, 1⟩ "x" 3 20 20 20 [], .fail ⟨7, 0⟩ "b" 3 21 21 21 [] ]
def exampleInsert : InsertArgs := { id := 7, contents := [some [1], some [2]] }

example : FreshIds ([] ++ .insert exampleInsert 10 [] :: exampleFailing) ∧
    backlogCount (run ([] ++ .insert exampleInsert 10 [] :: exampleFailing)) ⟨7, 0⟩ = 1 ∧
    chunkAt (run ([] ++ .insert exampleInsert 10 [] :: exampleFailing)) ⟨7, 0⟩ =
      .ok ⟨7, 0, some [1], 2⟩ ∧
    (∀ f m' t1 t2 t3 o', Op.fail ⟨exampleInsert.id, 0⟩ f m' t1 t2 t3 o' ∈ exampleFailing →
      m' = 3 ∧ o' = []) ∧
    (exampleFailing.filter (Op.fails ⟨exampleInsert.id, 0⟩)).length = 2 := by
  refine ⟨by decide +kernel, by decide +kernel, by decide +kernel, ?_, by decide +kernel⟩
  intro f m' t1 t2 t3 o' h
  simp [exampleFailing, exampleInsert] at h
  rcases h with h | h <;> exact ⟨h.2.1, h.2.2.2.2.2⟩

/-- **C08.** The permanent failure of a submission: afterwards its status is Failed, with the
attributes the submission had (chunk size and trace carrier excepted, see C21), the reporting chunk as
the culprit, that chunk's own input and the given message; every other chunk of the submission that
was in the backlog is recorded as skipped with its input; nothing of the submission is left in the
backlog; completed chunks are untouched. -/
theorem C08_permanent_failure (ops : List Op) (hf : FreshIds ops) (id : SubmissionId) (i : ChunkIndex)
    (s : Submission) (c : ChunkRow) (hs : statusAt (run ops) id = .ok (some (.inProgress s)))
    (hc : chunkAt (run ops) ⟨id, i⟩ = .ok c) (f : String) (m : Nat) (t1 t2 t3 : Time)
    (hm : m ≤ c.retries + 1) (out : Out) (db' : DB)
    (hstep : step (run ops) (.fail ⟨id, i⟩ f m t1 t2 t3 []) = (out, db')) :
    out = .failed (.ok true) ∧
    statusAt db' id = .ok (some (.failed
      { id := id, pfx := s.pfx, chunksTotal := s.chunksTotal, chunksDone := some s.chunksDone,
        chunkSize := 1, metadata := s.metadata, strategic := s.strategic, failedAt := t1,
        failedChunkId := i, otel := "{}" }
      { submissionId := id, chunkIndex := i, inputContent := c.inputContent, failure := f,
        failedAt := t2 })) ∧
    skippedAt db' ⟨id, i⟩ = some false ∧
    (∀ j d, j ≠ i → chunkAt (run ops) ⟨id, j⟩ = .ok d →
      chunkFailedAt db' ⟨id, j⟩ = .ok
        { submissionId := id, chunkIndex := j, inputContent := d.inputContent,
          failure := "", failedAt := t3 } ∧
      skippedAt db' ⟨id, j⟩ = some true) ∧
    (∀ j, chunkAt db' ⟨id, j⟩ = .err .rowNotFound) ∧ backlogSize db' id = 0 ∧
    (∀ cid, chunkCompletedAt db' cid = chunkCompletedAt (run ops) cid) := by
  have hI := inv_run hf
  obtain ⟨hcm, hk⟩ := (chunkAt_ok_iff hI.chunkKeys).1 hc
  replace hc := hcm
  obtain ⟨r, hr, hrid, rfl⟩ := statusAt_inProgress hs
  have hcid : c.submissionId = id := congrArg ChunkId.submissionId hk
  have hci : c.chunkIndex = i := congrArg ChunkId.chunkIndex hk
  subst hcid hci
  have hI' := inv_step hf (op := .fail c.key f m t1 t2 t3 []) rfl
  have hstep : step (run ops) (.fail c.key f m t1 t2 t3 []) = (out, db') := hstep
  rw [step_fail_fail hI f t1 t2 t3 hc hr hrid hm] at hstep hI'
  simp only [Prod.mk.injEq] at hstep
  obtain ⟨rfl, rfl⟩ := hstep
  have h1 : toFailed c.chunkIndex t1 r ∈ (Eff.fail r c f t1 t2 t3 (run ops)).submissionsFailed := by
    simp [Eff.fail]
  have h2 : toChunkFailed f t2 false c ∈ (Eff.fail r c f t1 t2 t3 (run ops)).chunksFailed := by
    simp [Eff.fail]
  have hk2 : (toChunkFailed f t2 false c).key =
      ⟨(toFailed c.chunkIndex t1 r).id, (toFailed c.chunkIndex t1 r).failedChunkId⟩ := by
    simp [toChunkFailed, ChunkFailedRow.key, toFailed, hrid]
  refine ⟨rfl, ?_, ?_, ?_, ?_, ?_, ?_⟩
  · have := statusAt_fail_ok hI' h1 h2 hk2
    rw [show (toFailed c.chunkIndex t1 r).id = c.submissionId from hrid] at this
    rw [this]
    simp only [failView, toFailed, subView, chunkFailedView, toChunkFailed, decodeChunkSize, hrid]
    rfl
  · exact (chunkFailedAt_ok hI'.cfKeys h2).2
  · intro j d hj hd
    obtain ⟨hd, hdk⟩ := (chunkAt_ok_iff hI.chunkKeys).1 hd
    have h3 : toChunkFailed "" t3 true d ∈ (Eff.fail r c f t1 t2 t3 (run ops)).chunksFailed := by
      have hds : d.submissionId = c.submissionId := congrArg ChunkId.submissionId hdk
      have hne : d.key ≠ c.key := by
        rw [hdk]; intro e; exact hj (congrArg ChunkId.chunkIndex e)
      simp only [Eff.fail, otherChunks, List.mem_append, List.mem_map, List.mem_filter]
      refine .inr ⟨d, ⟨hd, ?_⟩, rfl⟩
      have hneb : (d.key == c.key) = false := by simpa using hne
      have hdsb : (d.submissionId == c.key.submissionId) = true := by simpa [ChunkRow.key] using hds
      rw [hneb, hdsb]; rfl
    have := chunkFailedAt_ok hI'.cfKeys h3
    have hdk' : (toChunkFailed "" t3 true d).key = ⟨c.submissionId, j⟩ := hdk
    rw [hdk'] at this
    refine ⟨?_, this.2⟩
    rw [this.1]
    have hds : d.submissionId = c.submissionId := congrArg ChunkId.submissionId hdk
    have hdj : d.chunkIndex = j := congrArg ChunkId.chunkIndex hdk
    simp [chunkFailedView, toChunkFailed, hds, hdj]
  · intro j
    apply chunkAt_err
    intro hm
    obtain ⟨x, hx, hxk⟩ := List.mem_map.1 hm
    have := (List.mem_filter.1 hx).2
    have hxs : x.submissionId = c.submissionId := congrArg ChunkId.submissionId hxk
    simp [hxs, hrid] at this
  · rw [backlogSize_zero]
    intro x hx
    have := (List.mem_filter.1 hx).2
    simpa [hrid] using this
  · intro cid; exact chunkCompletedAt_congr rfl

/-- An in-progress submission with a completed, a failing and a waiting chunk. -/
def exampleBeforeFail : List Op :=
  [ .insert { id := 7, contents := [some [1], some [2], some [3]], metadata := some [5] } 10 [],
    .complete ⟨7, 1⟩ (some [9]) 11 12 [], .fail ⟨7, 2⟩ "first" 2 13 14 15 [] ]

example : FreshIds exampleBeforeFail ∧
    statusAt (run exampleBeforeFail) 7 = .ok (some (.inProgress
      { id := 7, pfx := none, chunksTotal := 3, chunksDone := 1, chunkSize := 1,
        metadata := some [5], strategic := [], otel := "{}" })) ∧
    chunkAt (run exampleBeforeFail) ⟨7, 2⟩ = .ok ⟨7, 2, some [3], 1⟩ ∧
    chunkAt (run exampleBeforeFail) ⟨7, 0⟩ = .ok ⟨7, 0, some [1], 0⟩ := by decide +kernel

/-- **C09.** Cancelling an in-progress submission. -/
theorem C09_cancel_in_progress (ops : List Op) (hf : FreshIds ops) (id : SubmissionId)
    (s : Submission) (hs : statusAt (run ops) id = .ok (some (.inProgress s))) (t1 t2 : Time)
    (out : Out) (db' : DB) (hstep : step (run ops) (.cancel id t1 t2 []) = (out, db')) :
    out = .cancelled (.ok ()) ∧
    statusAt db' id = .ok (some (.cancelled
      { id := id, pfx := s.pfx, chunksTotal := s.chunksTotal, chunksDone := s.chunksDone,
        metadata := s.metadata, strategic := s.strategic, cancelledAt := t1 })) ∧
    (∀ j d, chunkAt (run ops) ⟨id, j⟩ = .ok d →
      chunkFailedAt db' ⟨id, j⟩ = .ok
        { submissionId := id, chunkIndex := j, inputContent := d.inputContent,
          failure := "", failedAt := t2 } ∧
      skippedAt db' ⟨id, j⟩ = some true) ∧
    (∀ j, chunkAt db' ⟨id, j⟩ = .err .rowNotFound) ∧ backlogSize db' id = 0 ∧
    (∀ cid, chunkCompletedAt db' cid = chunkCompletedAt (run ops) cid) := by
  have hI := inv_run hf
  obtain ⟨r, hr, rfl, rfl⟩ := statusAt_inProgress hs
  have hI' := inv_step hf (op := .cancel r.id t1 t2 []) rfl
  rw [step_cancel_ok hI t1 t2 hr] at hstep hI'
  simp only [Prod.mk.injEq] at hstep
  obtain ⟨rfl, rfl⟩ := hstep
  have h1 : toCancelled t1 r ∈ (Eff.cancel r t1 t2 (run ops)).submissionsCancelled := by
    simp [Eff.cancel]
  refine ⟨rfl, ?_, ?_, ?_, ?_, ?_⟩
  · exact statusAt_canc hI' h1
  · intro j d hd
    obtain ⟨hd, hdk⟩ := (chunkAt_ok_iff hI.chunkKeys).1 hd
    have hds : d.submissionId = r.id := congrArg ChunkId.submissionId hdk
    have hdj : d.chunkIndex = j := congrArg ChunkId.chunkIndex hdk
    have h3 : toChunkFailed "" t2 true d ∈ (Eff.cancel r t1 t2 (run ops)).chunksFailed := by
      simp only [Eff.cancel, List.mem_append, List.mem_map, List.mem_filter]
      exact .inr ⟨d, ⟨hd, by simp [hds]⟩, rfl⟩
    have := chunkFailedAt_ok hI'.cfKeys h3
    have hdk' : (toChunkFailed "" t2 true d).key = ⟨r.id, j⟩ := hdk
    rw [hdk'] at this
    refine ⟨?_, this.2⟩
    rw [this.1]
    simp [chunkFailedView, toChunkFailed, hds, hdj]
  · intro j
    apply chunkAt_err
    intro hm
    obtain ⟨x, hx, hxk⟩ := List.mem_map.1 hm
    have := (List.mem_filter.1 hx).2
    have hxs : x.submissionId = r.id := congrArg ChunkId.submissionId hxk
    simp [hxs] at this
  · rw [backlogSize_zero]
    intro x hx
    have := (List.mem_filter.1 hx).2
    simpa using this
  · intro cid; exact chunkCompletedAt_congr rfl

/-- C09: cancelling a submission that is over returns the not-cancellable error with that very
status and changes nothing. -/
theorem C09_cancel_over (ops : List Op) (hf : FreshIds ops) (id : SubmissionId) (t1 t2 : Time) :
    (∀ s, statusAt (run ops) id = .ok (some (.completed s)) →
      step (run ops) (.cancel id t1 t2 []) = (.cancelled (.err (.err (.R (.R (.completed s))))), run ops)) ∧
    (∀ s c, statusAt (run ops) id = .ok (some (.failed s c)) →
      step (run ops) (.cancel id t1 t2 []) = (.cancelled (.err (.err (.R (.R (.failed s c))))), run ops)) ∧
    (∀ s, statusAt (run ops) id = .ok (some (.cancelled s)) →
      step (run ops) (.cancel id t1 t2 []) = (.cancelled (.err (.err (.R (.R (.cancelled s))))), run ops)) := by
  have hI := inv_run hf
  refine ⟨?_, ?_, ?_⟩
  · intro s h
    obtain ⟨r, hr, rfl, rfl⟩ := statusAt_completed h
    rw [step_cancel_missing t1 t2 (not_sub_of_comp hI (List.mem_map_of_mem hr)), h]; rfl
  · intro s c h
    obtain ⟨r, hr, rfl, _⟩ := statusAt_failed h
    rw [step_cancel_missing t1 t2 (not_sub_of_fail hI (List.mem_map_of_mem hr)), h]; rfl
  · intro s h
    obtain ⟨r, hr, rfl, rfl⟩ := statusAt_cancelled h
    rw [step_cancel_missing t1 t2 (not_sub_of_canc hI (List.mem_map_of_mem hr)), h]; rfl

/-- C09: cancelling an unknown submission returns not-found for that id and changes nothing. -/
theorem C09_cancel_unknown (ops : List Op) (id : SubmissionId) (t1 t2 : Time)
    (h : statusAt (run ops) id = .ok none) :
    step (run ops) (.cancel id t1 t2 []) = (.cancelled (.err (.err (.R (.L ⟨id⟩)))), run ops) := by
  have hn : id ∉ (run ops).submissions.map SubmissionRow.id := by
    have := statusAt_eq_none.1 h
    simp only [allIds, List.mem_append, not_or] at this
    exact this.1.1.1
  rw [step_cancel_missing t1 t2 hn, h]; rfl

/-- In-progress answer of the status program implies a row. -/
private theorem status_inProgress_row {id : SubmissionId} {w w' : World} {s : Submission}
    (h : submissionStatus id w = (.ok (some (.inProgress s)), w')) :
    Stmt.selectSubmission id w.db = some s := by
  unfold submissionStatus at h
  obtain ⟨r1, w1, h1, h2⟩ := Sql.bind_ok h
  have hr1 := Sql.stmt_ok h1
  simp only [Except.ok.injEq, Prod.mk.injEq] at hr1
  cases r1 with
  | some s' =>
    simp only [Sql.pure_run, Prod.mk.injEq, Res.ok.injEq, Option.some.injEq,
      SubmissionStatus.inProgress.injEq] at h2
    rw [hr1.1, h2.1]
  | none =>
    exfalso
    simp only at h2
    obtain ⟨r2, w2, _, h2⟩ := Sql.bind_ok h2
    cases r2 with
    | some => simp [Sql.pure_run] at h2
    | none =>
      simp only at h2
      obtain ⟨r3, w3, _, h2⟩ := Sql.bind_ok h2
      cases r3 with
      | some =>
        simp only at h2
        obtain ⟨c, w4, _, h2⟩ := Sql.bind_ok h2
        simp [Sql.pure_run] at h2
      | none =>
        simp only at h2
        obtain ⟨r4, w4, _, h2⟩ := Sql.bind_ok h2
        cases r4 <;> simp [Sql.pure_run] at h2

private theorem stmt_ok_db {α : Type} {f : DB → Except DbErr (α × DB)} {w w' : World} {a : α}
    (h : Sql.stmt f w = (.ok a, w')) : f w.db = .ok (a, w'.db) := Sql.stmt_ok h

private theorem stmt_err_io {α : Type} {f : DB → Except DbErr (α × DB)} {w w' : World} {e : DbErr}
    (h : Sql.stmt f w = (.err e, w')) : w'.db = w.db := by
  unfold Sql.stmt at h
  split at h <;> (try split at h) <;> simp_all <;> (try (rw [← h.2])) <;> rfl

/-- The not-found error of the cancel statements means the row is gone. -/
private theorem cancelNotx_notFound {id : SubmissionId} {t1 t2 : Time} {w w' : World}
    {nf : SubmissionNotFound} (h : cancelSubmissionNotx id t1 t2 w = (.err (.R nf), w')) :
    Stmt.selectSubmission id w'.db = none := by
  unfold cancelSubmissionNotx at h
  rw [Sql.bind_run] at h
  split at h
  · rename_i w1 h1
    rw [Sql.mapErr_run] at h
    split at h <;> simp at h
  · rename_i e w1 h1
    simp only [Prod.mk.injEq, Res.err.injEq] at h
    obtain ⟨rfl, rfl⟩ := h
    unfold cancelSubmissionRaw at h1
    rw [Sql.bind_run] at h1
    split at h1
    · rename_i w2 h2
      rw [Sql.bind_run] at h1
      split at h1
      · rename_i row w3 h3
        have h3 := stmt_ok_db (Sql.mapErr_ok h3)
        simp only [Stmt.deleteSubmission, Except.ok.injEq, Prod.mk.injEq] at h3
        cases row with
        | none =>
          simp only [Sql.throw_run, Prod.mk.injEq] at h1
          rw [← h1.2, selectSubmission_none, ← h3.2]
          intro hm
          obtain ⟨x, hx, e⟩ := List.mem_map.1 hm
          have := (List.mem_filter.1 hx).2
          simp [e] at this
        | some r => simp [Sql.pure_run] at h1
      · rename_i e w3 h3
        rw [Sql.mapErr_run] at h3
        split at h3
        · simp at h3
        · simp only [Prod.mk.injEq, Res.err.injEq] at h3
          rw [← h3.1] at h1; simp at h1
        · simp at h3
      · simp at h1
    · rename_i e w2 h2
      rw [Sql.mapErr_run] at h2
      split at h2
      · simp at h2
      · simp only [Prod.mk.injEq, Res.err.injEq] at h2
        rw [← h2.1] at h1; simp at h1
      · simp at h2
    · simp at h1
  · simp at h

/-- With the row present, the cancel statements never report that it is missing. -/
private theorem cancelNotx_present {id : SubmissionId} {t1 t2 : Time} {w w' : World}
    {nf : SubmissionNotFound} (hrow : id ∈ w.db.submissions.map SubmissionRow.id) :
    cancelSubmissionNotx id t1 t2 w ≠ (.err (.R nf), w') := by
  intro h
  unfold cancelSubmissionNotx at h
  rw [Sql.bind_run] at h
  split at h
  · rename_i w1 h1
    rw [Sql.mapErr_run] at h
    split at h <;> simp at h
  · rename_i e w1 h1
    simp only [Prod.mk.injEq, Res.err.injEq] at h
    obtain ⟨rfl, rfl⟩ := h
    unfold cancelSubmissionRaw at h1
    rw [Sql.bind_run] at h1
    split at h1
    · rename_i w2 h2
      have h2 := stmt_ok_db (Sql.mapErr_ok h2)
      have hsub : w2.db.submissions = w.db.submissions := by
        revert h2
        simp only [Stmt.insertCancelledSelect, bind, Except.bind, pure, Except.pure]
        split
        · simp
        · intro h2
          simp only [Except.ok.injEq, Prod.mk.injEq] at h2
          rw [← h2.2]
      rw [Sql.bind_run] at h1
      split at h1
      · rename_i row w3 h3
        have h3 := stmt_ok_db (Sql.mapErr_ok h3)
        simp only [Stmt.deleteSubmission, Except.ok.injEq, Prod.mk.injEq] at h3
        cases row with
        | none =>
          have h4 := List.find?_eq_none.1 h3.1
          obtain ⟨x, hx, e⟩ := List.mem_map.1 hrow
          exact h4 x (hsub ▸ hx) (by simp [e])
        | some r => simp [Sql.pure_run] at h1
      · rename_i e w3 h3
        rw [Sql.mapErr_run] at h3
        split at h3
        · simp at h3
        · simp only [Prod.mk.injEq, Res.err.injEq] at h3
          rw [← h3.1] at h1; simp at h1
        · simp at h3
      · simp at h1
    · rename_i e w2 h2
      rw [Sql.mapErr_run] at h2
      split at h2
      · simp at h2
      · simp only [Prod.mk.injEq, Res.err.injEq] at h2
        rw [← h2.1] at h1; simp at h1
      · simp at h2
    · simp at h1
  · simp at h

/-- C09: a cancel of a submission in progress is never refused: under any faults it succeeds, reports a database
error, or the process died. -/
theorem C09_cancel_in_progress_not_refused (db : DB) (id : SubmissionId) (s : Submission)
    (h : statusAt db id = .ok (some (.inProgress s))) (t1 t2 : Time) (o : List Fault) :
    let out := (step db (.cancel id t1 t2 o)).1
    out = .cancelled (.ok ()) ∨ (∃ e, out = .cancelled (.err (.err (.L e)))) ∨ out = .cancelled .crash := by
  obtain ⟨r, hr, hid, -⟩ := statusAt_inProgress h
  have hrow : id ∈ db.submissions.map SubmissionRow.id := List.mem_map.2 ⟨r, hr, hid⟩
  simp only [step, Out.cancelled.injEq, cancel_tx]
  have hbody : ∀ o', (∃ w, cancelBody id t1 t2 ⟨o', db⟩ = (.ok (), w)) ∨
      (∃ e w, cancelBody id t1 t2 ⟨o', db⟩ = (.err (.err (.L e)), w)) ∨
      ∃ w, cancelBody id t1 t2 ⟨o', db⟩ = (.crash, w) := by
    intro o'
    unfold cancelBody
    rw [Sql.matchRes_run]
    rcases hc : cancelSubmissionNotx id t1 t2 ⟨o', db⟩ with ⟨r, w⟩
    cases r with
    | ok u => exact .inl ⟨w, rfl⟩
    | crash => exact .inr (.inr ⟨w, rfl⟩)
    | err e =>
      cases e with
      | L e => exact .inr (.inl ⟨e, w, rfl⟩)
      | R nf => exact absurd hc (cancelNotx_present hrow)
  unfold Sql.transaction
  split
  · exact .inr (.inl ⟨_, rfl⟩)
  · exact .inr (.inr rfl)
  · rename_i w1 h1
    have hw : w1.db = db := by
      have := stmt_ok_db h1
      simpa using this.symm
    rcases w1 with ⟨o', db'⟩
    subst hw
    rcases hbody o' with ⟨w, hb⟩ | ⟨e, w, hb⟩ | ⟨w, hb⟩ <;> rw [hb] <;> simp only
    · split <;> first | exact .inl rfl | exact .inr (.inl ⟨_, rfl⟩) | exact .inr (.inr rfl)
    · exact .inr (.inl ⟨_, rfl⟩)
    · simp

/-- C09: the panic branch of cancel is unreachable, in every database whatsoever and under every
fault. -/
theorem C09_cancel_never_panics (db : DB) (id : SubmissionId) (t1 t2 : Time) (o : List Fault) :
    (step db (.cancel id t1 t2 o)).1 ≠ .cancelled (.err .panicked) := by
  intro h
  simp only [step, Out.cancelled.injEq, cancel_tx] at h
  unfold Sql.transaction at h
  split at h
  · simp at h
  · simp at h
  · rename_i w1 _
    split at h
    · rename_i e w2 hb
      simp only [Res.err.injEq] at h
      subst h
      unfold cancelBody at hb
      rw [Sql.matchRes_run] at hb
      split at hb
      · simp [Sql.pure_run] at hb
      · rename_i e w3 h3
        cases e with
        | L e => simp [Sql.throw_run] at hb
        | R nf =>
          have hnone := cancelNotx_notFound h3
          simp only [Sql.matchRes_run] at hb
          split at hb
          · rename_i st w4 h4
            cases st with
            | none => simp [Sql.throw_run] at hb
            | some st =>
              cases st with
              | inProgress s =>
                have := status_inProgress_row h4
                rw [hnone] at this
                simp at this
              | completed s => simp [Sql.throw_run] at hb
              | failed s c => simp [Sql.throw_run] at hb
              | cancelled s => simp [Sql.throw_run] at hb
          · simp [Sql.throw_run] at hb
          · simp at hb
      · simp at hb
    · simp at h
    · split at h <;> simp at h

example : statusAt (run exampleFailed) 7 = .ok (some exampleFailedStatus) ∧
    statusAt (run exampleFailed) 8 = .ok none ∧
    (step (run exampleBeforeFail) (.cancel 7 20 21 [.ok, .ok, .fail])).1 =
      .cancelled (.err (.err (.L .io))) ∧
    (step (run exampleBeforeFail) (.cancel 7 20 21 [])).1 = .cancelled (.ok ()) := by
  decide +kernel

/-- **C10.** An undisturbed insert of `n` chunks under a fresh id: the call returns the id; the
submission is in progress with exactly the given attributes, or completed if it has no chunks; its
backlog is exactly the given contents at indexes `0..n-1` with no recorded failures; its metadata is
exactly the given map. -/
theorem C10_insert_faithful (ops : List Op) (a : InsertArgs) (now : Time)
    (hf : FreshIds (ops ++ [.insert a now []])) (hmap : (a.strategic.map (·.1)).Nodup)
    (out : Out) (db' : DB) (hstep : step (run ops) (.insert a now []) = (out, db')) :
    out = .inserted (.ok a.id) ∧
    (a.contents ≠ [] → statusAt db' a.id = .ok (some (.inProgress
      { id := a.id, pfx := a.pfx, chunksTotal := a.contents.length, chunksDone := 0,
        chunkSize := a.chunkSize, metadata := a.metadata, strategic := a.strategic,
        otel := a.otel }))) ∧
    (∀ i (h : i < a.contents.length), chunkAt db' ⟨a.id, i⟩ =
      .ok { submissionId := a.id, chunkIndex := i, inputContent := a.contents[i], retries := 0 }) ∧
    (∀ i, a.contents.length ≤ i → chunkAt db' ⟨a.id, i⟩ = .err .rowNotFound) ∧
    backlogSize db' a.id = a.contents.length ∧
    strategicAt db' a.id = .ok a.strategic := by
  have hI := inv_run hf.snoc.1
  have hfr := fresh_run hf (x := a.id) rfl
  have hok := insertOk_of_fresh hI hfr hmap
  have hI1 := inv_insert hI hok hfr
  have hI' := inv_run hf
  rw [run_snoc] at hI'
  rw [step_insert_ok hI now hfr hmap] at hstep hI'
  simp only [Prod.mk.injEq] at hstep
  obtain ⟨rfl, hdb⟩ := hstep
  have hch : db'.chunks = (run ops).chunks ++ mkChunks a.id a.contents := by
    rw [← hdb]; split <;> rfl
  have hmt : db'.submissionsMetadata = (Eff.insert a (run ops)).submissionsMetadata := by
    rw [← hdb]; split <;> rfl
  simp only [hdb] at hI'
  have hnew : ∀ c ∈ (run ops).chunks, c.submissionId ≠ a.id := by
    intro c hc e
    exact hfr (mem_usedIds.2 (.inl (e ▸ mem_allIds_chunk hI hc)))
  have hst : Stmt.strategicOf a.id db' = a.strategic := by
    rcases strategic_insert hI hfr (x := a.id)
      (by rw [(allIds_insert_perm a _).mem_iff]; simp) db' hmt with h | h
    · exact h.2
    · exact absurd (mem_usedIds.2 (.inl h.1)) hfr
  refine ⟨rfl, ?_, ?_, ?_, ?_, ?_⟩
  · intro hne
    rw [if_neg hne] at hdb
    have hm : a.row ∈ db'.submissions := by rw [← hdb]; simp [Eff.insert]
    have := statusAt_sub hI' hm
    rw [show a.row.id = a.id from rfl] at this
    rw [this, subView, show a.row.id = a.id from rfl, hst]
    rfl
  · intro i hi
    rw [chunkAt_ok_iff hI'.chunkKeys, hch, List.mem_append]
    refine ⟨.inr (mem_mkChunks.2 ⟨rfl, rfl, ?_⟩), rfl⟩
    simp [hi]
  · intro i hi
    apply chunkAt_err
    rw [hch]
    intro hm
    obtain ⟨c, hc, e⟩ := List.mem_map.1 hm
    have e1 : c.submissionId = a.id := congrArg ChunkId.submissionId e
    have e2 : c.chunkIndex = i := congrArg ChunkId.chunkIndex e
    rcases List.mem_append.1 hc with hc | hc
    · exact hnew c hc e1
    · have := (mem_mkChunks.1 hc).2.2
      rw [e2, List.getElem?_eq_none hi] at this
      simp at this
  · rw [backlogSize, hch, List.filter_append]
    have h1 : (run ops).chunks.filter (fun c => c.submissionId == a.id) = [] := by
      rw [List.filter_eq_nil_iff]; intro c hc; simpa using hnew c hc
    have h2 : (mkChunks a.id a.contents).filter (fun c => c.submissionId == a.id) =
        mkChunks a.id a.contents := by
      rw [List.filter_eq_self]; intro c hc; simpa using (mem_mkChunks.1 hc).1
    rw [h1, h2]; simp [length_mkChunks]
  · rw [strategicAt_eq, hst]

/-- C10: under any faults an insert of at least one chunk reports success and has its full effect, or
reports an error and has no effect, or the process died and it has the full effect or none. -/
theorem C10_insert_all_or_nothing (db : DB) (a : InsertArgs) (now : Time) (hne : a.contents ≠ [])
    (o : List Fault) (out : Out) (db' : DB) (hstep : step db (.insert a now o) = (out, db')) :
    ((out, db') = step db (.insert a now [])) ∨
    ((∃ e, out = .inserted (.err e)) ∧ db' = db) ∨
    (out = .inserted .crash ∧ (db' = db ∨ db' = (step db (.insert a now [])).2)) := by
  have hlen : ¬ a.contents.length = 0 := by simpa [List.length_eq_zero_iff] using hne
  have hb : insertSubmission a.row a.strategic (mkChunks a.id a.contents) =
      Sql.transaction (fun e => e) (insertBody a) := rfl
  simp only [step, insertSubmissionFromChunks, Sql.bind_run, hlen, if_false, hb] at hstep ⊢
  have hspec := Sql.transaction_spec (conv := fun e => e) (faithful_insertBody a) ⟨o, db⟩
  rcases ht : Sql.transaction (fun e => e) (insertBody a) ⟨o, db⟩ with ⟨r, w⟩
  rw [ht] at hstep hspec
  rcases hspec with ⟨hno, hdb⟩ | ⟨u, hbody, hr⟩
  · cases r with
    | ok u => exact absurd rfl (hno u)
    | err e =>
      simp only [Prod.mk.injEq] at hstep hdb
      exact .inr (.inl ⟨⟨e, hstep.1.symm⟩, hstep.2.symm.trans hdb⟩)
    | crash =>
      simp only [Prod.mk.injEq] at hstep hdb
      exact .inr (.inr ⟨hstep.1.symm, .inl (hstep.2.symm.trans hdb)⟩)
  · have hclean : Sql.transaction (fun e => e) (insertBody a) ⟨[], db⟩ = (.ok u, ⟨[], w.db⟩) := by
      simp only at hbody
      rw [Sql.transaction_nil, hbody]
    rw [hclean]
    rcases hr with hr | hr <;> simp only at hr <;> subst hr
    · left
      simp only [Sql.pure_run, Prod.mk.injEq] at hstep ⊢
      exact ⟨hstep.1.symm, hstep.2.symm⟩
    · right; right
      simp only [Sql.pure_run, Prod.mk.injEq] at hstep ⊢
      exact ⟨hstep.1.symm, .inr hstep.2.symm⟩

/-- C10: the number of rows per INSERT statement has no observable effect. -/
theorem C10_batching_unobservable (n m : Nat) (rows : List ChunkRow) (db : DB) :
    Sql.transaction (fun e => e) (ChunkDb.insertBatches n rows) ⟨[], db⟩ =
    Sql.transaction (fun e => e) (ChunkDb.insertBatches m rows) ⟨[], db⟩ := by
  simp only [Sql.transaction_nil]
  rcases insertBatches_nil n rows db with ⟨t, h1, h2⟩ | ⟨h1, d, h2⟩ <;>
  rcases insertBatches_nil m rows db with ⟨t', h1', h2'⟩ | ⟨h1', d', h2'⟩ <;>
  rw [h1] at h1'
  · injection h1' with h; subst h; rw [h2, h2']
  · simp at h1'
  · simp at h1'
  · rw [h2, h2']

def exampleInsert2 : InsertArgs :=
  { id := 5, pfx := some "p", contents := [some [1], none, some [3, 4]], metadata := some [7],
    strategic := [("company", 12), ("flow", 3)], chunkSize := 50 }

example : FreshIds (exampleOps ++ [.insert exampleInsert2 40 []]) ∧
    (exampleInsert2.strategic.map (·.1)).Nodup ∧
    (step (run exampleOps) (.insert exampleInsert2 40 [.ok, .ok, .fail])).1 =
      .inserted (.err .io) := by
  decide +kernel

/-- **C56.** The effect of an undisturbed completion report on a backlog chunk: the call answers ok,
the chunk leaves the backlog and its output is recorded, every other chunk is unchanged, and the
submission is in progress with one more finished chunk, or completed if that was the last one. -/
theorem C56_completion_exact (ops : List Op) (hf : FreshIds ops) (id : SubmissionId) (i : ChunkIndex)
    (s : Submission) (hs : statusAt (run ops) id = .ok (some (.inProgress s)))
    (hb : backlogCount (run ops) ⟨id, i⟩ = 1) (output : Content) (t1 t2 : Time) (out : Out) (db' : DB)
    (hstep : step (run ops) (.complete ⟨id, i⟩ output t1 t2 []) = (out, db')) :
    out = .completed (.ok ()) ∧
    chunkAt db' ⟨id, i⟩ = .err .rowNotFound ∧
    chunkCompletedAt db' ⟨id, i⟩ = .ok ⟨id, i, output, t1⟩ ∧
    (∀ cid, cid ≠ ⟨id, i⟩ → chunkAt db' cid = chunkAt (run ops) cid ∧
      chunkCompletedAt db' cid = chunkCompletedAt (run ops) cid) ∧
    (∀ cid, chunkFailedAt db' cid = chunkFailedAt (run ops) cid) ∧
    (s.chunksDone + 1 ≠ s.chunksTotal → statusAt db' id = .ok (some (.inProgress
      { s with chunksDone := s.chunksDone + 1 }))) ∧
    (s.chunksDone + 1 = s.chunksTotal → statusAt db' id = .ok (some (.completed
      { id := id, pfx := s.pfx, chunksTotal := s.chunksTotal, chunkSize := 1, metadata := s.metadata,
        strategic := s.strategic, completedAt := t2, otel := "{}" })) ∧ backlogSize db' id = 0) := by
  have hI := inv_run hf
  obtain ⟨c, hc, hk⟩ := List.mem_map.1 ((backlogCount_one hI).1 hb)
  obtain ⟨r, hr, hrid, rfl⟩ := statusAt_inProgress hs
  have hcid : c.submissionId = id := congrArg ChunkId.submissionId hk
  have hci : c.chunkIndex = i := congrArg ChunkId.chunkIndex hk
  subst hcid hci
  have hI' := inv_step hf (op := .complete c.key output t1 t2 []) rfl
  have hstep : step (run ops) (.complete c.key output t1 t2 []) = (out, db') := hstep
  rw [hstep] at hI'
  have hI' : Inv db' := hI'
  have key : out = .completed (.ok ()) ∧
      db'.chunks = (run ops).chunks.filter (fun r => !(r.key == c.key)) ∧
      db'.chunksCompleted = (run ops).chunksCompleted ++ [⟨c.submissionId, c.chunkIndex, output, t1⟩] ∧
      db'.chunksFailed = (run ops).chunksFailed ∧
      db'.submissionsMetadata = (run ops).submissionsMetadata := by
    by_cases hl : r.chunksDone + 1 = r.chunksTotal
    · rw [step_complete_last hI output t1 t2 hc hr hrid hl, Prod.mk.injEq] at hstep
      obtain ⟨rfl, rfl⟩ := hstep
      exact ⟨rfl, rfl, rfl, rfl, rfl⟩
    · rw [step_complete_notLast hI output t1 t2 hc hr hrid hl, Prod.mk.injEq] at hstep
      obtain ⟨rfl, rfl⟩ := hstep
      exact ⟨rfl, rfl, rfl, rfl, rfl⟩
  obtain ⟨k1, k2, k3, k4, k5⟩ := key
  refine ⟨k1, ?_, ?_, ?_, ?_, ?_, ?_⟩
  · apply chunkAt_err
    rw [k2]
    intro hm
    obtain ⟨x, hx, e⟩ := List.mem_map.1 hm
    have := (List.mem_filter.1 hx).2
    have e : x.key = c.key := e
    simp [e] at this
  · have : (⟨c.submissionId, c.chunkIndex, output, t1⟩ : ChunkCompletedRow) ∈ db'.chunksCompleted := by
      rw [k3]; simp
    exact chunkCompletedAt_ok hI'.ccKeys this
  · intro cid hne
    have hne : cid ≠ c.key := hne
    constructor
    · apply chunkAt_congr
      rw [k2, List.filter_filter]
      apply List.filter_congr
      intro x _
      by_cases e : x.key = cid
      · simp [e, hne]
      · simp [e]
    · apply chunkCompletedAt_congr
      rw [k3, List.filter_append]
      have : ¬ (⟨c.submissionId, c.chunkIndex, output, t1⟩ : ChunkCompletedRow).key = cid :=
        fun e => hne e.symm
      simp [this]
  · intro cid
    exact (chunkFailedAt_congr (by rw [k4])).1
  · intro hl
    have hl : r.chunksDone + 1 ≠ r.chunksTotal := hl
    rw [step_complete_notLast hI output t1 t2 hc hr hrid hl, Prod.mk.injEq] at hstep
    obtain ⟨_, rfl⟩ := hstep
    have := statusAt_sub hI' (completeRaw_sub_mem output t1 hr hrid)
    rw [show ({ r with chunksDone := r.chunksDone + 1 } : SubmissionRow).id = c.submissionId from hrid] at this
    rw [this]
    simp only [subView, strategic_congr k5, hrid]
  · intro hl
    have hl : r.chunksDone + 1 = r.chunksTotal := hl
    refine ⟨?_, ?_⟩
    · rw [step_complete_last hI output t1 t2 hc hr hrid hl, Prod.mk.injEq] at hstep
      obtain ⟨_, rfl⟩ := hstep
      have hm : toCompleted t2 { r with chunksDone := r.chunksDone + 1 } ∈
          (Eff.finish { r with chunksDone := r.chunksDone + 1 } t2
            (Eff.completeRaw c.key output t1 (run ops))).submissionsCompleted := by
        simp [Eff.finish]
      have := statusAt_comp hI' hm
      rw [show (toCompleted t2 { r with chunksDone := r.chunksDone + 1 }).id = c.submissionId from hrid] at this
      rw [this]
      simp only [compView, toCompleted, subView, decodeChunkSize, hrid]
      rfl
    · rw [backlogSize_zero, k2]
      intro x hx e
      obtain ⟨hx1, hx2⟩ := List.mem_filter.1 hx
      have hkx : (⟨r.id, x.chunkIndex⟩ : ChunkId) ∈ keys (run ops) := by
        rw [hrid, ← e]; exact keys_of_mem hx1
      have := comp_last_keys hI hc hr hrid hl hkx
      rw [hrid, ← e] at this
      have : x.key = c.key := this
      simp [this] at hx2

example : backlogCount (run exampleBeforeFail) ⟨7, 2⟩ = 1 ∧
    statusAt (run (exampleBeforeFail ++ [.complete ⟨7, 2⟩ none 30 31 [], .complete ⟨7, 0⟩ none 32 33 []])) 7 =
      .ok (some (.completed
        { id := 7, pfx := none, chunksTotal := 3, chunkSize := 1,
          metadata := some [5], strategic := [], completedAt := 33, otel := "{}" })) := by
  decide +kernel

end Opsqueue
