import Verif.Proofs.Terminal
import Verif.Props.Conservation

/-!
# C03, C04, C05: terminal states are final; when a submission is completed
-/

namespace Opsqueue
open SubmissionDb

/-- **C03.** If after a history `xs` the status of `id` is a terminal one `st`, then after any
continuation `ys`, under any faults, the status is exactly `st` again; or a cleanup happened and the
submission is unknown; or a cleanup happened and the status call reports a missing row, which is
possible only for a failed submission whose failed chunk carries an earlier date than the submission
itself (a clock running backwards during the failure report). -/
theorem C03_terminal_final (xs ys : List Op) (hf : FreshIds (xs ++ ys)) (id : SubmissionId)
    (st : SubmissionStatus) (hst : st.Terminal) (h : statusAt (run xs) id = .ok (some st)) :
    statusAt (run (xs ++ ys)) id = .ok (some st) ∨
    ((∃ op ∈ ys, op.isCleanup = true) ∧ statusAt (run (xs ++ ys)) id = .ok none) ∨
    ((∃ op ∈ ys, op.isCleanup = true) ∧ (∃ s c, st = .failed s c ∧ c.failedAt < s.failedAt) ∧
      statusAt (run (xs ++ ys)) id = .err .rowNotFound) := by
  have hI := inv_run hf
  cases st with
  | inProgress s => exact hst.elim
  | completed s =>
    obtain ⟨r, hr, rfl, rfl⟩ := statusAt_completed h
    rcases comp_stable hf hr with h' | ⟨hc, hn⟩
    · left
      rw [statusAt_comp hI h', compView,
        strategic_stable hf (mem_allIds_comp hr) (mem_allIds_comp h')]
      rfl
    · exact .inr (.inl ⟨hc, statusAt_none hn⟩)
  | cancelled s =>
    obtain ⟨r, hr, rfl, rfl⟩ := statusAt_cancelled h
    rcases canc_stable hf hr with h' | ⟨hc, hn⟩
    · left
      rw [statusAt_canc hI h', cancView,
        strategic_stable hf (mem_allIds_canc hr) (mem_allIds_canc h')]
      rfl
    · exact .inr (.inl ⟨hc, statusAt_none hn⟩)
  | failed s c =>
    obtain ⟨r, hr, rfl, rfl, d, hd, hk, rfl⟩ := statusAt_failed h
    rcases failedChunk_stable hf hr hd hk with ⟨h1, h2⟩ | ⟨hc, hn⟩ | ⟨hc, hlt, h1, h2⟩
    · left
      rw [statusAt_fail_ok hI h1 h2 hk, failView,
        strategic_stable hf (mem_allIds_fail hr) (mem_allIds_fail h1)]
      rfl
    · exact .inr (.inl ⟨hc, statusAt_none hn⟩)
    · refine .inr (.inr ⟨hc, ⟨_, _, rfl, hlt⟩, ?_⟩)
      rw [statusAt_fail hI h1, ← hk]
      have : Stmt.selectChunkFailed d.key (run (xs ++ ys)) = .error .rowNotFound := by
        simp only [Stmt.selectChunkFailed, find?_key_none.2 h2]
      rw [this]

/-- C03, second part: an id that was inserted and is unknown now (its insert failed or it was
cleaned up) is never known again. -/
theorem C03_gone_forever (xs ys : List Op) (hf : FreshIds (xs ++ ys)) (a : InsertArgs) (now : Time)
    (o : List Fault) (hm : Op.insert a now o ∈ xs) (h : statusAt (run xs) a.id = .ok none) :
    statusAt (run (xs ++ ys)) a.id = .ok none := by
  rw [statusAt_eq_none] at h ⊢
  exact gone_stays hf (List.mem_filterMap.2 ⟨_, hm, rfl⟩) h

/-- A failure, then duplicate reports, a cancel attempt and a cleanup of older things: status kept. -/
def exampleFailed : List Op :=
  [ .insert { id := 7, contents := [some [1], some [2]] } 10 [],
    .complete ⟨7, 1⟩ (some [9]) 11 12 [], .fail ⟨7, 0⟩ "oops" 1 13 14 15 [] ]
def exampleAfter : List Op :=
  [ .complete ⟨7, 0⟩ none 20 21 [], .cancel 7 22 23 [], .fail ⟨7, 0⟩ "again" 1 24 25 26 [],
    .cleanup 12 [], .insert { id := 8, contents := [none] } 30 [] ]

def exampleFailedStatus : SubmissionStatus := .failed
  { id := 7, pfx := none, chunksTotal := 2, chunksDone := some 1, chunkSize := 1,
    metadata := none, strategic := [], failedAt := 13, failedChunkId := 0, otel := "{}" }
  { submissionId := 7, chunkIndex := 0, inputContent := some [1], failure := "oops",
    failedAt := 14 }

example : FreshIds (exampleFailed ++ exampleAfter) ∧
    statusAt (run exampleFailed) 7 = .ok (some exampleFailedStatus) ∧
    statusAt (run (exampleFailed ++ exampleAfter)) 7 = .ok (some exampleFailedStatus) ∧
    statusAt (run (exampleFailed ++ [.cleanup 14 []])) 7 = .ok none := by
  decide +kernel

/-- **C04.** If `id` is reported completed, then it was inserted by some call of the history, with
as many chunks as its reported total, and after that insert the history contains, for every one of
its chunks, a complete-chunk call for that chunk. -/
theorem C04_completed_means_all_reported (ops : List Op) (hf : FreshIds ops) (id : SubmissionId)
    (s : SubmissionCompleted) (h : statusAt (run ops) id = .ok (some (.completed s))) :
    ∃ pre a now o post, ops = pre ++ .insert a now o :: post ∧ a.id = id ∧
      s.chunksTotal = a.contents.length ∧
      ∀ i, i < s.chunksTotal → CompletedIn ops ⟨id, i⟩ ∧ ∃ op ∈ post, op.completes ⟨id, i⟩ = true := by
  obtain ⟨r, hr, rfl, rfl⟩ := statusAt_completed h
  obtain ⟨a, now, o, hm, e⟩ := (prov_run ops hf).comp r hr
  obtain ⟨pre, post, hsplit⟩ := List.append_of_mem hm
  have hid : a.id = r.id := by rw [e]; rfl
  have htot : (compView (run ops) r).chunksTotal = a.contents.length := by
    show r.chunksTotal = _
    rw [e]; rfl
  refine ⟨pre, a, now, o, post, hsplit, hid, htot, ?_⟩
  intro i hi
  have hc := (comp_run ops hf).comp r hr i hi
  refine ⟨hc, ?_⟩
  obtain ⟨p, out, t1, t2, o', q, hs2, h1, h2, hf1, _⟩ := hc.was hf
  -- the insert is in `p`
  obtain ⟨op, hop, hopid⟩ := List.mem_filterMap.1 (key_inserted hf1 h1)
  have hins : op = .insert a now o := by
    cases op with
    | insert b n' o'' =>
      refine insert_unique hf (hs2 ▸ List.mem_append_left _ hop) hm ?_
      rw [hid]; simpa [Op.insertId] using hopid
    | _ => simp [Op.insertId] at hopid
  subst hins
  rw [hsplit] at hs2
  rcases List.append_eq_append_iff.1 hs2 with ⟨as, rfl, h3⟩ | ⟨as, rfl, h3⟩
  · cases as with
    | nil => simp at h3
    | cons x xs =>
      simp only [List.cons_append, List.cons.injEq] at h3
      refine ⟨.complete ⟨r.id, i⟩ out t1 t2 o', ?_, by simp [Op.completes]⟩
      rw [h3.2]; simp
  · -- the insert would occur twice
    exfalso
    have hfn : (List.filterMap Op.insertId ops).Nodup := hf
    rw [hsplit, List.filterMap_append, List.nodup_append] at hfn
    refine hfn.2.2 a.id ?_ a.id ?_ rfl
    · exact List.mem_filterMap.2 ⟨_, List.mem_append_left _ hop, rfl⟩
    · simp [Op.insertId]

def exampleCompleted : List Op :=
  [ .complete ⟨7, 0⟩ none 1 1 [],
    .insert { id := 7, contents := [some [1], some [2]], metadata := some [4] } 10 [],
    .complete ⟨7, 1⟩ (some [9]) 11 12 [], .complete ⟨7, 0⟩ (some [9]) 13 14 [] ]

example : FreshIds exampleCompleted ∧ statusAt (run exampleCompleted) 7 = .ok (some (.completed
    { id := 7, pfx := none, chunksTotal := 2, chunkSize := 1, metadata := some [4], strategic := [],
      completedAt := 14, otel := "{}" })) := by
  decide +kernel

/-- **C05.** Let `id` be in progress with at least one chunk after `xs`. In any continuation `ys`
without a failure report or cancellation for `id` and without cleanup, but otherwise arbitrary
(other calls, faults, duplicate and failed reports), if every chunk of `id` that was in the backlog
gets at least one undisturbed complete-chunk call, then `id` is reported completed at the end. -/
theorem C05_last_completion_completes (xs ys : List Op) (hf : FreshIds (xs ++ ys)) (id : SubmissionId)
    (s : Submission) (h : statusAt (run xs) id = .ok (some (.inProgress s)))
    (hpos : 0 < s.chunksTotal)
    (hearly : ∀ op ∈ ys, op.endsEarly id = false) (hclean : ∀ op ∈ ys, op.isCleanup = false)
    (hall : ∀ i, backlogCount (run xs) ⟨id, i⟩ = 1 →
      ∃ out t1 t2, Op.complete ⟨id, i⟩ out t1 t2 [] ∈ ys) :
    ∃ s', statusAt (run (xs ++ ys)) id = .ok (some (.completed s')) ∧
      s'.chunksTotal = s.chunksTotal := by
  have hI := inv_run hf
  have hfx := hf.prefix
  obtain ⟨r, hr, rfl, rfl⟩ := statusAt_inProgress h
  have hu := known_inserted hfx (mem_allIds_sub hr)
  have hnokeys : ∀ cid ∈ keys (run (xs ++ ys)), cid.submissionId ≠ r.id := by
    rintro ⟨x, i⟩ hc hx
    simp only at hx
    subst hx
    by_cases hk : (⟨r.id, i⟩ : ChunkId) ∈ keys (run xs)
    · obtain ⟨out, t1, t2, hm⟩ := hall i ((backlogCount_one (inv_run hfx)).2 hk)
      obtain ⟨y1, y2, rfl⟩ := List.append_of_mem hm
      have e : xs ++ (y1 ++ Op.complete ⟨r.id, i⟩ out t1 t2 [] :: y2) =
          ((xs ++ y1) ++ [Op.complete ⟨r.id, i⟩ out t1 t2 []]) ++ y2 := by simp
      rw [e] at hf hc
      refine keys_stay_gone hf ?_ ?_ hc
      · rw [List.filterMap_append, List.filterMap_append]
        exact List.mem_append_left _ (List.mem_append_left _ hu)
      · rw [run_snoc]
        exact clean_complete_gone (inv_run hf.prefix.snoc.1) _ _ _ _
    · exact keys_stay_gone hf hu hk hc
  have hk := known_since hf hclean (mem_allIds_sub hr)
  simp only [allIds, List.mem_append] at hk
  obtain ⟨a, n, o, hm, e⟩ := (prov_run xs hfx).sub r hr
  have haid : a.id = r.id := by rw [e]; rfl
  have htot : r.chunksTotal = a.contents.length := by rw [e]; rfl
  rcases hk with ((hk | hk) | hk) | hk
  · exfalso
    obtain ⟨r', hr', e'⟩ := List.mem_map.1 hk
    have hd := hI.done r' hr'
    have hz : (run (xs ++ ys)).chunks.filter (·.submissionId == r'.id) = [] := by
      rw [List.filter_eq_nil_iff]
      intro c hc
      have := hnokeys _ (keys_of_mem hc)
      rw [e']; simpa [ChunkRow.key] using this
    rw [hz] at hd
    simp only [List.length_nil, Nat.add_zero] at hd
    rcases notStuck_run _ hf r' hr' with h0 | h0
    · obtain ⟨b, n', o', hm', e2⟩ := (prov_run _ hf).sub r' hr'
      have hb : b.id = r.id := by rw [← e', e2]; rfl
      have := insert_unique hf (List.mem_append_left _ hm) hm' (haid.trans hb.symm)
      injection this with hab
      have : r'.chunksTotal = b.contents.length := by rw [e2]; rfl
      rw [h0, ← hab, ← htot] at this
      exact Nat.ne_of_lt hpos this
    · omega
  · obtain ⟨r', hr', e'⟩ := List.mem_map.1 hk
    have hs := statusAt_comp hI hr'
    rw [e'] at hs
    refine ⟨_, hs, ?_⟩
    obtain ⟨b, n', o', hm', e2⟩ := (prov_run _ hf).comp r' hr'
    have hb : b.id = r.id := by rw [← e', e2]; rfl
    have := insert_unique hf (List.mem_append_left _ hm) hm' (haid.trans hb.symm)
    injection this with hab
    have : r'.chunksTotal = b.contents.length := by rw [e2]; rfl
    show r'.chunksTotal = r.chunksTotal
    rw [this, htot, hab]
  · exfalso
    obtain ⟨r', hr', e'⟩ := List.mem_map.1 hk
    have := fail_since hf (r := r') (by rw [e']; exact hearly) hr'
    exact not_sub_of_fail (inv_run hfx) (List.mem_map_of_mem this) (e' ▸ List.mem_map_of_mem hr)
  · exfalso
    obtain ⟨r', hr', e'⟩ := List.mem_map.1 hk
    have := canc_since hf (r := r') (by rw [e']; exact hearly) hr'
    exact not_sub_of_canc (inv_run hfx) (List.mem_map_of_mem this) (e' ▸ List.mem_map_of_mem hr)

def exampleReports : List Op :=
  [ .complete ⟨7, 2⟩ none 30 31 [], .complete ⟨7, 2⟩ none 32 33 [],
    .complete ⟨7, 0⟩ none 34 35 [.ok, .crash], .complete ⟨7, 0⟩ none 34 35 [] ]

example : FreshIds (exampleOps ++ exampleReports) ∧
    (∀ op ∈ exampleReports, op.endsEarly 7 = false ∧ op.isCleanup = false) ∧
    (∀ i, backlogCount (run exampleOps) ⟨7, i⟩ = 1 →
      ∃ out t1 t2, Op.complete ⟨7, i⟩ out t1 t2 [] ∈ exampleReports) := by
  refine ⟨by decide +kernel, by decide +kernel, ?_⟩
  intro i hi
  have hk := (backlogCount_one (inv_run (by decide +kernel))).1 hi
  have : (run exampleOps).chunks.map ChunkRow.key = [⟨7, 0⟩, ⟨7, 2⟩] := by decide +kernel
  rw [this] at hk
  simp only [List.mem_cons, ChunkId.mk.injEq, List.not_mem_nil, or_false, true_and] at hk
  rcases hk with rfl | rfl
  · exact ⟨none, 34, 35, by decide⟩
  · exact ⟨none, 30, 31, by decide⟩

end Opsqueue
