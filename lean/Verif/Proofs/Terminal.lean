import Verif.Proofs.Counting

/-! Terminal rows over time. -/

namespace Opsqueue
open SubmissionDb

theorem oldIds_comp {db : DB} {t : Time} {r : CompletedRow} (hr : r ∈ db.submissionsCompleted)
    (h : r.completedAt < t) : r.id ∈ oldIds t db := by
  simp only [oldIds, List.mem_append]
  exact .inl (.inl (List.mem_map_of_mem (List.mem_filter.2 ⟨hr, by simpa using h⟩)))
theorem oldIds_fail {db : DB} {t : Time} {r : FailedRow} (hr : r ∈ db.submissionsFailed)
    (h : r.failedAt < t) : r.id ∈ oldIds t db := by
  simp only [oldIds, List.mem_append]
  exact .inl (.inr (List.mem_map_of_mem (List.mem_filter.2 ⟨hr, by simpa using h⟩)))
theorem oldIds_canc {db : DB} {t : Time} {r : CancelledRow} (hr : r ∈ db.submissionsCancelled)
    (h : r.cancelledAt < t) : r.id ∈ oldIds t db := by
  simp only [oldIds, List.mem_append]
  exact .inr (List.mem_map_of_mem (List.mem_filter.2 ⟨hr, by simpa using h⟩))

/-- Induction over a continuation. -/
theorem cont_induction {xs ys : List Op} {P : List Op → Prop} (hf : FreshIds (xs ++ ys))
    (nil : P []) (snoc : ∀ zs op, (∃ ws, ys = zs ++ op :: ws) → FreshIds ((xs ++ zs) ++ [op]) →
      P zs → P (zs ++ [op])) : P ys := by
  suffices h : ∀ zs, (∃ ws, ys = zs ++ ws) → P zs from h ys ⟨[], by simp⟩
  intro zs
  refine snoc_induction (P := fun zs => (∃ ws, ys = zs ++ ws) → P zs) (fun _ => nil) ?_ zs
  intro zs op ih hw
  obtain ⟨ws, rfl⟩ := hw
  refine snoc zs op ⟨ws, by simp⟩ ?_ (ih ⟨op :: ws, by simp⟩)
  have : xs ++ (zs ++ [op] ++ ws) = ((xs ++ zs) ++ [op]) ++ ws := by simp
  rw [this] at hf
  exact hf.prefix

theorem cleanup_mem {ys zs ws : List Op} {op : Op} (h : ys = zs ++ op :: ws) : op ∈ ys := by
  simp [h]

/-- A predicate on databases that every call preserves or replaces by "forgotten". -/
theorem stable_run {xs ys : List Op} {id : SubmissionId} (hf : FreshIds (xs ++ ys))
    (K : DB → Prop) (h0 : K (run xs)) (hk : id ∈ allIds (run xs))
    (hstep : ∀ db db' op, Inv db → Effect db op db' → K db →
      K db' ∨ (op.isCleanup = true ∧ id ∉ allIds db')) :
    K (run (xs ++ ys)) ∨ ((∃ op ∈ ys, op.isCleanup = true) ∧ id ∉ allIds (run (xs ++ ys))) := by
  have hu := known_inserted hf.prefix hk
  refine cont_induction (P := fun zs => K (run (xs ++ zs)) ∨
    ((∃ op ∈ ys, op.isCleanup = true) ∧ id ∉ allIds (run (xs ++ zs)))) hf ?_ ?_
  · left; simpa using h0
  · intro zs op ⟨ws, hw⟩ hf' ih
    rw [← List.append_assoc]
    rcases ih with h | ⟨h1, h2⟩
    · rcases hstep _ _ op (inv_run hf'.snoc.1) (effect_run hf') h with h | ⟨h1, h2⟩
      · exact .inl h
      · exact .inr ⟨⟨op, cleanup_mem hw, h1⟩, h2⟩
    · refine .inr ⟨h1, ?_⟩
      refine gone_stays hf' ?_ h2
      rw [List.filterMap_append]; exact List.mem_append_left _ hu

theorem comp_stable {xs ys : List Op} (hf : FreshIds (xs ++ ys)) {r : CompletedRow}
    (hr : r ∈ (run xs).submissionsCompleted) :
    r ∈ (run (xs ++ ys)).submissionsCompleted ∨
      ((∃ op ∈ ys, op.isCleanup = true) ∧ r.id ∉ allIds (run (xs ++ ys))) := by
  refine stable_run hf (fun db => r ∈ db.submissionsCompleted) hr (mem_allIds_comp hr) ?_
  intro db db' op hI he h
  rcases he.comp_keep h with h | ⟨t, o, rfl, rfl, hlt⟩
  · exact .inl h
  · exact .inr ⟨rfl, oldIds_gone hI (oldIds_comp h hlt)⟩

theorem canc_stable {xs ys : List Op} (hf : FreshIds (xs ++ ys)) {r : CancelledRow}
    (hr : r ∈ (run xs).submissionsCancelled) :
    r ∈ (run (xs ++ ys)).submissionsCancelled ∨
      ((∃ op ∈ ys, op.isCleanup = true) ∧ r.id ∉ allIds (run (xs ++ ys))) := by
  refine stable_run hf (fun db => r ∈ db.submissionsCancelled) hr (mem_allIds_canc hr) ?_
  intro db db' op hI he h
  rcases he.canc_keep h with h | ⟨t, o, rfl, rfl, hlt⟩
  · exact .inl h
  · exact .inr ⟨rfl, oldIds_gone hI (oldIds_canc h hlt)⟩

theorem fail_stable {xs ys : List Op} (hf : FreshIds (xs ++ ys)) {r : FailedRow}
    (hr : r ∈ (run xs).submissionsFailed) :
    r ∈ (run (xs ++ ys)).submissionsFailed ∨
      ((∃ op ∈ ys, op.isCleanup = true) ∧ r.id ∉ allIds (run (xs ++ ys))) := by
  refine stable_run hf (fun db => r ∈ db.submissionsFailed) hr (mem_allIds_fail hr) ?_
  intro db db' op hI he h
  rcases he.fail_keep h with h | ⟨t, o, rfl, rfl, hlt⟩
  · exact .inl h
  · exact .inr ⟨rfl, oldIds_gone hI (oldIds_fail h hlt)⟩

/-- The failed chunk's row of a failed submission. -/
theorem failedChunk_stable {xs ys : List Op} (hf : FreshIds (xs ++ ys)) {r : FailedRow}
    {d : ChunkFailedRow} (hr : r ∈ (run xs).submissionsFailed) (hd : d ∈ (run xs).chunksFailed)
    (hk : d.key = ⟨r.id, r.failedChunkId⟩) :
    (r ∈ (run (xs ++ ys)).submissionsFailed ∧ d ∈ (run (xs ++ ys)).chunksFailed) ∨
    ((∃ op ∈ ys, op.isCleanup = true) ∧ r.id ∉ allIds (run (xs ++ ys))) ∨
    ((∃ op ∈ ys, op.isCleanup = true) ∧ d.failedAt < r.failedAt ∧
      r ∈ (run (xs ++ ys)).submissionsFailed ∧
      d.key ∉ (run (xs ++ ys)).chunksFailed.map ChunkFailedRow.key) := by
  have hu := known_inserted hf.prefix (mem_allIds_fail hr)
  have hsub : d.submissionId = r.id := congrArg ChunkId.submissionId hk
  refine cont_induction (P := fun zs =>
    (r ∈ (run (xs ++ zs)).submissionsFailed ∧ d ∈ (run (xs ++ zs)).chunksFailed) ∨
    ((∃ op ∈ ys, op.isCleanup = true) ∧ r.id ∉ allIds (run (xs ++ zs))) ∨
    ((∃ op ∈ ys, op.isCleanup = true) ∧ d.failedAt < r.failedAt ∧
      r ∈ (run (xs ++ zs)).submissionsFailed ∧
      d.key ∉ (run (xs ++ zs)).chunksFailed.map ChunkFailedRow.key)) hf ?_ ?_
  · left; simpa using ⟨hr, hd⟩
  · intro zs op ⟨ws, hw⟩ hf' ih
    rw [← List.append_assoc]
    have he := effect_run hf'
    have hI := inv_run hf'.snoc.1
    have hop := cleanup_mem hw
    rcases ih with ⟨h1, h2⟩ | ⟨h1, h2⟩ | ⟨h1, h2, h3, h4⟩
    · rcases he.fail_keep h1 with h | ⟨t, o, rfl, hdb', hlt⟩
      · rcases he.cf_keep h2 with h' | ⟨t, o, rfl, hdb', hlt⟩
        · exact .inl ⟨h, h'⟩
        · refine .inr (.inr ⟨⟨_, hop, rfl⟩, ?_, h, ?_⟩)
          · rw [hdb'] at h
            have h := (List.mem_filter.1 h).2
            have h : ¬ r.failedAt < t := by simpa using h
            exact Nat.lt_of_lt_of_le hlt (Nat.not_lt.1 h)
          · rw [hdb']
            intro hm
            obtain ⟨d', hd', e⟩ := List.mem_map.1 hm
            have hd'' := List.mem_filter.1 hd'
            have := eq_of_key_eq hI.cfKeys hd''.1 h2 e
            subst this
            simp [hlt] at hd''
      · rw [hdb']
        exact .inr (.inl ⟨⟨_, hop, rfl⟩, oldIds_gone hI (oldIds_fail h1 hlt)⟩)
    · refine .inr (.inl ⟨h1, ?_⟩)
      refine gone_stays hf' ?_ h2
      rw [List.filterMap_append]; exact List.mem_append_left _ hu
    · rcases he.fail_keep h3 with h | ⟨t, o, rfl, hdb', hlt⟩
      · refine .inr (.inr ⟨h1, h2, h, ?_⟩)
        intro hm
        obtain ⟨d', hd', e⟩ := List.mem_map.1 hm
        rcases he.cf_new hI hd' with h5 | h5
        · exact h4 (e ▸ List.mem_map_of_mem h5)
        · have : d'.submissionId = d.submissionId := congrArg ChunkId.submissionId e
          rw [this, hsub] at h5
          exact not_sub_of_fail hI (List.mem_map_of_mem h3) h5
      · rw [hdb']
        exact .inr (.inl ⟨⟨_, hop, rfl⟩, oldIds_gone hI (oldIds_fail h3 hlt)⟩)

/-- New failed rows come from failure reports, new cancelled rows from cancellations. -/
theorem Effect.fail_new {db db' : DB} {op : Op} (h : Effect db op db') {r : FailedRow}
    (hr : r ∈ db'.submissionsFailed) : r ∈ db.submissionsFailed ∨ op.endsEarly r.id = true := by
  cases h with
  | fail c s failure m t1 t2 t3 o hc hs hid hr' =>
    simp only [Eff.fail, List.mem_append, List.mem_singleton] at hr
    rcases hr with hr | rfl
    · exact .inl hr
    · right; simp [Op.endsEarly, ChunkRow.key, toFailed, hid]
  | cleanup t o => exact .inl (List.mem_filter.1 hr).1
  | _ => exact .inl hr

theorem Effect.canc_new {db db' : DB} {op : Op} (h : Effect db op db') {r : CancelledRow}
    (hr : r ∈ db'.submissionsCancelled) :
    r ∈ db.submissionsCancelled ∨ op.endsEarly r.id = true := by
  cases h with
  | cancel s t1 t2 o hs =>
    simp only [Eff.cancel, List.mem_append, List.mem_singleton] at hr
    rcases hr with hr | rfl
    · exact .inl hr
    · right; simp [Op.endsEarly, toCancelled]
  | cleanup t o => exact .inl (List.mem_filter.1 hr).1
  | _ => exact .inl hr

theorem fail_since {xs ys : List Op} (hf : FreshIds (xs ++ ys)) {r : FailedRow}
    (hn : ∀ op ∈ ys, op.endsEarly r.id = false)
    (hr : r ∈ (run (xs ++ ys)).submissionsFailed) : r ∈ (run xs).submissionsFailed := by
  revert hr
  refine cont_induction (P := fun zs => r ∈ (run (xs ++ zs)).submissionsFailed →
    r ∈ (run xs).submissionsFailed) hf ?_ ?_
  · simp
  · intro zs op ⟨ws, hw⟩ hf' ih hr
    rw [← List.append_assoc] at hr
    rcases (effect_run hf').fail_new hr with h | h
    · exact ih h
    · rw [hn op (cleanup_mem hw)] at h; simp at h

theorem canc_since {xs ys : List Op} (hf : FreshIds (xs ++ ys)) {r : CancelledRow}
    (hn : ∀ op ∈ ys, op.endsEarly r.id = false)
    (hr : r ∈ (run (xs ++ ys)).submissionsCancelled) : r ∈ (run xs).submissionsCancelled := by
  revert hr
  refine cont_induction (P := fun zs => r ∈ (run (xs ++ zs)).submissionsCancelled →
    r ∈ (run xs).submissionsCancelled) hf ?_ ?_
  · simp
  · intro zs op ⟨ws, hw⟩ hf' ih hr
    rw [← List.append_assoc] at hr
    rcases (effect_run hf').canc_new hr with h | h
    · exact ih h
    · rw [hn op (cleanup_mem hw)] at h; simp at h

theorem known_since {xs ys : List Op} (hf : FreshIds (xs ++ ys)) {x : SubmissionId}
    (hn : ∀ op ∈ ys, op.isCleanup = false) (hx : x ∈ allIds (run xs)) :
    x ∈ allIds (run (xs ++ ys)) := by
  refine cont_induction (P := fun zs => x ∈ allIds (run (xs ++ zs))) hf (by simpa using hx) ?_
  intro zs op ⟨ws, hw⟩ hf' ih
  rw [← List.append_assoc]
  rcases (effect_run hf').ids_keep (inv_run hf'.snoc.1) ih with h | h
  · exact h
  · rw [hn op (cleanup_mem hw)] at h; simp at h

/-- A fault-free completion report takes its chunk out of the backlog. -/
theorem clean_complete_gone {db : DB} (hI : Inv db) (cid : ChunkId) (out : Content) (t1 t2 : Time) :
    cid ∉ keys (step db (.complete cid out t1 t2 [])).2 := by
  have hb : ChunkDb.completeChunkTx cid out t1 t2 = Sql.transaction E.L (completeBody cid out t1 t2) := rfl
  simp only [step, ChunkDb.completeChunk, Sql.matchRes_run, hb, Sql.transaction_nil]
  by_cases hm : cid ∈ keys db
  · obtain ⟨c, hc, rfl⟩ := mem_key_of hm
    obtain ⟨s, hs, hid, _⟩ := hI.owner c hc
    by_cases hl : s.chunksDone + 1 = s.chunksTotal
    · rw [completeBody_last hI out t1 t2 hc hs hid hl]
      simp [Sql.pure_run, keys, Eff.finish, Eff.completeRaw]
    · rw [completeBody_notLast hI out t1 t2 hc hs hid hl]
      simp [Sql.pure_run, keys, Eff.completeRaw]
  · rw [completeBody_missing out t1 t2 hm]
    simpa [Sql.pure_run] using hm

end Opsqueue
