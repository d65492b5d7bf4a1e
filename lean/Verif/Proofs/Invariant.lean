import Verif.Proofs.Step

/-! The invariant holds in every reachable database. -/

namespace Opsqueue
open SubmissionDb

theorem perm_filter_key {ρ κ : Type} [DecidableEq κ] {key : ρ → κ} {l : List ρ}
    (hn : (l.map key).Nodup) {s : ρ} (hs : s ∈ l) :
    (l.map key).Perm (key s :: (l.filter (fun r => !(key r == key s))).map key) := by
  induction l with
  | nil => simp at hs
  | cons x xs ih =>
    simp only [List.map_cons, List.nodup_cons] at hn
    rcases List.mem_cons.1 hs with rfl | h
    · have : xs.filter (fun r => !(key r == key s)) = xs := by
        rw [List.filter_eq_self]
        intro a ha
        have : key a ≠ key s := fun e => hn.1 (e ▸ List.mem_map_of_mem ha)
        simpa using this
      simp [this]
    · have hne : key x ≠ key s := fun e => hn.1 (e ▸ List.mem_map_of_mem h)
      simp only [List.map_cons, List.filter_cons, beq_iff_eq, hne, Bool.not_false, if_true,
        beq_eq_false_iff_ne.2 hne]
      exact (List.Perm.cons _ (ih hn.2 h)).trans (List.Perm.swap _ _ _)

theorem count_after_remove {l : List ChunkRow} (hn : (l.map ChunkRow.key).Nodup) {c : ChunkRow}
    (hc : c ∈ l) (id : SubmissionId) :
    ((l.filter (fun r => !(r.key == c.key))).filter (·.submissionId == id)).length
      + (if c.submissionId = id then 1 else 0) = (l.filter (·.submissionId == id)).length := by
  have hcomm : (l.filter (fun r => !(r.key == c.key))).filter (·.submissionId == id) =
      (l.filter (·.submissionId == id)).filter (fun r => !(r.key == c.key)) := by
    rw [List.filter_filter, List.filter_filter]
    apply List.filter_congr
    intro r _
    rw [Bool.and_comm]
  rw [hcomm]
  split
  · rename_i h
    exact length_filter_ne_key (nodup_map_filter hn _) (List.mem_filter.2 ⟨hc, by simp [h]⟩)
  · rename_i h
    have : (l.filter (·.submissionId == id)).filter (fun r => !(r.key == c.key)) =
        l.filter (·.submissionId == id) := by
      rw [List.filter_eq_self]
      intro r hr
      have hr2 := (List.mem_filter.1 hr).2
      simp only [beq_iff_eq] at hr2
      have : r.key ≠ c.key := fun e => h (by
        have := congrArg ChunkId.submissionId e
        simp only [ChunkRow.key] at this
        rw [← this, hr2])
      simpa using this
    rw [this]; omega

theorem mem_bump {l : List SubmissionRow} {id : SubmissionId} {s' : SubmissionRow} :
    s' ∈ (l.map fun r => if r.id == id then { r with chunksDone := r.chunksDone + 1 } else r) ↔
    ∃ r ∈ l, (r.id = id ∧ s' = { r with chunksDone := r.chunksDone + 1 }) ∨ (r.id ≠ id ∧ s' = r) := by
  simp only [List.mem_map]
  constructor
  · rintro ⟨r, hr, rfl⟩
    refine ⟨r, hr, ?_⟩
    by_cases h : r.id = id
    · left; simp [h]
    · right; simp [h]
  · rintro ⟨r, hr, ⟨h, rfl⟩ | ⟨h, rfl⟩⟩
    · exact ⟨r, hr, by simp [h]⟩
    · exact ⟨s', hr, by simp [h]⟩

theorem inv_empty : Inv DB.empty := by
  constructor <;> simp [DB.empty, allIds]

/-! ### the individual effects -/

theorem mem_mkChunks {id : SubmissionId} {contents : List Content} {c : ChunkRow} :
    c ∈ mkChunks id contents ↔
      c.submissionId = id ∧ c.retries = 0 ∧ contents[c.chunkIndex]? = some c.inputContent := by
  simp only [mkChunks, List.mem_map, Prod.exists]
  constructor
  · rintro ⟨x, i, hm, rfl⟩
    rw [List.mem_zipIdx_iff_getElem?] at hm
    exact ⟨rfl, rfl, hm⟩
  · rintro ⟨h1, h2, h3⟩
    refine ⟨c.inputContent, c.chunkIndex, List.mem_zipIdx_iff_getElem?.2 h3, ?_⟩
    cases c; simp_all

theorem length_mkChunks (id : SubmissionId) (contents : List Content) :
    (mkChunks id contents).length = contents.length := by simp [mkChunks]

theorem allIds_insert_perm (a : InsertArgs) (db : DB) :
    (allIds (Eff.insert a db)).Perm (a.id :: allIds db) := by
  simp only [allIds, Eff.insert, List.map_append, List.map_cons, List.map_nil, List.append_assoc,
    List.singleton_append]
  exact List.perm_middle

theorem inv_insert {a : InsertArgs} {db : DB} (hI : Inv db) (hok : Eff.InsertOk a db)
    (hf : a.id ∉ usedIds db) : Inv (Eff.insert a db) := by
  have hf1 : a.id ∉ allIds db := fun h => hf (by simp [usedIds, h])
  have hf2 : ∀ d ∈ db.chunksCompleted, d.submissionId ≠ a.id := fun d hd e => hf (by
    simp only [usedIds, List.mem_append, List.mem_map]
    exact .inl (.inr ⟨d, hd, e⟩))
  have hf3 : ∀ d ∈ db.chunksFailed, d.submissionId ≠ a.id := fun d hd e => hf (by
    simp only [usedIds, List.mem_append, List.mem_map]
    exact .inr ⟨d, hd, e⟩)
  have hsub : ∀ s ∈ db.submissions, s.id ≠ a.id := fun s hs e => hf1 (by
    simp only [allIds, List.mem_append]
    exact .inl (.inl (.inl (e ▸ List.mem_map_of_mem hs))))
  have hch : ∀ c ∈ db.chunks, c.submissionId ≠ a.id := fun c hc e => by
    obtain ⟨s, hs, h, _⟩ := hI.owner c hc
    exact hsub s hs (h.trans e)
  obtain ⟨hk1, hk2, hk3⟩ := hok
  constructor
  · rw [(allIds_insert_perm a db).nodup_iff, List.nodup_cons]
    exact ⟨hf1, hI.ids⟩
  · exact Stmt.nodup_append_rows hI.chunkKeys hk3.1 hk3.2
  · exact hI.ccKeys
  · exact hI.cfKeys
  · intro c hc d hd
    simp only [Eff.insert, List.mem_append] at hc hd
    rcases hc with hc | hc
    · exact hI.ccDisj c hc d hd
    · intro e
      have := congrArg ChunkId.submissionId e
      exact hf2 d hd (by rw [← (mem_mkChunks.1 hc).1]; exact this)
  · exact hI.cfDisj
  · intro c hc
    simp only [Eff.insert, List.mem_append] at hc ⊢
    rcases hc with hc | hc
    · obtain ⟨s, hs, h⟩ := hI.owner c hc
      exact ⟨s, .inl hs, h⟩
    · have hm := mem_mkChunks.1 hc
      refine ⟨a.row, .inr (by simp), hm.1.symm, ?_⟩
      have := List.getElem?_eq_some_iff.1 hm.2.2
      exact this.1
  · intro s hs
    simp only [Eff.insert, List.mem_append, List.mem_singleton, List.filter_append,
      List.length_append] at hs ⊢
    rcases hs with hs | rfl
    · have : (mkChunks a.id a.contents).filter (·.submissionId == s.id) = [] := by
        rw [List.filter_eq_nil_iff]
        intro c hc
        rw [(mem_mkChunks.1 hc).1]
        simpa using (hsub s hs).symm
      rw [this]
      simpa using hI.done s hs
    · have h1 : db.chunks.filter (·.submissionId == a.row.id) = [] := by
        rw [List.filter_eq_nil_iff]
        intro c hc
        simpa [InsertArgs.row] using hch c hc
      have h2 : (mkChunks a.id a.contents).filter (·.submissionId == a.row.id) =
          mkChunks a.id a.contents := by
        rw [List.filter_eq_self]
        intro c hc
        simpa [InsertArgs.row] using (mem_mkChunks.1 hc).1
      rw [h1, h2, length_mkChunks]
      simp [InsertArgs.row]
  · intro d hd s hs
    simp only [Eff.insert, List.mem_append, List.mem_singleton] at hd hs
    rcases hs with hs | rfl
    · exact hI.ccRange d hd s hs
    · intro e; exact absurd e.symm (hf2 d hd)
  · intro d hd s hs
    simp only [Eff.insert, List.mem_append, List.mem_singleton] at hd hs
    rcases hs with hs | rfl
    · exact hI.cfNot d hd s hs
    · exact hf3 d hd
  · exact Stmt.nodup_append_rows hI.metaPk hk2.1 hk2.2
  · intro m hm
    rw [(allIds_insert_perm a db).mem_iff]
    simp only [Eff.insert, List.mem_append] at hm
    rcases hm with hm | hm
    · exact List.mem_cons_of_mem _ (hI.metaOwner m hm)
    · simp only [metaRows, List.mem_map] at hm
      obtain ⟨_, _, rfl⟩ := hm
      simp

theorem mem_filter_ne {l : List SubmissionRow} {id : SubmissionId} {s : SubmissionRow} :
    s ∈ l.filter (fun r => !(r.id == id)) ↔ s ∈ l ∧ s.id ≠ id := by
  simp [List.mem_filter]

theorem mem_chunks_ne {l : List ChunkRow} {id : SubmissionId} {c : ChunkRow} :
    c ∈ l.filter (fun r => !(r.submissionId == id)) ↔ c ∈ l ∧ c.submissionId ≠ id := by
  simp [List.mem_filter]

theorem allIds_finish_perm {s : SubmissionRow} {db : DB} (hI : Inv db)
    (hs : s ∈ db.submissions) (t : Time) : (allIds (Eff.finish s t db)).Perm (allIds db) := by
  have hp := perm_filter_key hI.subIds hs
  simp only [allIds, Eff.finish, List.map_append, List.map_cons, List.map_nil, List.append_assoc,
    List.singleton_append, toCompleted]
  refine List.Perm.trans ?_ (List.Perm.append_right _ hp.symm)
  rw [List.cons_append, ← List.append_assoc, ← List.append_assoc]
  refine List.perm_middle.trans ?_
  simp [List.append_assoc]

theorem inv_finish {s : SubmissionRow} {db : DB} (hI : Inv db) (hs : s ∈ db.submissions)
    (hd : s.chunksDone = s.chunksTotal) (t : Time) : Inv (Eff.finish s t db) := by
  have hnone : ∀ c ∈ db.chunks, c.submissionId ≠ s.id := by
    intro c hc e
    have h1 := hI.done s hs
    have : c ∈ db.chunks.filter (·.submissionId == s.id) := List.mem_filter.2 ⟨hc, by simp [e]⟩
    have := List.length_pos_of_mem this
    omega
  have hp := allIds_finish_perm hI hs t
  constructor
  · rw [hp.nodup_iff]; exact hI.ids
  · exact hI.chunkKeys
  · exact hI.ccKeys
  · exact hI.cfKeys
  · exact hI.ccDisj
  · exact hI.cfDisj
  · intro c hc
    obtain ⟨s', hs', h1, h2⟩ := hI.owner c hc
    refine ⟨s', mem_filter_ne.2 ⟨hs', ?_⟩, h1, h2⟩
    rw [h1]; exact hnone c hc
  · intro s' hs'
    exact hI.done s' (mem_filter_ne.1 hs').1
  · intro d hd' s' hs'
    exact hI.ccRange d hd' s' (mem_filter_ne.1 hs').1
  · intro d hd' s' hs'
    exact hI.cfNot d hd' s' (mem_filter_ne.1 hs').1
  · exact hI.metaPk
  · intro m hm
    rw [hp.mem_iff]
    exact hI.metaOwner m hm

theorem inv_completeRaw {c : ChunkRow} {s : SubmissionRow} {db : DB} (hI : Inv db)
    (hc : c ∈ db.chunks) (_hs : s ∈ db.submissions) (_hid : s.id = c.submissionId)
    (out : Content) (t : Time) : Inv (Eff.completeRaw c.key out t db) := by
  have hids := completeRaw_subIds c.key out t db
  have hall : allIds (Eff.completeRaw c.key out t db) = allIds db := by
    unfold allIds; rw [hids]; rfl
  constructor
  · rw [hall]; exact hI.ids
  · exact nodup_map_filter hI.chunkKeys _
  · refine Stmt.nodup_append_rows hI.ccKeys ?_ (by simp)
    intro r hr
    simp only [List.mem_singleton] at hr
    subst hr
    exact hI.key_not_cc hc
  · exact hI.cfKeys
  · intro c' hc' d hd
    simp only [Eff.completeRaw, List.mem_filter, Bool.not_eq_true', beq_eq_false_iff_ne,
      List.mem_append, List.mem_singleton] at hc' hd
    rcases hd with hd | rfl
    · exact hI.ccDisj c' hc'.1 d hd
    · exact fun e => hc'.2 e.symm
  · intro c' hc' d hd
    simp only [Eff.completeRaw, List.mem_append, List.mem_singleton] at hc' hd
    rcases hc' with hc' | rfl
    · exact hI.cfDisj c' hc' d hd
    · intro e
      exact hI.cfNot d hd s _hs (by rw [_hid]; exact congrArg ChunkId.submissionId e)
  · intro c' hc'
    simp only [Eff.completeRaw, List.mem_filter] at hc'
    obtain ⟨s', hs', h1, h2⟩ := hI.owner c' hc'.1
    by_cases h : s'.id = c.key.submissionId
    · exact ⟨_, mem_bump.2 ⟨s', hs', .inl ⟨h, rfl⟩⟩, h1, h2⟩
    · exact ⟨_, mem_bump.2 ⟨s', hs', .inr ⟨h, rfl⟩⟩, h1, h2⟩
  · intro s' hs'
    simp only [Eff.completeRaw] at hs' ⊢
    obtain ⟨r, hr, ⟨h, rfl⟩ | ⟨h, rfl⟩⟩ := mem_bump.1 hs'
    · have h1 := hI.done r hr
      have h2 := count_after_remove hI.chunkKeys hc r.id
      have h3 : c.submissionId = r.id := h.symm
      rw [if_pos h3] at h2
      simp only
      omega
    · have h1 := hI.done s' hr
      have h2 := count_after_remove hI.chunkKeys hc s'.id
      have h3 : ¬ c.submissionId = s'.id := fun e => h e.symm
      rw [if_neg h3] at h2
      omega
  · intro d hd s' hs' e
    simp only [Eff.completeRaw] at hs' hd
    have hbase : ∃ r ∈ db.submissions, r.id = s'.id ∧ r.chunksTotal = s'.chunksTotal := by
      obtain ⟨r, hr, ⟨_, rfl⟩ | ⟨_, rfl⟩⟩ := mem_bump.1 hs' <;> exact ⟨_, hr, rfl, rfl⟩
    obtain ⟨r, hr, hr1, hr2⟩ := hbase
    rw [← hr2]
    rcases List.mem_append.1 hd with hd | hd
    · exact hI.ccRange d hd r hr (hr1.trans e)
    · simp only [List.mem_singleton] at hd
      subst hd
      obtain ⟨s2, hs2, h1, h2⟩ := hI.owner c hc
      have : r = s2 := eq_of_key_eq hI.subIds hr hs2 ((hr1.trans e).trans h1.symm)
      subst this
      exact h2
  · intro d hd s' hs'
    simp only [Eff.completeRaw] at hs' hd
    obtain ⟨r, hr, ⟨_, rfl⟩ | ⟨_, rfl⟩⟩ := mem_bump.1 hs'
    · exact hI.cfNot d hd r hr
    · exact hI.cfNot d hd s' hr
  · exact hI.metaPk
  · intro m hm
    rw [hall]
    exact hI.metaOwner m hm

theorem bump_mem {l : List ChunkRow} {cid : ChunkId} {c' : ChunkRow}
    (h : c' ∈ l.map fun r => if r.key == cid then { r with retries := r.retries + 1 } else r) :
    ∃ r ∈ l, r.key = c'.key ∧ r.submissionId = c'.submissionId ∧ r.chunkIndex = c'.chunkIndex ∧
      r.inputContent = c'.inputContent := by
  simp only [List.mem_map] at h
  obtain ⟨r, hr, rfl⟩ := h
  refine ⟨r, hr, ?_⟩
  split <;> exact ⟨rfl, rfl, rfl, rfl⟩

theorem bump_keys (cid : ChunkId) (db : DB) :
    (Eff.bump cid db).chunks.map ChunkRow.key = db.chunks.map ChunkRow.key := by
  simp only [Eff.bump, List.map_map]
  apply List.map_congr_left
  intro r _
  simp only [Function.comp]
  split <;> rfl

theorem bump_count (cid : ChunkId) (db : DB) (id : SubmissionId) :
    ((Eff.bump cid db).chunks.filter (·.submissionId == id)).length =
      (db.chunks.filter (·.submissionId == id)).length := by
  simp only [Eff.bump]
  induction db.chunks with
  | nil => rfl
  | cons x xs ih =>
    simp only [List.map_cons, List.filter_cons]
    have : (if x.key == cid then { x with retries := x.retries + 1 } else x).submissionId =
        x.submissionId := by split <;> rfl
    rw [this]
    split
    · simp only [List.length_cons, ih]
    · exact ih

theorem inv_bump {db : DB} (hI : Inv db) (cid : ChunkId) : Inv (Eff.bump cid db) := by
  constructor
  · exact hI.ids
  · rw [bump_keys]; exact hI.chunkKeys
  · exact hI.ccKeys
  · exact hI.cfKeys
  · intro c hc d hd
    obtain ⟨r, hr, hk, _⟩ := bump_mem hc
    rw [← hk]; exact hI.ccDisj r hr d hd
  · exact hI.cfDisj
  · intro c hc
    obtain ⟨r, hr, _, h1, h2, _⟩ := bump_mem hc
    rw [← h1, ← h2]; exact hI.owner r hr
  · intro s hs
    rw [bump_count]; exact hI.done s hs
  · exact hI.ccRange
  · exact hI.cfNot
  · exact hI.metaPk
  · exact hI.metaOwner

/-- Common part of failing and cancelling: the submission leaves, its chunks become failed rows. -/
theorem inv_remove {s : SubmissionRow} {db db' : DB} (hI : Inv db) (hs : s ∈ db.submissions)
    (hsub : db'.submissions = db.submissions.filter (fun r => !(r.id == s.id)))
    (hch : db'.chunks = db.chunks.filter (fun r => !(r.submissionId == s.id)))
    (hcc : db'.chunksCompleted = db.chunksCompleted)
    (hmd : db'.submissionsMetadata = db.submissionsMetadata)
    (hperm : (allIds db').Perm (allIds db))
    (hcfk : (db'.chunksFailed.map ChunkFailedRow.key).Nodup)
    (hcf : ∀ d ∈ db'.chunksFailed, d ∈ db.chunksFailed ∨
      ∃ c ∈ db.chunks, c.submissionId = s.id ∧ d.key = c.key) : Inv db' := by
  have hsid : ∀ {d : ChunkFailedRow} {c : ChunkRow}, d.key = c.key → d.submissionId = c.submissionId :=
    fun h => congrArg ChunkId.submissionId h
  constructor
  · rw [hperm.nodup_iff]; exact hI.ids
  · rw [hch]; exact nodup_map_filter hI.chunkKeys _
  · rw [hcc]; exact hI.ccKeys
  · exact hcfk
  · rw [hch, hcc]
    intro c hc d hd
    exact hI.ccDisj c (List.mem_filter.1 hc).1 d hd
  · rw [hcc]
    intro c hc d hd
    rcases hcf d hd with h | ⟨c', hc', _, hk⟩
    · exact hI.cfDisj c hc d h
    · rw [hk]; exact fun e => hI.ccDisj c' hc' c hc e.symm
  · rw [hch, hsub]
    intro c hc
    have hc := mem_chunks_ne.1 hc
    obtain ⟨s', hs', h1, h2⟩ := hI.owner c hc.1
    exact ⟨s', mem_filter_ne.2 ⟨hs', by rw [h1]; exact hc.2⟩, h1, h2⟩
  · rw [hch, hsub]
    intro s' hs'
    have hs' := mem_filter_ne.1 hs'
    have : (db.chunks.filter (fun r => !(r.submissionId == s.id))).filter (·.submissionId == s'.id) =
        db.chunks.filter (·.submissionId == s'.id) := by
      rw [List.filter_filter]
      apply List.filter_congr
      intro r _
      by_cases h : r.submissionId = s'.id
      · simp [h, hs'.2]
      · simp [h]
    rw [this]
    exact hI.done s' hs'.1
  · rw [hcc, hsub]
    intro d hd s' hs'
    exact hI.ccRange d hd s' (mem_filter_ne.1 hs').1
  · rw [hsub]
    intro d hd s' hs'
    have hs' := mem_filter_ne.1 hs'
    rcases hcf d hd with h | ⟨c', _, hid, hk⟩
    · exact hI.cfNot d h s' hs'.1
    · rw [hsid hk, hid]; exact fun e => hs'.2 e.symm
  · rw [hmd]; exact hI.metaPk
  · rw [hmd]
    intro m hm
    rw [hperm.mem_iff]
    exact hI.metaOwner m hm

theorem allIds_fail_perm {s : SubmissionRow} {db : DB} (hI : Inv db) (hs : s ∈ db.submissions)
    (c : ChunkRow) (f : String) (t1 t2 t3 : Time) :
    (allIds (Eff.fail s c f t1 t2 t3 db)).Perm (allIds db) := by
  have hp := perm_filter_key hI.subIds hs
  simp only [allIds, Eff.fail, List.map_append, List.map_cons, List.map_nil, List.append_assoc,
    List.singleton_append, toFailed]
  refine List.Perm.trans ?_ (List.Perm.append_right _ hp.symm)
  rw [List.cons_append, ← List.append_assoc, ← List.append_assoc]
  refine List.perm_middle.trans ?_
  simp [List.append_assoc]

theorem allIds_cancel_perm {s : SubmissionRow} {db : DB} (hI : Inv db) (hs : s ∈ db.submissions)
    (t1 t2 : Time) : (allIds (Eff.cancel s t1 t2 db)).Perm (allIds db) := by
  have hp := perm_filter_key hI.subIds hs
  simp only [allIds, Eff.cancel, List.map_append, List.map_cons, List.map_nil, List.append_assoc,
    toCancelled]
  refine List.Perm.trans ?_ (List.Perm.append_right _ hp.symm)
  rw [List.cons_append, ← List.append_assoc, ← List.append_assoc, ← List.append_assoc]
  refine List.perm_middle.trans ?_
  simp [List.append_assoc]

theorem inv_fail {s : SubmissionRow} {c : ChunkRow} {db : DB} (hI : Inv db)
    (hs : s ∈ db.submissions) (hc : c ∈ db.chunks) (hid : s.id = c.submissionId) (f : String)
    (t1 t2 t3 : Time) : Inv (Eff.fail s c f t1 t2 t3 db) := by
  have hcf : ∀ d ∈ [toChunkFailed f t2 false c] ++
      (otherChunks c.key db).map (toChunkFailed "" t3 true),
      ∃ c' ∈ db.chunks, c'.submissionId = s.id ∧ d.key = c'.key := by
    intro d hd
    rcases List.mem_append.1 hd with h | h
    · simp only [List.mem_singleton] at h
      subst h
      exact ⟨c, hc, hid.symm, rfl⟩
    · obtain ⟨c', hc', rfl⟩ := List.mem_map.1 h
      simp only [otherChunks, List.mem_filter, Bool.and_eq_true, beq_iff_eq] at hc'
      exact ⟨c', hc'.1, by rw [hid]; exact hc'.2.2, rfl⟩
  refine inv_remove hI hs rfl rfl rfl rfl (allIds_fail_perm hI hs c f t1 t2 t3) ?_ ?_
  · simp only [Eff.fail, List.append_assoc]
    refine Stmt.nodup_append_rows hI.cfKeys ?_ ?_
    · intro d hd hm
      obtain ⟨c', _, h1, h2⟩ := hcf d hd
      obtain ⟨d', hd', hk⟩ := List.mem_map.1 hm
      refine hI.cfNot d' hd' s hs ?_
      rw [h2] at hk
      exact (congrArg ChunkId.submissionId hk).trans h1
    · simp only [List.map_append, List.map_cons, List.map_nil, List.singleton_append,
        List.nodup_cons, List.map_map]
      constructor
      · intro hm
        obtain ⟨c', hc', hk⟩ := List.mem_map.1 hm
        simp only [otherChunks, List.mem_filter, Bool.and_eq_true, Bool.not_eq_true',
          beq_eq_false_iff_ne] at hc'
        exact hc'.2.1 hk
      · exact nodup_map_filter (key := ChunkRow.key) hI.chunkKeys _
  · intro d hd
    simp only [Eff.fail, List.append_assoc] at hd
    rcases List.mem_append.1 hd with h | h
    · exact .inl h
    · exact .inr (hcf d h)

theorem inv_cancel {s : SubmissionRow} {db : DB} (hI : Inv db) (hs : s ∈ db.submissions)
    (t1 t2 : Time) : Inv (Eff.cancel s t1 t2 db) := by
  have hcf : ∀ d ∈ (db.chunks.filter (·.submissionId == s.id)).map (toChunkFailed "" t2 true),
      ∃ c' ∈ db.chunks, c'.submissionId = s.id ∧ d.key = c'.key := by
    intro d hd
    obtain ⟨c', hc', rfl⟩ := List.mem_map.1 hd
    simp only [List.mem_filter, beq_iff_eq] at hc'
    exact ⟨c', hc'.1, hc'.2, rfl⟩
  refine inv_remove hI hs rfl rfl rfl rfl (allIds_cancel_perm hI hs t1 t2) ?_ ?_
  · simp only [Eff.cancel]
    refine Stmt.nodup_append_rows hI.cfKeys ?_ ?_
    · intro d hd hm
      obtain ⟨c', _, h1, h2⟩ := hcf d hd
      obtain ⟨d', hd', hk⟩ := List.mem_map.1 hm
      refine hI.cfNot d' hd' s hs ?_
      rw [h2] at hk
      exact (congrArg ChunkId.submissionId hk).trans h1
    · rw [List.map_map]
      exact nodup_map_filter (key := ChunkRow.key) hI.chunkKeys _
  · intro d hd
    rcases List.mem_append.1 hd with h | h
    · exact .inl h
    · exact .inr (hcf d h)

theorem inv_cleanup {db : DB} (hI : Inv db) (t : Time) : Inv (Eff.cleanup t db) := by
  have hsub : (allIds (Eff.cleanup t db)).Sublist (allIds db) := by
    simp only [allIds, Eff.cleanup]
    exact (((List.Sublist.refl _).append (List.filter_sublist.map _)).append
      (List.filter_sublist.map _)).append (List.filter_sublist.map _)
  constructor
  · exact hI.ids.sublist hsub
  · exact hI.chunkKeys
  · exact nodup_map_filter hI.ccKeys _
  · exact nodup_map_filter hI.cfKeys _
  · intro c hc d hd
    exact hI.ccDisj c hc d (List.mem_filter.1 hd).1
  · intro c hc d hd
    exact hI.cfDisj c (List.mem_filter.1 hc).1 d (List.mem_filter.1 hd).1
  · exact hI.owner
  · exact hI.done
  · intro d hd
    exact hI.ccRange d (List.mem_filter.1 hd).1
  · intro d hd
    exact hI.cfNot d (List.mem_filter.1 hd).1
  · exact nodup_map_filter hI.metaPk _
  · intro m hm
    have hm := List.mem_filter.1 hm
    have ho := hI.metaOwner m hm.1
    have hno : m.submissionId ∉ oldIds t db := by
      intro h
      have := hm.2
      simp [h] at this
    simp only [oldIds, List.mem_append, not_or, List.mem_map, List.mem_filter, not_exists,
      not_and, decide_eq_true_eq] at hno
    simp only [allIds, Eff.cleanup, List.mem_append, List.mem_map, List.mem_filter] at ho ⊢
    rcases ho with ((⟨r, hr, e⟩ | ⟨r, hr, e⟩) | ⟨r, hr, e⟩) | ⟨r, hr, e⟩
    · exact .inl (.inl (.inl ⟨r, hr, e⟩))
    · refine .inl (.inl (.inr ⟨r, ⟨hr, ?_⟩, e⟩))
      have := fun h => hno.1.1 r ⟨hr, h⟩ e
      simpa using this
    · refine .inl (.inr ⟨r, ⟨hr, ?_⟩, e⟩)
      have := fun h => hno.1.2 r ⟨hr, h⟩ e
      simpa using this
    · refine .inr ⟨r, ⟨hr, ?_⟩, e⟩
      have := fun h => hno.2 r ⟨hr, h⟩ e
      simpa using this

/-- Every effect preserves the invariant. -/
theorem Effect.inv {db db' : DB} {op : Op} (h : Effect db op db') (hI : Inv db)
    (hf : ∀ x, op.insertId = some x → x ∉ usedIds db) : Inv db' := by
  cases h with
  | none => exact hI
  | insert a now o hok => exact inv_insert hI hok (hf _ rfl)
  | insertEmpty a now o hok he =>
    exact inv_finish (inv_insert hI hok (hf _ rfl)) (by simp [Eff.insert])
      (by simp [InsertArgs.row, he]) now
  | complete c s out t1 t2 o hc hs hid hl => exact inv_completeRaw hI hc hs hid out t1
  | completeLast c s out t1 t2 o hc hs hid hl =>
    exact inv_finish (inv_completeRaw hI hc hs hid out t1) (completeRaw_sub_mem out t1 hs hid) hl t2
  | retry c failure m t1 t2 t3 o hc hr => exact inv_bump hI _
  | fail c s failure m t1 t2 t3 o hc hs hid hr => exact inv_fail hI hs hc hid failure t1 t2 t3
  | cancel s t1 t2 o hs => exact inv_cancel hI hs t1 t2
  | cleanup t o => exact inv_cleanup hI t

/-! ### used ids -/

theorem mem_usedIds {db : DB} {x : SubmissionId} : x ∈ usedIds db ↔
    x ∈ allIds db ∨ (∃ d ∈ db.chunksCompleted, d.submissionId = x) ∨
    (∃ d ∈ db.chunksFailed, d.submissionId = x) := by
  simp [usedIds, or_assoc]

theorem mem_allIds_sub {db : DB} {s : SubmissionRow} (hs : s ∈ db.submissions) :
    s.id ∈ allIds db := by
  simp only [allIds, List.mem_append]
  exact .inl (.inl (.inl (List.mem_map_of_mem hs)))

theorem mem_allIds_chunk {db : DB} (hI : Inv db) {c : ChunkRow} (hc : c ∈ db.chunks) :
    c.submissionId ∈ allIds db := by
  obtain ⟨s, hs, h, _⟩ := hI.owner c hc
  exact h ▸ mem_allIds_sub hs

theorem Effect.used {db db' : DB} {op : Op} (h : Effect db op db') (hI : Inv db) (hI' : Inv db') :
    ∀ x ∈ usedIds db', x ∈ usedIds db ∨ op.insertId = some x := by
  intro x hx
  cases h with
  | none => exact .inl hx
  | insert a now o hok =>
    rw [mem_usedIds, (allIds_insert_perm a db).mem_iff, List.mem_cons] at hx
    rw [mem_usedIds]
    rcases hx with (rfl | hx) | hx | hx
    · exact .inr rfl
    · exact .inl (.inl hx)
    · exact .inl (.inr (.inl hx))
    · exact .inl (.inr (.inr hx))
  | insertEmpty a now o hok he =>
    have hx2 : x ∈ allIds (Eff.finish a.row now (Eff.insert a db)) → x = a.id ∨ x ∈ allIds db := by
      intro h
      have : x ∈ allIds (Eff.insert a db) := by
        simp only [allIds, Eff.finish, List.mem_append, List.map_append, List.map_cons,
          List.map_nil, List.mem_singleton] at h ⊢
        rcases h with ((h | h) | h) | h
        · obtain ⟨r, hr, rfl⟩ := List.mem_map.1 h
          exact .inl (.inl (.inl (List.mem_map_of_mem (List.mem_filter.1 hr).1)))
        · rcases h with h | h
          · exact .inl (.inl (.inr h))
          · refine .inl (.inl (.inl ?_))
            simp [Eff.insert, h, toCompleted]
        · exact .inl (.inr h)
        · exact .inr h
      rw [(allIds_insert_perm a db).mem_iff, List.mem_cons] at this
      exact this
    rw [mem_usedIds] at hx ⊢
    rcases hx with hx | hx | hx
    · rcases hx2 hx with rfl | h
      · exact .inr rfl
      · exact .inl (.inl h)
    · exact .inl (.inr (.inl hx))
    · exact .inl (.inr (.inr hx))
  | complete c s out t1 t2 o hc hs hid hl =>
    left
    have hall : allIds (Eff.completeRaw c.key out t1 db) = allIds db := by
      unfold allIds; rw [completeRaw_subIds]; rfl
    rw [mem_usedIds, hall] at hx
    rw [mem_usedIds]
    rcases hx with hx | ⟨d, hd, e⟩ | hx
    · exact .inl hx
    · simp only [Eff.completeRaw, List.mem_append, List.mem_singleton] at hd
      rcases hd with hd | rfl
      · exact .inr (.inl ⟨d, hd, e⟩)
      · left; subst e; exact mem_allIds_chunk hI hc
    · exact .inr (.inr hx)
  | completeLast c s out t1 t2 o hc hs hid hl =>
    left
    have hall : allIds (Eff.completeRaw c.key out t1 db) = allIds db := by
      unfold allIds; rw [completeRaw_subIds]; rfl
    have hp := allIds_finish_perm (inv_completeRaw hI hc hs hid out t1)
      (completeRaw_sub_mem out t1 hs hid) t2
    rw [mem_usedIds, hp.mem_iff, hall] at hx
    rw [mem_usedIds]
    rcases hx with hx | ⟨d, hd, e⟩ | hx
    · exact .inl hx
    · simp only [Eff.finish, Eff.completeRaw, List.mem_append, List.mem_singleton] at hd
      rcases hd with hd | rfl
      · exact .inr (.inl ⟨d, hd, e⟩)
      · left; subst e; exact mem_allIds_chunk hI hc
    · exact .inr (.inr hx)
  | retry c failure m t1 t2 t3 o hc hr => exact .inl hx
  | fail c s failure m t1 t2 t3 o hc hs hid hr =>
    left
    rw [mem_usedIds, (allIds_fail_perm hI hs c failure t1 t2 t3).mem_iff] at hx
    rw [mem_usedIds]
    rcases hx with hx | hx | ⟨d, hd, e⟩
    · exact .inl hx
    · exact .inr (.inl hx)
    · simp only [Eff.fail, List.mem_append, List.mem_singleton, List.mem_map] at hd
      rcases hd with (hd | rfl) | ⟨c', hc', rfl⟩
      · exact .inr (.inr ⟨d, hd, e⟩)
      · left; subst e; exact mem_allIds_chunk hI hc
      · left; subst e; exact mem_allIds_chunk hI (List.mem_filter.1 hc').1
  | cancel s t1 t2 o hs =>
    left
    rw [mem_usedIds, (allIds_cancel_perm hI hs t1 t2).mem_iff] at hx
    rw [mem_usedIds]
    rcases hx with hx | hx | ⟨d, hd, e⟩
    · exact .inl hx
    · exact .inr (.inl hx)
    · simp only [Eff.cancel, List.mem_append, List.mem_map] at hd
      rcases hd with hd | ⟨c', hc', rfl⟩
      · exact .inr (.inr ⟨d, hd, e⟩)
      · left; subst e; exact mem_allIds_chunk hI (List.mem_filter.1 hc').1
  | cleanup t o =>
    left
    have hsub : (allIds (Eff.cleanup t db)).Sublist (allIds db) := by
      simp only [allIds, Eff.cleanup]
      exact (((List.Sublist.refl _).append (List.filter_sublist.map _)).append
        (List.filter_sublist.map _)).append (List.filter_sublist.map _)
    rw [mem_usedIds] at hx ⊢
    rcases hx with hx | ⟨d, hd, e⟩ | ⟨d, hd, e⟩
    · exact .inl (hsub.subset hx)
    · exact .inr (.inl ⟨d, (List.mem_filter.1 hd).1, e⟩)
    · exact .inr (.inr ⟨d, (List.mem_filter.1 hd).1, e⟩)

/-! ### histories -/

theorem run_nil : run [] = DB.empty := rfl

theorem run_snoc (ops : List Op) (op : Op) : run (ops ++ [op]) = (step (run ops) op).2 := by
  simp [run, runFrom]

theorem runFrom_append (db : DB) (xs ys : List Op) :
    runFrom db (xs ++ ys) = runFrom (runFrom db xs) ys := by
  simp [runFrom]

theorem run_append (xs ys : List Op) : run (xs ++ ys) = runFrom (run xs) ys := runFrom_append _ _ _

theorem snoc_induction {α : Type} {P : List α → Prop} (nil : P [])
    (snoc : ∀ xs x, P xs → P (xs ++ [x])) (l : List α) : P l := by
  rw [← List.reverse_reverse l]
  induction l.reverse with
  | nil => exact nil
  | cons x xs ih => rw [List.reverse_cons]; exact snoc _ _ ih

theorem FreshIds.snoc {ops : List Op} {op : Op} (h : FreshIds (ops ++ [op])) :
    FreshIds ops ∧ ∀ x, op.insertId = some x → x ∉ ops.filterMap Op.insertId := by
  unfold FreshIds at h
  rw [List.filterMap_append, List.nodup_append] at h
  refine ⟨h.1, ?_⟩
  intro x hx hm
  exact h.2.2 x hm x (by simp [hx]) rfl

theorem FreshIds.prefix {xs ys : List Op} (h : FreshIds (xs ++ ys)) : FreshIds xs := by
  unfold FreshIds at h
  rw [List.filterMap_append, List.nodup_append] at h
  exact h.1

/-- The invariant and the provenance of ids, over every history. -/
theorem inv_run_aux (ops : List Op) : FreshIds ops →
    Inv (run ops) ∧ ∀ x ∈ usedIds (run ops), x ∈ ops.filterMap Op.insertId := by
  refine snoc_induction (P := fun ops => FreshIds ops →
    Inv (run ops) ∧ ∀ x ∈ usedIds (run ops), x ∈ ops.filterMap Op.insertId) ?_ ?_ ops
  · intro _
    refine ⟨inv_empty, ?_⟩
    intro x hx
    simp [run_nil, DB.empty, usedIds, allIds] at hx
  · intro ops op ih hf
    obtain ⟨hf1, hf2⟩ := hf.snoc
    obtain ⟨hI, hU⟩ := ih hf1
    rw [run_snoc]
    have hfresh : ∀ x, op.insertId = some x → x ∉ usedIds (run ops) :=
      fun x hx hm => hf2 x hx (hU x hm)
    have he := step_effect hI op hfresh
    have hI' := he.inv hI hfresh
    refine ⟨hI', ?_⟩
    intro x hx
    rw [List.filterMap_append, List.mem_append]
    rcases he.used hI hI' x hx with h | h
    · exact .inl (hU x h)
    · exact .inr (by simp [h])

theorem inv_run {ops : List Op} (h : FreshIds ops) : Inv (run ops) := (inv_run_aux ops h).1

theorem used_run {ops : List Op} (h : FreshIds ops) {x : SubmissionId} (hx : x ∈ usedIds (run ops)) :
    x ∈ ops.filterMap Op.insertId := (inv_run_aux ops h).2 x hx

/-- One more call: its effect and the fact that ids stay fresh. -/
theorem effect_run {ops : List Op} {op : Op} (h : FreshIds (ops ++ [op])) :
    Effect (run ops) op (run (ops ++ [op])) := by
  rw [run_snoc]
  obtain ⟨h1, h2⟩ := h.snoc
  exact step_effect (inv_run h1) op fun x hx hm => h2 x hx (used_run h1 hm)

theorem fresh_run {ops : List Op} {op : Op} (h : FreshIds (ops ++ [op])) {x : SubmissionId}
    (hx : op.insertId = some x) : x ∉ usedIds (run ops) :=
  fun hm => h.snoc.2 x hx (used_run h.snoc.1 hm)

end Opsqueue
