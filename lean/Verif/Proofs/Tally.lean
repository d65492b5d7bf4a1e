import Verif.Proofs.Counted

/-! # Counters and events -/

namespace Opsqueue
open SubmissionDb

theorem times_nil (P : Deed → Prop) : times P [] = 0 := by simp [times]

open Classical in
theorem times_cons (P : Deed → Prop) (d : Deed) (ds : List Deed) :
    times P (d :: ds) = (if P d then 1 else 0) + times P ds := by
  by_cases h : P d <;> simp [times, List.filter_cons, h]; omega

theorem chunksEntered_nil : chunksEntered [] = 0 := by simp [chunksEntered]

open Classical in
theorem chunksEntered_cons (d : Deed) (ds : List Deed) :
    chunksEntered (d :: ds) = (if d.Entered then d.chunks else 0) + chunksEntered ds := by
  by_cases h : d.Entered <;> simp [chunksEntered, List.filter_cons, h]

/-! ## When events do not happen -/

theorem not_entered {db db' : DB} {op : Op} (h : Effect db op db') (hI : Inv db) (hi : op.insertId = none) :
    ¬ Deed.Entered ⟨db, op, db'⟩ := by
  rintro ⟨id, h1, h2⟩
  rw [statusAt_eq_none] at h1
  refine h2 (statusAt_eq_none.2 fun hm => h1 (h.ids_new hI hm ?_))
  rw [hi]; simp

theorem same_entered {db : DB} {op : Op} : ¬ Deed.Entered ⟨db, op, db⟩ := by
  rintro ⟨id, h1, h2⟩; exact h2 h1

theorem same_became {db : DB} {op : Op} {k} : ¬ Deed.Became k ⟨db, op, db⟩ := by
  rintro ⟨id, h1, h2⟩; exact h2 h1

theorem not_completed {db db' : DB} {op : Op} (hI : Inv db)
    (h : ∀ r ∈ db'.submissionsCompleted, ∃ r' ∈ db.submissionsCompleted, r'.id = r.id) :
    ¬ Deed.Completed ⟨db, op, db'⟩ := by
  rintro ⟨id, ⟨st, h1, hk⟩, h2⟩
  cases st <;> simp at hk
  obtain ⟨r, hr, rfl, _⟩ := statusAt_completed h1
  obtain ⟨r', hr', e⟩ := h r hr
  exact h2 ⟨_, e ▸ statusAt_comp hI hr', rfl⟩

theorem not_cancelled {db db' : DB} {op : Op} (hI : Inv db)
    (h : ∀ r ∈ db'.submissionsCancelled, ∃ r' ∈ db.submissionsCancelled, r'.id = r.id) :
    ¬ Deed.Cancelled ⟨db, op, db'⟩ := by
  rintro ⟨id, ⟨st, h1, hk⟩, h2⟩
  cases st <;> simp at hk
  obtain ⟨r, hr, rfl, _⟩ := statusAt_cancelled h1
  obtain ⟨r', hr', e⟩ := h r hr
  exact h2 ⟨_, e ▸ statusAt_canc hI hr', rfl⟩

theorem not_failed {db db' : DB} {op : Op} (he : Effect db op db') (hI : Inv db)
    (h : ∀ r ∈ db'.submissionsFailed, r ∈ db.submissionsFailed) : ¬ Deed.Failed ⟨db, op, db'⟩ := by
  rintro ⟨id, ⟨st, h1, hk⟩, h2⟩
  cases st <;> simp at hk
  obtain ⟨r, hr, rfl, _, d, hd, hkey, _⟩ := statusAt_failed h1
  have hr' := h r hr
  have hds : d.submissionId = r.id := congrArg ChunkId.submissionId hkey
  rcases he.cf_new hI hd with hd' | hd'
  · exact h2 ⟨_, statusAt_fail_ok hI hr' hd' hkey, rfl⟩
  · rw [hds] at hd'
    exact not_sub_of_fail hI (List.mem_map_of_mem hr') hd'

theorem not_chunkCompleted {db db' : DB} {op : Op} (h : ∀ cid, op.completes cid = false) :
    ¬ Deed.ChunkCompleted ⟨db, op, db'⟩ := by
  rintro ⟨cid, h1, _⟩; have := h cid; simp_all

theorem not_lateReport {db db' : DB} {op : Op} (h : ∀ cid, op.completes cid = false) :
    ¬ Deed.LateReport ⟨db, op, db'⟩ := by
  rintro ⟨cid, h1, _⟩; have := h cid; simp_all

theorem same_chunkCompleted {db : DB} {op : Op} : ¬ Deed.ChunkCompleted ⟨db, op, db⟩ := by
  rintro ⟨cid, _, h1, h2⟩; simp only at h1 h2; omega

theorem same_chunkFailed {db : DB} {op : Op} : ¬ Deed.ChunkFailed ⟨db, op, db⟩ := by
  rintro ⟨cid, h1, h2⟩; simp only at h1 h2; rw [h1] at h2; cases h2

theorem same_chunkRetried {db : DB} {op : Op} : ¬ Deed.ChunkRetried ⟨db, op, db⟩ := by
  rintro ⟨cid, c, h1, h2⟩
  simp only at h1 h2
  rw [h1] at h2
  have := congrArg (fun r => match r with | .ok (c : ChunkRow) => c.retries | _ => 0) h2
  simp at this

theorem not_chunkFailed {db db' : DB} {op : Op} (h : ∀ d ∈ db'.chunksFailed, d.skipped = true ∨ d ∈ db.chunksFailed) :
    ¬ Deed.ChunkFailed ⟨db, op, db'⟩ := by
  rintro ⟨cid, h1, h2⟩
  simp only at h1 h2
  rw [skippedAt_eq] at h1 h2
  obtain ⟨d, hd, hs⟩ := Option.map_eq_some_iff.1 h2
  have hm := List.mem_of_find?_eq_some hd
  have hk := List.find?_some hd
  rcases h d hm with g | g
  · rw [g] at hs; cases hs
  · rw [Option.map_eq_none_iff, List.find?_eq_none] at h1
    exact h1 d g hk

theorem not_chunkRetried {db db' : DB} {op : Op} (hI : Inv db) (hI' : Inv db')
    (h : ∀ c ∈ db'.chunks, c ∈ db.chunks ∨ c.submissionId ∉ db.submissions.map SubmissionRow.id) :
    ¬ Deed.ChunkRetried ⟨db, op, db'⟩ := by
  rintro ⟨cid, c, h1, h2⟩
  simp only at h1 h2
  rw [chunkAt_ok_iff hI.chunkKeys] at h1
  rw [chunkAt_ok_iff hI'.chunkKeys] at h2
  obtain ⟨hc, hk⟩ := h1
  obtain ⟨hc', hk'⟩ := h2
  rcases h _ hc' with g | g
  · have e := eq_of_key_eq hI.chunkKeys g hc rfl
    have := congrArg ChunkRow.retries e
    simp at this
  · obtain ⟨s, hs, e, _⟩ := hI.owner c hc
    exact g (by simp only; rw [← e]; exact List.mem_map_of_mem hs)

/-! ## Which events happen -/

/-- All events of a call. -/
structure Events (d : Deed) (entered completed failed cancelled chunkCompleted chunkFailed chunkRetried : Bool) :
    Prop where
  entered : d.Entered ↔ entered = true
  completed : d.Completed ↔ completed = true
  failed : d.Failed ↔ failed = true
  cancelled : d.Cancelled ↔ cancelled = true
  chunkCompleted : d.ChunkCompleted ↔ chunkCompleted = true
  chunkFailed : d.ChunkFailed ↔ chunkFailed = true
  chunkRetried : d.ChunkRetried ↔ chunkRetried = true

theorem no {p : Prop} (h : ¬ p) : p ↔ false = true := by simp [h]
theorem yes {p : Prop} (h : p) : p ↔ true = true := by simp [h]

theorem events_same (db : DB) (op : Op) : Events ⟨db, op, db⟩ false false false false false false false :=
  ⟨no same_entered, no same_became, no same_became, no same_became, no same_chunkCompleted, no same_chunkFailed,
    no same_chunkRetried⟩

theorem entered_insert {db db' : DB} {op : Op} {id : SubmissionId} (h : id ∉ usedIds db) (h' : id ∈ allIds db') :
    Deed.Entered ⟨db, op, db'⟩ :=
  ⟨id, statusAt_eq_none.2 fun hm => h (by simp [usedIds, hm]), fun e => statusAt_eq_none.1 e h'⟩

theorem mkChunks_new {db : DB} {a : InsertArgs} (h : Eff.InsertOk a db) :
    ∀ c ∈ (Eff.insert a db).chunks, c ∈ db.chunks ∨ c.submissionId ∉ db.submissions.map SubmissionRow.id := by
  intro c hc
  simp only [Eff.insert, List.mem_append] at hc
  rcases hc with hc | hc
  · exact .inl hc
  · right; rw [(mem_mkChunks.1 hc).1]; exact h.1

theorem events_insert {db : DB} {a : InsertArgs} {now : Time} {o : List Fault} (hI : Inv db)
    (h : Eff.InsertOk a db) (hf : a.id ∉ usedIds db) :
    Events ⟨db, .insert a now o, Eff.insert a db⟩ true false false false false false false := by
  have he : Effect db (.insert a now o) (Eff.insert a db) := .insert _ _ _ _ h
  have hI' := inv_insert hI h hf
  exact {
    entered := yes (entered_insert hf (by
      rw [(allIds_insert_perm a db).mem_iff]; exact List.mem_cons_self))
    completed := no (not_completed hI fun r hr => ⟨r, hr, rfl⟩)
    failed := no (not_failed he hI fun r hr => hr)
    cancelled := no (not_cancelled hI fun r hr => ⟨r, hr, rfl⟩)
    chunkCompleted := no (not_chunkCompleted fun _ => rfl)
    chunkFailed := no (not_chunkFailed fun d hd => .inr hd)
    chunkRetried := no (not_chunkRetried hI hI' (mkChunks_new h)) }

theorem completed_finish {db0 db : DB} {op : Op} {s : SubmissionRow} {t : Time} (hI0 : Inv db0)
    (hI' : Inv (Eff.finish s t db)) (hc : s.id ∉ db0.submissionsCompleted.map CompletedRow.id) :
    Deed.Completed ⟨db0, op, Eff.finish s t db⟩ := by
  have hm : toCompleted t s ∈ (Eff.finish s t db).submissionsCompleted := by simp [Eff.finish]
  refine ⟨s.id, ⟨_, statusAt_comp hI' hm, rfl⟩, ?_⟩
  rintro ⟨st, h1, hk⟩
  cases st <;> simp at hk
  obtain ⟨r, hr, e, _⟩ := statusAt_completed h1
  exact hc (e ▸ List.mem_map_of_mem hr)

theorem events_insertEmpty {db : DB} {a : InsertArgs} {now : Time} {o : List Fault} (hI : Inv db)
    (h : Eff.InsertOk a db) (he : a.contents = []) (hf : a.id ∉ usedIds db) :
    Events ⟨db, .insert a now o, Eff.finish a.row now (Eff.insert a db)⟩ true true false false false false false := by
  have heff : Effect db (.insert a now o) (Eff.finish a.row now (Eff.insert a db)) := .insertEmpty _ _ _ _ h he
  have hI' := heff.inv hI (by intro x hx; cases hx; exact hf)
  exact {
    entered := yes (entered_insert (id := a.id) hf (by simp [allIds, Eff.finish, toCompleted, InsertArgs.row]))
    completed := yes (completed_finish hI hI' fun hm => hf (by
      rw [show a.row.id = a.id from rfl] at hm
      simp only [usedIds, allIds, List.mem_append]
      exact .inl (.inl (.inl (.inl (.inr hm))))))
    failed := no (not_failed heff hI fun r hr => hr)
    cancelled := no (not_cancelled hI fun r hr => ⟨r, hr, rfl⟩)
    chunkCompleted := no (not_chunkCompleted fun _ => rfl)
    chunkFailed := no (not_chunkFailed fun d hd => .inr hd)
    chunkRetried := no (not_chunkRetried hI hI' (mkChunks_new h)) }

theorem chunkCompleted_true {db db' : DB} {c : ChunkRow} {out : Content} {t1 t2 : Time} {o : List Fault} (hI : Inv db)
    (hc : c ∈ db.chunks) (h : db'.chunks = db.chunks.filter (fun r => !(r.key == c.key))) :
    Deed.ChunkCompleted ⟨db, .complete c.key out t1 t2 o, db'⟩ := by
  refine ⟨c.key, by simp [Op.completes], (backlogCount_one hI).2 (List.mem_map_of_mem hc), backlogCount_zero.2 ?_⟩
  intro hm
  obtain ⟨x, hx, e⟩ := List.mem_map.1 hm
  rw [h] at hx
  have := (List.mem_filter.1 hx).2
  simp [e] at this

theorem events_complete {db : DB} {c : ChunkRow} {s : SubmissionRow} {out : Content} {t1 t2 : Time} {o : List Fault}
    (hI : Inv db) (hc : c ∈ db.chunks) (hs : s ∈ db.submissions) (hid : s.id = c.submissionId)
    (hl : s.chunksDone + 1 ≠ s.chunksTotal) :
    Events ⟨db, .complete c.key out t1 t2 o, Eff.completeRaw c.key out t1 db⟩
      false false false false true false false := by
  have he : Effect db (.complete c.key out t1 t2 o) (Eff.completeRaw c.key out t1 db) :=
    .complete _ _ s _ _ _ _ hc hs hid hl
  have hI' := he.inv hI (by intro x hx; cases hx)
  exact {
    entered := no (not_entered he hI rfl)
    completed := no (not_completed hI fun r hr => ⟨r, hr, rfl⟩)
    failed := no (not_failed he hI fun r hr => hr)
    cancelled := no (not_cancelled hI fun r hr => ⟨r, hr, rfl⟩)
    chunkCompleted := yes (chunkCompleted_true hI hc rfl)
    chunkFailed := no (not_chunkFailed fun d hd => .inr hd)
    chunkRetried := no (not_chunkRetried hI hI' fun x hx => .inl (List.mem_filter.1 hx).1) }

theorem events_completeLast {db : DB} {c : ChunkRow} {s : SubmissionRow} {out : Content} {t1 t2 : Time}
    {o : List Fault} (hI : Inv db) (hc : c ∈ db.chunks) (hs : s ∈ db.submissions) (hid : s.id = c.submissionId)
    (hl : s.chunksDone + 1 = s.chunksTotal) :
    Events ⟨db, .complete c.key out t1 t2 o,
        Eff.finish { s with chunksDone := s.chunksDone + 1 } t2 (Eff.completeRaw c.key out t1 db)⟩
      false true false false true false false := by
  have he : Effect db (.complete c.key out t1 t2 o)
      (Eff.finish { s with chunksDone := s.chunksDone + 1 } t2 (Eff.completeRaw c.key out t1 db)) :=
    .completeLast _ _ s _ _ _ _ hc hs hid hl
  have hI' := he.inv hI (by intro x hx; cases hx)
  exact {
    entered := no (not_entered he hI rfl)
    completed := yes (completed_finish hI hI' (by have := hI.sub_comp hs; exact this))
    failed := no (not_failed he hI fun r hr => hr)
    cancelled := no (not_cancelled hI fun r hr => ⟨r, hr, rfl⟩)
    chunkCompleted := yes (chunkCompleted_true hI hc rfl)
    chunkFailed := no (not_chunkFailed fun d hd => .inr hd)
    chunkRetried := no (not_chunkRetried hI hI' fun x hx => .inl (List.mem_filter.1 hx).1) }

theorem events_retry {db : DB} {c : ChunkRow} {f : String} {n : Nat} {t1 t2 t3 : Time} {o : List Fault}
    (hI : Inv db) (hc : c ∈ db.chunks) (hr : c.retries + 1 < n) :
    Events ⟨db, .fail c.key f n t1 t2 t3 o, Eff.bump c.key db⟩ false false false false false false true := by
  have he : Effect db (.fail c.key f n t1 t2 t3 o) (Eff.bump c.key db) := .retry _ _ _ _ _ _ _ _ hc hr
  have hI' := he.inv hI (by intro x hx; cases hx)
  exact {
    entered := no (not_entered he hI rfl)
    completed := no (not_completed hI fun r hr => ⟨r, hr, rfl⟩)
    failed := no (not_failed he hI fun r hr => hr)
    cancelled := no (not_cancelled hI fun r hr => ⟨r, hr, rfl⟩)
    chunkCompleted := no (not_chunkCompleted fun _ => rfl)
    chunkFailed := no (not_chunkFailed fun d hd => .inr hd)
    chunkRetried := yes ⟨c.key, c, (chunkAt_ok_iff hI.chunkKeys).2 ⟨hc, rfl⟩,
      (chunkAt_ok_iff hI'.chunkKeys).2 ⟨by
        simp only [Eff.bump, List.mem_map]
        exact ⟨c, hc, by simp⟩, rfl⟩⟩ }

theorem events_fail {db : DB} {c : ChunkRow} {s : SubmissionRow} {f : String} {n : Nat} {t1 t2 t3 : Time}
    {o : List Fault} (hI : Inv db) (hc : c ∈ db.chunks) (hs : s ∈ db.submissions) (hid : s.id = c.submissionId)
    (hr : n ≤ c.retries + 1) :
    Events ⟨db, .fail c.key f n t1 t2 t3 o, Eff.fail s c f t1 t2 t3 db⟩ false false true false false true false := by
  have he : Effect db (.fail c.key f n t1 t2 t3 o) (Eff.fail s c f t1 t2 t3 db) :=
    .fail _ _ _ _ _ _ _ _ _ hc hs hid hr
  have hI' := he.inv hI (by intro x hx; cases hx)
  have hm : toFailed c.chunkIndex t1 s ∈ (Eff.fail s c f t1 t2 t3 db).submissionsFailed := by simp [Eff.fail]
  have hd : toChunkFailed f t2 false c ∈ (Eff.fail s c f t1 t2 t3 db).chunksFailed := by simp [Eff.fail]
  exact {
    entered := no (not_entered he hI rfl)
    completed := no (not_completed hI fun r hr => ⟨r, hr, rfl⟩)
    failed := yes (by
      refine ⟨s.id, ⟨_, statusAt_fail_ok hI' hm hd ?_, rfl⟩, ?_⟩
      · simp [toChunkFailed, toFailed, ChunkFailedRow.key, hid]
      · rintro ⟨st, h1, hk⟩
        cases st <;> simp at hk
        obtain ⟨r, hr, e, _⟩ := statusAt_failed h1
        exact hI.sub_fail hs (e ▸ List.mem_map_of_mem hr))
    cancelled := no (not_cancelled hI fun r hr => ⟨r, hr, rfl⟩)
    chunkCompleted := no (not_chunkCompleted fun _ => rfl)
    chunkFailed := yes (by
      refine ⟨c.key, ?_, ?_⟩
      · simp only
        rw [skippedAt_eq, Option.map_eq_none_iff, List.find?_eq_none]
        intro d hd e
        refine hI.cfNot d hd s hs ?_
        rw [hid]
        exact congrArg ChunkId.submissionId (eq_of_beq e)
      · simp only
        rw [skippedAt_eq]
        have := find?_key_of_mem hI'.cfKeys hd
        rw [show (toChunkFailed f t2 false c).key = c.key from rfl] at this
        rw [this]; rfl)
    chunkRetried := no (not_chunkRetried hI hI' fun x hx => .inl (List.mem_filter.1 hx).1) }

theorem events_cancel {db : DB} {s : SubmissionRow} {t1 t2 : Time} {o : List Fault} (hI : Inv db)
    (hs : s ∈ db.submissions) :
    Events ⟨db, .cancel s.id t1 t2 o, Eff.cancel s t1 t2 db⟩ false false false true false false false := by
  have he : Effect db (.cancel s.id t1 t2 o) (Eff.cancel s t1 t2 db) := .cancel _ _ _ _ _ hs
  have hI' := he.inv hI (by intro x hx; cases hx)
  have hm : toCancelled t1 s ∈ (Eff.cancel s t1 t2 db).submissionsCancelled := by simp [Eff.cancel]
  exact {
    entered := no (not_entered he hI rfl)
    completed := no (not_completed hI fun r hr => ⟨r, hr, rfl⟩)
    failed := no (not_failed he hI fun r hr => hr)
    cancelled := yes (by
      refine ⟨s.id, ⟨_, statusAt_canc hI' hm, rfl⟩, ?_⟩
      rintro ⟨st, h1, hk⟩
      cases st <;> simp at hk
      obtain ⟨r, hr, e, _⟩ := statusAt_cancelled h1
      exact hI.sub_canc hs (e ▸ List.mem_map_of_mem hr))
    chunkCompleted := no (not_chunkCompleted fun _ => rfl)
    chunkFailed := no (not_chunkFailed fun d hd => by
      simp only [Eff.cancel, List.mem_append, List.mem_map] at hd
      rcases hd with hd | ⟨x, _, rfl⟩
      · exact .inr hd
      · exact .inl rfl)
    chunkRetried := no (not_chunkRetried hI hI' fun x hx => .inl (List.mem_filter.1 hx).1) }

theorem events_cleanup {db : DB} {t : Time} {o : List Fault} (hI : Inv db) :
    Events ⟨db, .cleanup t o, Eff.cleanup t db⟩ false false false false false false false := by
  have he : Effect db (.cleanup t o) (Eff.cleanup t db) := .cleanup _ _ _
  have hI' := he.inv hI (by intro x hx; cases hx)
  exact {
    entered := no (not_entered he hI rfl)
    completed := no (not_completed hI fun r hr => ⟨r, (List.mem_filter.1 hr).1, rfl⟩)
    failed := no (not_failed he hI fun r hr => (List.mem_filter.1 hr).1)
    cancelled := no (not_cancelled hI fun r hr => ⟨r, (List.mem_filter.1 hr).1, rfl⟩)
    chunkCompleted := no (not_chunkCompleted fun _ => rfl)
    chunkFailed := no (not_chunkFailed fun d hd => .inr (List.mem_filter.1 hd).1)
    chunkRetried := no (not_chunkRetried hI hI' fun x hx => .inl hx) }

/-! ## The counters of one call -/

open Classical in
/-- No event of the call is missed by the counters. -/
structure Tally (d : Deed) (m m' : Metrics) : Prop where
  submissionsTotal : m.submissionsTotal + (if d.Entered then 1 else 0) ≤ m'.submissionsTotal
  submissionsCompleted : m.submissionsCompleted + (if d.Completed then 1 else 0) ≤ m'.submissionsCompleted
  submissionsFailed : m.submissionsFailed + (if d.Failed then 1 else 0) ≤ m'.submissionsFailed
  submissionsCancelled : m.submissionsCancelled + (if d.Cancelled then 1 else 0) ≤ m'.submissionsCancelled
  chunksTotal : m.chunksTotal + (if d.Entered then d.chunks else 0) ≤ m'.chunksTotal
  chunksCompleted : m.chunksCompleted + (if d.ChunkCompleted then 1 else 0) ≤ m'.chunksCompleted
  chunksFailed : m.chunksFailed + (if d.ChunkFailed then 1 else 0) ≤ m'.chunksFailed
  chunksRetried : m.chunksRetried + (if d.ChunkRetried then 1 else 0) ≤ m'.chunksRetried

open Classical in
/-- The counters count exactly the events of the call. -/
structure Exactly (d : Deed) (m m' : Metrics) : Prop where
  submissionsTotal : m'.submissionsTotal = m.submissionsTotal + (if d.Entered then 1 else 0)
  submissionsCompleted : m'.submissionsCompleted = m.submissionsCompleted + (if d.Completed then 1 else 0)
  submissionsFailed : m'.submissionsFailed = m.submissionsFailed + (if d.Failed then 1 else 0)
  submissionsCancelled : m'.submissionsCancelled = m.submissionsCancelled + (if d.Cancelled then 1 else 0)
  chunksTotal : m'.chunksTotal = m.chunksTotal + (if d.Entered then d.chunks else 0)
  chunksCompleted : m'.chunksCompleted = m.chunksCompleted + (if d.ChunkCompleted then 1 else 0) +
    (if d.LateReport then 1 else 0)
  chunksFailed : m'.chunksFailed = m.chunksFailed + (if d.ChunkFailed then 1 else 0)
  chunksRetried : m'.chunksRetried = m.chunksRetried + (if d.ChunkRetried then 1 else 0)

theorem Counted.events {db db' : DB} {m m' : Metrics} {op : Op} (h : Counted db m op db' m') (hI : Inv db)
    (hf : ∀ x, op.insertId = some x → x ∉ usedIds db) : Tally ⟨db, op, db'⟩ m m' := by
  cases h with
  | quiet _ _ hm _ =>
    have e := events_same db op
    obtain ⟨h1, h2, h3, h4, h5, h6, h7, h8, h9, h10⟩ := hm
    constructor <;> simp only [e.entered, e.completed, e.failed, e.cancelled, e.chunkCompleted, e.chunkFailed,
      e.chunkRetried, Bool.false_eq_true, if_false] <;>
      (cases op <;> simp only [Op.base, Metrics.inserted, Metrics.chunkCompleted] at * <;> omega)
  | insert a now o _ hok hm _ =>
    have e := events_insert (now := now) (o := o) hI hok (hf _ rfl)
    obtain ⟨h1, h2, h3, h4, h5, h6, h7, h8, h9, h10⟩ := hm
    constructor <;> simp only [e.entered, e.completed, e.failed, e.cancelled, e.chunkCompleted, e.chunkFailed,
      e.chunkRetried, Bool.false_eq_true, if_false, if_true, Deed.chunks] <;>
      simp only [Metrics.inserted] at * <;> omega
  | insertEmpty a now o hok he =>
    have e := events_insertEmpty (now := now) (o := o) hI hok he (hf _ rfl)
    constructor <;> simp only [e.entered, e.completed, e.failed, e.cancelled, e.chunkCompleted, e.chunkFailed,
      e.chunkRetried, Bool.false_eq_true, if_false, if_true, Deed.chunks, Metrics.inserted,
      Metrics.submissionCompleted] <;> omega
  | complete c s out t1 t2 o hc hs hid hl =>
    have e := events_complete (out := out) (t1 := t1) (t2 := t2) (o := o) hI hc hs hid hl
    constructor <;> simp only [e.entered, e.completed, e.failed, e.cancelled, e.chunkCompleted, e.chunkFailed,
      e.chunkRetried, Bool.false_eq_true, if_false, if_true, Deed.chunks, Metrics.chunkCompleted] <;> omega
  | completeLast c s out t1 t2 o hc hs hid hl =>
    have e := events_completeLast (out := out) (t1 := t1) (t2 := t2) (o := o) hI hc hs hid hl
    constructor <;> simp only [e.entered, e.completed, e.failed, e.cancelled, e.chunkCompleted, e.chunkFailed,
      e.chunkRetried, Bool.false_eq_true, if_false, if_true, Deed.chunks, Metrics.chunkCompleted,
      Metrics.submissionCompleted] <;> omega
  | retry c f n t1 t2 t3 o hc hr =>
    have e := events_retry (f := f) (t1 := t1) (t2 := t2) (t3 := t3) (o := o) hI hc hr
    constructor <;> simp only [e.entered, e.completed, e.failed, e.cancelled, e.chunkCompleted, e.chunkFailed,
      e.chunkRetried, Bool.false_eq_true, if_false, if_true, Deed.chunks, Metrics.chunkRetried] <;> omega
  | fail c s f n t1 t2 t3 o hc hs hid hr =>
    have e := events_fail (f := f) (t1 := t1) (t2 := t2) (t3 := t3) (o := o) hI hc hs hid hr
    constructor <;> simp only [e.entered, e.completed, e.failed, e.cancelled, e.chunkCompleted, e.chunkFailed,
      e.chunkRetried, Bool.false_eq_true, if_false, if_true, Deed.chunks, Metrics.chunkFailed,
      Metrics.submissionFailed] <;> omega
  | cancel s t1 t2 o hs =>
    have e := events_cancel (t1 := t1) (t2 := t2) (o := o) hI hs
    constructor <;> simp only [e.entered, e.completed, e.failed, e.cancelled, e.chunkCompleted, e.chunkFailed,
      e.chunkRetried, Bool.false_eq_true, if_false, if_true, Deed.chunks, Metrics.submissionCancelled] <;> omega
  | cleanup t o =>
    have e := events_cleanup (t := t) (o := o) hI
    constructor <;> simp only [e.entered, e.completed, e.failed, e.cancelled, e.chunkCompleted, e.chunkFailed,
      e.chunkRetried, Bool.false_eq_true, if_false, if_true, Deed.chunks] <;> omega

theorem lateReport_complete {db db' : DB} {cid : ChunkId} {out : Content} {t1 t2 : Time} {o : List Fault} :
    Deed.LateReport ⟨db, .complete cid out t1 t2 o, db'⟩ ↔ cid ∉ db.chunks.map ChunkRow.key := by
  constructor
  · rintro ⟨x, h1, h2⟩
    have : cid = x := by simpa [Op.completes] using h1
    subst this
    exact backlogCount_zero.1 h2
  · intro h
    exact ⟨cid, by simp [Op.completes], backlogCount_zero.2 h⟩

theorem lateReport_mem {db db' : DB} {c : ChunkRow} (hc : c ∈ db.chunks) {out : Content} {t1 t2 : Time}
    {o : List Fault} : ¬ Deed.LateReport ⟨db, .complete c.key out t1 t2 o, db'⟩ :=
  fun h => lateReport_complete.1 h (List.mem_map_of_mem hc)

/-- The call is a completion report. -/
def Op.isComplete : Op → Bool
  | .complete _ _ _ _ _ => true
  | _ => false

theorem Counted.exact {db db' : DB} {m m' : Metrics} {op : Op} (h : Counted db m op db' m') (hI : Inv db)
    (hf : ∀ x, op.insertId = some x → x ∉ usedIds db) (hu : op.Undisturbed) (hp : op.ProperMetadata)
    (hstep : db' = (step db op).2) : Exactly ⟨db, op, db'⟩ m m' := by
  cases h with
  | quiet _ _ hm hq =>
    have e := events_same db op
    obtain ⟨hi, rfl⟩ := hq hu hp
    have late : Deed.LateReport ⟨db, op, db⟩ ↔ op.isComplete = true := by
      cases op with
      | complete cid out t1 t2 o =>
        rw [lateReport_complete]
        refine ⟨fun _ => rfl, fun _ hm2 => ?_⟩
        have ho : o = [] := by simpa [Op.Undisturbed, Op.clean] using hu
        subst ho
        obtain ⟨c, hc, rfl⟩ := mem_key_of hm2
        obtain ⟨s, hs, hid, _⟩ := hI.owner c hc
        have hne : ∀ db1 : DB, c.key ∉ db1.chunks.map ChunkRow.key → db ≠ db1 := by
          intro db1 h1 e1; subst e1; exact h1 (List.mem_map_of_mem hc)
        by_cases hl : s.chunksDone + 1 = s.chunksTotal
        · rw [step_complete_last hI out t1 t2 hc hs hid hl] at hstep
          refine hne _ ?_ hstep
          intro hm'
          obtain ⟨x, hx, e⟩ := List.mem_map.1 hm'
          have := (List.mem_filter.1 hx).2
          simp [e] at this
        · rw [step_complete_notLast hI out t1 t2 hc hs hid hl] at hstep
          refine hne _ ?_ hstep
          intro hm'
          obtain ⟨x, hx, e⟩ := List.mem_map.1 hm'
          have := (List.mem_filter.1 hx).2
          simp [e] at this
      | _ => exact ⟨fun h => absurd h (not_lateReport fun _ => rfl), by simp [Op.isComplete]⟩
    constructor <;> simp only [e.entered, e.completed, e.failed, e.cancelled, e.chunkCompleted, e.chunkFailed,
      e.chunkRetried, Bool.false_eq_true, if_false, late] <;>
      (cases op <;> simp [Op.base, Metrics.inserted, Metrics.chunkCompleted, Op.isComplete, Op.insertId] at *)
  | insert a now o _ hok hm hq =>
    have e := events_insert (now := now) (o := o) hI hok (hf _ rfl)
    have ho : o = [] := by simpa [Op.Undisturbed, Op.clean] using hu
    obtain ⟨_, rfl⟩ := hq ho
    have late := not_lateReport (db := db) (db' := Eff.insert a db) (op := .insert a now o) fun _ => rfl
    constructor <;> simp only [e.entered, e.completed, e.failed, e.cancelled, e.chunkCompleted, e.chunkFailed,
      e.chunkRetried, Bool.false_eq_true, if_false, if_true, Deed.chunks, late, Metrics.inserted] <;> omega
  | insertEmpty a now o hok he =>
    have e := events_insertEmpty (now := now) (o := o) hI hok he (hf _ rfl)
    have late := not_lateReport (db := db) (db' := Eff.finish a.row now (Eff.insert a db)) (op := .insert a now o)
      fun _ => rfl
    constructor <;> simp only [e.entered, e.completed, e.failed, e.cancelled, e.chunkCompleted, e.chunkFailed,
      e.chunkRetried, Bool.false_eq_true, if_false, if_true, Deed.chunks, late, Metrics.inserted,
      Metrics.submissionCompleted] <;> omega
  | complete c s out t1 t2 o hc hs hid hl =>
    have e := events_complete (out := out) (t1 := t1) (t2 := t2) (o := o) hI hc hs hid hl
    constructor <;> simp only [e.entered, e.completed, e.failed, e.cancelled, e.chunkCompleted, e.chunkFailed,
      e.chunkRetried, Bool.false_eq_true, if_false, if_true, Deed.chunks, lateReport_mem hc,
      Metrics.chunkCompleted] <;> omega
  | completeLast c s out t1 t2 o hc hs hid hl =>
    have e := events_completeLast (out := out) (t1 := t1) (t2 := t2) (o := o) hI hc hs hid hl
    constructor <;> simp only [e.entered, e.completed, e.failed, e.cancelled, e.chunkCompleted, e.chunkFailed,
      e.chunkRetried, Bool.false_eq_true, if_false, if_true, Deed.chunks, lateReport_mem hc, Metrics.chunkCompleted,
      Metrics.submissionCompleted] <;> omega
  | retry c f n t1 t2 t3 o hc hr =>
    have e := events_retry (f := f) (t1 := t1) (t2 := t2) (t3 := t3) (o := o) hI hc hr
    have late := not_lateReport (db := db) (db' := Eff.bump c.key db) (op := .fail c.key f n t1 t2 t3 o) fun _ => rfl
    constructor <;> simp only [e.entered, e.completed, e.failed, e.cancelled, e.chunkCompleted, e.chunkFailed,
      e.chunkRetried, Bool.false_eq_true, if_false, if_true, Deed.chunks, late, Metrics.chunkRetried] <;> omega
  | fail c s f n t1 t2 t3 o hc hs hid hr =>
    have e := events_fail (f := f) (t1 := t1) (t2 := t2) (t3 := t3) (o := o) hI hc hs hid hr
    have late := not_lateReport (db := db) (db' := Eff.fail s c f t1 t2 t3 db) (op := .fail c.key f n t1 t2 t3 o)
      fun _ => rfl
    constructor <;> simp only [e.entered, e.completed, e.failed, e.cancelled, e.chunkCompleted, e.chunkFailed,
      e.chunkRetried, Bool.false_eq_true, if_false, if_true, Deed.chunks, late, Metrics.chunkFailed,
      Metrics.submissionFailed] <;> omega
  | cancel s t1 t2 o hs =>
    have e := events_cancel (t1 := t1) (t2 := t2) (o := o) hI hs
    have late := not_lateReport (db := db) (db' := Eff.cancel s t1 t2 db) (op := .cancel s.id t1 t2 o) fun _ => rfl
    constructor <;> simp only [e.entered, e.completed, e.failed, e.cancelled, e.chunkCompleted, e.chunkFailed,
      e.chunkRetried, Bool.false_eq_true, if_false, if_true, Deed.chunks, late, Metrics.submissionCancelled] <;> omega
  | cleanup t o =>
    have e := events_cleanup (t := t) (o := o) hI
    have late := not_lateReport (db := db) (db' := Eff.cleanup t db) (op := .cleanup t o) fun _ => rfl
    constructor <;> simp only [e.entered, e.completed, e.failed, e.cancelled, e.chunkCompleted, e.chunkFailed,
      e.chunkRetried, Bool.false_eq_true, if_false, Deed.chunks, late] <;> omega

/-! ## Everything that happened -/

/-- The counters are the same. -/
structure Metrics.SameCounters (m m' : Metrics) : Prop where
  submissionsTotal : m'.submissionsTotal = m.submissionsTotal
  submissionsCompleted : m'.submissionsCompleted = m.submissionsCompleted
  submissionsFailed : m'.submissionsFailed = m.submissionsFailed
  submissionsCancelled : m'.submissionsCancelled = m.submissionsCancelled
  chunksTotal : m'.chunksTotal = m.chunksTotal
  chunksCompleted : m'.chunksCompleted = m.chunksCompleted
  chunksFailed : m'.chunksFailed = m.chunksFailed
  chunksRetried : m'.chunksRetried = m.chunksRetried

theorem query_db {α : Type} {f : DB → Except DbErr α} {w w' : World} {r : Res DbErr α}
    (h : Sql.query f w = (r, w')) : w'.db = w.db := by
  unfold Sql.query Sql.stmt at h
  obtain ⟨o, db⟩ := w
  rcases e : f db with _ | a <;> rcases o with _ | ⟨_ | _ | _ | _, o⟩ <;> simp [e] at h <;>
    obtain ⟨_, rfl⟩ := h <;> simp [Sql.applyStmt, e]

theorem refresh_run (w : World) (m : Metrics) :
    (Metered.calculateScalingMetrics w m).2.1.db = w.db ∧
    m.SameCounters (Metered.calculateScalingMetrics w m).2.2 := by
  unfold Metered.calculateScalingMetrics
  simp only [Metered.bind_run, Metered.lift, Metered.tick]
  rcases e1 : Metered.countChunks w with ⟨_ | _ | _, w1⟩
  · have h1 := query_db e1
    dsimp only
    rcases e2 : Metered.countOpsInBacklogEstimate w1 with ⟨_ | _ | _, w2⟩
    · have h2 := query_db e2
      exact ⟨h2.trans h1, by constructor <;> rfl⟩
    · have h2 := query_db e2
      exact ⟨h2.trans h1, by constructor <;> rfl⟩
    · have h2 := query_db e2
      exact ⟨h2.trans h1, by constructor <;> rfl⟩
  · have h1 := query_db e1
    exact ⟨h1, by constructor <;> rfl⟩
  · have h1 := query_db e1
    exact ⟨h1, by constructor <;> rfl⟩

theorem surviving_db {ε α : Type} (r : Res ε α × World × Metrics) : (surviving r).db = r.2.1.db := by
  rcases r with ⟨_ | _ | _, _, _⟩ <;> rfl

theorem surviving_metrics {ε α : Type} {r : Res ε α × World × Metrics} (h : r.1 ≠ .crash) :
    (surviving r).metrics = r.2.2 := by
  rcases r with ⟨_ | _ | _, _, _⟩
  · rfl
  · rfl
  · exact absurd rfl h

theorem refresh_step (s : Monitored) (c : Bool) (o : List Fault)
    (h : c = true → (Metered.calculateScalingMetrics ⟨o, s.db⟩ s.metrics).1 ≠ .crash) :
    (s.step (.refresh c o)).db = s.db ∧ s.metrics.SameCounters (s.step (.refresh c o)).metrics := by
  cases c
  · exact ⟨rfl, by constructor <;> rfl⟩
  · have hr := refresh_run ⟨o, s.db⟩ s.metrics
    simp only [Monitored.step, if_true]
    rw [surviving_db, surviving_metrics (h rfl)]
    exact hr

theorem callsOf_call (op : Op) (hs : List Happening) : callsOf (.call op :: hs) = op :: callsOf hs := rfl
theorem callsOf_refresh (c : Bool) (o : List Fault) (hs : List Happening) :
    callsOf (.refresh c o :: hs) = callsOf hs := rfl
theorem callsOf_restart (hs : List Happening) : callsOf (.restart :: hs) = callsOf hs := rfl

/-- What is stored does not depend on the metrics. -/
theorem monitored_db (hs : List Happening) : ∀ s : Monitored, (s.run hs).db = runFrom s.db (callsOf hs) := by
  induction hs with
  | nil => intro s; rfl
  | cons h hs ih =>
    intro s
    have := ih (s.step h)
    rw [show s.run (h :: hs) = (s.step h).run hs from rfl, this]
    cases h with
    | call op => rw [callsOf_call, step_call]; rfl
    | refresh c o =>
      rw [callsOf_refresh]
      congr 1
      cases c
      · rfl
      · simp only [Monitored.step, if_true]
        rw [surviving_db]
        exact (refresh_run _ _).1
    | restart => rfl

theorem run_tally (hs : List Happening) : ∀ (pre : List Op) (s : Monitored), s.db = run pre →
    FreshIds (pre ++ callsOf hs) → s.Alive hs →
    let ds := deeds s.db (callsOf hs)
    s.metrics.submissionsTotal + times Deed.Entered ds ≤ (s.run hs).metrics.submissionsTotal ∧
    s.metrics.submissionsCompleted + times Deed.Completed ds ≤ (s.run hs).metrics.submissionsCompleted ∧
    s.metrics.submissionsFailed + times Deed.Failed ds ≤ (s.run hs).metrics.submissionsFailed ∧
    s.metrics.submissionsCancelled + times Deed.Cancelled ds ≤ (s.run hs).metrics.submissionsCancelled ∧
    s.metrics.chunksTotal + chunksEntered ds ≤ (s.run hs).metrics.chunksTotal ∧
    s.metrics.chunksCompleted + times Deed.ChunkCompleted ds ≤ (s.run hs).metrics.chunksCompleted ∧
    s.metrics.chunksFailed + times Deed.ChunkFailed ds ≤ (s.run hs).metrics.chunksFailed ∧
    s.metrics.chunksRetried + times Deed.ChunkRetried ds ≤ (s.run hs).metrics.chunksRetried := by
  induction hs with
  | nil =>
    intro pre s _ _ _
    simp [callsOf, deeds, times_nil, chunksEntered_nil, Monitored.run]
  | cons h hs ih =>
    intro pre s hdb hf ha
    obtain ⟨hh, ha⟩ := ha
    rw [show s.run (h :: hs) = (s.step h).run hs from rfl]
    cases h with
    | call op =>
      rw [callsOf_call] at hf ⊢
      have hf' : FreshIds ((pre ++ [op]) ++ callsOf hs) := by simpa using hf
      have hfo : FreshIds (pre ++ [op]) := (FreshIds.prefix hf')
      have hst := step_call s op
      rw [if_neg (by simp only at hh; rw [hh]; simp)] at hst
      have i := ih (pre ++ [op]) (s.step (.call op)) (by rw [hst, run_snoc, hdb]) hf' ha
      have hI : Inv s.db := by rw [hdb]; exact inv_run (FreshIds.prefix hfo)
      have hfr : ∀ x, op.insertId = some x → x ∉ usedIds s.db := by
        intro x hx; rw [hdb]; exact fresh_run hfo hx
      have t : Tally _ s.metrics (s.after op) := (counted hI s.metrics op hfr hh).events hI hfr
      rw [show deeds s.db (op :: callsOf hs) =
        ⟨s.db, op, (Opsqueue.step s.db op).2⟩ :: deeds (Opsqueue.step s.db op).2 (callsOf hs) from rfl]
      have e1 : (s.step (.call op)).db = (Opsqueue.step s.db op).2 := by rw [hst]
      have e2 : (s.step (.call op)).metrics = s.after op := by rw [hst]
      rw [e1, e2] at i
      obtain ⟨t1, t2, t3, t4, t5, t6, t7, t8⟩ := t
      simp only [times_cons, chunksEntered_cons]
      obtain ⟨i1, i2, i3, i4, i5, i6, i7, i8⟩ := i
      refine ⟨?_, ?_, ?_, ?_, ?_, ?_, ?_, ?_⟩ <;> omega
    | refresh c o =>
      rw [callsOf_refresh] at hf ⊢
      have hr := refresh_step s c o hh
      have i := ih pre (s.step (.refresh c o)) (by rw [hr.1, hdb]) hf ha
      rw [hr.1] at i
      obtain ⟨r1, r2, r3, r4, r5, r6, r7, r8⟩ := hr.2
      rw [r1, r2, r3, r4, r5, r6, r7, r8] at i
      exact i
    | restart => exact hh.elim

theorem run_exact (hs : List Happening) : ∀ (pre : List Op) (s : Monitored), s.db = run pre →
    FreshIds (pre ++ callsOf hs) → s.Alive hs → (∀ op ∈ callsOf hs, op.Undisturbed ∧ op.ProperMetadata) →
    let ds := deeds s.db (callsOf hs)
    (s.run hs).metrics.submissionsTotal = s.metrics.submissionsTotal + times Deed.Entered ds ∧
    (s.run hs).metrics.submissionsCompleted = s.metrics.submissionsCompleted + times Deed.Completed ds ∧
    (s.run hs).metrics.submissionsFailed = s.metrics.submissionsFailed + times Deed.Failed ds ∧
    (s.run hs).metrics.submissionsCancelled = s.metrics.submissionsCancelled + times Deed.Cancelled ds ∧
    (s.run hs).metrics.chunksTotal = s.metrics.chunksTotal + chunksEntered ds ∧
    (s.run hs).metrics.chunksCompleted =
      s.metrics.chunksCompleted + times Deed.ChunkCompleted ds + times Deed.LateReport ds ∧
    (s.run hs).metrics.chunksFailed = s.metrics.chunksFailed + times Deed.ChunkFailed ds ∧
    (s.run hs).metrics.chunksRetried = s.metrics.chunksRetried + times Deed.ChunkRetried ds := by
  induction hs with
  | nil =>
    intro pre s _ _ _ _
    simp [callsOf, deeds, times_nil, chunksEntered_nil, Monitored.run]
  | cons h hs ih =>
    intro pre s hdb hf ha hu
    obtain ⟨hh, ha⟩ := ha
    rw [show s.run (h :: hs) = (s.step h).run hs from rfl]
    cases h with
    | call op =>
      rw [callsOf_call] at hf hu ⊢
      have hf' : FreshIds ((pre ++ [op]) ++ callsOf hs) := by simpa using hf
      have hfo : FreshIds (pre ++ [op]) := (FreshIds.prefix hf')
      have hst := step_call s op
      rw [if_neg (by simp only at hh; rw [hh]; simp)] at hst
      have i := ih (pre ++ [op]) (s.step (.call op)) (by rw [hst, run_snoc, hdb]) hf' ha
        (fun x hx => hu x (List.mem_cons_of_mem _ hx))
      have hI : Inv s.db := by rw [hdb]; exact inv_run (FreshIds.prefix hfo)
      have hfr : ∀ x, op.insertId = some x → x ∉ usedIds s.db := by
        intro x hx; rw [hdb]; exact fresh_run hfo hx
      have hop := hu op List.mem_cons_self
      have t : Exactly _ s.metrics (s.after op) := (counted hI s.metrics op hfr hh).exact hI hfr hop.1 hop.2 rfl
      rw [show deeds s.db (op :: callsOf hs) =
        ⟨s.db, op, (Opsqueue.step s.db op).2⟩ :: deeds (Opsqueue.step s.db op).2 (callsOf hs) from rfl]
      have e1 : (s.step (.call op)).db = (Opsqueue.step s.db op).2 := by rw [hst]
      have e2 : (s.step (.call op)).metrics = s.after op := by rw [hst]
      rw [e1, e2] at i
      obtain ⟨t1, t2, t3, t4, t5, t6, t7, t8⟩ := t
      simp only [times_cons, chunksEntered_cons]
      obtain ⟨i1, i2, i3, i4, i5, i6, i7, i8⟩ := i
      refine ⟨?_, ?_, ?_, ?_, ?_, ?_, ?_, ?_⟩ <;> omega
    | refresh c o =>
      rw [callsOf_refresh] at hf hu ⊢
      have hr := refresh_step s c o hh
      have i := ih pre (s.step (.refresh c o)) (by rw [hr.1, hdb]) hf ha hu
      rw [hr.1] at i
      obtain ⟨r1, r2, r3, r4, r5, r6, r7, r8⟩ := hr.2
      rw [r1, r2, r3, r4, r5, r6, r7, r8] at i
      exact i
    | restart => exact hh.elim

end Opsqueue
