import Verif.Proofs.History

/-! How histories move chunks and submissions. -/

set_option linter.unusedSimpArgs false

namespace Opsqueue
open SubmissionDb

/-- Backlog keys. -/
abbrev keys (db : DB) : List ChunkId := db.chunks.map ChunkRow.key

theorem keys_of_mem {db : DB} {c : ChunkRow} (h : c ∈ db.chunks) : c.key ∈ keys db :=
  List.mem_map_of_mem h

theorem Effect.keys_new {db db' : DB} {op : Op} (h : Effect db op db') {cid : ChunkId}
    (hc : cid ∈ keys db') : cid ∈ keys db ∨ op.insertId = some cid.submissionId := by
  cases h with
  | none => exact .inl hc
  | insert a now o hok =>
    simp only [keys, Eff.insert, List.map_append, List.mem_append] at hc
    rcases hc with hc | hc
    · exact .inl hc
    · obtain ⟨c, hc2, rfl⟩ := List.mem_map.1 hc
      right; simp only [Op.insertId, Option.some.injEq]; exact (mem_mkChunks.1 hc2).1.symm
  | insertEmpty a now o hok he =>
    simp only [keys, Eff.finish, Eff.insert, List.map_append, List.mem_append] at hc
    rcases hc with hc | hc
    · exact .inl hc
    · obtain ⟨c, hc2, rfl⟩ := List.mem_map.1 hc
      right; simp only [Op.insertId, Option.some.injEq]; exact (mem_mkChunks.1 hc2).1.symm
  | complete c s out t1 t2 o hc' hs hid hl =>
    obtain ⟨c, hc2, rfl⟩ := List.mem_map.1 hc
    exact .inl (keys_of_mem (List.mem_filter.1 hc2).1)
  | completeLast c s out t1 t2 o hc' hs hid hl =>
    obtain ⟨c, hc2, rfl⟩ := List.mem_map.1 hc
    exact .inl (keys_of_mem (List.mem_filter.1 hc2).1)
  | retry c failure m t1 t2 t3 o hc' hr =>
    left; rw [keys, bump_keys] at hc; exact hc
  | fail c s failure m t1 t2 t3 o hc' hs hid hr =>
    obtain ⟨c, hc2, rfl⟩ := List.mem_map.1 hc
    exact .inl (keys_of_mem (List.mem_filter.1 hc2).1)
  | cancel s t1 t2 o hs =>
    obtain ⟨c, hc2, rfl⟩ := List.mem_map.1 hc
    exact .inl (keys_of_mem (List.mem_filter.1 hc2).1)
  | cleanup t o => exact .inl hc

/-- A chunk leaves the backlog by its completion or by the end of its submission through a failure
or cancellation. -/
theorem Effect.keys_gone {db db' : DB} {op : Op} (h : Effect db op db') {cid : ChunkId}
    (hc : cid ∈ keys db) (hn : cid ∉ keys db') :
    (∃ out t1 t2 o, op = .complete cid out t1 t2 o) ∨
    (op.endsEarly cid.submissionId = true ∧ cid.submissionId ∉ db'.submissions.map SubmissionRow.id) := by
  cases h with
  | none => exact absurd hc hn
  | insert a now o hok => exact absurd (by simp [keys, Eff.insert] at hc ⊢; exact .inl hc) hn
  | insertEmpty a now o hok he =>
    exact absurd (by simp [keys, Eff.insert, Eff.finish] at hc ⊢; exact .inl hc) hn
  | complete c s out t1 t2 o hc' hs hid hl =>
    left
    by_cases e : c.key = cid
    · exact ⟨out, t1, t2, o, by rw [e]⟩
    · obtain ⟨c2, hc2, rfl⟩ := List.mem_map.1 hc
      exact absurd (keys_of_mem (List.mem_filter.2 ⟨hc2, by simpa using Ne.symm e⟩)) hn
  | completeLast c s out t1 t2 o hc' hs hid hl =>
    left
    by_cases e : c.key = cid
    · exact ⟨out, t1, t2, o, by rw [e]⟩
    · obtain ⟨c2, hc2, rfl⟩ := List.mem_map.1 hc
      exact absurd (keys_of_mem (List.mem_filter.2 ⟨hc2, by simpa using Ne.symm e⟩)) hn
  | retry c failure m t1 t2 t3 o hc' hr =>
    rw [keys, bump_keys] at hn; exact absurd hc hn
  | fail c s failure m t1 t2 t3 o hc' hs hid hr =>
    right
    obtain ⟨c2, hc2, rfl⟩ := List.mem_map.1 hc
    by_cases e : c2.submissionId = s.id
    · refine ⟨by simp [Op.endsEarly, ChunkRow.key, e, hid], ?_⟩
      intro hm
      obtain ⟨s', hs', e'⟩ := List.mem_map.1 hm
      exact (mem_filter_ne.1 hs').2 (e'.trans e)
    · exact absurd (keys_of_mem (mem_chunks_ne.2 ⟨hc2, e⟩)) hn
  | cancel s t1 t2 o hs =>
    right
    obtain ⟨c2, hc2, rfl⟩ := List.mem_map.1 hc
    by_cases e : c2.submissionId = s.id
    · refine ⟨by simp [Op.endsEarly, ChunkRow.key, e], ?_⟩
      intro hm
      obtain ⟨s', hs', e'⟩ := List.mem_map.1 hm
      exact (mem_filter_ne.1 hs').2 (e'.trans e)
    · exact absurd (keys_of_mem (mem_chunks_ne.2 ⟨hc2, e⟩)) hn
  | cleanup t o => exact absurd hc hn

/-- Backward: an in-progress row comes from an in-progress row with the same total or from an
insert. -/
theorem Effect.sub_back {db db' : DB} {op : Op} (h : Effect db op db') {s' : SubmissionRow}
    (hs' : s' ∈ db'.submissions) :
    (∃ s ∈ db.submissions, s.id = s'.id ∧ s.chunksTotal = s'.chunksTotal) ∨
    (∃ a now o, op = .insert a now o ∧ s' = a.row ∧ ∀ c ∈ mkChunks a.id a.contents, c ∈ db'.chunks) := by
  cases h with
  | none => exact .inl ⟨s', hs', rfl, rfl⟩
  | insert a now o hok =>
    simp only [Eff.insert, List.mem_append, List.mem_singleton] at hs'
    rcases hs' with h | h
    · exact .inl ⟨s', h, rfl, rfl⟩
    · exact .inr ⟨a, now, o, rfl, h, fun c hc => by simp [Eff.insert, hc]⟩
  | insertEmpty a now o hok he =>
    have := mem_filter_ne.1 hs'
    simp only [Eff.insert, List.mem_append, List.mem_singleton] at this
    rcases this.1 with h | h
    · exact .inl ⟨s', h, rfl, rfl⟩
    · exact absurd (by rw [h]) this.2
  | complete c s out t1 t2 o hc hs hid hl =>
    obtain ⟨s, hs, ⟨_, rfl⟩ | ⟨_, rfl⟩⟩ := mem_bump.1 hs'
    · exact .inl ⟨s, hs, rfl, rfl⟩
    · exact .inl ⟨_, hs, rfl, rfl⟩
  | completeLast c s out t1 t2 o hc hs hid hl =>
    obtain ⟨s, hs, ⟨_, rfl⟩ | ⟨_, rfl⟩⟩ := mem_bump.1 (mem_filter_ne.1 hs').1
    · exact .inl ⟨s, hs, rfl, rfl⟩
    · exact .inl ⟨_, hs, rfl, rfl⟩
  | retry c failure m t1 t2 t3 o hc hr => exact .inl ⟨s', hs', rfl, rfl⟩
  | fail c s failure m t1 t2 t3 o hc hs hid hr => exact .inl ⟨s', (mem_filter_ne.1 hs').1, rfl, rfl⟩
  | cancel s t1 t2 o hs => exact .inl ⟨s', (mem_filter_ne.1 hs').1, rfl, rfl⟩
  | cleanup t o => exact .inl ⟨s', hs', rfl, rfl⟩

/-- An in-progress submission that is complete has no chunks at all. -/
def NotStuck (db : DB) : Prop :=
  ∀ s ∈ db.submissions, s.chunksTotal = 0 ∨ s.chunksDone < s.chunksTotal

theorem Effect.notStuck {db db' : DB} {op : Op} (h : Effect db op db') (hI : Inv db)
    (hn : NotStuck db) : NotStuck db' := by
  intro s' hs'
  cases h with
  | none => exact hn s' hs'
  | insert a now o hok =>
    simp only [Eff.insert, List.mem_append, List.mem_singleton] at hs'
    rcases hs' with h | rfl
    · exact hn _ h
    · simp only [InsertArgs.row]; omega
  | insertEmpty a now o hok he =>
    have := mem_filter_ne.1 hs'
    simp only [Eff.insert, List.mem_append, List.mem_singleton] at this
    rcases this.1 with h | h
    · exact hn _ h
    · exact absurd (by rw [h]) this.2
  | complete c s out t1 t2 o hc hs hid hl =>
    obtain ⟨r, hr, ⟨he, rfl⟩ | ⟨_, rfl⟩⟩ := mem_bump.1 hs'
    · have : r = s := eq_of_key_eq hI.subIds hr hs (he.trans hid.symm)
      subst this
      have := hn r hs
      have h2 := hI.done r hs
      have : c ∈ db.chunks.filter (·.submissionId == r.id) :=
        List.mem_filter.2 ⟨hc, by simp [hid]⟩
      have := List.length_pos_of_mem this
      right; simp only; omega
    · exact hn _ hr
  | completeLast c s out t1 t2 o hc hs hid hl =>
    have h2 := mem_filter_ne.1 hs'
    obtain ⟨r, hr, ⟨he, rfl⟩ | ⟨_, rfl⟩⟩ := mem_bump.1 h2.1
    · exact absurd (he.trans hid.symm) h2.2
    · exact hn _ hr
  | retry c failure m t1 t2 t3 o hc hr => exact hn _ hs'
  | fail c s failure m t1 t2 t3 o hc hs hid hr => exact hn _ (mem_filter_ne.1 hs').1
  | cancel s t1 t2 o hs => exact hn _ (mem_filter_ne.1 hs').1
  | cleanup t o => exact hn _ hs'

theorem notStuck_run (ops : List Op) : FreshIds ops → NotStuck (run ops) := by
  refine snoc_induction (P := fun ops => FreshIds ops → NotStuck (run ops)) ?_ ?_ ops
  · intro _ s hs; simp [run_nil, DB.empty] at hs
  · intro ops op ih hf
    exact (effect_run hf).notStuck (inv_run hf.snoc.1) (ih hf.snoc.1)

/-! ### completions -/

theorem CompletedIn.mono {ops : List Op} {cid : ChunkId} (h : CompletedIn ops cid) (ops' : List Op) :
    CompletedIn (ops ++ ops') cid := by
  obtain ⟨pre, out, t1, t2, o, post, rfl, h1, h2⟩ := h
  exact ⟨pre, out, t1, t2, o, post ++ ops', by simp, h1, h2⟩

theorem CompletedIn.last {ops : List Op} {cid : ChunkId} {out t1 t2 o}
    (hf : FreshIds (ops ++ [.complete cid out t1 t2 o]))
    (h : cid ∈ keys (run ops)) (hn : cid ∉ keys (run (ops ++ [.complete cid out t1 t2 o]))) :
    CompletedIn (ops ++ [.complete cid out t1 t2 o]) cid :=
  ⟨ops, out, t1, t2, o, [], rfl, (backlogCount_one (inv_run hf.snoc.1)).2 h, backlogCount_zero.2 hn⟩

/-- What a completed chunk implies at the moment of its completion. -/
theorem CompletedIn.was {ops : List Op} {cid : ChunkId} (hf : FreshIds ops) (h : CompletedIn ops cid) :
    ∃ pre out t1 t2 o post, ops = pre ++ .complete cid out t1 t2 o :: post ∧
      cid ∈ keys (run pre) ∧ cid ∉ keys (run (pre ++ [.complete cid out t1 t2 o])) ∧
      FreshIds pre ∧ FreshIds (pre ++ [.complete cid out t1 t2 o]) := by
  obtain ⟨pre, out, t1, t2, o, post, rfl, h1, h2⟩ := h
  have hf1 : FreshIds pre := hf.prefix
  have hf2 : FreshIds (pre ++ [.complete cid out t1 t2 o]) := by
    have : pre ++ .complete cid out t1 t2 o :: post =
      (pre ++ [.complete cid out t1 t2 o]) ++ post := by simp
    rw [this] at hf; exact hf.prefix
  exact ⟨pre, out, t1, t2, o, post, rfl, (backlogCount_one (inv_run hf1)).1 h1,
    backlogCount_zero.1 h2, hf1, hf2⟩

/-- A chunk that was in the backlog and is not any more never comes back. -/
theorem keys_stay_gone {xs ys : List Op} (hf : FreshIds (xs ++ ys)) {cid : ChunkId}
    (hu : cid.submissionId ∈ xs.filterMap Op.insertId) (hn : cid ∉ keys (run xs)) :
    cid ∉ keys (run (xs ++ ys)) := by
  revert hf
  refine snoc_induction (P := fun ys => FreshIds (xs ++ ys) → cid ∉ keys (run (xs ++ ys))) ?_ ?_ ys
  · intro _; simpa using hn
  · intro ys op ih hf
    rw [← List.append_assoc] at hf ⊢
    intro hc
    rcases (effect_run hf).keys_new hc with h | h
    · exact ih hf.snoc.1 h
    · exact hf.snoc.2 _ h (by rw [List.filterMap_append]; exact List.mem_append_left _ hu)

theorem key_inserted {ops : List Op} (hf : FreshIds ops) {cid : ChunkId} (h : cid ∈ keys (run ops)) :
    cid.submissionId ∈ ops.filterMap Op.insertId := by
  obtain ⟨c, hc, rfl⟩ := List.mem_map.1 h
  refine used_run hf ?_
  rw [mem_usedIds]
  exact .inl (mem_allIds_chunk (inv_run hf) hc)

theorem CompletedIn.not_key {ops : List Op} {cid : ChunkId} (hf : FreshIds ops)
    (h : CompletedIn ops cid) : cid ∉ keys (run ops) := by
  obtain ⟨pre, out, t1, t2, o, post, rfl, h1, h2, hf1, hf2⟩ := h.was hf
  have e : pre ++ .complete cid out t1 t2 o :: post =
      (pre ++ [.complete cid out t1 t2 o]) ++ post := by simp
  rw [e] at hf ⊢
  refine keys_stay_gone hf ?_ h2
  rw [List.filterMap_append]
  exact List.mem_append_left _ (key_inserted hf1 h1)

theorem CompletedIn.inserted {ops : List Op} {cid : ChunkId} (hf : FreshIds ops)
    (h : CompletedIn ops cid) : ∃ a now o, Op.insert a now o ∈ ops ∧ a.id = cid.submissionId ∧
      cid.chunkIndex < a.contents.length := by
  obtain ⟨pre, out, t1, t2, o, post, rfl, h1, h2, hf1, hf2⟩ := h.was hf
  obtain ⟨c, hc, rfl⟩ := List.mem_map.1 h1
  obtain ⟨a, now, o', hm, hid, he⟩ := (prov_run pre hf1).chunk c hc
  exact ⟨a, now, o', List.mem_append_left _ hm, hid, (List.getElem?_eq_some_iff.1 he).1⟩

/-- Chunks of in-progress and of completed submissions that are not in the backlog were completed. -/
structure Comp (ops : List Op) : Prop where
  sub : ∀ s ∈ (run ops).submissions, ∀ i, i < s.chunksTotal → (⟨s.id, i⟩ : ChunkId) ∉ keys (run ops) →
    CompletedIn ops ⟨s.id, i⟩
  comp : ∀ r ∈ (run ops).submissionsCompleted, ∀ i, i < r.chunksTotal → CompletedIn ops ⟨r.id, i⟩
  cc : ∀ d ∈ (run ops).chunksCompleted, CompletedIn ops d.key

theorem comp_last_keys {db : DB} {c : ChunkRow} {s : SubmissionRow} (hI : Inv db) (hc : c ∈ db.chunks)
    (hs : s ∈ db.submissions) (hid : s.id = c.submissionId) (hl : s.chunksDone + 1 = s.chunksTotal)
    {i : Nat} (h : (⟨s.id, i⟩ : ChunkId) ∈ keys db) : (⟨s.id, i⟩ : ChunkId) = c.key := by
  obtain ⟨c', hc', e⟩ := List.mem_map.1 h
  have hd := hI.done s hs
  have hlen : (db.chunks.filter (·.submissionId == s.id)).length = 1 := by omega
  have m1 : c ∈ db.chunks.filter (·.submissionId == s.id) := List.mem_filter.2 ⟨hc, by simp [hid]⟩
  have m2 : c' ∈ db.chunks.filter (·.submissionId == s.id) :=
    List.mem_filter.2 ⟨hc', by have := congrArg ChunkId.submissionId e; simpa [ChunkRow.key] using this⟩
  obtain ⟨x, hx⟩ := List.length_eq_one_iff.1 hlen
  rw [hx, List.mem_singleton] at m1 m2
  rw [← e, m1, m2]

theorem comp_run (ops : List Op) : FreshIds ops → Comp ops := by
  refine snoc_induction (P := fun ops => FreshIds ops → Comp ops) ?_ ?_ ops
  · intro _
    constructor <;> simp [run_nil, DB.empty]
  · intro ops op ih hf
    have hf1 := hf.snoc.1
    have hC := ih hf1
    have hI := inv_run hf1
    have he := effect_run hf
    constructor
    · intro s' hs' i hi hn
      rcases he.sub_back hs' with ⟨s, hs, hid, htot⟩ | ⟨a, now, o, rfl, rfl, hch⟩
      · by_cases hk : (⟨s'.id, i⟩ : ChunkId) ∈ keys (run ops)
        · rcases he.keys_gone hk hn with ⟨out, t1, t2, o, rfl⟩ | ⟨_, h⟩
          · exact CompletedIn.last hf hk hn
          · exact absurd (List.mem_map_of_mem hs') h
        · rw [← hid] at hk ⊢
          exact (hC.sub s hs i (by omega) hk).mono _
      · exfalso
        apply hn
        have hlt : i < a.contents.length := hi
        have : (⟨a.id, i, a.contents[i], 0⟩ : ChunkRow) ∈ mkChunks a.id a.contents :=
          mem_mkChunks.2 ⟨rfl, rfl, by simp [hlt]⟩
        exact keys_of_mem (hch _ this)
    · intro r hr i hi
      have old : r ∈ (run ops).submissionsCompleted → CompletedIn (ops ++ [op]) ⟨r.id, i⟩ :=
        fun h => (hC.comp r h i hi).mono _
      generalize hdb' : run (ops ++ [op]) = db' at he hr
      cases he with
      | none => exact old hr
      | insert a now o hok => exact old hr
      | insertEmpty a now o hok hem =>
        simp only [Eff.finish, Eff.insert, List.mem_append, List.mem_singleton] at hr
        rcases hr with hr | rfl
        · exact old hr
        · simp [toCompleted, InsertArgs.row, hem] at hi
      | complete c s out t1 t2 o hc hs hid hl => exact old hr
      | completeLast c s out t1 t2 o hc hs hid hl =>
        simp only [Eff.finish, Eff.completeRaw, List.mem_append, List.mem_singleton] at hr
        rcases hr with hr | rfl
        · exact old hr
        · simp only [toCompleted] at hi ⊢
          by_cases hk : (⟨s.id, i⟩ : ChunkId) ∈ keys (run ops)
          · have e := comp_last_keys hI hc hs hid hl hk
            rw [e]
            refine CompletedIn.last hf (e ▸ hk) ?_
            rw [hdb']
            simp [keys, Eff.finish, Eff.completeRaw]
          · exact (hC.sub s hs i hi hk).mono _
      | retry c failure m t1 t2 t3 o hc hr' => exact old hr
      | fail c s failure m t1 t2 t3 o hc hs hid hr' => exact old hr
      | cancel s t1 t2 o hs => exact old hr
      | cleanup t o => exact old (List.mem_filter.1 hr).1
    · intro d hd
      have old : d ∈ (run ops).chunksCompleted → CompletedIn (ops ++ [op]) d.key :=
        fun h => (hC.cc d h).mono _
      generalize hdb' : run (ops ++ [op]) = db' at he hd
      cases he with
      | none => exact old hd
      | insert a now o hok => exact old hd
      | insertEmpty a now o hok hem => exact old hd
      | complete c s out t1 t2 o hc hs hid hl =>
        simp only [Eff.completeRaw, List.mem_append, List.mem_singleton] at hd
        rcases hd with hd | rfl
        · exact old hd
        · refine CompletedIn.last hf (keys_of_mem hc) ?_
          rw [hdb']
          simp [keys, Eff.completeRaw]
      | completeLast c s out t1 t2 o hc hs hid hl =>
        simp only [Eff.finish, Eff.completeRaw, List.mem_append, List.mem_singleton] at hd
        rcases hd with hd | rfl
        · exact old hd
        · refine CompletedIn.last hf (keys_of_mem hc) ?_
          rw [hdb']
          simp [keys, Eff.finish, Eff.completeRaw]
      | retry c failure m t1 t2 t3 o hc hr' => exact old hd
      | fail c s failure m t1 t2 t3 o hc hs hid hr' => exact old hd
      | cancel s t1 t2 o hs => exact old hd
      | cleanup t o => exact old (List.mem_filter.1 hd).1

/-! ### persistence of terminal rows -/

theorem mem_allIds_comp {db : DB} {r : CompletedRow} (h : r ∈ db.submissionsCompleted) :
    r.id ∈ allIds db := by
  simp only [allIds, List.mem_append]; exact .inl (.inl (.inr (List.mem_map_of_mem h)))
theorem mem_allIds_fail {db : DB} {r : FailedRow} (h : r ∈ db.submissionsFailed) :
    r.id ∈ allIds db := by
  simp only [allIds, List.mem_append]; exact .inl (.inr (List.mem_map_of_mem h))
theorem mem_allIds_canc {db : DB} {r : CancelledRow} (h : r ∈ db.submissionsCancelled) :
    r.id ∈ allIds db := by
  simp only [allIds, List.mem_append]; exact .inr (List.mem_map_of_mem h)

theorem Effect.comp_keep {db db' : DB} {op : Op} (h : Effect db op db') {r : CompletedRow}
    (hr : r ∈ db.submissionsCompleted) : r ∈ db'.submissionsCompleted ∨
      ∃ t o, op = .cleanup t o ∧ db' = Eff.cleanup t db ∧ r.completedAt < t := by
  cases h with
  | none => exact .inl hr
  | insert a now o hok => exact .inl hr
  | insertEmpty a now o hok hem => left; simp [Eff.finish, Eff.insert, hr]
  | complete c s out t1 t2 o hc hs hid hl => exact .inl hr
  | completeLast c s out t1 t2 o hc hs hid hl => left; simp [Eff.finish, Eff.completeRaw, hr]
  | retry c failure m t1 t2 t3 o hc hr' => exact .inl hr
  | fail c s failure m t1 t2 t3 o hc hs hid hr' => exact .inl hr
  | cancel s t1 t2 o hs => exact .inl hr
  | cleanup t o =>
    by_cases h : r.completedAt < t
    · exact .inr ⟨t, o, rfl, rfl, h⟩
    · exact .inl (List.mem_filter.2 ⟨hr, by simpa using h⟩)

theorem Effect.fail_keep {db db' : DB} {op : Op} (h : Effect db op db') {r : FailedRow}
    (hr : r ∈ db.submissionsFailed) : r ∈ db'.submissionsFailed ∨
      ∃ t o, op = .cleanup t o ∧ db' = Eff.cleanup t db ∧ r.failedAt < t := by
  cases h with
  | none => exact .inl hr
  | insert a now o hok => exact .inl hr
  | insertEmpty a now o hok hem => exact .inl hr
  | complete c s out t1 t2 o hc hs hid hl => exact .inl hr
  | completeLast c s out t1 t2 o hc hs hid hl => exact .inl hr
  | retry c failure m t1 t2 t3 o hc hr' => exact .inl hr
  | fail c s failure m t1 t2 t3 o hc hs hid hr' => left; simp [Eff.fail, hr]
  | cancel s t1 t2 o hs => exact .inl hr
  | cleanup t o =>
    by_cases h : r.failedAt < t
    · exact .inr ⟨t, o, rfl, rfl, h⟩
    · exact .inl (List.mem_filter.2 ⟨hr, by simpa using h⟩)

theorem Effect.canc_keep {db db' : DB} {op : Op} (h : Effect db op db') {r : CancelledRow}
    (hr : r ∈ db.submissionsCancelled) : r ∈ db'.submissionsCancelled ∨
      ∃ t o, op = .cleanup t o ∧ db' = Eff.cleanup t db ∧ r.cancelledAt < t := by
  cases h with
  | none => exact .inl hr
  | insert a now o hok => exact .inl hr
  | insertEmpty a now o hok hem => exact .inl hr
  | complete c s out t1 t2 o hc hs hid hl => exact .inl hr
  | completeLast c s out t1 t2 o hc hs hid hl => exact .inl hr
  | retry c failure m t1 t2 t3 o hc hr' => exact .inl hr
  | fail c s failure m t1 t2 t3 o hc hs hid hr' => exact .inl hr
  | cancel s t1 t2 o hs => left; simp [Eff.cancel, hr]
  | cleanup t o =>
    by_cases h : r.cancelledAt < t
    · exact .inr ⟨t, o, rfl, rfl, h⟩
    · exact .inl (List.mem_filter.2 ⟨hr, by simpa using h⟩)

/-- A failed-chunk row stays, unless a cleanup removes it by its own date. -/
theorem Effect.cf_keep {db db' : DB} {op : Op} (h : Effect db op db') {d : ChunkFailedRow}
    (hd : d ∈ db.chunksFailed) : d ∈ db'.chunksFailed ∨
      ∃ t o, op = .cleanup t o ∧ db' = Eff.cleanup t db ∧ d.failedAt < t := by
  cases h with
  | none => exact .inl hd
  | insert a now o hok => exact .inl hd
  | insertEmpty a now o hok hem => exact .inl hd
  | complete c s out t1 t2 o hc hs hid hl => exact .inl hd
  | completeLast c s out t1 t2 o hc hs hid hl => exact .inl hd
  | retry c failure m t1 t2 t3 o hc hr' => exact .inl hd
  | fail c s failure m t1 t2 t3 o hc hs hid hr' => left; simp [Eff.fail, hd]
  | cancel s t1 t2 o hs => left; simp [Eff.cancel, hd]
  | cleanup t o =>
    by_cases h : d.failedAt < t
    · exact .inr ⟨t, o, rfl, rfl, h⟩
    · exact .inl (List.mem_filter.2 ⟨hd, by simpa using h⟩)

/-- A completed-chunk row stays, unless a cleanup removes it by its own date. -/
theorem Effect.cc_keep {db db' : DB} {op : Op} (h : Effect db op db') {d : ChunkCompletedRow}
    (hd : d ∈ db.chunksCompleted) : d ∈ db'.chunksCompleted ∨
      ∃ t o, op = .cleanup t o ∧ db' = Eff.cleanup t db ∧ d.completedAt < t := by
  cases h with
  | none => exact .inl hd
  | insert a now o hok => exact .inl hd
  | insertEmpty a now o hok hem => exact .inl hd
  | complete c s out t1 t2 o hc hs hid hl => left; simp [Eff.completeRaw, hd]
  | completeLast c s out t1 t2 o hc hs hid hl => left; simp [Eff.finish, Eff.completeRaw, hd]
  | retry c failure m t1 t2 t3 o hc hr' => exact .inl hd
  | fail c s failure m t1 t2 t3 o hc hs hid hr' => exact .inl hd
  | cancel s t1 t2 o hs => exact .inl hd
  | cleanup t o =>
    by_cases h : d.completedAt < t
    · exact .inr ⟨t, o, rfl, rfl, h⟩
    · exact .inl (List.mem_filter.2 ⟨hd, by simpa using h⟩)

/-- New failed-chunk rows belong to submissions that were in progress. -/
theorem Effect.cf_new {db db' : DB} {op : Op} (h : Effect db op db') (hI : Inv db)
    {d : ChunkFailedRow} (hd : d ∈ db'.chunksFailed) : d ∈ db.chunksFailed ∨
      d.submissionId ∈ db.submissions.map SubmissionRow.id := by
  have own : ∀ c ∈ db.chunks, c.submissionId ∈ db.submissions.map SubmissionRow.id := by
    intro c hc
    obtain ⟨s, hs, e, _⟩ := hI.owner c hc
    exact e ▸ List.mem_map_of_mem hs
  cases h with
  | none => exact .inl hd
  | insert a now o hok => exact .inl hd
  | insertEmpty a now o hok hem => exact .inl hd
  | complete c s out t1 t2 o hc hs hid hl => exact .inl hd
  | completeLast c s out t1 t2 o hc hs hid hl => exact .inl hd
  | retry c failure m t1 t2 t3 o hc hr' => exact .inl hd
  | fail c s failure m t1 t2 t3 o hc hs hid hr' =>
    simp only [Eff.fail, List.mem_append, List.mem_singleton, List.mem_map] at hd
    rcases hd with (hd | rfl) | ⟨c', hc', rfl⟩
    · exact .inl hd
    · exact .inr (own c hc)
    · exact .inr (own c' (List.mem_filter.1 hc').1)
  | cancel s t1 t2 o hs =>
    simp only [Eff.cancel, List.mem_append, List.mem_map] at hd
    rcases hd with hd | ⟨c', hc', rfl⟩
    · exact .inl hd
    · exact .inr (own c' (List.mem_filter.1 hc').1)
  | cleanup t o => exact .inl (List.mem_filter.1 hd).1

/-- Ids never come from nowhere. -/
theorem Effect.ids_new {db db' : DB} {op : Op} (h : Effect db op db') (hI : Inv db)
    {x : SubmissionId} (hx : x ∈ allIds db') (hi : op.insertId ≠ some x) : x ∈ allIds db := by
  cases h with
  | none => exact hx
  | insert a now o hok =>
    rw [(allIds_insert_perm a db).mem_iff, List.mem_cons] at hx
    rcases hx with rfl | hx
    · exact absurd rfl hi
    · exact hx
  | insertEmpty a now o hok he =>
    simp only [allIds, Eff.finish, Eff.insert, List.mem_append, List.map_append, List.map_cons,
      List.map_nil, List.mem_singleton, List.mem_map, List.mem_filter] at hx ⊢
    rcases hx with ((⟨r, ⟨hr, _⟩, e⟩ | hx) | hx) | hx
    · rcases hr with hr | rfl
      · exact .inl (.inl (.inl ⟨r, hr, e⟩))
      · exact absurd (by simp only [Op.insertId]; rw [← e]; rfl) hi
    · rcases hx with hx | hx
      · exact .inl (.inl (.inr hx))
      · exact absurd (by simp only [Op.insertId]; rw [hx]; rfl) hi
    · exact .inl (.inr hx)
    · exact .inr hx
  | complete c s out t1 t2 o hc hs hid hl =>
    have hall : allIds (Eff.completeRaw c.key out t1 db) = allIds db := by
      unfold allIds; rw [completeRaw_subIds]; rfl
    rw [hall] at hx; exact hx
  | completeLast c s out t1 t2 o hc hs hid hl =>
    have hall : allIds (Eff.completeRaw c.key out t1 db) = allIds db := by
      unfold allIds; rw [completeRaw_subIds]; rfl
    have hp := allIds_finish_perm (inv_completeRaw hI hc hs hid out t1)
      (completeRaw_sub_mem out t1 hs hid) t2
    rw [hp.mem_iff, hall] at hx; exact hx
  | retry c failure m t1 t2 t3 o hc hr => exact hx
  | fail c s failure m t1 t2 t3 o hc hs hid hr =>
    rw [(allIds_fail_perm hI hs c failure t1 t2 t3).mem_iff] at hx; exact hx
  | cancel s t1 t2 o hs =>
    rw [(allIds_cancel_perm hI hs t1 t2).mem_iff] at hx; exact hx
  | cleanup t o =>
    have hsub : (allIds (Eff.cleanup t db)).Sublist (allIds db) := by
      simp only [allIds, Eff.cleanup]
      exact (((List.Sublist.refl _).append (List.filter_sublist.map _)).append
        (List.filter_sublist.map _)).append (List.filter_sublist.map _)
    exact hsub.subset hx

/-- Only a cleanup makes an id unknown. -/
theorem Effect.ids_keep {db db' : DB} {op : Op} (h : Effect db op db') (hI : Inv db)
    {x : SubmissionId} (hx : x ∈ allIds db) : x ∈ allIds db' ∨ op.isCleanup = true := by
  cases h with
  | none => exact .inl hx
  | insert a now o hok =>
    left; rw [(allIds_insert_perm a db).mem_iff, List.mem_cons]; exact .inr hx
  | insertEmpty a now o hok he =>
    left
    simp only [allIds, Eff.finish, Eff.insert, List.mem_append, List.map_append, List.map_cons,
      List.map_nil, List.mem_singleton, List.mem_map, List.mem_filter] at hx ⊢
    rcases hx with ((⟨r, hr, e⟩ | hx) | hx) | hx
    · refine .inl (.inl (.inl ⟨r, ⟨.inl hr, ?_⟩, e⟩))
      have : r.id ≠ a.row.id := fun e' => hok.1 (by
        rw [show a.id = a.row.id from rfl, ← e']; exact List.mem_map_of_mem hr)
      simpa using this
    · exact .inl (.inl (.inr (.inl hx)))
    · exact .inl (.inr hx)
    · exact .inr hx
  | complete c s out t1 t2 o hc hs hid hl =>
    have hall : allIds (Eff.completeRaw c.key out t1 db) = allIds db := by
      unfold allIds; rw [completeRaw_subIds]; rfl
    rw [hall]; exact .inl hx
  | completeLast c s out t1 t2 o hc hs hid hl =>
    have hall : allIds (Eff.completeRaw c.key out t1 db) = allIds db := by
      unfold allIds; rw [completeRaw_subIds]; rfl
    have hp := allIds_finish_perm (inv_completeRaw hI hc hs hid out t1)
      (completeRaw_sub_mem out t1 hs hid) t2
    rw [hp.mem_iff, hall]; exact .inl hx
  | retry c failure m t1 t2 t3 o hc hr => exact .inl hx
  | fail c s failure m t1 t2 t3 o hc hs hid hr =>
    rw [(allIds_fail_perm hI hs c failure t1 t2 t3).mem_iff]; exact .inl hx
  | cancel s t1 t2 o hs =>
    rw [(allIds_cancel_perm hI hs t1 t2).mem_iff]; exact .inl hx
  | cleanup t o => exact .inr rfl

/-- A submission once inserted and unknown now stays unknown. -/
theorem gone_stays {xs ys : List Op} (hf : FreshIds (xs ++ ys)) {x : SubmissionId}
    (hu : x ∈ xs.filterMap Op.insertId) (hn : x ∉ allIds (run xs)) : x ∉ allIds (run (xs ++ ys)) := by
  revert hf
  refine snoc_induction (P := fun ys => FreshIds (xs ++ ys) → x ∉ allIds (run (xs ++ ys))) ?_ ?_ ys
  · intro _; simpa using hn
  · intro ys op ih hf
    rw [← List.append_assoc] at hf ⊢
    intro hc
    refine ih hf.snoc.1 ((effect_run hf).ids_new (inv_run hf.snoc.1) hc ?_)
    intro h
    exact hf.snoc.2 _ h (by rw [List.filterMap_append]; exact List.mem_append_left _ hu)

theorem known_inserted {ops : List Op} (hf : FreshIds ops) {x : SubmissionId}
    (h : x ∈ allIds (run ops)) : x ∈ ops.filterMap Op.insertId :=
  used_run hf (mem_usedIds.2 (.inl h))

/-- Strategic metadata of a submission that stays known does not change. -/
theorem strategic_stable {xs ys : List Op} (hf : FreshIds (xs ++ ys)) {x : SubmissionId}
    (h1 : x ∈ allIds (run xs)) (h2 : x ∈ allIds (run (xs ++ ys))) :
    Stmt.strategicOf x (run (xs ++ ys)) = Stmt.strategicOf x (run xs) := by
  obtain ⟨a, n, o, hm, hid, e⟩ := (prov_run xs hf.prefix).strategic x h1
  obtain ⟨b, n', o', hm', hid', e'⟩ := (prov_run _ hf).strategic x h2
  have := insert_unique hf (List.mem_append_left _ hm) hm' (hid.trans hid'.symm)
  injection this with hab
  rw [e, e', hab]

end Opsqueue
