import Verif.Proofs.Status

/-! Frame property of effects, provenance of rows and other facts about histories. -/

set_option linter.unusedSimpArgs false

namespace Opsqueue
open SubmissionDb

/-- The rows about one submission. -/
def proj (id : SubmissionId) (db : DB) : DB :=
  { submissions := db.submissions.filter (·.id == id)
    submissionsCompleted := db.submissionsCompleted.filter (·.id == id)
    submissionsFailed := db.submissionsFailed.filter (·.id == id)
    submissionsCancelled := db.submissionsCancelled.filter (·.id == id)
    chunks := db.chunks.filter (·.submissionId == id)
    chunksCompleted := db.chunksCompleted.filter (·.submissionId == id)
    chunksFailed := db.chunksFailed.filter (·.submissionId == id)
    submissionsMetadata := db.submissionsMetadata.filter (·.submissionId == id) }

theorem find?_filter_of_imp {α : Type} (l : List α) (p q : α → Bool) (h : ∀ a, p a = true → q a = true) :
    (l.filter q).find? p = l.find? p := by
  induction l with
  | nil => rfl
  | cons x xs ih =>
    by_cases hq : q x = true
    · rw [List.filter_cons_of_pos hq]
      by_cases hp : p x = true
      · simp [List.find?_cons_of_pos, hp]
      · simp [List.find?_cons_of_neg, hp, ih]
    · rw [List.filter_cons_of_neg hq]
      have hp : ¬ p x = true := fun hp => hq (h x hp)
      simp [List.find?_cons_of_neg, hp, ih]

theorem strategicOf_proj (id : SubmissionId) (db : DB) :
    Stmt.strategicOf id (proj id db) = Stmt.strategicOf id db := by
  simp [Stmt.strategicOf, proj, List.filter_filter]

theorem selectSubmission_proj (id : SubmissionId) (db : DB) :
    Stmt.selectSubmission id (proj id db) = Stmt.selectSubmission id db := by
  simp only [Stmt.selectSubmission]
  have : (proj id db).submissions.find? (·.id == id) = db.submissions.find? (·.id == id) :=
    find?_filter_of_imp _ _ _ fun _ h => h
  rw [this]
  cases h : db.submissions.find? (·.id == id) with
  | none => rfl
  | some r =>
    have := (mem_of_find?_key h).2
    simp only [Option.map_some, this, strategicOf_proj]

theorem selectCompleted_proj (id : SubmissionId) (db : DB) :
    Stmt.selectCompleted id (proj id db) = Stmt.selectCompleted id db := by
  simp only [Stmt.selectCompleted]
  have : (proj id db).submissionsCompleted.find? (·.id == id) = db.submissionsCompleted.find? (·.id == id) :=
    find?_filter_of_imp _ _ _ fun _ h => h
  rw [this]
  cases h : db.submissionsCompleted.find? (·.id == id) with
  | none => rfl
  | some r =>
    have := (mem_of_find?_key h).2
    simp only [Option.map_some, this, strategicOf_proj]

theorem selectFailed_proj (id : SubmissionId) (db : DB) :
    Stmt.selectFailed id (proj id db) = Stmt.selectFailed id db := by
  simp only [Stmt.selectFailed]
  have : (proj id db).submissionsFailed.find? (·.id == id) = db.submissionsFailed.find? (·.id == id) :=
    find?_filter_of_imp _ _ _ fun _ h => h
  rw [this]
  cases h : db.submissionsFailed.find? (·.id == id) with
  | none => rfl
  | some r =>
    have := (mem_of_find?_key h).2
    simp only [Option.map_some, this, strategicOf_proj]

theorem selectCancelled_proj (id : SubmissionId) (db : DB) :
    Stmt.selectCancelled id (proj id db) = Stmt.selectCancelled id db := by
  simp only [Stmt.selectCancelled]
  have : (proj id db).submissionsCancelled.find? (·.id == id) = db.submissionsCancelled.find? (·.id == id) :=
    find?_filter_of_imp _ _ _ fun _ h => h
  rw [this]
  cases h : db.submissionsCancelled.find? (·.id == id) with
  | none => rfl
  | some r =>
    have := (mem_of_find?_key h).2
    simp only [Option.map_some, this, strategicOf_proj]

theorem selectChunkFailed_proj (cid : ChunkId) (db : DB) :
    Stmt.selectChunkFailed cid (proj cid.submissionId db) = Stmt.selectChunkFailed cid db := by
  simp only [Stmt.selectChunkFailed]
  have : (proj cid.submissionId db).chunksFailed.find? (·.key == cid) = db.chunksFailed.find? (·.key == cid) := by
    apply find?_filter_of_imp
    intro a h
    simp only [beq_iff_eq] at h ⊢
    rw [← h]; rfl
  rw [this]

theorem statusAt_proj (id : SubmissionId) (db : DB) : statusAt (proj id db) id = statusAt db id := by
  simp only [statusAt_eq, statusReads, selectSubmission_proj, selectCompleted_proj,
    selectFailed_proj, selectCancelled_proj]
  cases Stmt.selectSubmission id db with
  | some => rfl
  | none =>
    cases Stmt.selectCompleted id db with
    | some => rfl
    | none =>
      cases h : Stmt.selectFailed id db with
      | none => rfl
      | some s =>
        have hs : s.id = id := by
          obtain ⟨r, _, e, rfl⟩ := selectFailed_some h
          exact e
        have := selectChunkFailed_proj ⟨s.id, s.failedChunkId⟩ db
        simp only [hs] at this ⊢
        rw [this]

theorem statusAt_of_proj {id : SubmissionId} {db db' : DB} (h : proj id db' = proj id db) :
    statusAt db' id = statusAt db id := by
  rw [← statusAt_proj id db', h, statusAt_proj]

theorem backlogCount_of_proj {cid : ChunkId} {db db' : DB}
    (h : proj cid.submissionId db' = proj cid.submissionId db) :
    backlogCount db' cid = backlogCount db cid := by
  have e : ∀ d : DB, backlogCount d cid = ((proj cid.submissionId d).chunks.filter
      (fun c => c.chunkIndex == cid.chunkIndex)).length := by
    intro d
    simp only [backlogCount, proj, List.filter_filter]
    congr 1
    apply List.filter_congr
    intro c _
    rw [Bool.and_comm]
  rw [e, e, h]

theorem filter_filter_id {α : Type} (l : List α) (f : α → SubmissionId) {id x : SubmissionId}
    (h : x ≠ id) : (l.filter (fun r => !(f r == x))).filter (fun r => f r == id) =
      l.filter (fun r => f r == id) := by
  rw [List.filter_filter]
  apply List.filter_congr
  intro a _
  by_cases ha : f a = id
  · have : f a ≠ x := fun e => h (e.symm.trans ha)
    simp [ha, Ne.symm h]
  · simp [ha]

theorem filter_map_id {α : Type} (l : List α) (f : α → SubmissionId) (g : α → α) {id : SubmissionId}
    (hf : ∀ a, f (g a) = f a) (hg : ∀ a, f a = id → g a = a) :
    (l.map g).filter (fun r => f r == id) = l.filter (fun r => f r == id) := by
  induction l with
  | nil => rfl
  | cons x xs ih =>
    simp only [List.map_cons, List.filter_cons, hf, ih]
    by_cases h : f x = id
    · simp [h, hg x h]
    · simp [h]

theorem filter_append_id {α : Type} (l m : List α) (f : α → SubmissionId) {id : SubmissionId}
    (h : ∀ a ∈ m, f a ≠ id) :
    (l ++ m).filter (fun r => f r == id) = l.filter (fun r => f r == id) := by
  rw [List.filter_append]
  have : m.filter (fun r => f r == id) = [] := by
    rw [List.filter_eq_nil_iff]
    intro a ha
    simpa using h a ha
  rw [this, List.append_nil]

theorem Effect.frame {db db' : DB} {op : Op} (h : Effect db op db') {id x : SubmissionId}
    (ht : op.target = some x) (hx : x ≠ id) : proj id db' = proj id db := by
  cases h with
  | none => rfl
  | insert a now o hok =>
    simp only [Op.target, Option.some.injEq] at ht
    subst ht
    simp only [proj, Eff.insert]
    rw [filter_append_id db.submissions [a.row] SubmissionRow.id (by simpa [InsertArgs.row] using hx),
      filter_append_id db.chunks _ ChunkRow.submissionId
        (by intro c hc; rw [(mem_mkChunks.1 hc).1]; exact hx),
      filter_append_id db.submissionsMetadata _ MetaRow.submissionId
        (by intro c hc; simp only [metaRows, List.mem_map] at hc; obtain ⟨_, _, rfl⟩ := hc; exact hx)]
  | insertEmpty a now o hok he =>
    simp only [Op.target, Option.some.injEq] at ht
    subst ht
    simp only [proj, Eff.insert, Eff.finish]
    have e : a.row.id = a.id := rfl
    rw [filter_filter_id _ SubmissionRow.id (by rw [e]; exact hx),
      filter_append_id db.submissions [a.row] SubmissionRow.id (by simpa [InsertArgs.row] using hx),
      filter_append_id db.submissionsCompleted _ CompletedRow.id
        (by simpa [InsertArgs.row, toCompleted] using hx),
      filter_append_id db.chunks _ ChunkRow.submissionId
        (by intro c hc; rw [(mem_mkChunks.1 hc).1]; exact hx),
      filter_append_id db.submissionsMetadata _ MetaRow.submissionId
        (by intro c hc; simp only [metaRows, List.mem_map] at hc; obtain ⟨_, _, rfl⟩ := hc; exact hx)]
  | complete c s out t1 t2 o hc hs hid hl =>
    simp only [Op.target, Option.some.injEq] at ht
    subst ht
    simp only [proj, Eff.completeRaw]
    rw [filter_map_id db.submissions SubmissionRow.id _ (by intro a; split <;> rfl)
        (by intro a ha; rw [if_neg]; simpa [ha] using Ne.symm hx),
      filter_append_id db.chunksCompleted _ ChunkCompletedRow.submissionId (by simpa using hx)]
    congr 1
    rw [List.filter_filter]
    apply List.filter_congr
    intro r _
    by_cases h : r.submissionId = id
    · have : r.key ≠ c.key := fun e => hx (by rw [← e]; exact h)
      simp [h, this]
    · simp [h]
  | completeLast c s out t1 t2 o hc hs hid hl =>
    simp only [Op.target, Option.some.injEq] at ht
    subst ht
    have hk : c.key.submissionId = s.id := hid.symm
    simp only [proj, Eff.completeRaw, Eff.finish]
    rw [filter_filter_id _ SubmissionRow.id (by rw [← hk]; exact hx),
      filter_map_id db.submissions SubmissionRow.id _ (by intro a; split <;> rfl)
        (by intro a ha; rw [if_neg]; simpa [ha] using Ne.symm hx),
      filter_append_id db.submissionsCompleted _ CompletedRow.id
        (by simpa [toCompleted, ← hk] using hx),
      filter_append_id db.chunksCompleted _ ChunkCompletedRow.submissionId (by simpa using hx)]
    congr 1
    rw [List.filter_filter]
    apply List.filter_congr
    intro r _
    by_cases h : r.submissionId = id
    · have : r.key ≠ c.key := fun e => hx (by rw [← e]; exact h)
      simp [h, this]
    · simp [h]
  | retry c failure m t1 t2 t3 o hc hr =>
    simp only [Op.target, Option.some.injEq] at ht
    subst ht
    simp only [proj, Eff.bump]
    rw [filter_map_id db.chunks ChunkRow.submissionId _ (by intro a; split <;> rfl)]
    intro a ha
    have : a.key ≠ c.key := fun e => hx (by rw [← e]; exact ha)
    simp [this]
  | fail c s failure m t1 t2 t3 o hc hs hid hr =>
    simp only [Op.target, Option.some.injEq] at ht
    subst ht
    have hk : c.key.submissionId = s.id := hid.symm
    have hx' : s.id ≠ id := by rw [← hk]; exact hx
    simp only [proj, Eff.fail]
    rw [filter_filter_id _ SubmissionRow.id hx', filter_filter_id _ ChunkRow.submissionId hx',
      filter_append_id db.submissionsFailed _ FailedRow.id (by simpa [toFailed] using hx'),
      filter_append_id _ _ ChunkFailedRow.submissionId (by
        intro a ha
        simp only [List.mem_map, otherChunks, List.mem_filter] at ha
        obtain ⟨r, ⟨_, hr⟩, rfl⟩ := ha
        simp only [Bool.and_eq_true, beq_iff_eq] at hr
        simp only [toChunkFailed]; rw [hr.2]; exact hx),
      filter_append_id db.chunksFailed _ ChunkFailedRow.submissionId (by
        intro a ha
        simp only [List.mem_singleton] at ha
        subst ha
        exact hx)]
  | cancel s t1 t2 o hs =>
    simp only [Op.target, Option.some.injEq] at ht
    subst ht
    simp only [proj, Eff.cancel]
    rw [filter_filter_id _ SubmissionRow.id hx, filter_filter_id _ ChunkRow.submissionId hx,
      filter_append_id db.submissionsCancelled _ CancelledRow.id (by simpa [toCancelled] using hx),
      filter_append_id _ _ ChunkFailedRow.submissionId (by
        intro a ha
        simp only [List.mem_map, List.mem_filter] at ha
        obtain ⟨r, ⟨_, hr⟩, rfl⟩ := ha
        simp only [beq_iff_eq] at hr
        simp only [toChunkFailed]; rw [hr]; exact hx)]
  | cleanup t o => simp [Op.target] at ht

/-! ### provenance -/

/-- Where the rows of a database come from. -/
structure Prov (ops : List Op) (db : DB) : Prop where
  sub : ∀ r ∈ db.submissions, ∃ a now o, Op.insert a now o ∈ ops ∧
    r = { a.row with chunksDone := r.chunksDone }
  comp : ∀ r ∈ db.submissionsCompleted, ∃ a now o, Op.insert a now o ∈ ops ∧
    r = toCompleted r.completedAt a.row
  fail : ∀ r ∈ db.submissionsFailed, ∃ a now o, Op.insert a now o ∈ ops ∧ ∃ d i,
    r = toFailed i r.failedAt { a.row with chunksDone := d } ∧ d ≤ a.contents.length ∧
      i < a.contents.length
  canc : ∀ r ∈ db.submissionsCancelled, ∃ a now o, Op.insert a now o ∈ ops ∧ ∃ d,
    r = toCancelled r.cancelledAt { a.row with chunksDone := d } ∧ d ≤ a.contents.length
  chunk : ∀ c ∈ db.chunks, ∃ a now o, Op.insert a now o ∈ ops ∧ a.id = c.submissionId ∧
    a.contents[c.chunkIndex]? = some c.inputContent
  chunkFailed : ∀ c ∈ db.chunksFailed, ∃ a now o, Op.insert a now o ∈ ops ∧ a.id = c.submissionId ∧
    a.contents[c.chunkIndex]? = some c.inputContent
  chunkCompleted : ∀ c ∈ db.chunksCompleted, ∃ a now o, Op.insert a now o ∈ ops ∧
    a.id = c.submissionId ∧ c.chunkIndex < a.contents.length
  strategic : ∀ x ∈ allIds db, ∃ a now o, Op.insert a now o ∈ ops ∧ a.id = x ∧
    Stmt.strategicOf x db = a.strategic

theorem insert_unique {ops : List Op} (h : FreshIds ops) {a b : InsertArgs} {now now' : Time}
    {o o' : List Fault} (ha : Op.insert a now o ∈ ops) (hb : Op.insert b now' o' ∈ ops)
    (hid : a.id = b.id) : Op.insert a now o = Op.insert b now' o' := by
  unfold FreshIds at h
  induction ops with
  | nil => simp at ha
  | cons x xs ih =>
    rw [List.filterMap_cons] at h
    have key : ∀ (c d : InsertArgs) (t t' : Time) (p p' : List Fault), Op.insert c t p = x →
        Op.insert d t' p' ∈ xs → c.id = d.id → False := by
      intro c d t t' p p' hx hm he
      subst hx
      simp only [Op.insertId, List.nodup_cons] at h
      exact h.1 (List.mem_filterMap.2 ⟨_, hm, by simp [Op.insertId, he]⟩)
    rcases List.mem_cons.1 ha with ha | ha <;> rcases List.mem_cons.1 hb with hb | hb
    · rw [ha, hb]
    · exact (key _ _ _ _ _ _ ha hb hid).elim
    · exact (key _ _ _ _ _ _ hb ha hid.symm).elim
    · refine ih ?_ ha hb
      revert h; split
      · exact id
      · intro h; exact (List.nodup_cons.1 h).2

theorem strategic_congr {db db' : DB} (h : db'.submissionsMetadata = db.submissionsMetadata)
    (x : SubmissionId) : Stmt.strategicOf x db' = Stmt.strategicOf x db := by
  simp [Stmt.strategicOf, h]

theorem strategic_insert {a : InsertArgs} {db : DB} (hI : Inv db) (hf : a.id ∉ usedIds db)
    {x : SubmissionId} (hx : x ∈ allIds (Eff.insert a db)) (db' : DB)
    (hdb' : db'.submissionsMetadata = (Eff.insert a db).submissionsMetadata) :
    (x = a.id ∧ Stmt.strategicOf x db' = a.strategic) ∨
    (x ∈ allIds db ∧ Stmt.strategicOf x db' = Stmt.strategicOf x db) := by
  rw [strategic_congr hdb']
  rw [(allIds_insert_perm a db).mem_iff, List.mem_cons] at hx
  have hf1 : a.id ∉ allIds db := fun h => hf (by simp [usedIds, h])
  by_cases e : x = a.id
  · left
    refine ⟨e, ?_⟩
    subst e
    simp only [Stmt.strategicOf, Eff.insert, List.filter_append]
    have h1 : db.submissionsMetadata.filter (fun m => m.submissionId == a.id) = [] := by
      rw [List.filter_eq_nil_iff]
      intro m hm
      have := hI.metaOwner m hm
      simp only [beq_iff_eq]
      intro e; rw [e] at this; exact hf1 this
    have h2 : (metaRows a.id a.strategic).filter (fun m => m.submissionId == a.id) =
        metaRows a.id a.strategic := by
      rw [List.filter_eq_self]
      intro m hm
      simp only [metaRows, List.mem_map] at hm
      obtain ⟨_, _, rfl⟩ := hm
      simp
    rw [h1, h2, List.nil_append, metaRows, List.map_map]
    conv => rhs; rw [← List.map_id a.strategic]
    apply List.map_congr_left
    intro p _
    rfl
  · right
    rcases hx with hx | hx
    · exact absurd hx e
    · refine ⟨hx, ?_⟩
      simp only [Stmt.strategicOf, Eff.insert]
      rw [filter_append_id db.submissionsMetadata _ MetaRow.submissionId]
      intro m hm
      simp only [metaRows, List.mem_map] at hm
      obtain ⟨_, _, rfl⟩ := hm
      exact Ne.symm e

theorem Prov.mono {ops ops' : List Op} {db : DB} (h : Prov ops db) (hs : ∀ op ∈ ops, op ∈ ops') :
    Prov ops' db where
  sub r hr := by obtain ⟨a, n, o, hm, e⟩ := h.sub r hr; exact ⟨a, n, o, hs _ hm, e⟩
  comp r hr := by obtain ⟨a, n, o, hm, e⟩ := h.comp r hr; exact ⟨a, n, o, hs _ hm, e⟩
  fail r hr := by obtain ⟨a, n, o, hm, e⟩ := h.fail r hr; exact ⟨a, n, o, hs _ hm, e⟩
  canc r hr := by obtain ⟨a, n, o, hm, e⟩ := h.canc r hr; exact ⟨a, n, o, hs _ hm, e⟩
  chunk r hr := by obtain ⟨a, n, o, hm, e⟩ := h.chunk r hr; exact ⟨a, n, o, hs _ hm, e⟩
  chunkFailed r hr := by obtain ⟨a, n, o, hm, e⟩ := h.chunkFailed r hr; exact ⟨a, n, o, hs _ hm, e⟩
  chunkCompleted r hr := by
    obtain ⟨a, n, o, hm, e⟩ := h.chunkCompleted r hr; exact ⟨a, n, o, hs _ hm, e⟩
  strategic r hr := by obtain ⟨a, n, o, hm, e⟩ := h.strategic r hr; exact ⟨a, n, o, hs _ hm, e⟩

theorem prov_insert {ops : List Op} {a : InsertArgs} {now : Time} {o : List Fault} {db : DB}
    (h : Prov ops db) (hI : Inv db) (hf : a.id ∉ usedIds db) (hm : Op.insert a now o ∈ ops) :
    Prov ops (Eff.insert a db) where
  sub r hr := by
    simp only [Eff.insert, List.mem_append, List.mem_singleton] at hr
    rcases hr with hr | rfl
    · exact h.sub r hr
    · exact ⟨a, now, o, hm, rfl⟩
  comp := h.comp
  fail := h.fail
  canc := h.canc
  chunk c hc := by
    simp only [Eff.insert, List.mem_append] at hc
    rcases hc with hc | hc
    · exact h.chunk c hc
    · have := mem_mkChunks.1 hc
      exact ⟨a, now, o, hm, this.1.symm, this.2.2⟩
  chunkFailed := h.chunkFailed
  chunkCompleted := h.chunkCompleted
  strategic x hx := by
    rcases strategic_insert hI hf hx _ rfl with ⟨rfl, e⟩ | ⟨hx, e⟩
    · exact ⟨a, now, o, hm, rfl, e⟩
    · obtain ⟨b, n, o', hb, hid, e'⟩ := h.strategic x hx
      exact ⟨b, n, o', hb, hid, e.trans e'⟩

theorem prov_finish {ops : List Op} {s : SubmissionRow} {t : Time} {db : DB}
    (h : Prov ops db) (hI : Inv db) (hs : s ∈ db.submissions) :
    Prov ops (Eff.finish s t db) where
  sub r hr := h.sub r (List.mem_filter.1 hr).1
  comp r hr := by
    simp only [Eff.finish, List.mem_append, List.mem_singleton] at hr
    rcases hr with hr | rfl
    · exact h.comp r hr
    · obtain ⟨a, n, o, hm, e⟩ := h.sub s hs
      refine ⟨a, n, o, hm, ?_⟩
      rw [e]; rfl
  fail := h.fail
  canc := h.canc
  chunk := h.chunk
  chunkFailed := h.chunkFailed
  chunkCompleted := h.chunkCompleted
  strategic x hx := by
    rw [(allIds_finish_perm hI hs t).mem_iff] at hx
    exact h.strategic x hx

theorem prov_completeRaw {ops : List Op} {c : ChunkRow} {out : Content} {t : Time} {db : DB}
    (h : Prov ops db) (hc : c ∈ db.chunks) :
    Prov ops (Eff.completeRaw c.key out t db) where
  sub r hr := by
    obtain ⟨s, hs, ⟨_, rfl⟩ | ⟨_, rfl⟩⟩ := mem_bump.1 hr
    · obtain ⟨a, n, o, hm, e⟩ := h.sub s hs
      refine ⟨a, n, o, hm, ?_⟩
      rw [e]
    · exact h.sub _ hs
  comp := h.comp
  fail := h.fail
  canc := h.canc
  chunk c' hc' := h.chunk c' (List.mem_filter.1 hc').1
  chunkFailed := h.chunkFailed
  chunkCompleted d hd := by
    simp only [Eff.completeRaw, List.mem_append, List.mem_singleton] at hd
    rcases hd with hd | rfl
    · exact h.chunkCompleted d hd
    · obtain ⟨a, n, o, hm, hid, e⟩ := h.chunk c hc
      exact ⟨a, n, o, hm, hid, (List.getElem?_eq_some_iff.1 e).1⟩
  strategic x hx := by
    have hall : allIds (Eff.completeRaw c.key out t db) = allIds db := by
      unfold allIds; rw [completeRaw_subIds]; rfl
    rw [hall] at hx
    exact h.strategic x hx

/-- The cleanup forgets the old submissions. -/
theorem oldIds_gone {db : DB} (hI : Inv db) {t : Time} {x : SubmissionId} (ho : x ∈ oldIds t db) :
    x ∉ allIds (Eff.cleanup t db) := by
  intro hx
  have hn : (allIds db).Nodup := hI.ids
  simp only [oldIds, List.mem_append, List.mem_map, List.mem_filter, decide_eq_true_eq] at ho
  simp only [allIds, Eff.cleanup, List.mem_append] at hx
  rcases ho with (⟨r, ⟨hr, hlt⟩, rfl⟩ | ⟨r, ⟨hr, hlt⟩, rfl⟩) | ⟨r, ⟨hr, hlt⟩, rfl⟩
  · rcases hx with ((hx | hx) | hx) | hx
    · exact not_sub_of_comp hI (List.mem_map_of_mem hr) hx
    · obtain ⟨r', hr', e'⟩ := List.mem_map.1 hx
      have h' := List.mem_filter.1 hr'
      have := eq_of_key_eq hI.compIds h'.1 hr e'
      subst this
      simp [hlt] at h'
    · obtain ⟨r', hr', e'⟩ := List.mem_map.1 hx
      exact hI.comp_fail (List.mem_map_of_mem hr) (e' ▸ List.mem_map_of_mem (List.mem_filter.1 hr').1)
    · obtain ⟨r', hr', e'⟩ := List.mem_map.1 hx
      exact hI.comp_canc (List.mem_map_of_mem hr) (e' ▸ List.mem_map_of_mem (List.mem_filter.1 hr').1)
  · rcases hx with ((hx | hx) | hx) | hx
    · exact not_sub_of_fail hI (List.mem_map_of_mem hr) hx
    · obtain ⟨r', hr', e'⟩ := List.mem_map.1 hx
      exact hI.comp_fail (x := r.id) (e' ▸ List.mem_map_of_mem (List.mem_filter.1 hr').1)
        (List.mem_map_of_mem hr)
    · obtain ⟨r', hr', e'⟩ := List.mem_map.1 hx
      have h' := List.mem_filter.1 hr'
      have := eq_of_key_eq hI.failIds h'.1 hr e'
      subst this
      simp [hlt] at h'
    · obtain ⟨r', hr', e'⟩ := List.mem_map.1 hx
      exact hI.fail_canc (List.mem_map_of_mem hr) (e' ▸ List.mem_map_of_mem (List.mem_filter.1 hr').1)
  · rcases hx with ((hx | hx) | hx) | hx
    · exact not_sub_of_canc hI (List.mem_map_of_mem hr) hx
    · obtain ⟨r', hr', e'⟩ := List.mem_map.1 hx
      exact hI.comp_canc (x := r.id) (e' ▸ List.mem_map_of_mem (List.mem_filter.1 hr').1)
        (List.mem_map_of_mem hr)
    · obtain ⟨r', hr', e'⟩ := List.mem_map.1 hx
      exact hI.fail_canc (x := r.id) (e' ▸ List.mem_map_of_mem (List.mem_filter.1 hr').1)
        (List.mem_map_of_mem hr)
    · obtain ⟨r', hr', e'⟩ := List.mem_map.1 hx
      have h' := List.mem_filter.1 hr'
      have := eq_of_key_eq hI.cancIds h'.1 hr e'
      subst this
      simp [hlt] at h'

theorem Effect.prov {ops : List Op} {db db' : DB} {op : Op} (h : Effect db op db')
    (hp : Prov ops db) (hI : Inv db) (hf : ∀ x, op.insertId = some x → x ∉ usedIds db)
    (hm : op ∈ ops) : Prov ops db' := by
  cases h with
  | none => exact hp
  | insert a now o hok => exact prov_insert hp hI (hf _ rfl) hm
  | insertEmpty a now o hok he =>
    exact prov_finish (prov_insert hp hI (hf _ rfl) hm) (inv_insert hI hok (hf _ rfl))
      (by simp [Eff.insert])
  | complete c s out t1 t2 o hc hs hid hl => exact prov_completeRaw hp hc
  | completeLast c s out t1 t2 o hc hs hid hl =>
    exact prov_finish (prov_completeRaw hp hc) (inv_completeRaw hI hc hs hid out t1)
      (completeRaw_sub_mem out t1 hs hid)
  | retry c failure m t1 t2 t3 o hc hr =>
    exact { hp with
      chunk := by
        intro c' hc'
        obtain ⟨r, hr, _, e1, e2, e3⟩ := bump_mem hc'
        rw [← e1, ← e2, ← e3]
        exact hp.chunk r hr }
  | fail c s failure m t1 t2 t3 o hc hs hid hr =>
    exact { hp with
      sub := fun r hr => hp.sub r (List.mem_filter.1 hr).1
      chunk := fun r hr => hp.chunk r (List.mem_filter.1 hr).1
      fail := by
        intro r hr
        simp only [Eff.fail, List.mem_append, List.mem_singleton] at hr
        rcases hr with hr | rfl
        · exact hp.fail r hr
        · obtain ⟨a, n, o, hm, e⟩ := hp.sub s hs
          refine ⟨a, n, o, hm, s.chunksDone, c.chunkIndex, ?_, ?_, ?_⟩
          · rw [e]; rfl
          · have h1 := hI.done s hs
            have h2 : s.chunksTotal = a.contents.length := by rw [e]; rfl
            omega
          · obtain ⟨s', hs', e', hlt⟩ := hI.owner c hc
            have := eq_of_key_eq hI.subIds hs hs' (hid.trans e'.symm)
            have h2 : s.chunksTotal = a.contents.length := by rw [e]; rfl
            rw [← h2, this]
            exact hlt
      chunkFailed := by
        intro d hd
        simp only [Eff.fail, List.mem_append, List.mem_singleton, List.mem_map] at hd
        rcases hd with (hd | rfl) | ⟨c', hc', rfl⟩
        · exact hp.chunkFailed d hd
        · exact hp.chunk c hc
        · exact hp.chunk c' (List.mem_filter.1 hc').1
      strategic := by
        intro x hx
        rw [(allIds_fail_perm hI hs c failure t1 t2 t3).mem_iff] at hx
        exact hp.strategic x hx }
  | cancel s t1 t2 o hs =>
    exact { hp with
      sub := fun r hr => hp.sub r (List.mem_filter.1 hr).1
      chunk := fun r hr => hp.chunk r (List.mem_filter.1 hr).1
      canc := by
        intro r hr
        simp only [Eff.cancel, List.mem_append, List.mem_singleton] at hr
        rcases hr with hr | rfl
        · exact hp.canc r hr
        · obtain ⟨a, n, o, hm, e⟩ := hp.sub s hs
          refine ⟨a, n, o, hm, s.chunksDone, ?_, ?_⟩
          · rw [e]; rfl
          · have h1 := hI.done s hs
            have h2 : s.chunksTotal = a.contents.length := by rw [e]; rfl
            omega
      chunkFailed := by
        intro d hd
        simp only [Eff.cancel, List.mem_append, List.mem_map] at hd
        rcases hd with hd | ⟨c', hc', rfl⟩
        · exact hp.chunkFailed d hd
        · exact hp.chunk c' (List.mem_filter.1 hc').1
      strategic := by
        intro x hx
        rw [(allIds_cancel_perm hI hs t1 t2).mem_iff] at hx
        exact hp.strategic x hx }
  | cleanup t o =>
    refine ⟨hp.sub, fun r hr => hp.comp r (List.mem_filter.1 hr).1,
      fun r hr => hp.fail r (List.mem_filter.1 hr).1, fun r hr => hp.canc r (List.mem_filter.1 hr).1,
      hp.chunk, fun r hr => hp.chunkFailed r (List.mem_filter.1 hr).1,
      fun r hr => hp.chunkCompleted r (List.mem_filter.1 hr).1, ?_⟩
    intro x hx
    have hsub : (allIds (Eff.cleanup t db)).Sublist (allIds db) := by
      simp only [allIds, Eff.cleanup]
      exact (((List.Sublist.refl _).append (List.filter_sublist.map _)).append
        (List.filter_sublist.map _)).append (List.filter_sublist.map _)
    obtain ⟨a, n, o', hm', hid, e⟩ := hp.strategic x (hsub.subset hx)
    refine ⟨a, n, o', hm', hid, ?_⟩
    rw [← e]
    have hnot : x ∉ oldIds t db := fun ho => oldIds_gone hI ho hx
    simp only [Stmt.strategicOf, Eff.cleanup, List.filter_filter]
    congr 1
    apply List.filter_congr
    intro m _
    by_cases hmx : m.submissionId = x
    · simp [hmx, hnot]
    · simp [hmx]

theorem prov_run (ops : List Op) : FreshIds ops → Prov ops (run ops) := by
  refine snoc_induction (P := fun ops => FreshIds ops → Prov ops (run ops)) ?_ ?_ ops
  · intro _
    constructor <;> simp [run_nil, DB.empty, allIds]
  · intro ops op ih hf
    have h := ih hf.snoc.1
    refine (effect_run hf).prov (h.mono fun _ h => List.mem_append_left _ h) (inv_run hf.snoc.1)
      (fun x hx => fresh_run hf hx) (by simp)

end Opsqueue
