import Verif.Proofs.Calls

/-! Lemmas about the read-only calls. -/

set_option linter.unusedSimpArgs false

namespace Opsqueue
open Sql SubmissionDb

/-- A chunk row of a failed submission was there when the submission had just failed. -/
theorem cf_since {xs ys : List Op} (hf : FreshIds (xs ++ ys)) {d : ChunkFailedRow}
    (hk : d.submissionId ∈ xs.filterMap Op.insertId)
    (hn : d.submissionId ∉ (run xs).submissions.map SubmissionRow.id)
    (hd : d ∈ (run (xs ++ ys)).chunksFailed) : d ∈ (run xs).chunksFailed := by
  have main : ∀ zs, (∃ ws, ys = zs ++ ws) →
      d.submissionId ∉ (run (xs ++ zs)).submissions.map SubmissionRow.id ∧
      (d ∈ (run (xs ++ zs)).chunksFailed → d ∈ (run xs).chunksFailed) := by
    intro zs
    refine snoc_induction (P := fun zs => (∃ ws, ys = zs ++ ws) →
      d.submissionId ∉ (run (xs ++ zs)).submissions.map SubmissionRow.id ∧
      (d ∈ (run (xs ++ zs)).chunksFailed → d ∈ (run xs).chunksFailed)) ?_ ?_ zs
    · intro _
      simp only [List.append_nil]
      exact ⟨hn, id⟩
    · rintro zs op ih ⟨ws, rfl⟩
      obtain ⟨i1, i2⟩ := ih ⟨op :: ws, by simp⟩
      have hf' : FreshIds ((xs ++ zs) ++ [op]) := by
        refine FreshIds.prefix (ys := ws) ?_
        simpa [List.append_assoc] using hf
      have he := effect_run hf'
      have hI := inv_run hf'.snoc.1
      rw [← List.append_assoc]
      refine ⟨fun hm => ?_, fun hm => ?_⟩
      · obtain ⟨s', hs', e⟩ := List.mem_map.1 hm
        rcases he.sub_back hs' with ⟨s, hs, e', _⟩ | ⟨a, now, o, rfl, rfl, _⟩
        · exact i1 (List.mem_map.2 ⟨s, hs, e'.trans e⟩)
        · have h1 := hf'
          unfold FreshIds at h1
          rw [List.filterMap_append, List.nodup_append] at h1
          refine h1.2.2 a.id ?_ a.id (by simp [Op.insertId]) rfl
          rw [List.filterMap_append]
          have e : a.id = d.submissionId := e
          rw [e]
          exact List.mem_append_left _ hk
      · rcases he.cf_new hI hm with h | h
        · exact i2 h
        · exact absurd h i1
  exact (main ys ⟨[], by simp⟩).2 hd

/-- Each failed submission's culprit row carries a date not before the submission's own. -/
def FailedDates (db : DB) : Prop :=
  ∀ r ∈ db.submissionsFailed, ∃ d ∈ db.chunksFailed, d.key = ⟨r.id, r.failedChunkId⟩ ∧
    r.failedAt ≤ d.failedAt

theorem failedDates_run (ops : List Op) (hf : FreshIds ops) (hc : ∀ op ∈ ops, op.ClockOk) :
    FailedDates (run ops) := by
  revert hf hc
  refine snoc_induction (P := fun ops => FreshIds ops → (∀ op ∈ ops, op.ClockOk) →
    FailedDates (run ops)) ?_ ?_ ops
  · intro _ _ r hr
    simp [run, runFrom, DB.empty] at hr
  · intro ops op ih hf hc r hr
    have ih := ih hf.snoc.1 (fun o ho => hc o (by simp [ho]))
    have he := effect_run hf
    have hI := inv_run hf.snoc.1
    have hck := hc op (by simp)
    generalize run (ops ++ [op]) = db' at *
    generalize run ops = db at *
    have keep : r ∈ db.submissionsFailed → (∀ d ∈ db.chunksFailed, d ∈ db'.chunksFailed) →
        ∃ d ∈ db'.chunksFailed, d.key = ⟨r.id, r.failedChunkId⟩ ∧ r.failedAt ≤ d.failedAt := by
      intro h1 h2
      obtain ⟨d, hd, e⟩ := ih r h1
      exact ⟨d, h2 d hd, e⟩
    cases he with
    | none => exact ih r hr
    | insert a now o h => exact ih r hr
    | insertEmpty a now o h hc => exact ih r hr
    | complete c s out t1 t2 o hc hs hid hl => exact ih r hr
    | completeLast c s out t1 t2 o hc hs hid hl => exact ih r hr
    | retry c f m t1 t2 t3 o hc hr => exact ih r ‹_›
    | fail c s f m t1 t2 t3 o hc hs hid hm =>
      simp only [Eff.fail, List.mem_append, List.mem_singleton] at hr
      rcases hr with hr | rfl
      · exact keep hr fun d hd => by simp [Eff.fail, hd]
      · refine ⟨toChunkFailed f t2 false c, by simp [Eff.fail], ?_, hck⟩
        simp [ChunkFailedRow.key, toChunkFailed, toFailed, hid]
    | cancel s t1 t2 o hs => exact keep hr fun d hd => by simp [Eff.cancel, hd]
    | cleanup t o =>
      simp only [Eff.cleanup, List.mem_filter, Bool.not_eq_true', decide_eq_false_iff_not] at hr
      obtain ⟨d, hd, e, hle⟩ := ih r hr.1
      refine ⟨d, ?_, e, hle⟩
      simp only [Eff.cleanup, List.mem_filter, Bool.not_eq_true', decide_eq_false_iff_not]
      exact ⟨hd, fun h => hr.2 (Nat.lt_of_le_of_lt hle h)⟩

theorem statusAt_failed_row {ops : List Op} (hf : FreshIds ops) (hc : ∀ op ∈ ops, op.ClockOk)
    {r : FailedRow} (hr : r ∈ (run ops).submissionsFailed) :
    ∃ c, statusAt (run ops) r.id = .ok (some (.failed (failView (run ops) r) c)) ∧
      c.chunkIndex = r.failedChunkId ∧ c.submissionId = r.id := by
  obtain ⟨d, hd, hk, _⟩ := failedDates_run ops hf hc r hr
  refine ⟨_, statusAt_fail_ok (inv_run hf) hr hd hk, ?_⟩
  simp only [ChunkFailedRow.key, ChunkId.mk.injEq] at hk
  exact ⟨hk.2, hk.1⟩

theorem statusAt_no_err {ops : List Op} (hf : FreshIds ops) (hc : ∀ op ∈ ops, op.ClockOk)
    (id : SubmissionId) (e : DbErr) : statusAt (run ops) id ≠ .err e := by
  intro h
  rcases statusAt_inv h with ⟨s, hs, rfl, h'⟩ | ⟨s, hs, rfl, h'⟩ | ⟨s, hs, rfl, h'⟩ |
    ⟨s, hs, rfl, h'⟩ | ⟨_, h'⟩
  · simp at h'
  · simp at h'
  · obtain ⟨c, hc, _⟩ := statusAt_failed_row hf hc hs
    rw [h] at hc; simp at hc
  · simp at h'
  · simp at h'

/-! ### metadata lookup -/

theorem joinRows_cases {db : DB} (hp : (db.submissionsMetadata.map MetaRow.pk).Nodup)
    (id : SubmissionId) (kv : String × Int) :
    (kv ∈ Stmt.strategicOf id db ∧ ∃ m, joinRows db id kv = [m]) ∨
    (kv ∉ Stmt.strategicOf id db ∧ joinRows db id kv = []) := by
  by_cases h : kv ∈ Stmt.strategicOf id db
  · left
    refine ⟨h, ?_⟩
    simp only [Stmt.strategicOf, List.mem_map, List.mem_filter, beq_iff_eq] at h
    obtain ⟨m, ⟨hm, hid⟩, rfl⟩ := h
    refine ⟨m, ?_⟩
    have h1 := filter_key_of_mem hp hm
    unfold joinRows
    have : db.submissionsMetadata.filter
        (fun m' => m'.submissionId == id && m'.key == m.key && m'.value == m.value) =
        (db.submissionsMetadata.filter (fun r => instBEqOfDecidableEq.beq r.pk m.pk)).filter
          (fun m' => m'.value == m.value) := by
      rw [List.filter_filter]
      apply List.filter_congr
      intro m' _
      rw [Bool.eq_iff_iff]
      simp only [Bool.and_eq_true, beq_iff_eq, MetaRow.pk, instBEqOfDecidableEq, decide_eq_true_eq,
        Prod.mk.injEq, hid]
      constructor
      · rintro ⟨⟨a, b⟩, c⟩; exact ⟨c, a, b⟩
      · rintro ⟨c, a, b⟩; exact ⟨⟨a, b⟩, c⟩
    rw [this]
    refine (congrArg _ h1).trans ?_
    simp
  · right
    refine ⟨h, ?_⟩
    simp only [joinRows, List.filter_eq_nil_iff, Bool.and_eq_true, beq_iff_eq, not_and]
    intro m hm h1 h2
    refine h ?_
    simp only [Stmt.strategicOf, List.mem_map, List.mem_filter, beq_iff_eq]
    exact ⟨m, ⟨hm, h1.1⟩, by rw [h1.2, h2]⟩

theorem joinAll_eq {db : DB} (hp : (db.submissionsMetadata.map MetaRow.pk).Nodup)
    (id : SubmissionId) (kvs : StrategicMetadata) :
    joinAll db id kvs = if ∀ kv ∈ kvs, kv ∈ Stmt.strategicOf id db then [id] else [] := by
  induction kvs with
  | nil => simp [joinAll]
  | cons kv rest ih =>
    rcases joinRows_cases hp id kv with ⟨h, m, e⟩ | ⟨h, e⟩
    · simp only [joinAll, e, List.flatMap_cons, List.flatMap_nil, List.append_nil, ih, List.mem_cons,
        forall_eq_or_imp, h, true_and]
    · simp [joinAll, e, h]

theorem flatMap_if {α β : Type} (l : List α) (p : α → Prop) [DecidablePred p] (f : α → β) :
    (l.flatMap fun a => if p a then [f a] else []) = (l.filter (fun a => decide (p a))).map f := by
  induction l with
  | nil => rfl
  | cons a l ih =>
    by_cases h : p a <;> simp [h, ih]

theorem orderedInsert_perm {α : Type} (le : α → α → Bool) (a : α) (l : List α) :
    (orderedInsert le a l).Perm (a :: l) := by
  induction l with
  | nil => exact .refl _
  | cons b l ih =>
    simp only [orderedInsert]
    split
    · exact .refl _
    · exact (ih.cons b).trans (.swap a b l)

theorem orderBy_perm {α : Type} (le : α → α → Bool) (l : List α) : (orderBy le l).Perm l := by
  induction l with
  | nil => exact .refl _
  | cons a l ih => exact (orderedInsert_perm le a _).trans (ih.cons a)

theorem orderedInsert_sorted {α : Type} {le : α → α → Bool}
    (trans : ∀ a b c, le a b = true → le b c = true → le a c = true)
    (total : ∀ a b, (le a b || le b a) = true) (a : α) (l : List α)
    (h : l.Pairwise (fun a b => le a b = true)) :
    (orderedInsert le a l).Pairwise (fun a b => le a b = true) := by
  induction l with
  | nil => simp [orderedInsert]
  | cons b l ih =>
    simp only [orderedInsert]
    rw [List.pairwise_cons] at h
    split
    · rename_i hab
      rw [List.pairwise_cons]
      refine ⟨?_, List.pairwise_cons.2 h⟩
      intro c hc
      rcases List.mem_cons.1 hc with rfl | hc
      · exact hab
      · exact trans a b c hab (h.1 c hc)
    · rename_i hab
      rw [List.pairwise_cons]
      refine ⟨?_, ih h.2⟩
      intro c hc
      rcases List.mem_cons.1 ((orderedInsert_perm le a l).mem_iff.1 hc) with rfl | hc
      · have := total c b
        simp only [Bool.or_eq_true] at this
        exact this.resolve_left hab
      · exact h.1 c hc

theorem orderBy_sorted {α : Type} {le : α → α → Bool}
    (trans : ∀ a b c, le a b = true → le b c = true → le a c = true)
    (total : ∀ a b, (le a b || le b a) = true) (l : List α) :
    (orderBy le l).Pairwise (fun a b => le a b = true) := by
  induction l with
  | nil => exact .nil
  | cons a l ih => exact orderedInsert_sorted trans total a _ ih

/-- The ids matched by a metadata lookup, in table order. -/
def matched (kvs : StrategicMetadata) (db : DB) : List SubmissionId :=
  (db.submissions.filter fun s => decide (∀ kv ∈ kvs, kv ∈ Stmt.strategicOf s.id db)).map (·.id)

theorem matched_nodup {db : DB} (hI : Inv db) (kvs : StrategicMetadata) : (matched kvs db).Nodup :=
  nodup_map_filter (key := SubmissionRow.id) hI.subIds _

theorem matchingIds_eq {db : DB} (hI : Inv db) (kvs : StrategicMetadata) (n : Nat) :
    matchingIds kvs n db = (orderBy (fun a b => decide (a ≤ b)) (matched kvs db)).take n := by
  unfold matchingIds matched
  rw [← flatMap_if]
  congr 3
  funext s
  exact joinAll_eq hI.metaPk s.id kvs

end Opsqueue
