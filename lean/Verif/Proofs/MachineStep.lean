import Verif.Proofs.Machine

/-! Each effect on the database is the record's step. -/

set_option linter.unusedSimpArgs false

namespace Opsqueue.Machine
open Opsqueue Sql SubmissionDb

/-! ### effects and the restriction -/

theorem filter_comm' {α : Type} (l : List α) (p q : α → Bool) : (l.filter p).filter q = (l.filter q).filter p := by
  rw [List.filter_filter, List.filter_filter]
  exact List.filter_congr fun _ _ => Bool.and_comm _ _

/-- A filter that keeps everything the second one keeps. -/
theorem filter_drop {α : Type} (l : List α) (p q : α → Bool) (h : ∀ x, q x = true → p x = true) :
    (l.filter p).filter q = l.filter q := by
  rw [List.filter_filter]
  apply List.filter_congr
  intro x _
  cases hq : q x with
  | false => rfl
  | true => simp [h x hq]

theorem filter_map_same {α : Type} (l : List α) (p : α → Bool) (f : α → α) (h : ∀ x, p (f x) = p x) :
    (l.map f).filter p = (l.filter p).map f := by
  rw [List.filter_map]
  congr 1
  apply List.filter_congr
  intro x _
  exact h x

/-- A map that leaves what the filter keeps alone. -/
theorem filter_map_other {α : Type} (l : List α) (p : α → Bool) (f : α → α) (h : ∀ x, p (f x) = p x)
    (h2 : ∀ x, p x = true → f x = x) : (l.map f).filter p = l.filter p := by
  rw [filter_map_same l p f h]
  conv => rhs; rw [← List.map_id (l.filter p)]
  apply List.map_congr_left
  intro x hx
  exact h2 x (List.mem_filter.1 hx).2

theorem db_ext {a b : DB} (h1 : a.submissions = b.submissions)
    (h2 : a.submissionsCompleted = b.submissionsCompleted) (h3 : a.submissionsFailed = b.submissionsFailed)
    (h4 : a.submissionsCancelled = b.submissionsCancelled) (h5 : a.chunks = b.chunks)
    (h6 : a.chunksCompleted = b.chunksCompleted) (h7 : a.chunksFailed = b.chunksFailed)
    (h8 : a.submissionsMetadata = b.submissionsMetadata) : a = b := by
  cases a; cases b; simp_all

variable {me : SubmissionId} {db : DB}

theorem sel_insert_other {a : InsertArgs} (h : a.id ≠ me) : sel me (Eff.insert a db) = sel me db := by
  apply db_ext <;> simp [sel, Eff.insert, InsertArgs.row, List.filter_append, h, metaRows, mkChunks,
    List.filter_eq_nil_iff]
  · rintro _ _ _ _ rfl; exact h
  · rintro _ _ _ _ rfl; exact h

theorem sel_finish_other {s : SubmissionRow} {t : Time} (h : s.id ≠ me) :
    sel me (Eff.finish s t db) = sel me db := by
  apply db_ext <;> simp only [sel, Eff.finish]
  · exact filter_drop _ _ _ fun x hx => by
      have : x.id = me := by simpa using hx
      simp [this, Ne.symm h]
  · simp [List.filter_append, toCompleted, h]

theorem sel_finish_same {s : SubmissionRow} {t : Time} (h : s.id = me) :
    sel me (Eff.finish s t db) = Eff.finish s t (sel me db) := by
  apply db_ext <;> simp only [sel, Eff.finish]
  · exact filter_comm' _ _ _
  · simp [List.filter_append, toCompleted, h]

theorem sel_complete_other {cid : ChunkId} {out : Content} {t : Time} (h : cid.submissionId ≠ me) :
    sel me (Eff.completeRaw cid out t db) = sel me db := by
  apply db_ext <;> simp only [sel, Eff.completeRaw]
  · apply filter_map_other
    · intro x; split <;> rfl
    · intro x hx
      have : x.id = me := by simpa using hx
      simp [this, Ne.symm h]
  · exact filter_drop _ _ _ fun x hx => by
      have : x.submissionId = me := by simpa using hx
      have hk : x.key ≠ cid := fun e => h (by rw [← e]; exact this)
      simp [hk]
  · simp [List.filter_append, h]

theorem sel_complete_same {cid : ChunkId} {out : Content} {t : Time} (h : cid.submissionId = me) :
    sel me (Eff.completeRaw cid out t db) = Eff.completeRaw cid out t (sel me db) := by
  apply db_ext <;> simp only [sel, Eff.completeRaw]
  · apply filter_map_same
    intro x; split <;> rfl
  · exact filter_comm' _ _ _
  · simp [List.filter_append, h]

theorem sel_bump_other {cid : ChunkId} (h : cid.submissionId ≠ me) :
    sel me (Eff.bump cid db) = sel me db := by
  apply db_ext <;> simp only [sel, Eff.bump]
  · apply filter_map_other
    · intro x; split <;> rfl
    · intro x hx
      have : x.submissionId = me := by simpa using hx
      have hk : x.key ≠ cid := fun e => h (by rw [← e]; exact this)
      simp [hk]

theorem sel_bump_same {cid : ChunkId} : sel me (Eff.bump cid db) = Eff.bump cid (sel me db) := by
  apply db_ext <;> simp only [sel, Eff.bump]
  · apply filter_map_same
    intro x; split <;> rfl

theorem sel_fail_other {s : SubmissionRow} {c : ChunkRow} {f : String} {t1 t2 t3 : Time} (h : s.id ≠ me)
    (hc : c.submissionId = s.id) : sel me (Eff.fail s c f t1 t2 t3 db) = sel me db := by
  apply db_ext <;> simp only [sel, Eff.fail]
  · exact filter_drop _ _ _ fun x hx => by
      have : x.id = me := by simpa using hx
      simp [this, Ne.symm h]
  · simp [List.filter_append, toFailed, h]
  · exact filter_drop _ _ _ fun x hx => by
      have : x.submissionId = me := by simpa using hx
      simp [this, Ne.symm h]
  · have : (List.map (toChunkFailed "" t3 true) (otherChunks c.key db)).filter (fun x => x.submissionId == me) = [] := by
      rw [List.filter_eq_nil_iff]
      intro x hx
      obtain ⟨d, hd, rfl⟩ := List.mem_map.1 hx
      have := (List.mem_filter.1 hd).2
      simp only [ChunkRow.key, Bool.and_eq_true, beq_iff_eq] at this
      simp [toChunkFailed, this.2, hc, h]
    simp [List.filter_append, toChunkFailed, hc, h, this]

theorem sel_fail_same {s : SubmissionRow} {c : ChunkRow} {f : String} {t1 t2 t3 : Time} (h : s.id = me)
    (hc : c.submissionId = s.id) :
    sel me (Eff.fail s c f t1 t2 t3 db) = Eff.fail s c f t1 t2 t3 (sel me db) := by
  apply db_ext <;> simp only [sel, Eff.fail]
  · exact filter_comm' _ _ _
  · simp [List.filter_append, toFailed, h]
  · exact filter_comm' _ _ _
  · have h1 : (List.map (toChunkFailed "" t3 true) (otherChunks c.key db)).filter (fun x => x.submissionId == me) =
        List.map (toChunkFailed "" t3 true) (otherChunks c.key db) := by
      rw [List.filter_eq_self]
      intro x hx
      obtain ⟨d, hd, rfl⟩ := List.mem_map.1 hx
      have := (List.mem_filter.1 hd).2
      simp only [ChunkRow.key, Bool.and_eq_true, beq_iff_eq] at this
      simp [toChunkFailed, this.2, hc, h]
    have h2 : otherChunks c.key { db with chunks := db.chunks.filter (fun x => x.submissionId == me) } =
        otherChunks c.key db := by
      simp only [otherChunks]
      exact filter_drop _ _ _ fun x hx => by
        simp only [ChunkRow.key, Bool.and_eq_true, beq_iff_eq] at hx
        simp [hx.2, hc, h]
    have h3 : ∀ d : DB, d.chunks = db.chunks.filter (fun x => x.submissionId == me) →
        otherChunks c.key d = otherChunks c.key db := by
      intro d hd
      rw [← h2]
      simp only [otherChunks, hd]
    have h4 := h3 (sel me db) rfl
    simp only [sel] at h4
    rw [h4]
    simp [List.filter_append, toChunkFailed, hc, h, h1]

theorem sel_cancel_other {s : SubmissionRow} {t1 t2 : Time} (h : s.id ≠ me) :
    sel me (Eff.cancel s t1 t2 db) = sel me db := by
  apply db_ext <;> simp only [sel, Eff.cancel]
  · exact filter_drop _ _ _ fun x hx => by
      have : x.id = me := by simpa using hx
      simp [this, Ne.symm h]
  · simp [List.filter_append, toCancelled, h]
  · exact filter_drop _ _ _ fun x hx => by
      have : x.submissionId = me := by simpa using hx
      simp [this, Ne.symm h]
  · have : (List.map (toChunkFailed "" t2 true) (db.chunks.filter (fun x => x.submissionId == s.id))).filter
        (fun x => x.submissionId == me) = [] := by
      rw [List.filter_eq_nil_iff]
      intro x hx
      obtain ⟨d, hd, rfl⟩ := List.mem_map.1 hx
      have := (List.mem_filter.1 hd).2
      simp only [beq_iff_eq] at this
      simp [toChunkFailed, this, h]
    simp [List.filter_append, this]

theorem sel_cancel_same {s : SubmissionRow} {t1 t2 : Time} (h : s.id = me) :
    sel me (Eff.cancel s t1 t2 db) = Eff.cancel s t1 t2 (sel me db) := by
  apply db_ext <;> simp only [sel, Eff.cancel]
  · exact filter_comm' _ _ _
  · simp [List.filter_append, toCancelled, h]
  · exact filter_comm' _ _ _
  · have : (List.map (toChunkFailed "" t2 true) (db.chunks.filter (fun x => x.submissionId == s.id))).filter
        (fun x => x.submissionId == me) =
        List.map (toChunkFailed "" t2 true) (db.chunks.filter (fun x => x.submissionId == s.id)) := by
      rw [List.filter_eq_self]
      intro x hx
      obtain ⟨d, hd, rfl⟩ := List.mem_map.1 hx
      have := (List.mem_filter.1 hd).2
      simp only [beq_iff_eq] at this
      simp [toChunkFailed, this, h]
    rw [List.filter_append, this, h, List.filter_filter]
    simp

/-! ### effects on the tables of a record -/

theorem filter_rows_ne (w : List Waiting) (i : Nat) :
    (w.map (Waiting.row me)).filter (fun r => !(r.key == (⟨me, i⟩ : ChunkId))) =
      (w.filter fun c => !(c.index == i)).map (Waiting.row me) := by
  rw [List.filter_map]
  congr 1
  apply List.filter_congr
  intro x _
  have := congrFun (key_wait me i) x
  simp only [Function.comp] at this ⊢
  rw [this]

theorem filter_rows_all (w : List Waiting) :
    (w.map (Waiting.row me)).filter (fun r => !(r.submissionId == me)) = [] := by
  rw [List.filter_eq_nil_iff]
  intro x hx
  obtain ⟨c, _, rfl⟩ := List.mem_map.1 hx
  simp [Waiting.row]

theorem filter_rows_self (w : List Waiting) :
    (w.map (Waiting.row me)).filter (fun r => r.submissionId == me) = w.map (Waiting.row me) := by
  rw [List.filter_eq_self]
  intro x hx
  obtain ⟨c, _, rfl⟩ := List.mem_map.1 hx
  simp [Waiting.row]

theorem strategic_life {r r' : Record} (h : r.life = r'.life) : r.strategic = r'.strategic := by
  simp [Record.strategic, h]

/-- The facts about a running record that the invariant gives. -/
structure Running (me : SubmissionId) (db : DB) (r : Record) (i : Info) (size : Option Int) (otel : String)
    (w : List Waiting) : Prop where
  life : r.life = some (.running i size otel w)
  keys : (w.map (·.index)).Nodup
  le : w.length ≤ i.total

theorem running_of {r : Record} (hI : Inv db) (h : sel me db = image me r) {i : Info} {size : Option Int}
    {otel : String} {w : List Waiting} (hl : r.life = some (.running i size otel w)) :
    Running me db r i size otel w where
  life := hl
  keys := by
    have h1 : (sel me db).chunks = w.map (Waiting.row me) := by
      rw [h]; simp [image, Record.waiting, hl]
    have h2 : ((sel me db).chunks.map ChunkRow.key).Nodup := nodup_map_filter hI.chunkKeys _
    rw [h1, List.map_map] at h2
    have h3 : (ChunkRow.key ∘ Waiting.row me) = (fun k : Nat => (⟨me, k⟩ : ChunkId)) ∘ Waiting.index := rfl
    rw [h3, ← List.map_map] at h2
    exact List.Pairwise.of_map _ (fun a b hne heq => hne (by rw [heq])) h2
  le := by
    have h1 : (sel me db).chunks = w.map (Waiting.row me) := by
      rw [h]; simp [image, Record.waiting, hl]
    have h0 : (sel me db).submissions = subRow me (some (.running i size otel w)) := by
      rw [h]; simp [image, hl]
    obtain ⟨s, hs⟩ : ∃ s, s = SubmissionRow.mk me i.pfx i.total (i.total - w.length) i.metadata otel size :=
      ⟨_, rfl⟩
    have h2 : s ∈ (sel me db).submissions := by rw [h0, hs]; simp [subRow]
    have h3 := hI.done _ (List.mem_filter.1 h2).1
    subst hs
    have h4 : (db.chunks.filter (fun c => c.submissionId == me)).length = w.length := by
      have := congrArg List.length h1
      simpa [sel] using this
    simp only [h4] at h3
    omega

theorem image_complete {r : Record} {i : Info} {size : Option Int} {otel : String} {w : List Waiting}
    (hR : Running me db r i size otel w) {k : Nat} (hk : k ∈ w.map (·.index)) (out : Content) (t : Time)
    (w' : List Waiting) (hw' : w' = w.filter fun c => !(c.index == k)) :
    Eff.completeRaw ⟨me, k⟩ out t (image me r) =
      image me { r with life := some (.running i size otel w'), outputs := r.outputs ++ [⟨k, out, t⟩] } := by
  have hlen : w'.length + 1 = w.length := by
    obtain ⟨c, hc, hck⟩ := List.mem_map.1 hk
    rw [hw', ← hck]
    exact length_filter_ne_key (key := Waiting.index) hR.keys hc
  have hle := hR.le
  have hst : Record.strategic { r with life := some (.running i size otel w'), outputs := r.outputs ++ [⟨k, out, t⟩] } =
      r.strategic := by simp [Record.strategic, hR.life, Life.info]
  apply db_ext <;> simp only [Eff.completeRaw, image, hst]
  · simp only [hR.life, subRow, List.map_cons, List.map_nil, beq_self_eq_true, if_true]
    congr 2
    omega
  · simp [hR.life, compRow]
  · simp [hR.life, failRow]
  · simp [hR.life, cancRow]
  · simp only [Record.waiting, hR.life]
    rw [filter_rows_ne, hw']
  · simp [Output.row]

theorem image_finish {r : Record} {i : Info} {size : Option Int} {otel : String} (hl : r.life = some (.running i size otel []))
    (s : SubmissionRow) (hs : s.id = me ∧ s.pfx = i.pfx ∧ s.chunksTotal = i.total ∧ s.metadata = i.metadata) (t : Time) :
    Eff.finish s t (image me r) = image me { r with life := some (.completed i t {}) } := by
  obtain ⟨h1, h2, h3, h4⟩ := hs
  have hst : Record.strategic { r with life := some (.completed i t {}) } = r.strategic := by
    simp [Record.strategic, hl, Life.info]
  apply db_ext <;> simp only [Eff.finish, image, hst]
  · simp [hl, subRow, h1]
  · simp [hl, compRow, toCompleted, h1, h2, h3, h4]
  · simp [hl, failRow]
  · simp [hl, cancRow]
  · simp [Record.waiting, hl]

theorem image_bump {r : Record} {i : Info} {size : Option Int} {otel : String} {w : List Waiting}
    (hl : r.life = some (.running i size otel w)) (k : Nat) :
    Eff.bump ⟨me, k⟩ (image me r) = image me { r with life := some (.running i size otel
      (w.map fun d => if d.index == k then { d with retries := d.retries + 1 } else d)) } := by
  have hst : Record.strategic { r with life := some (.running i size otel
      (w.map fun d => if d.index == k then { d with retries := d.retries + 1 } else d)) } = r.strategic := by
    simp [Record.strategic, hl, Life.info]
  apply db_ext <;> simp only [Eff.bump, image, hst]
  · simp [hl, subRow]
  · simp [hl, compRow]
  · simp [hl, failRow]
  · simp [hl, cancRow]
  · simp only [Record.waiting, hl, List.map_map]
    apply List.map_congr_left
    intro d _
    by_cases h : d.index = k <;> simp [Waiting.row, ChunkRow.key, h]

theorem image_fail {r : Record} {i : Info} {size : Option Int} {otel : String} {w : List Waiting}
    (hl : r.life = some (.running i size otel w)) {c : Waiting} (s : SubmissionRow)
    (hs : s ∈ (image me r).submissions) (f : String) (t1 t2 t3 : Time) :
    Eff.fail s (c.row me) f t1 t2 t3 (image me r) = image me { r with
      life := some (.failed i (some (i.total - w.length)) c.index t1 {})
      failures := r.failures ++ ⟨c.index, c.input, f, t2, false⟩ ::
        (w.filter fun d => !(d.index == c.index)).map (Waiting.skip t3) } := by
  simp only [image, hl, subRow, List.mem_singleton] at hs
  subst hs
  have hst : Record.strategic { r with
      life := some (.failed i (some (i.total - w.length)) c.index t1 {})
      failures := r.failures ++ ⟨c.index, c.input, f, t2, false⟩ ::
        (w.filter fun d => !(d.index == c.index)).map (Waiting.skip t3) } = r.strategic := by
    simp [Record.strategic, hl, Life.info]
  apply db_ext <;> simp only [Eff.fail, image, hst]
  · simp [hl, subRow]
  · simp [hl, compRow]
  · simp [hl, failRow, toFailed, Waiting.row]
  · simp [hl, cancRow]
  · simp only [Record.waiting, hl]
    rw [filter_rows_all]
    rfl
  · have h1 : otherChunks (c.row me).key (image me r) =
        (w.filter fun d => !(d.index == c.index)).map (Waiting.row me) := by
      simp only [otherChunks, image, Record.waiting, hl, Waiting.row, ChunkRow.key]
      rw [← filter_rows_ne, ← List.filter_filter]
      rw [filter_rows_self]
      rfl
    have h2 : ∀ d : DB, d.chunks = (image me r).chunks → otherChunks (c.row me).key d =
        otherChunks (c.row me).key (image me r) := fun d hd => by simp [otherChunks, hd]
    have h3 := h2 (image me r) rfl
    simp only [image] at h3 h1
    rw [h1]
    simp only [List.map_append, List.map_cons, List.map_map, List.append_assoc, List.cons_append, List.nil_append]
    congr 2

theorem image_cancel {r : Record} {i : Info} {size : Option Int} {otel : String} {w : List Waiting}
    (hl : r.life = some (.running i size otel w)) (s : SubmissionRow)
    (hs : s ∈ (image me r).submissions) (t1 t2 : Time) :
    Eff.cancel s t1 t2 (image me r) = image me { r with
      life := some (.cancelled i (i.total - w.length) t1)
      failures := r.failures ++ w.map (Waiting.skip t2) } := by
  simp only [image, hl, subRow, List.mem_singleton] at hs
  subst hs
  have hst : Record.strategic { r with
      life := some (.cancelled i (i.total - w.length) t1)
      failures := r.failures ++ w.map (Waiting.skip t2) } = r.strategic := by
    simp [Record.strategic, hl, Life.info]
  apply db_ext <;> simp only [Eff.cancel, image, hst]
  · simp [hl, subRow]
  · simp [hl, compRow]
  · simp [hl, failRow]
  · simp [hl, cancRow, toCancelled]
  · simp only [Record.waiting, hl]
    rw [filter_rows_all]
    rfl
  · simp only [Record.waiting, hl]
    rw [filter_rows_self]
    simp only [List.map_append, List.map_map]
    congr 1

theorem sel_cleanup {t : Time} : sel me (Eff.cleanup t db) = Eff.cleanup t (sel me db) := by
  apply db_ext <;> simp only [sel, Eff.cleanup]
  all_goals try exact filter_comm' _ _ _
  rw [filter_comm']
  apply List.filter_congr
  intro m hm
  have hm : m.submissionId = me := by simpa using (List.mem_filter.1 hm).2
  congr 1
  rw [Bool.eq_iff_iff]
  simp only [List.contains_iff_mem, oldIds, List.mem_append, List.mem_map, List.mem_filter, hm, beq_iff_eq]
  grind

theorem filter_rows_at {α β : Type} (l : List α) (f : α → β) (p : β → Bool) (q : α → Bool)
    (h : ∀ x, p (f x) = q x) : (l.map f).filter p = (l.filter q).map f := by
  rw [List.filter_map]
  congr 1
  exact List.filter_congr fun x _ => h x

theorem image_cleanup (r : Record) (t : Time) (o : List Fault) :
    Eff.cleanup t (image me r) = image me (r.apply me (.cleanup t o)) := by
  have hlt : ∀ a b : Nat, (!decide (a < b)) = decide (b ≤ a) := by
    intro a b; rw [Bool.eq_iff_iff]; simp
  have hst : (metaRows me r.strategic).filter (fun m => !(oldIds t (image me r)).contains m.submissionId) =
      metaRows me (r.apply me (.cleanup t o)).strategic := by
    have e : ∀ m ∈ metaRows me r.strategic, (!(oldIds t (image me r)).contains m.submissionId) =
        !(match r.life with | none => false | some l => l.endedBefore t) := by
      intro m hm
      have : m.submissionId = me := by
        simp only [metaRows, List.mem_map] at hm
        obtain ⟨x, _, rfl⟩ := hm
        rfl
      rw [this]
      congr 1
      rcases hl : r.life with _ | (⟨i, size, otel, w⟩ | ⟨i, e⟩ | ⟨i, d, c, e⟩ | ⟨i, d, e⟩) <;>
        simp only [oldIds, image, hl, compRow, failRow, cancRow, List.filter_nil, List.map_nil, List.append_nil,
          List.nil_append, List.contains_nil, Life.endedBefore] <;>
        by_cases ht : e < t <;> simp [ht]
    rw [List.filter_congr e]
    rcases hl : r.life with _ | l
    · simp [Record.strategic, Record.apply, hl, metaRows]
    · cases he : l.endedBefore t
      · simp [Record.strategic, Record.apply, hl, he, Option.filter]
      · simp [Record.strategic, Record.apply, hl, he, Option.filter, metaRows]
  apply db_ext <;> simp only [Eff.cleanup]
  case h8 => exact hst
  all_goals simp only [image, Record.apply]
  case h6 => exact filter_rows_at _ _ _ _ fun x => hlt _ _
  case h7 => exact filter_rows_at _ _ _ _ fun x => hlt _ _
  all_goals
    rcases hl : r.life with _ | (⟨i, size, otel, w⟩ | ⟨i, e⟩ | ⟨i, d, c, e⟩ | ⟨i, d, e⟩) <;>
      simp only [Record.waiting, hl, Option.filter, Life.endedBefore, subRow, compRow, failRow, cancRow] <;>
      first
      | rfl
      | (by_cases ht : e < t <;> simp [ht])

theorem sel_insert_same {a : InsertArgs} {r : Record} (h : sel me db = image me r) (hid : a.id = me)
    (hn : r.life = none) :
    sel me (Eff.insert a db) =
      image me { r with life := some (.running (infoOf a) a.chunkSize a.otel (chunksOf a)) } := by
  have hlen : (chunksOf a).length = a.contents.length := by simp [chunksOf]
  have h1 := congrArg DB.submissions h
  have h2 := congrArg DB.submissionsCompleted h
  have h3 := congrArg DB.submissionsFailed h
  have h4 := congrArg DB.submissionsCancelled h
  have h5 := congrArg DB.chunks h
  have h6 := congrArg DB.chunksCompleted h
  have h7 := congrArg DB.chunksFailed h
  have h8 := congrArg DB.submissionsMetadata h
  simp only [sel, image, hn, subRow, compRow, failRow, cancRow, Record.waiting, Record.strategic, metaRows,
    List.map_nil] at h1 h2 h3 h4 h5 h6 h7 h8
  apply db_ext <;> simp only [sel, Eff.insert, List.filter_append, h1, h2, h3, h4, h5, h6, h7, h8]
  · simp [InsertArgs.row, hid, image, subRow, infoOf, hlen]
  · simp [image, compRow]
  · simp [image, failRow]
  · simp [image, cancRow]
  · rw [List.nil_append, List.filter_eq_self.2]
    · simp [mkChunks, image, Record.waiting, chunksOf, Waiting.row, hid]
    · intro x hx
      simp only [mkChunks, List.mem_map] at hx
      obtain ⟨p, _, rfl⟩ := hx
      simp [hid]
  · simp [image]
  · simp [image]
  · rw [List.nil_append, List.filter_eq_self.2]
    · simp [image, Record.strategic, Life.info, infoOf, hid]
    · intro x hx
      simp only [metaRows, List.mem_map] at hx
      obtain ⟨p, _, rfl⟩ := hx
      simp [hid]

/-- A record with a life has a row. -/
theorem life_mem {r : Record} (h : sel me db = image me r) (hl : r.life ≠ none) : me ∈ allIds db := by
  have h1 := congrArg DB.submissions h
  have h2 := congrArg DB.submissionsCompleted h
  have h3 := congrArg DB.submissionsFailed h
  have h4 := congrArg DB.submissionsCancelled h
  simp only [sel, image] at h1 h2 h3 h4
  simp only [allIds, List.mem_append, List.mem_map]
  rcases hl' : r.life with _ | (⟨i, size, otel, w⟩ | ⟨i, t, k⟩ | ⟨i, d, c, t, k⟩ | ⟨i, d, t⟩)
  · exact absurd hl' hl
  all_goals rw [hl'] at h1 h2 h3 h4; simp only [subRow, compRow, failRow, cancRow] at h1 h2 h3 h4
  · have := List.mem_filter.1 (h1 ▸ List.mem_singleton.2 rfl)
    exact .inl (.inl (.inl ⟨_, this.1, rfl⟩))
  · have := List.mem_filter.1 (h2 ▸ List.mem_singleton.2 rfl)
    exact .inl (.inl (.inr ⟨_, this.1, rfl⟩))
  · have := List.mem_filter.1 (h3 ▸ List.mem_singleton.2 rfl)
    exact .inl (.inr ⟨_, this.1, rfl⟩)
  · have := List.mem_filter.1 (h4 ▸ List.mem_singleton.2 rfl)
    exact .inr ⟨_, this.1, rfl⟩

end Opsqueue.Machine
