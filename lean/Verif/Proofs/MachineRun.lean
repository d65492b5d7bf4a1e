import Verif.Proofs.MachineStep

/-! The record follows the database through every history. -/

set_option linter.unusedSimpArgs false

namespace Opsqueue.Machine
open Opsqueue Sql SubmissionDb

variable {me : SubmissionId} {db : DB}

theorem running_mem {r : Record} (h : sel me db = image me r) {s : SubmissionRow} (hs : s ∈ db.submissions)
    (hid : s.id = me) : ∃ i size otel w, r.life = some (.running i size otel w) ∧
      s = SubmissionRow.mk me i.pfx i.total (i.total - w.length) i.metadata otel size ∧
      s ∈ (image me r).submissions := by
  have h0 : s ∈ (sel me db).submissions := List.mem_filter.2 ⟨hs, by simp [hid]⟩
  rw [h] at h0
  have h1 := h0
  simp only [image] at h1
  rcases hl : r.life with _ | (⟨i, size, otel, w⟩ | ⟨i, t, k⟩ | ⟨i, d, c, t, k⟩ | ⟨i, d, t⟩) <;> rw [hl] at h1 <;>
    simp only [subRow, List.mem_singleton, List.not_mem_nil] at h1
  exact ⟨i, size, otel, w, rfl, h1, h0⟩

theorem mem_running {r : Record} (h : sel me db = image me r) {i : Info} {size : Option Int} {otel : String}
    {w : List Waiting} (hl : r.life = some (.running i size otel w)) :
    SubmissionRow.mk me i.pfx i.total (i.total - w.length) i.metadata otel size ∈ db.submissions := by
  have h1 := congrArg DB.submissions h
  simp only [sel, image, hl, subRow] at h1
  exact (List.mem_filter.1 (h1 ▸ List.mem_singleton.2 rfl)).1

theorem waiting_mem {r : Record} (h : sel me db = image me r) {c : ChunkRow} (hc : c ∈ db.chunks)
    (hid : c.submissionId = me) : ∃ x ∈ r.waiting, c = x.row me := by
  have h0 : c ∈ (sel me db).chunks := List.mem_filter.2 ⟨hc, by simp [hid]⟩
  rw [h] at h0
  obtain ⟨x, hx, rfl⟩ := List.mem_map.1 h0
  exact ⟨x, hx, rfl⟩

theorem mem_waiting {r : Record} (h : sel me db = image me r) {x : Waiting} (hx : x ∈ r.waiting) :
    x.row me ∈ db.chunks := by
  have h1 : x.row me ∈ (sel me db).chunks := by rw [h]; exact List.mem_map_of_mem hx
  exact (List.mem_filter.1 h1).1

theorem waiting_missing {r : Record} (h : sel me db = image me r) {k : Nat}
    (hm : (⟨me, k⟩ : ChunkId) ∉ db.chunks.map ChunkRow.key) : k ∉ r.waiting.map (·.index) := by
  intro hk
  obtain ⟨x, hx, rfl⟩ := List.mem_map.1 hk
  exact hm (List.mem_map.2 ⟨_, mem_waiting h hx, rfl⟩)

/-- An undisturbed call does to the restricted database what the record's step does. -/
theorem step_all {r : Record} (hI : Inv db) (h : sel me db = image me r) (op : Op) (hc : op.clean = op)
    (hfresh : ∀ a now o, op = .insert a now o → a.id ∉ usedIds db ∧ (a.strategic.map (·.1)).Nodup) :
    sel me (Opsqueue.step db op).2 = image me (r.apply me op) := by
  cases op with
  | insert a now o =>
    obtain rfl : [] = o := by simpa [Op.clean] using hc
    obtain ⟨hf, hn⟩ := hfresh a now [] rfl
    rw [step_insert_ok hI now hf hn]
    simp only [Record.apply]
    by_cases hid : a.id = me
    · have hl : r.life = none := by
        cases hl : r.life with
        | none => rfl
        | some l =>
          have := life_mem h (by rw [hl]; simp)
          exact absurd (by rw [hid]; simp [usedIds, this]) hf
      simp only [hid, ne_eq, not_true_eq_false, if_false]
      by_cases he : a.contents = []
      · rw [if_pos he, if_pos he, sel_finish_same (by exact hid), sel_insert_same h hid hl]
        have hw : chunksOf a = [] := by simp [chunksOf, he]
        rw [hw, image_finish rfl _ ⟨hid, rfl, rfl, rfl⟩]
      · rw [if_neg he, if_neg he, sel_insert_same h hid hl]
    · rw [if_pos hid]
      split
      · rw [sel_finish_other (by exact hid), sel_insert_other hid, h]
      · rw [sel_insert_other hid, h]
  | complete cid out t1 t2 o =>
    obtain rfl : [] = o := by simpa [Op.clean] using hc
    simp only [Record.apply]
    by_cases hk : cid ∈ db.chunks.map ChunkRow.key
    · obtain ⟨c, hcm, rfl⟩ := List.mem_map.1 hk
      obtain ⟨s, hs, hid, _⟩ := hI.owner c hcm
      by_cases hme : c.submissionId = me
      · obtain ⟨i, size, otel, w, hl, hsr, hsi⟩ := running_mem h hs (hid.trans hme)
        have hR := running_of hI h hl
        obtain ⟨x, hx, hxc⟩ := waiting_mem h hcm hme
        have hw : r.waiting = w := by simp [Record.waiting, hl]
        rw [hw] at hx
        have hkey : c.key = ⟨me, x.index⟩ := by rw [hxc]; rfl
        have hmem : x.index ∈ w.map (·.index) := List.mem_map_of_mem hx
        have hlen := length_filter_ne_key (key := Waiting.index) hR.keys hx
        have hle := hR.le
        rw [hkey]
        simp only [ne_eq, not_true_eq_false, if_false, hl]
        rw [if_pos hmem]
        by_cases hlast : s.chunksDone + 1 = s.chunksTotal
        · have hnil : (w.filter fun c => !(c.index == x.index)) = [] := by
            rw [← List.length_eq_zero_iff]
            have hlast' := hlast
            rw [hsr] at hlast'
            simp only at hlast'
            omega
          rw [← hkey, step_complete_last hI out t1 t2 hcm hs hid hlast]
          simp only
          rw [sel_finish_same (by exact hid.trans hme), sel_complete_same (by rw [hkey]), h, hkey,
            image_complete hR hmem out t1 [] hnil.symm, hnil]
          rw [image_finish rfl { s with chunksDone := s.chunksDone + 1 }
            ⟨hid.trans hme, by rw [hsr], by rw [hsr], by rw [hsr]⟩]
          simp
        · have hnil : (w.filter fun c => !(c.index == x.index)) ≠ [] := by
            intro he
            rw [he] at hlen
            rw [hsr] at hlast
            simp only [List.length_nil] at hlast hlen
            omega
          rw [← hkey, step_complete_notLast hI out t1 t2 hcm hs hid hlast]
          simp only
          rw [sel_complete_same (by rw [hkey]), h, hkey, image_complete hR hmem out t1 _ rfl, if_neg hnil]
      · rw [if_pos (by exact hme)]
        by_cases hlast : s.chunksDone + 1 = s.chunksTotal
        · rw [step_complete_last hI out t1 t2 hcm hs hid hlast]
          simp only
          rw [sel_finish_other (by exact fun e => hme (hid.symm.trans e)), sel_complete_other (by exact hme), h]
        · rw [step_complete_notLast hI out t1 t2 hcm hs hid hlast]
          simp only
          rw [sel_complete_other (by exact hme), h]
    · rw [step_complete_missing hk]
      simp only
      by_cases hme : cid.submissionId = me
      · obtain ⟨ci, k⟩ := cid
        simp only at hme
        subst hme
        have := waiting_missing h hk
        rcases hl : r.life with _ | (⟨i, size, otel, w⟩ | ⟨i, t, k⟩ | ⟨i, d, c, t, k⟩ | ⟨i, d, t⟩) <;> simp only [ne_eq,
          not_true_eq_false, if_false]
        all_goals try exact h
        simp only [Record.waiting, hl] at this
        rw [if_neg this]
        exact h
      · rw [if_pos hme]; exact h
  | fail cid f m t1 t2 t3 o =>
    obtain rfl : [] = o := by simpa [Op.clean] using hc
    simp only [Record.apply]
    by_cases hk : cid ∈ db.chunks.map ChunkRow.key
    · obtain ⟨c, hcm, rfl⟩ := List.mem_map.1 hk
      obtain ⟨s, hs, hid, _⟩ := hI.owner c hcm
      by_cases hme : c.submissionId = me
      · obtain ⟨i, size, otel, w, hl, hsr, hsi⟩ := running_mem h hs (hid.trans hme)
        have hR := running_of hI h hl
        obtain ⟨x, hx, hxc⟩ := waiting_mem h hcm hme
        have hw : r.waiting = w := by simp [Record.waiting, hl]
        rw [hw] at hx
        have hkey : c.key = ⟨me, x.index⟩ := by rw [hxc]; rfl
        have hfind := find?_key_of_mem (key := Waiting.index) hR.keys hx
        have hret : c.retries = x.retries := by rw [hxc]; rfl
        rw [hkey]
        simp only [ne_eq, not_true_eq_false, if_false, hl, hfind]
        by_cases hr : x.retries + 1 < m
        · rw [if_pos hr, ← hkey, step_fail_retry hI f t1 t2 t3 hcm (by rw [hret]; exact hr)]
          simp only
          rw [sel_bump_same, h, hkey, image_bump hl]
        · rw [if_neg hr, ← hkey, step_fail_fail hI f t1 t2 t3 hcm hs hid (by rw [hret]; omega)]
          simp only
          rw [sel_fail_same (hid.trans hme) hid.symm, h, hxc, image_fail hl s hsi]
      · rw [if_pos (by exact hme)]
        by_cases hr : c.retries + 1 < m
        · rw [step_fail_retry hI f t1 t2 t3 hcm hr]
          simp only
          rw [sel_bump_other (by exact hme), h]
        · rw [step_fail_fail hI f t1 t2 t3 hcm hs hid (by omega)]
          simp only
          rw [sel_fail_other (fun e => hme (hid.symm.trans e)) hid.symm, h]
    · rw [step_fail_missing hk]
      simp only
      by_cases hme : cid.submissionId = me
      · obtain ⟨ci, k⟩ := cid
        simp only at hme
        subst hme
        have := waiting_missing h hk
        rcases hl : r.life with _ | (⟨i, size, otel, w⟩ | ⟨i, t, k⟩ | ⟨i, d, c, t, k⟩ | ⟨i, d, t⟩) <;> simp only [ne_eq,
          not_true_eq_false, if_false]
        all_goals try exact h
        simp only [Record.waiting, hl] at this
        rw [find?_key_none (key := Waiting.index) |>.2 this]
        exact h
      · rw [if_pos hme]; exact h
  | cancel id t1 t2 o =>
    obtain rfl : [] = o := by simpa [Op.clean] using hc
    simp only [Record.apply]
    by_cases hk : id ∈ db.submissions.map SubmissionRow.id
    · obtain ⟨s, hs, rfl⟩ := List.mem_map.1 hk
      rw [step_cancel_ok hI t1 t2 hs]
      simp only
      by_cases hme : s.id = me
      · obtain ⟨i, size, otel, w, hl, hsr, hsi⟩ := running_mem h hs hme
        rw [if_neg (by simpa using hme), hl]
        simp only
        rw [sel_cancel_same hme, h, image_cancel hl s hsi]
      · rw [if_pos hme, sel_cancel_other hme, h]
    · rw [step_cancel_missing t1 t2 hk]
      simp only
      by_cases hme : id = me
      · subst hme
        rcases hl : r.life with _ | (⟨i, size, otel, w⟩ | ⟨i, t, k⟩ | ⟨i, d, c, t, k⟩ | ⟨i, d, t⟩) <;> simp only [ne_eq,
          not_true_eq_false, if_false]
        all_goals try exact h
        exact absurd (List.mem_map.2 ⟨_, mem_running h hl, rfl⟩) hk
      · rw [if_pos hme]; exact h
  | cleanup t o =>
    obtain rfl : [] = o := by simpa [Op.clean] using hc
    have : (Opsqueue.step db (.cleanup t [])).2 = Eff.cleanup t db := by
      simp only [Opsqueue.step, cleanup_ok]
    rw [this, sel_cleanup, h, image_cleanup r t []]

/-- What an undisturbed call answers. -/
theorem answer_all {r : Record} (hI : Inv db) (h : sel me db = image me r) (op : Op) (hc : op.clean = op)
    (ht : op.target = some me ∨ op.target = none)
    (hfresh : ∀ a now o, op = .insert a now o → a.id ∉ usedIds db ∧ (a.strategic.map (·.1)).Nodup) :
    (Opsqueue.step db op).1 = r.answer op := by
  cases op with
  | insert a now o =>
    obtain rfl : [] = o := by simpa [Op.clean] using hc
    obtain ⟨hf, hn⟩ := hfresh a now [] rfl
    rw [step_insert_ok hI now hf hn]
    rfl
  | complete cid out t1 t2 o =>
    obtain rfl : [] = o := by simpa [Op.clean] using hc
    by_cases hk : cid ∈ db.chunks.map ChunkRow.key
    · obtain ⟨c, hcm, rfl⟩ := List.mem_map.1 hk
      obtain ⟨s, hs, hid, _⟩ := hI.owner c hcm
      by_cases hlast : s.chunksDone + 1 = s.chunksTotal
      · rw [step_complete_last hI out t1 t2 hcm hs hid hlast]; rfl
      · rw [step_complete_notLast hI out t1 t2 hcm hs hid hlast]; rfl
    · rw [step_complete_missing hk]; rfl
  | fail cid f m t1 t2 t3 o =>
    obtain rfl : [] = o := by simpa [Op.clean] using hc
    obtain ⟨ci, k⟩ := cid
    simp only [Op.target, Option.some.injEq, reduceCtorEq, or_false] at ht
    subst ht
    simp only [Record.answer]
    by_cases hk : (⟨ci, k⟩ : ChunkId) ∈ db.chunks.map ChunkRow.key
    · obtain ⟨c, hcm, hkey⟩ := List.mem_map.1 hk
      have hme : c.submissionId = ci := congrArg ChunkId.submissionId hkey
      obtain ⟨s, hs, hid, _⟩ := hI.owner c hcm
      obtain ⟨i, size, otel, w, hl, hsr, hsi⟩ := running_mem h hs (hid.trans hme)
      have hR := running_of hI h hl
      obtain ⟨x, hx, hxc⟩ := waiting_mem h hcm hme
      have hw : r.waiting = w := by simp [Record.waiting, hl]
      rw [hw] at hx ⊢
      have hxk : x.index = k := by rw [hxc] at hkey; exact congrArg ChunkId.chunkIndex hkey
      have hfind := find?_key_of_mem (key := Waiting.index) hR.keys hx
      have hret : c.retries = x.retries := by rw [hxc]; rfl
      rw [← hxk, hfind, hxk, ← hkey]
      simp only
      by_cases hr : x.retries + 1 < m
      · rw [step_fail_retry hI f t1 t2 t3 hcm (by rw [hret]; exact hr)]
        simp only
        rw [decide_eq_false (by omega)]
      · rw [step_fail_fail hI f t1 t2 t3 hcm hs hid (by rw [hret]; omega)]
        simp only
        rw [decide_eq_true (by omega)]
    · rw [step_fail_missing hk, find?_key_none (key := Waiting.index) |>.2 (waiting_missing h hk)]
  | cancel id t1 t2 o =>
    obtain rfl : [] = o := by simpa [Op.clean] using hc
    simp only [Op.target, Option.some.injEq, reduceCtorEq, or_false] at ht
    subst ht
    simp only [Record.answer]
    by_cases hk : id ∈ db.submissions.map SubmissionRow.id
    · obtain ⟨s, hs, rfl⟩ := List.mem_map.1 hk
      obtain ⟨i, size, otel, w, hl, hsr, hsi⟩ := running_mem h hs rfl
      rw [step_cancel_ok hI t1 t2 hs]
      simp [Record.status, hl]
    · rw [step_cancel_missing t1 t2 hk, (shows_of h).status]
      have hno : ∀ s, r.status id ≠ .ok (some (.inProgress s)) := by
        intro s hs
        rw [← (shows_of h).status] at hs
        obtain ⟨row, hr, hid, _⟩ := statusAt_inProgress hs
        exact hk (List.mem_map.2 ⟨row, hr, hid⟩)
      simp only
      rcases hst : r.status id with (_ | (s | s | ⟨s, c⟩ | s)) | e | _
      · rfl
      · exact absurd hst (hno s)
      all_goals rfl
  | cleanup t o =>
    obtain rfl : [] = o := by simpa [Op.clean] using hc
    simp only [Opsqueue.step, cleanup_ok, Record.answer]

/-- What a transaction leaves behind, against its undisturbed run. -/
theorem tx_cases {ε α : Type} {conv : DbErr → ε} {body : Sql ε α} (hb : Faithful body)
    (o : List Fault) (db : DB) :
    (∃ r w, transaction conv body ⟨o, db⟩ = (r, w) ∧ w.db = db ∧ ∀ a, r ≠ .ok a) ∨
    (∃ r w a, transaction conv body ⟨o, db⟩ = (r, w) ∧
      transaction conv body ⟨[], db⟩ = (.ok a, ⟨[], w.db⟩) ∧ (r = .ok a ∨ r = .crash)) := by
  rcases ht : transaction conv body ⟨o, db⟩ with ⟨r, w⟩
  have hspec := transaction_spec (conv := conv) hb ⟨o, db⟩
  rw [ht] at hspec
  rcases hspec with ⟨h1, h2⟩ | ⟨a, h1, h2⟩
  · exact .inl ⟨r, w, rfl, h2, h1⟩
  · refine .inr ⟨r, w, a, rfl, ?_, h2⟩
    simp only at h1
    rw [transaction_nil, h1]

theorem insertsEmpty_insert {op : Op} (h : op.insertsEmpty = true) :
    ∃ a now o, op = .insert a now o ∧ a.contents = [] := by
  cases op with
  | insert a now o => exact ⟨a, now, o, rfl, by simpa [Op.insertsEmpty] using h⟩
  | _ => simp [Op.insertsEmpty] at h

/-- What happened of an insert of an empty submission. -/
theorem extent_empty (hI : Inv db) (a : InsertArgs) (now : Time) (o : List Fault) (he : a.contents = [])
    (hf : a.id ∉ usedIds db) (hn : (a.strategic.map (·.1)).Nodup) :
    ∃ e, Happened db (.insert a now o) e ∧
      (Opsqueue.step db (.insert a now o)).2 = match e with
        | .nothing => db
        | .created => Eff.insert a db
        | .all => (Opsqueue.step db (.insert a now [])).2 := by
  have hok := insertOk_of_fresh hI hf hn
  have hclean := step_insert_ok hI now hf hn
  by_cases ho : o = []
  · subst ho
    exact ⟨.all, ⟨fun _ => rfl, fun _ _ => rfl, fun _ h => absurd rfl h, by simp⟩, rfl⟩
  · have hnc : (Op.insert a now o).clean ≠ .insert a now o := by
      intro h
      simp only [Op.clean, Op.insert.injEq, true_and] at h
      exact ho h.symm
    have hb : insertSubmission a.row a.strategic (mkChunks a.id a.contents) =
        transaction (fun e => e) (insertBody a) := rfl
    have hmb : maybeCompleteSubmission a.id now = transaction E.L (do
        let s ← getSubmission a.id
        if s.chunksDone = s.chunksTotal then
          completeSubmissionRaw a.id now
          pure true
        else
          pure false) := rfl
    have hI1 := inv_insert hI hok hf
    have hmem : a.row ∈ (Eff.insert a db).submissions := by simp [Eff.insert]
    have hd : a.row.chunksDone = a.row.chunksTotal := by simp [InsertArgs.row, he]
    have hdone : maybeCompleteSubmission a.id now ⟨[], Eff.insert a db⟩ =
        (.ok true, ⟨[], Eff.finish a.row now (Eff.insert a db)⟩) :=
      maybeComplete_done (s := a.row) (db := Eff.insert a db) now hI1.subIds hmem hd (hI1.sub_comp hmem)
    rw [if_pos he] at hclean
    rw [hmb] at hdone
    rcases tx_cases (conv := fun e => e) (faithful_insertBody a) o db with
      ⟨r, w, h, hdb, hno⟩ | ⟨r, w, u, h, h', hr⟩
    · refine ⟨.nothing, ⟨fun h => absurd h hnc, fun hk _ => ?_, fun _ _ => by simp, by simp⟩, ?_⟩
      · simp only [Opsqueue.step, insertSubmissionFromChunks, bind_run, hb, h] at hk
        cases r with
        | ok u => exact absurd rfl (hno u)
        | err e => simp [Out.isOk] at hk
        | crash => simp [Out.isOk] at hk
      · simp only [Opsqueue.step, insertSubmissionFromChunks, bind_run, hb, h]
        cases r with
        | ok u => exact absurd rfl (hno u)
        | err e => exact hdb
        | crash => exact hdb
    · have hw : w.db = Eff.insert a db := by
        have := insertSubmission_ok a db hok
        rw [hb, h'] at this
        simp only [Prod.mk.injEq, World.mk.injEq, true_and] at this
        exact this
      have hempty : (Op.insert a now o).insertsEmpty = true := by simp [Op.insertsEmpty, he]
      rcases hr with rfl | rfl
      · have hstep : Opsqueue.step db (.insert a now o) =
            (let r := matchRes (maybeCompleteSubmission a.id now) (fun
              | .error (.L e) => throw e
              | .error (.R _) => pure a.id
              | .ok _ => pure a.id) ⟨w.oracle, Eff.insert a db⟩
             (.inserted r.1, r.2.db)) := by
          simp only [Opsqueue.step, insertSubmissionFromChunks, bind_run, hb, h]
          simp only [he, List.length_nil, if_true]
          rw [show w = ⟨w.oracle, w.db⟩ from rfl, hw]
          rfl
        rw [hstep, hclean]
        simp only [matchRes_run]
        rw [hmb]
        rcases tx_cases (conv := E.L) (faithful_maybeBody a.id now) w.oracle (Eff.insert a db) with
          ⟨r2, w2, g, gdb, gno⟩ | ⟨r2, w2, b, g, g', gr⟩
        · refine ⟨.created, ⟨fun h => absurd h hnc, fun hk _ => ?_, fun _ _ => by simp, fun _ => hempty⟩, ?_⟩
          · rw [hstep] at hk
            simp only [matchRes_run] at hk
            rw [hmb, g] at hk
            cases r2 with
            | ok b => exact absurd rfl (gno b)
            | err e =>
              cases e with
              | L e => simp [throw_run, Out.isOk] at hk
              | R nf =>
                exfalso
                have := rFaithful_transaction (rFaithful_maybeBody a.id now) _ _ _ g
                rw [hdone] at this
                simp at this
            | crash => simp [Out.isOk] at hk
          · rw [g]
            cases r2 with
            | ok b => exact absurd rfl (gno b)
            | err e =>
              cases e with
              | L e => simpa [throw_run] using gdb
              | R nf => simpa [pure_run] using gdb
            | crash => exact gdb
        · rw [g'] at hdone
          simp only [Prod.mk.injEq, Res.ok.injEq, World.mk.injEq, true_and] at hdone
          have hnerr : (Opsqueue.step db (.insert a now o)).1.isErr = false := by
            rw [hstep]
            simp only [matchRes_run]
            rw [hmb, g]
            rcases gr with rfl | rfl <;> simp [pure_run, Out.isErr]
          refine ⟨.all, ⟨fun _ => rfl, fun _ _ => rfl, fun hk _ => ?_, by simp⟩, ?_⟩
          · rw [hnerr] at hk; cases hk
          · rw [g]
            rcases gr with rfl | rfl
            · simpa [pure_run] using hdone.2
            · exact hdone.2
      · refine ⟨.created, ⟨fun h => absurd h hnc, fun hk _ => ?_, fun _ _ => by simp, fun _ => hempty⟩, ?_⟩
        · simp [Opsqueue.step, insertSubmissionFromChunks, bind_run, hb, h, Out.isOk] at hk
        · simp [Opsqueue.step, insertSubmissionFromChunks, bind_run, hb, h, hw]

/-- What happened of any call. -/
theorem extent_of (hI : Inv db) (op : Op)
    (hfresh : ∀ a now o, op = .insert a now o → a.id ∉ usedIds db ∧ (a.strategic.map (·.1)).Nodup) :
    ∃ e, Happened db op e ∧ ∀ me r, sel me db = image me r →
      sel me (Opsqueue.step db op).2 = image me (r.step me op e) := by
  have hall : ∀ me r, sel me db = image me r →
      sel me (Opsqueue.step db op.clean).2 = image me (r.apply me op) := by
    intro me r h
    have := step_all hI h op.clean (by cases op <;> rfl) (by
      intro a now o ho
      cases op <;> simp only [Op.clean, reduceCtorEq] at ho
      rename_i a' now' o'
      injection ho with h1 h2 h3
      subst h1
      exact hfresh _ _ _ rfl)
    rw [this]
    cases op <;> rfl
  cases he : op.insertsEmpty with
  | true =>
    obtain ⟨a, now, o, rfl, hc⟩ := insertsEmpty_insert he
    obtain ⟨hf, hn⟩ := hfresh a now o rfl
    obtain ⟨e, h1, h2⟩ := extent_empty hI a now o hc hf hn
    refine ⟨e, h1, fun me r h => ?_⟩
    rw [h2]
    cases e with
    | nothing => exact h
    | all => exact hall me r h
    | created =>
      simp only [Record.step]
      by_cases hid : a.id = me
      · have hl : r.life = none := by
          cases hl : r.life with
          | none => rfl
          | some l =>
            have := life_mem h (by rw [hl]; simp)
            exact absurd (by rw [hid]; simp [usedIds, this]) hf
        rw [if_neg (by simpa using hid), sel_insert_same h hid hl]
        simp [chunksOf, hc]
      · rw [if_pos hid, sel_insert_other hid, h]
  | false =>
    obtain ⟨h1, h2⟩ := C11_atomic db op he
    by_cases hclean : op.clean = op
    · refine ⟨.all, ⟨fun _ => rfl, fun _ _ => rfl, fun _ h => absurd hclean h, by simp⟩, fun me r h => ?_⟩
      have := hall me r h
      rwa [hclean] at this
    · by_cases hok : (Opsqueue.step db op).1.isOk = true ∧ ∀ cid out t1 t2 o, op ≠ .complete cid out t1 t2 o
      · have := C11_success_is_full_effect db op he hok.2 hok.1
        refine ⟨.all, ⟨fun _ => rfl, fun _ _ => rfl, fun herr _ => ?_, by simp⟩, fun me r h => ?_⟩
        · exfalso
          have hk := hok.1
          revert herr hk
          rcases (Opsqueue.step db op).1 with r | r | r | r | r <;> cases r <;> simp [Out.isOk, Out.isErr]
        · rw [this]; exact hall me r h
      · rcases h1 with h1 | h1
        · refine ⟨.nothing, ⟨fun h => absurd h hclean, fun hk hc => absurd ⟨hk, hc⟩ hok, fun _ _ => by simp,
            by simp⟩, fun me r h => ?_⟩
          rw [h1]; exact h
        · cases herr : (Opsqueue.step db op).1.isErr with
          | true =>
            refine ⟨.nothing, ⟨fun h => absurd h hclean, fun hk hc => absurd ⟨hk, hc⟩ hok, fun _ _ => by simp,
              by simp⟩, fun me r h => ?_⟩
            rw [h2 herr]; exact h
          | false =>
            refine ⟨.all, ⟨fun _ => rfl, fun _ _ => rfl, fun hk _ => ?_, by simp⟩, fun me r h => ?_⟩
            · rw [herr] at hk; cases hk
            · rw [h1]; exact hall me r h

theorem replay_snoc (me : SubmissionId) (h : List (Op × Extent)) (op : Op) (e : Extent) :
    replay me (h ++ [(op, e)]) = (replay me h).step me op e := by
  simp [replay]

theorem empty_image (me : SubmissionId) : sel me DB.empty = image me {} := by
  apply db_ext <;> simp [sel, DB.empty, image, subRow, compRow, failRow, cancRow, Record.waiting, Record.strategic,
    metaRows]

theorem fresh_mono {xs ys : List Op} (h : FreshIds (xs ++ ys)) : FreshIds xs := by
  unfold FreshIds at *
  rw [List.filterMap_append] at h
  exact (List.nodup_append.1 h).1

theorem run_snoc_fst (h : List (Op × Extent)) (op : Op) (e : Extent) :
    run ((h ++ [(op, e)]).map (·.1)) = (Opsqueue.step (run (h.map (·.1))) op).2 := by
  rw [List.map_append]; exact run_snoc _ _

theorem snoc_split {α : Type} {h pre post : List α} {x y : α} (hs : h ++ [x] = pre ++ y :: post) :
    (∃ post', post = post' ++ [x] ∧ h = pre ++ y :: post') ∨ (post = [] ∧ x = y ∧ h = pre) := by
  rcases List.eq_nil_or_concat post with rfl | ⟨post', z, rfl⟩
  · have := List.append_inj' hs rfl
    exact .inr ⟨rfl, by simpa using this.2, this.1⟩
  · rw [List.concat_eq_append] at hs ⊢
    have h1 : h ++ [x] = (pre ++ y :: post') ++ [z] := by rw [hs]; simp
    have := List.append_inj' h1 rfl
    obtain rfl : x = z := by simpa using this.2
    exact .inl ⟨post', rfl, this.1⟩

/-- The histories of records that follow the database. -/
theorem follow (ops : List Op) (hf : FreshIds ops) (hm : MapArgs ops) :
    ∃ h : List (Op × Extent), h.map (·.1) = ops ∧
      (∀ me pre post, h = pre ++ post → sel me (run (pre.map (·.1))) = image me (replay me pre)) ∧
      (∀ pre op e post, h = pre ++ (op, e) :: post → Happened (run (pre.map (·.1))) op e) := by
  induction ops using snoc_induction with
  | nil =>
    refine ⟨[], rfl, ?_, ?_⟩
    · intro me pre post h
      obtain ⟨rfl, _⟩ := List.append_eq_nil_iff.1 h.symm
      exact empty_image me
    · intro pre op e post h
      simp at h
  | snoc ops op ih =>
    obtain ⟨h, hh, h1, h2⟩ := ih (fresh_mono hf) (fun a now o ha => hm a now o (List.mem_append_left _ ha))
    have hI := inv_run (fresh_mono hf)
    have hfr : ∀ a now o, op = .insert a now o → a.id ∉ usedIds (run ops) ∧ (a.strategic.map (·.1)).Nodup := by
      rintro a now o rfl
      exact ⟨fresh_run hf (x := a.id) rfl, hm a now o (by simp)⟩
    obtain ⟨e, he, hstep⟩ := extent_of hI op hfr
    refine ⟨h ++ [(op, e)], by simp [hh], ?_, ?_⟩
    · intro me pre post hs
      rcases List.eq_nil_or_concat post with rfl | ⟨post', z, rfl⟩
      · rw [List.append_nil] at hs
        subst hs
        rw [run_snoc_fst, replay_snoc, hh]
        exact hstep me _ (by have := h1 me h [] (by simp); rwa [hh] at this)
      · rw [List.concat_eq_append, ← List.append_assoc] at hs
        exact h1 me pre post' (List.append_inj' hs rfl).1
    · intro pre op' e' post hs
      rcases snoc_split hs with ⟨post', _, hp⟩ | ⟨_, hx, hp⟩
      · exact h2 pre op' e' post' hp
      · injection hx with hx1 hx2
        subst hx1 hx2 hp
        rw [hh]; exact he

end Opsqueue.Machine
