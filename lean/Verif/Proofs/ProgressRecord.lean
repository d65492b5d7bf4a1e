import Verif.Proofs.MachineRun
import Verif.Proofs.Timeline
import Verif.Proofs.Progress

/-!
# Lemmas for C62: what a series of reports does to the record of a submission
-/

namespace Opsqueue.Machine
open Conn (Report)

/-- The record of a submission in a reachable database. -/
theorem record_of {ops : List Op} (hf : FreshIds ops) (hm : MapArgs ops) (me : SubmissionId) :
    ∃ r, sel me (run ops) = image me r := by
  obtain ⟨h, h1, h2, _⟩ := follow ops hf hm
  have := h2 me h [] (List.append_nil _).symm
  rw [h1] at this
  exact ⟨_, this⟩

/-- Undisturbed calls that insert nothing. -/
theorem record_run {me : SubmissionId} : ∀ (more ops : List Op) (r : Record), FreshIds ops →
    sel me (run ops) = image me r → (∀ op ∈ more, op.clean = op ∧ op.insertId = none) →
    sel me (run (ops ++ more)) = image me (more.foldl (Record.apply me) r) := by
  intro more
  induction more with
  | nil => intro ops r _ h _; rw [List.append_nil]; exact h
  | cons op more ih =>
    intro ops r hf h hmore
    obtain ⟨hc, hn⟩ := hmore op List.mem_cons_self
    have := step_all (inv_run hf) h op hc (by rintro a now o rfl; cases hn)
    rw [← run_snoc] at this
    have := ih (ops ++ [op]) _ (Server.fresh_append hf (by simpa using hn)) this
      (fun op' h' => hmore op' (List.mem_cons_of_mem _ h'))
    rw [List.append_assoc] at this
    exact this

/-- In a reachable database, a running submission with chunks has chunks left. -/
theorem running_left {ops : List Op} (hf : FreshIds ops) {me : SubmissionId} {r : Record}
    (h : sel me (run ops) = image me r) {i : Info} {size : Option Int} {otel : String} {w : List Waiting}
    (hl : r.life = some (.running i size otel w)) (ht : i.total ≠ 0) : w ≠ [] := by
  rintro rfl
  have := notStuck_run ops hf _ (mem_running h hl)
  simp at this
  exact ht this

/-- The status of a running submission. -/
theorem running_status {r : Record} {me : SubmissionId} {p : Submission}
    (h : r.status me = .ok (some (.inProgress p))) :
    ∃ i size otel w, r.life = some (.running i size otel w) ∧ p.chunksTotal = i.total ∧ p.pfx = i.pfx := by
  unfold Record.status at h
  rcases hl : r.life with _ | (⟨i, size, otel, w⟩ | ⟨i, t, k⟩ | ⟨i, d, c, t, k⟩ | ⟨i, d, t⟩) <;> rw [hl] at h <;>
    dsimp only at h
  · cases h
  · cases h; exact ⟨i, size, otel, w, rfl, rfl, rfl⟩
  · cases h
  · split at h <;> cases h
  · cases h

/-- What reports can make of a running submission. -/
inductive After (me : SubmissionId) (i : Info) (q : List Report) (r : Record) : Prop
  | running (size : Option Int) (otel : String) (w : List Waiting) : r.life = some (.running i size otel w) → After me i q r
  | completed (t : Time) : r.life = some (.completed i t {}) → After me i q r
  | failed (done culprit : Nat) (t : Time) (f : Failure) (id : ChunkId) (msg : String) :
      r.life = some (.failed i (some done) culprit t {}) → (r.failures.find? fun f => f.index == culprit) = some f →
      .fail id msg ∈ q → id.submissionId = me → After me i q r

theorem After.mono {me : SubmissionId} {i : Info} {q q' : List Report} {r : Record} (h : After me i q r)
    (hq : ∀ x ∈ q, x ∈ q') : After me i q' r := by
  cases h with
  | running size otel w h => exact .running size otel w h
  | completed t h => exact .completed t h
  | failed d c t f id msg h h1 h2 h3 => exact .failed d c t f id msg h h1 (hq _ h2) h3

theorem after_step {me : SubmissionId} {i : Info} {q : List Report} {r : Record} (h : After me i q r)
    (m : Nat) (t : Time) (x : Report) (hx : x ∈ q) :
    After me i q (r.apply me (Server.reportOp m t t t [] x)) := by
  cases h with
  | running size otel w hl =>
    cases x with
    | complete id out =>
      simp only [Server.reportOp, Record.apply]
      split
      · exact .running size otel w hl
      · rw [hl]; dsimp only
        split
        · by_cases hr : (w.filter fun c => !(c.index == id.chunkIndex)) = []
          · exact .completed t (by dsimp only; rw [if_pos hr])
          · exact .running size otel _ (by dsimp only; rw [if_neg hr])
        · exact .running size otel w hl
    | fail id msg =>
      simp only [Server.reportOp, Record.apply]
      split
      · exact .running size otel w hl
      · rename_i hid
        rw [hl]; dsimp only
        split
        · exact .running size otel w hl
        · rename_i c hc
          split
          · exact .running size otel _ rfl
          · cases hfind : (r.failures ++ (⟨c.index, c.input, msg, t, false⟩ : Failure) ::
                (w.filter fun d => !(d.index == c.index)).map (Waiting.skip t)).find?
                  (fun f => f.index == c.index) with
            | none =>
              rw [List.find?_eq_none] at hfind
              have := hfind ⟨c.index, c.input, msg, t, false⟩ (by simp)
              simp at this
            | some f => exact .failed _ _ t f id msg rfl hfind hx (by simpa using hid)
  | completed t' hl =>
    refine .completed t' ?_
    cases x <;> simp only [Server.reportOp, Record.apply] <;> split <;> first | exact hl | (rw [hl]; exact hl)
  | failed d c t' f id msg hl h1 h2 h3 =>
    have : r.apply me (Server.reportOp m t t t [] x) = r := by
      cases x <;> simp only [Server.reportOp, Record.apply] <;> split <;> first | rfl | (rw [hl])
    rw [this]
    exact .failed d c t' f id msg hl h1 h2 h3

theorem after_run {me : SubmissionId} {i : Info} (m : Nat) (t : Time) (q : List Report) :
    ∀ (xs : List Report) (r : Record), (∀ x ∈ xs, x ∈ q) → After me i q r →
    After me i q ((xs.map (Server.reportOp m t t t [])).foldl (Record.apply me) r) := by
  intro xs
  induction xs with
  | nil => intro r _ h; exact h
  | cons x xs ih =>
    intro r hx h
    exact ih _ (fun y hy => hx y (List.mem_cons_of_mem _ hy)) (after_step h m t x (hx x List.mem_cons_self))

/-- The completions of the given chunks. -/
def completes (out : ChunkId → Content) (t : Time) (ids : List ChunkId) : List Op :=
  ids.map fun id => .complete id (out id) t t []

theorem completes_ok (out : ChunkId → Content) (t : Time) (ids : List ChunkId) :
    ∀ op ∈ completes out t ids, op.clean = op ∧ op.insertId = none := by
  intro op h
  obtain ⟨id, _, rfl⟩ := List.mem_map.1 h
  exact ⟨rfl, rfl⟩

/-- Completions do nothing to a submission that has no chunks left. -/
theorem completes_idle {me : SubmissionId} (out : ChunkId → Content) (t : Time) (ids : List ChunkId) :
    ∀ (r : Record), r.waiting = [] → (completes out t ids).foldl (Record.apply me) r = r := by
  induction ids with
  | nil => intro r _; rfl
  | cons id ids ih =>
    intro r hr
    have : r.apply me (.complete id (out id) t t []) = r := by
      simp only [Record.apply]
      split
      · rfl
      · unfold Record.waiting at hr
        rcases hl : r.life with _ | (⟨i, size, otel, w⟩ | ⟨i, t, k⟩ | ⟨i, d, c, t, k⟩ | ⟨i, d, t⟩) <;> rw [hl] at hr <;>
          dsimp only at hr ⊢
        subst hr; simp
    show (completes out t ids).foldl (Record.apply me) (r.apply me (.complete id (out id) t t [])) = r
    rw [this]; exact ih r hr

/-- A stored output stays. -/
theorem output_stays {me : SubmissionId} (out : ChunkId → Content) (t : Time) (ids : List ChunkId) :
    ∀ (r : Record) (j : Nat) (o : Output), (r.outputs.find? fun o => o.index == j) = some o →
      (((completes out t ids).foldl (Record.apply me) r).outputs.find? fun o => o.index == j) = some o := by
  induction ids with
  | nil => intro r j o h; exact h
  | cons id ids ih =>
    intro r j o h
    refine ih _ j o ?_
    simp only [Record.apply]
    split
    · exact h
    · split
      · split
        · dsimp only; rw [List.find?_append, h]; rfl
        · exact h
      · exact h

/-- When all chunks of a running submission are reported complete, it completes and the outputs are stored. -/
theorem completes_all {me : SubmissionId} (out : ChunkId → Content) (t : Time) (ids : List ChunkId) :
    ∀ (r : Record) (i : Info) (size : Option Int) (otel : String) (w : List Waiting),
      r.life = some (.running i size otel w) → w ≠ [] → (∀ x ∈ w, (⟨me, x.index⟩ : ChunkId) ∈ ids) →
      (∀ o ∈ r.outputs, o.index ∉ w.map (·.index)) →
      ((completes out t ids).foldl (Record.apply me) r).life = some (.completed i t {}) ∧
      ∀ x ∈ w, (((completes out t ids).foldl (Record.apply me) r).outputs.find? fun o => o.index == x.index) =
        some ⟨x.index, out ⟨me, x.index⟩, t⟩ := by
  induction ids with
  | nil =>
    intro r i size otel w _ hw hall
    cases w with
    | nil => exact absurd rfl hw
    | cons x w => exact absurd (hall x List.mem_cons_self) List.not_mem_nil
  | cons id ids ih =>
    intro r i size otel w hl hw hall hout
    show (List.foldl (Record.apply me) (r.apply me (.complete id (out id) t t [])) (completes out t ids)).life = _ ∧
      ∀ x ∈ w, ((List.foldl (Record.apply me) (r.apply me (.complete id (out id) t t []))
        (completes out t ids)).outputs.find? fun o => o.index == x.index) = _
    by_cases hid : id.submissionId = me
    · by_cases hm : id.chunkIndex ∈ w.map (·.index)
      · have hfind : ((r.outputs ++ [(⟨id.chunkIndex, out id, t⟩ : Output)]).find?
            fun o => o.index == id.chunkIndex) = some ⟨id.chunkIndex, out id, t⟩ := by
          rw [List.find?_append, List.find?_eq_none.2]
          · simp
          · intro o ho he
            have : o.index = id.chunkIndex := by simpa using he
            exact hout o ho (this ▸ hm)
        by_cases hrest : (w.filter fun c => !(c.index == id.chunkIndex)) = []
        · have e : r.apply me (.complete id (out id) t t []) =
              { r with life := some (.completed i t {}), outputs := r.outputs ++ [⟨id.chunkIndex, out id, t⟩] } := by
            simp only [Record.apply, if_neg (not_not_intro hid), hl, if_pos hm, if_pos hrest]
          rw [e, completes_idle _ _ _ _ rfl]
          refine ⟨rfl, ?_⟩
          intro x hx
          have hxi : x.index = id.chunkIndex := by
            have := List.filter_eq_nil_iff.1 hrest x hx
            simpa using this
          have hxid : (⟨me, x.index⟩ : ChunkId) = id := by rw [hxi, ← hid]
          rw [hxid, hxi]
          exact hfind
        · have e : r.apply me (.complete id (out id) t t []) =
              { r with life := some (.running i size otel (w.filter fun c => !(c.index == id.chunkIndex))),
                       outputs := r.outputs ++ [⟨id.chunkIndex, out id, t⟩] } := by
            simp only [Record.apply, if_neg (not_not_intro hid), hl, if_pos hm, if_neg hrest]
          rw [e]
          obtain ⟨h1, h2⟩ := ih { r with
              life := some (.running i size otel (w.filter fun c => !(c.index == id.chunkIndex))),
              outputs := r.outputs ++ [⟨id.chunkIndex, out id, t⟩] } i size otel _ rfl hrest (by
            intro x hx
            obtain ⟨hx1, hx2⟩ := List.mem_filter.1 hx
            rcases List.mem_cons.1 (hall x hx1) with h | h
            · exfalso; rw [← h] at hx2; simp at hx2
            · exact h) (by
            intro o ho hmem
            obtain ⟨x, hx, hxo⟩ := List.mem_map.1 hmem
            obtain ⟨hx1, hx2⟩ := List.mem_filter.1 hx
            rcases List.mem_append.1 ho with ho | ho
            · exact hout o ho (List.mem_map.2 ⟨x, hx1, hxo⟩)
            · rw [List.mem_singleton] at ho; subst ho
              rw [hxo] at hx2; simp at hx2)
          refine ⟨h1, ?_⟩
          intro x hx
          by_cases hxi : x.index = id.chunkIndex
          · have hxid : (⟨me, x.index⟩ : ChunkId) = id := by rw [hxi, ← hid]
            rw [hxid, hxi]
            exact output_stays out t ids _ _ _ hfind
          · exact h2 x (List.mem_filter.2 ⟨hx, by simpa using hxi⟩)
      · have e : r.apply me (.complete id (out id) t t []) = r := by
          simp only [Record.apply, if_neg (not_not_intro hid), hl, if_neg hm]
        rw [e]
        refine ih r i size otel w hl hw ?_ hout
        intro x hx
        rcases List.mem_cons.1 (hall x hx) with h | h
        · exfalso; apply hm; rw [← h]; exact List.mem_map_of_mem hx
        · exact h
    · have e : r.apply me (.complete id (out id) t t []) = r := by
        simp only [Record.apply, if_pos hid]
      rw [e]
      refine ih r i size otel w hl hw ?_ hout
      intro x hx
      rcases List.mem_cons.1 (hall x hx) with h | h
      · exfalso; apply hid; rw [← h]
      · exact h

end Opsqueue.Machine
