import Verif.Proofs.Inherited

/-!
# C99: a server goes on with a database it finds

The database at the start is any that makes sense (`Inherited.Sound`), in particular one that an earlier release wrote, with chunk
sizes and counts that were not stored then.
-/

namespace Opsqueue
open Inherited

/-- **C99.** After any calls, with any faults, the database still makes sense. -/
theorem C99_stays_sound (db : DB) (h : Sound db) (ops : List Op) (hf : FreshIds ops) (hn : NewIds db ops) :
    Sound (runFrom db ops) :=
  sound_of_inv (inv_from h.inv ops hf hn).1

/-- **C99.** A database that this release wrote, starting with none, makes sense. -/
theorem C99_own_is_sound (ops : List Op) (hf : FreshIds ops) : Sound (run ops) := sound_of_inv (inv_run hf)

/-- **C99.** Of each submission id the database found at the start shows a record (`Machine.Record`), and from then on the submission
lives as `C61` says: one can say of each call how much of it happened, as there, such that at every point everything the database
shows about every submission id is what the machine says that starts with that record and is fed with the calls so far. -/
theorem C99_lives (db : DB) (h0 : Sound db) (ops : List Op) (hf : FreshIds ops) (hn : NewIds db ops) (hm : Machine.MapArgs ops) :
    ∃ r : SubmissionId → Machine.Record, (∀ me, Machine.Shows db me (r me)) ∧
    ∃ h : List (Op × Machine.Extent), h.map (·.1) = ops ∧
      (∀ pre op e post, h = pre ++ (op, e) :: post → Machine.Happened (runFrom db (pre.map (·.1))) op e) ∧
      (∀ pre post, h = pre ++ post → ∀ me, Machine.Shows (runFrom db (pre.map (·.1))) me (resume me (r me) pre)) := by
  refine ⟨recordOf db, fun me => Machine.shows_of (sel_recordOf h0.inv me), ?_⟩
  obtain ⟨h, h1, h2, h3⟩ := follow_from h0.inv ops hf hn hm
  exact ⟨h, h1, h3, fun pre post hp me => Machine.shows_of (h2 me pre post hp)⟩

/-- **C99.** The answer to an undisturbed call is determined by the record of the submission it is about: by what the database
shows. -/
theorem C99_answers (db : DB) (h0 : Sound db) (me : SubmissionId) :
    ∃ r : Machine.Record, Machine.Shows db me r ∧
    ∀ op : Op, op.clean = op → op.target = some me ∨ op.target = none → NewIds db [op] → Machine.MapArgs [op] →
      (step db op).1 = r.answer op ∧ Machine.Shows (step db op).2 me (r.apply me op) := by
  have hs := sel_recordOf h0.inv me
  refine ⟨recordOf db me, Machine.shows_of hs, fun op hc ht hn hm => ?_⟩
  have hfr : ∀ a now o, op = .insert a now o → a.id ∉ usedIds db ∧ (a.strategic.map (·.1)).Nodup := by
    rintro a now o rfl
    exact ⟨new_not_used hn List.mem_cons_self rfl, hm a now o List.mem_cons_self⟩
  exact ⟨Machine.answer_all h0.inv hs op hc ht hfr, Machine.shows_of (Machine.step_all h0.inv hs op hc hfr)⟩

/-- **C99.** A submission that the database has in progress, and not all chunks of which are done, can be finished: whatever else is
reported complete in between, once all its chunks are that were to be worked on it is completed, as the same submission, with the new
outputs beside the ones the database had already. -/
theorem C99_can_be_finished (db : DB) (h0 : Sound db) (sub : SubmissionId) (p : Submission)
    (hp : statusAt db sub = .ok (some (.inProgress p))) (hleft : p.chunksDone < p.chunksTotal)
    (ids : List ChunkId) (hids : ∀ i row, chunkAt db ⟨sub, i⟩ = .ok row → ⟨sub, i⟩ ∈ ids) (out : ChunkId → Content) (t : Time) :
    let db' := runFrom db (complete out t ids)
    (∃ q, statusAt db' sub = .ok (some (.completed q)) ∧ q.id = p.id ∧ q.pfx = p.pfx ∧ q.chunksTotal = p.chunksTotal ∧
      q.metadata = p.metadata ∧ q.strategic = p.strategic ∧ q.completedAt = t) ∧
    (∀ i row, chunkAt db ⟨sub, i⟩ = .ok row → chunkCompletedAt db' ⟨sub, i⟩ = .ok ⟨sub, i, out ⟨sub, i⟩, t⟩) ∧
    (∀ i o, chunkCompletedAt db ⟨sub, i⟩ = .ok o → chunkCompletedAt db' ⟨sub, i⟩ = .ok o) := by
  intro db'
  have hI := h0.inv
  have hs := sel_recordOf hI sub
  have hshow := Machine.shows_of hs
  generalize recordOf db sub = r at hs hshow
  have hst := hp.symm.trans hshow.status
  obtain ⟨i, size, otel, w, hl, -, -⟩ := Machine.running_status hst.symm
  have hwait : r.waiting = w := by unfold Machine.Record.waiting; rw [hl]
  simp only [Machine.Record.status, hl, Res.ok.injEq, Option.some.injEq, SubmissionStatus.inProgress.injEq] at hst
  subst hst
  have hwne : w ≠ [] := by
    rintro rfl
    dsimp only [List.length_nil] at hleft
    omega
  have hfind : ∀ x ∈ w, ∃ row, chunkAt db ⟨sub, x.index⟩ = .ok row := by
    intro x hx
    exact ⟨_, (chunkAt_ok_iff hI.chunkKeys).2 ⟨Machine.mem_waiting hs (hwait ▸ hx), rfl⟩⟩
  have o1 : ∀ x ∈ w, (⟨sub, x.index⟩ : ChunkId) ∈ ids := by
    intro x hx
    obtain ⟨row, hrow⟩ := hfind x hx
    exact hids _ row hrow
  have o2 : ∀ o ∈ r.outputs, o.index ∉ w.map (·.index) := by
    intro o ho hmem
    obtain ⟨x, hx, hxo⟩ := List.mem_map.1 hmem
    have hcc : o.row sub ∈ db.chunksCompleted := by
      have : o.row sub ∈ (Machine.sel sub db).chunksCompleted := by
        rw [hs]; exact List.mem_map_of_mem ho
      exact (List.mem_filter.1 this).1
    refine hI.ccDisj _ (Machine.mem_waiting hs (hwait ▸ hx)) _ hcc ?_
    show (⟨sub, o.index⟩ : ChunkId) = ⟨sub, x.index⟩
    rw [hxo]
  obtain ⟨c1, c2⟩ := Machine.completes_all out t ids r i size otel w hl hwne o1 o2
  have hs' : Machine.sel sub db' = Machine.image sub ((Machine.completes out t ids).foldl (Machine.Record.apply sub) r) :=
    record_from _ db r hI hs (Machine.completes_ok out t ids)
  have hshow' := Machine.shows_of hs'
  refine ⟨?_, ?_, ?_⟩
  · have := hshow'.status
    unfold Machine.Record.status at this
    rw [c1] at this
    exact ⟨_, this, rfl, rfl, rfl, rfl, rfl, rfl⟩
  · intro k row hrow
    obtain ⟨hmem, hkey⟩ := (chunkAt_ok_iff hI.chunkKeys).1 hrow
    obtain ⟨x, hx, rfl⟩ := Machine.waiting_mem hs hmem (congrArg ChunkId.submissionId hkey)
    have hk : x.index = k := congrArg ChunkId.chunkIndex hkey
    subst hk
    rw [hshow'.output, Machine.Record.outputOf, c2 x (hwait ▸ hx)]
  · intro k o ho
    rw [hshow.output, Machine.Record.outputOf] at ho
    rw [hshow'.output, Machine.Record.outputOf]
    cases hf : r.outputs.find? (fun o => o.index == k) with
    | none => rw [hf] at ho; cases ho
    | some o' =>
      rw [hf] at ho
      rw [Machine.output_stays out t ids r k o' hf]
      exact ho

/-- A database of an earlier release: chunk sizes and the number of chunks done before a failure were not stored, a completed
submission keeps its trace carrier, and of the failed one only the culprit is recorded. -/
def legacyDb : DB :=
  { submissions := [⟨7, some "s3://b", 3, 1, some [1], "{}", none⟩]
    submissionsCompleted := [⟨3, none, 2, none, 40, "old", none⟩]
    submissionsFailed := [⟨5, none, 4, none, none, 41, 2, "{}", none⟩]
    chunks := [⟨7, 2, some [9], 4⟩, ⟨7, 0, none, 0⟩]
    chunksCompleted := [⟨7, 1, some [8], 42⟩]
    chunksFailed := [⟨5, 2, none, "boom", 41, false⟩]
    submissionsMetadata := [⟨7, "company", 12⟩, ⟨3, "company", 13⟩] }

/-- It makes sense. -/
theorem legacy_sound : Sound legacyDb := by
  constructor <;> decide +kernel

/-- C99 speaks about it: the calls are new, an old submission is finished, one fails, a chunk of one is retried. -/
example :
    let ops : List Op := [.insert { id := 11, contents := [some [1]], strategic := [("company", 12)] } 50 [],
      .complete ⟨7, 2⟩ (some [3]) 51 51 [], .fail ⟨11, 0⟩ "no" 1 52 52 52 [], .complete ⟨7, 0⟩ none 53 53 [], .cleanup 42 []]
    FreshIds ops ∧ (∀ op ∈ ops, op.clean = op) ∧
    statusAt legacyDb 7 = .ok (some (.inProgress
      { id := 7, pfx := some "s3://b", chunksTotal := 3, chunksDone := 1, chunkSize := 1, metadata := some [1],
        strategic := [("company", 12)], otel := "{}" })) ∧
    statusAt (runFrom legacyDb ops) 7 = .ok (some (.completed
      { id := 7, pfx := some "s3://b", chunksTotal := 3, chunkSize := 1, metadata := some [1],
        strategic := [("company", 12)], completedAt := 53, otel := "{}" })) ∧
    chunkCompletedAt (runFrom legacyDb ops) ⟨7, 1⟩ = .ok ⟨7, 1, some [8], 42⟩ ∧
    statusAt (runFrom legacyDb ops) 3 = .ok none ∧ statusAt (runFrom legacyDb ops) 5 = .ok none := by decide +kernel

example : NewIds legacyDb [.insert { id := 11, contents := [some [1]] } 50 []] ∧
    ¬ NewIds legacyDb [.insert { id := 7, contents := [some [1]] } 50 []] := by
  refine ⟨?_, fun h => (h _ _ _ (List.mem_cons_self)).1 (by decide)⟩
  intro a now o h
  simp only [List.mem_singleton, Op.insert.injEq] at h
  obtain ⟨rfl, -, -⟩ := h
  decide +kernel

end Opsqueue
