import Verif.Props.EndToEnd

/-!
# C93: inputs and results do not change

Histories of producers, server, consumers and object store together, as for C47 and C48.
-/

namespace Opsqueue.EndToEnd
open ObjectStore (Store PutResult chunkPath Plain retrieveChunk)
open Python (PyChunk Format PyErr)

/-- The event is the end of an execution of the chunk of index `i` of the submission with prefix `p`: its output is stored. -/
def Executes (w : World) (e : Ev) (p : String) (i : ChunkIndex) : Prop :=
  ∃ k n put job, e = .finish k n put ∧ w.jobs[k]? = some job ∧ job.chunk.submissionPrefix = some p ∧
    job.chunk.chunkIndex = i

theorem run_append (base : List Char) (callback : Bytes → List Bytes) (ttl m : Nat) (h h' : List Ev) :
    run base callback ttl m (h ++ h') = exec base callback (run base callback ttl m h) h' := by
  unfold run exec; rw [List.foldl_append]

theorem exec_calls (base : List Char) (callback : Bytes → List Bytes) (w : World) (h : List Ev) :
    ∃ ops, (exec base callback w h).server.calls = w.server.calls ++ ops := by
  induction h generalizing w with
  | nil => exact ⟨[], (List.append_nil _).symm⟩
  | cons e h ih =>
    obtain ⟨o1, h1⟩ := calls_step base callback w e
    obtain ⟨o2, h2⟩ := ih (step base callback w e)
    refine ⟨o1 ++ o2, ?_⟩
    rw [show exec base callback w (e :: h) = exec base callback (step base callback w e) h from rfl, h2, h1,
      List.append_assoc]

theorem fresh_prefix {base : List Char} {callback : Bytes → List Bytes} {ttl m : Nat} {h h' : List Ev}
    (hf : FreshIds (run base callback ttl m (h ++ h')).server.calls) :
    FreshIds (run base callback ttl m h).server.calls := by
  rw [run_append] at hf
  obtain ⟨ops, e⟩ := exec_calls base callback (run base callback ttl m h) h'
  rw [e] at hf
  exact hf.prefix

/-- An output changes only by an execution of its chunk. -/
theorem output_step {base : List Char} {callback : Bytes → List Bytes} {w : World} (hi : Inv base callback w) {e : Ev}
    {p : String} {i : ChunkIndex} (hp : Plain p) (hne : ¬ Executes w e p i) :
    (step base callback w e).store.get (chunkPath base p i .output) = w.store.get (chunkPath base p i .output) := by
  cases e with
  | upload k put =>
    simp only [step, upload]
    split
    · rename_i t hk
      split
      · rename_i content _ _
        have := get_storeChunk base w.store ⟨t.pfx, t.done, .input, content⟩ put (chunkPath base p i .output)
        have hno : chunkPath base t.pfx t.done .input ≠ chunkPath base p i .output := fun e => by
          have := (ObjectStore.chunkPath_inj base (hi.plain t (List.mem_of_getElem? hk)) hp e).2.2
          cases this
        split <;>
        · rename_i hs
          rw [hs] at this
          exact this.elim (fun e => e) (fun e => absurd e.1 hno)
      · rfl
    · rfl
  | finish k n put =>
    simp only [step]
    split
    · rename_i job hk
      split
      · rename_i output _
        dsimp only
        unfold Python.completeChunk
        cases hq : job.chunk.submissionPrefix with
        | none => rfl
        | some q =>
          dsimp only
          have := get_storeChunk base w.store ⟨q, job.chunk.chunkIndex, .output, output⟩ put (chunkPath base p i .output)
          have hno : chunkPath base q job.chunk.chunkIndex .output ≠ chunkPath base p i .output := fun e => by
            obtain ⟨a, now, o, -, -, hcase⟩ := hi.jobs job (List.mem_of_getElem? hk)
            rcases hcase with ⟨q', hq', -, hpl, -⟩ | ⟨hq', -⟩
            · rw [hq] at hq'; cases hq'
              have h2 := ObjectStore.chunkPath_inj base hpl hp e
              exact hne ⟨k, n, put, job, rfl, hk, hq.trans (by rw [h2.1]), h2.2.1⟩
            · rw [hq] at hq'; cases hq'
          split <;>
          · rename_i hs
            rw [hs] at this
            exact this.elim (fun e => e) (fun e => absurd e.1 hno)
      · rfl
    · rfl
  | _ =>
    simp only [step]
    repeat' split
    all_goals rfl

/-- **C93** (in full; false). The results of a completed submission do not change. -/
def C93_full : Prop :=
  ∀ (base : List Char) (callback : Bytes → List Bytes) (ttl m : Nat) (h h' : List Ev) (id : SubmissionId)
    (s : SubmissionCompleted) (p : String) (i : ChunkIndex),
    FreshIds (run base callback ttl m (h ++ h')).server.calls →
    statusAt (run base callback ttl m h).server.db id = .ok (some (.completed s)) → s.pfx = some p → i < s.chunksTotal →
    retrieveChunk base (run base callback ttl m (h ++ h')).store p i .output =
      retrieveChunk base (run base callback ttl m h).store p i .output

/-- **C93** (inputs). From the moment the submission is known to the server its inputs are in the store, and they never
change. -/
theorem C93_inputs_never_change (base : List Char) (callback : Bytes → List Bytes) (ttl m : Nat) (h h' : List Ev)
    (hf : FreshIds (run base callback ttl m (h ++ h')).server.calls) (id : SubmissionId) (st : SubmissionStatus)
    (p : String) (chunks : List Bytes) (hs : Started h p chunks)
    (hst : statusAt (run base callback ttl m h).server.db id = .ok (some st)) (hp : st.pfx = some p) (i : ChunkIndex)
    (b : Bytes) (hb : chunks[i]? = some b) :
    retrieveChunk base (run base callback ttl m (h ++ h')).store p i .input = .ok b := by
  have hi := run_inv base callback ttl m (h ++ h') hf
  have hfp := fresh_prefix hf
  obtain ⟨ttl', m', acts, hserver⟩ := (run_inv base callback ttl m h hfp).reach
  have hdb : (run base callback ttl m h).server.db = Opsqueue.run (run base callback ttl m h).server.calls := by
    rw [hserver]; exact Server.db_run ttl' m' acts
  rw [hdb] at hst
  obtain ⟨a, now, o, hm, -, hpfx, -⟩ := C21_attributes_partial _ hfp id _ hst
  obtain ⟨ops, e⟩ := exec_calls base callback (run base callback ttl m h) h'
  have hm' : Op.insert a now o ∈ (run base callback ttl m (h ++ h')).server.calls := by
    rw [run_append, e]; exact List.mem_append_left _ hm
  obtain ⟨t, ht, h1, h2, -⟩ := hi.inserts a now o p hm' (hpfx.symm.trans hp)
  have hs' : Started (h ++ h') p chunks := by
    obtain ⟨h0, h1, h2, e, hn⟩ := hs
    exact ⟨h0, h1, h2 ++ h', by rw [e]; simp, hn⟩
  obtain ⟨u, hu, e1, e2⟩ := task_of_started hs' base callback ttl m
  cases same_task hi.distinct hu ht (e1.trans h1.symm)
  have hlt := (List.getElem?_eq_some_iff.1 hb).1
  have := (hi.inputs t ht).2 i (by rw [h2, e2]; exact hlt)
  rw [e1, e2, hb] at this
  unfold retrieveChunk
  rw [this]

/-- **C93** (executions). Every execution of a chunk, whoever makes it and however often the chunk has been tried, gets the input
that the producer had for it. -/
theorem C93_executions_get_the_input (base : List Char) (callback : Bytes → List Bytes) (ttl m : Nat) (h : List Ev)
    (hf : FreshIds (run base callback ttl m h).server.calls) (p : String) (chunks : List Bytes) (hs : Started h p chunks)
    (job : Job) (hj : job ∈ (run base callback ttl m h).jobs) (hp : job.chunk.submissionPrefix = some p) :
    chunks[job.chunk.chunkIndex]? = some job.chunk.inputContent := by
  have hi := run_inv base callback ttl m h hf
  obtain ⟨a, now, o, -, -, hcase⟩ := hi.jobs job hj
  rcases hcase with ⟨q, hq, -, -, t, ht, h1, h2⟩ | ⟨hq, -⟩
  · rw [hp] at hq; cases hq
    obtain ⟨u, hu, e1, e2⟩ := task_of_started hs base callback ttl m
    cases same_task hi.distinct hu ht (e1.trans h1.symm)
    rw [← e2]; exact h2
  · rw [hp] at hq; cases hq

/-- **C93** (partial: as long as the chunk is not executed once more). An output is changed only by the end of an execution of
its own chunk. -/
theorem C93_without_late_executions_partial (base : List Char) (callback : Bytes → List Bytes) (ttl m : Nat) (h h' : List Ev)
    (id : SubmissionId) (s : SubmissionCompleted) (p : String) (i : ChunkIndex)
    (hf : FreshIds (run base callback ttl m (h ++ h')).server.calls)
    (hst : statusAt (run base callback ttl m h).server.db id = .ok (some (.completed s))) (hp : s.pfx = some p)
    (hquiet : ∀ a e b, h' = a ++ e :: b → ¬ Executes (run base callback ttl m (h ++ a)) e p i) :
    retrieveChunk base (run base callback ttl m (h ++ h')).store p i .output =
      retrieveChunk base (run base callback ttl m h).store p i .output := by
  have hi0 := run_inv base callback ttl m h (fresh_prefix hf)
  obtain ⟨⟨t, ht, e, -⟩, -⟩ := completed_outputs hi0 (fresh_prefix hf) hst hp
  have hpl : Plain p := e ▸ hi0.plain t ht
  suffices hg : (run base callback ttl m (h ++ h')).store.get (chunkPath base p i .output) =
      (run base callback ttl m h).store.get (chunkPath base p i .output) by
    unfold retrieveChunk; rw [hg]
  clear hst ht hi0
  induction h' using snoc_induction with
  | nil => rw [List.append_nil]
  | snoc h' e ih =>
    rw [← List.append_assoc] at hf ⊢
    have hfp : FreshIds (run base callback ttl m (h ++ h')).server.calls := fresh_prefix hf
    rw [run_snoc]
    rw [output_step (run_inv base callback ttl m (h ++ h') hfp) hpl (hquiet h' e [] rfl)]
    exact ih hfp (fun a e' b he => hquiet a e' (b ++ [e]) (by rw [he]; simp))

/-- **C93** (partial: if the callback gives the same result whenever it is given the same input). The results of a completed
submission do not change. -/
theorem C93_deterministic_partial (base : List Char) (callback : Bytes → List Bytes) (ttl m : Nat) (h h' : List Ev)
    (id : SubmissionId) (s : SubmissionCompleted) (p : String) (i : ChunkIndex)
    (hdet : ∀ input a b, a ∈ callback input → b ∈ callback input → a = b)
    (hf : FreshIds (run base callback ttl m (h ++ h')).server.calls)
    (hst : statusAt (run base callback ttl m h).server.db id = .ok (some (.completed s))) (hp : s.pfx = some p)
    (hlt : i < s.chunksTotal) :
    retrieveChunk base (run base callback ttl m (h ++ h')).store p i .output =
      retrieveChunk base (run base callback ttl m h).store p i .output := by
  have hi0 := run_inv base callback ttl m h (fresh_prefix hf)
  have hi := run_inv base callback ttl m (h ++ h') hf
  obtain ⟨⟨t, ht, e, -⟩, hout⟩ := completed_outputs hi0 (fresh_prefix hf) hst hp
  have hpl : Plain p := e ▸ hi0.plain t ht
  obtain ⟨b, hb⟩ := hout i hlt
  have hstill : ∀ l w, (∃ b, w.store.get (chunkPath base p i .output) = some b) →
      ∃ b, (exec base callback w l).store.get (chunkPath base p i .output) = some b := by
    intro l
    induction l with
    | nil => exact fun w h => h
    | cons e l ih =>
      intro w hb
      exact ih _ (store_persists hb)
  obtain ⟨b', hb'⟩ := hstill h' _ ⟨b, hb⟩
  rw [← run_append] at hb'
  obtain ⟨t1, ht1, e1, c1, hc1, hm1⟩ := hi0.outputs p i b hpl hb
  obtain ⟨t2, ht2, e2, c2, hc2, hm2⟩ := hi.outputs p i b' hpl hb'
  obtain ⟨t3, ht3, e3, e4⟩ := tasks_persist (base := base) (callback := callback) h' ht1
  rw [← run_append] at ht3
  cases same_task hi.distinct ht2 ht3 (by rw [e2, e3, e1])
  rw [e4, hc1] at hc2
  cases hc2
  have := hdet c1 b b' hm1 hm2
  subst this
  unfold retrieveChunk
  rw [hb, hb']

/-- A callback whose result is not determined by its input (it looks at the clock, say). -/
def either (_ : Bytes) : List Bytes := [[1], [2]]

/-- A consumer takes so long that its reservation expires; another one executes the chunk and completes the submission. -/
def overtaken : List Ev :=
  let req (n : Nat) : Conn.Request := { nonce := n, max := 1, strategy := .newest }
  let view (c : Server.ConnId) : Ev :=
    .server (.request c (req 1) { offset := 0, reserved := fun _ => false, counts := fun _ => [] })
  [.start "u1" [[7]], .upload 0 .ok, .submit 0 { id := 7, contents := [] } 10 [], .server (.connect 1), view 1,
   .server (.row 1), .server (.join 1), .take 0 true, .server (.tick (.advance 100)), .server (.tick .runPendingTasks),
   .server (.connect 2), view 2, .server (.row 2), .server (.join 2), .take 1 true, .finish 1 0 .ok, .send 1 2,
   .server (.handle true 11 12 13 []), .server (.release true)]

def overtakenResult : SubmissionCompleted :=
  { id := 7, pfx := some "u1", chunksTotal := 1, chunkSize := 1, metadata := none, strategic := [], completedAt := 12, otel := "{}" }

/-- C93 fails: the slow consumer stores its own result when the producer has already been told that the submission is
completed. -/
theorem C93_refuted_by_late_consumer : ¬ C93_full := by
  intro h
  have := h "b".toList either 100 5 overtaken [.finish 0 1 .ok] 7 overtakenResult "u1" 0 (by decide +kernel)
    (by decide +kernel) rfl (by decide +kernel)
  revert this
  decide +kernel

/-- The first result was `[1]`, and the producer that reads late gets `[2]`. -/
example : retrieveChunk "b".toList (run "b".toList either 100 5 overtaken).store "u1" 0 .output = .ok [1] ∧
    retrieveChunk "b".toList (run "b".toList either 100 5 (overtaken ++ [.finish 0 1 .ok])).store "u1" 0 .output = .ok [2] ∧
    retrieveChunk "b".toList (run "b".toList either 100 5 (overtaken ++ [.finish 0 1 .ok])).store "u1" 0 .input = .ok [7] ∧
    Started overtaken "u1" [[7]] ∧ (run "b".toList either 100 5 overtaken).jobs.length = 2 :=
  ⟨by decide +kernel, by decide +kernel, by decide +kernel, ⟨by decide, [], _, rfl, by simp⟩, by decide +kernel⟩

/-- With a callback that adds one to the input, the late consumer stores what is already there; other submissions that are
inserted and executed later do not touch the results, whatever their callback does. -/
example : (∀ input a b, a ∈ (fun x : Bytes => [x.map (· + 1)]) input → b ∈ (fun x : Bytes => [x.map (· + 1)]) input → a = b) ∧
    statusAt (run "b".toList (fun x => [x.map (· + 1)]) 100 5 overtaken).server.db 7 = .ok (some (.completed overtakenResult)) ∧
    retrieveChunk "b".toList (run "b".toList (fun x => [x.map (· + 1)]) 100 5 (overtaken ++ [.finish 0 0 .ok])).store
      "u1" 0 .output = .ok [8] ∧
    (∀ a e b, [Ev.start "u2" [[9]], .upload 1 .ok] = a ++ e :: b →
      ¬ Executes (run "b".toList either 100 5 (overtaken ++ a)) e "u1" 0) := by
  refine ⟨?_, by decide +kernel, by decide +kernel, ?_⟩
  · intro input a b ha hb
    simp at ha hb
    rw [ha, hb]
  · rintro a e b he ⟨k, n, put, job, rfl, -⟩
    have : Ev.finish k n put ∈ [Ev.start "u2" [[9]], .upload 1 .ok] := by rw [he]; simp
    simp at this

end Opsqueue.EndToEnd
