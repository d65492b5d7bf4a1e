import Verif.Spec.EndToEnd
import Verif.Proofs.Outputs

/-!
# C47, C48: from the operations to the results
-/

namespace Opsqueue.EndToEnd
open ObjectStore (Store PutResult chunkPath Plain retrieveChunk)
open Python (PyChunk Format PyErr)

/-! ### C48 -/

/-- **C48.** Whenever the status of a submission that was inserted through the object store (it has a prefix) is
completed, the output of every one of its chunks can be retrieved from the object store: for every history of
producers, server and consumers, with crashes of any of them at any point, and whatever the callback returns. -/
theorem C48_completed_has_outputs (base : List Char) (callback : Bytes → List Bytes) (ttl maxRetries : Nat)
    (h : List Ev) (hf : FreshIds (run base callback ttl maxRetries h).server.calls) (id : SubmissionId)
    (s : SubmissionCompleted) (p : String)
    (hst : statusAt (run base callback ttl maxRetries h).server.db id = .ok (some (.completed s)))
    (hp : s.pfx = some p) (i : ChunkIndex) (hi : i < s.chunksTotal) :
    ∃ b, retrieveChunk base (run base callback ttl maxRetries h).store p i .output = .ok b := by
  obtain ⟨b, hb⟩ := (completed_outputs (run_inv base callback ttl maxRetries h hf) hf hst hp).2 i hi
  refine ⟨b, ?_⟩
  unfold retrieveChunk
  rw [hb]

/-- **C48, what the outputs are.** At any time, an output found in the object store under the prefix given to some
producer is a result of the callback for the input chunk that this producer had at this index. -/
theorem C48_outputs_are_results (base : List Char) (callback : Bytes → List Bytes) (ttl maxRetries : Nat)
    (h : List Ev) (hf : FreshIds (run base callback ttl maxRetries h).server.calls) (p : String) (chunks : List Bytes)
    (hs : Started h p chunks) (i : ChunkIndex) (b : Bytes)
    (hb : retrieveChunk base (run base callback ttl maxRetries h).store p i .output = .ok b) :
    ∃ input, chunks[i]? = some input ∧ b ∈ callback input := by
  have hi := run_inv base callback ttl maxRetries h hf
  have hget : (run base callback ttl maxRetries h).store.get (chunkPath base p i .output) = some b := by
    unfold retrieveChunk at hb
    split at hb
    · cases hb; assumption
    · cases hb
  obtain ⟨t, ht, e1, e2⟩ := task_of_started hs base callback ttl maxRetries
  obtain ⟨u, hu, h1, c, h2, h3⟩ := hi.outputs p i b hs.1 hget
  have := same_task hi.distinct hu ht (h1.trans e1.symm)
  subst this
  exact ⟨c, e2 ▸ h2, h3⟩

/-! ### C47 -/

/-- **C47.** A producer splits the operations `ops` into chunks of `k` and inserts them; consumers apply `g` to every
operation. If at some time the status of that submission is completed, then `g` did not raise for any of the
operations, and the producer that gets this answer and then iterates over the results (reading the `i`-th output at
some later time, after the further history `later i`) gets exactly the results of `g`, in the order of the operations,
and no error. This holds for every interleaving of everybody's steps: chunks executed several times, failed, retried,
given to several consumers, reports repeated or lost, crashes, other submissions in between. -/
theorem C47_results_in_order {α : Type} (F : Format α) (hF : F.Faithful) (g : α → Except PyErr α)
    (base : List Char) (ttl maxRetries : Nat) (k : Int) (ops : List α) (chunks : List Bytes)
    (hchunks : Python.chunkIterator F k ops = some (chunks.map .ok)) (h : List Ev) (later : Nat → List Ev)
    (hf : FreshIds (run base (applying F g) ttl maxRetries h).server.calls)
    (hf' : ∀ i, FreshIds (run base (applying F g) ttl maxRetries (h ++ later i)).server.calls)
    (p : String) (hs : Started h p chunks) (id : SubmissionId) (s : SubmissionCompleted)
    (hst : statusAt (run base (applying F g) ttl maxRetries h).server.db id = .ok (some (.completed s)))
    (hp : s.pfx = some p) :
    ∃ rs, ops.map g = rs.map .ok ∧
      results F base (.ok (some (.completed s)))
        (fun i => (run base (applying F g) ttl maxRetries (h ++ later i)).store) = some (rs, none) := by
  have hi := run_inv base (applying F g) ttl maxRetries h hf
  obtain ⟨⟨t, ht, htp, htl⟩, houts⟩ := completed_outputs hi hf hst hp
  obtain ⟨u, hu, hup, huc⟩ := task_of_started hs base (applying F g) ttl maxRetries
  cases same_task hi.distinct hu ht (hup.trans htp.symm)
  rw [huc] at htl
  -- the outputs read later
  have hread : ∀ i, i < chunks.length → ∃ b,
      retrieveChunk base (run base (applying F g) ttl maxRetries (h ++ later i)).store p i .output = .ok b := by
    intro i hlt
    have hstill : ∀ l w, (∃ b, w.store.get (chunkPath base p i .output) = some b) →
        ∃ b, (exec base (applying F g) w l).store.get (chunkPath base p i .output) = some b := by
      intro l
      induction l with
      | nil => exact fun w h => h
      | cons e l ih =>
        intro w hb
        exact ih _ (store_persists hb)
    obtain ⟨b, hb⟩ := hstill (later i) _ (houts i (htl ▸ hlt))
    refine ⟨b, ?_⟩
    unfold retrieveChunk
    have : run base (applying F g) ttl maxRetries (h ++ later i) =
        exec base (applying F g) (run base (applying F g) ttl maxRetries h) (later i) := by
      unfold run exec; rw [List.foldl_append]
    rw [this, hb]
  -- groups
  have hk : ¬ k ≤ 0 := by
    intro hk
    unfold Python.chunkIterator at hchunks
    rw [if_pos hk] at hchunks
    cases hchunks
  obtain ⟨groups, hg1, _, hg3, _⟩ := Python.C46_chunking_roundtrip F hF k (by omega) ops
  rw [hchunks] at hg1
  have hg1 := Option.some.inj hg1
  obtain ⟨rss, hr1, hr2⟩ := gather hF g groups chunks hg1.symm
    ((List.range chunks.length).map fun i =>
      readOutput base (run base (applying F g) ttl maxRetries (h ++ later i)).store p i) (by simp) (by
      intro i input hin
      have hlt := (List.getElem?_eq_some_iff.1 hin).1
      obtain ⟨b, hb⟩ := hread i hlt
      refine ⟨b, ?_, ?_⟩
      · rw [List.getElem?_map, List.getElem?_range hlt, Option.map_some, readOutput, hb]
      · have hs' : Started (h ++ later i) p chunks := by
          obtain ⟨h0, h1, h2, e, hn⟩ := hs
          exact ⟨h0, h1, h2 ++ later i, by rw [e]; simp, hn⟩
        obtain ⟨input', hin', hmem⟩ := C48_outputs_are_results base (applying F g) ttl maxRetries _ (hf' i) p chunks
          hs' i b hb
        rw [hin] at hin'
        cases hin'
        exact hmem)
  refine ⟨rss.flatten, by rw [← hg3]; exact hr1, ?_⟩
  simp only [results, Python.maybeStream, hp, Option.getD_some]
  rw [← htl, hr2, Python.unchunk_map F hF]

/-! ### An example -/

/-- Add one; raises for 9. -/
def addOne (x : UInt8) : Except PyErr UInt8 := if x = 9 then .error ⟨"nine"⟩ else .ok (x + 1)

/-- A producer inserts five operations in chunks of two; one consumer takes all three chunks, fails the second and
executes the first twice; a server crash in the middle of a completion makes it start again, another consumer gets the
two chunks that are left. In between another producer gives up after a failed `put`. -/
def exampleHistory : List Ev :=
  let req (n max : Nat) : Conn.Request := { nonce := n, max, strategy := .newest }
  let view (c : Server.ConnId) (r : Conn.Request) : Ev :=
    .server (.request c r { offset := 0, reserved := fun _ => false, counts := fun _ => [] })
  [.start "u1" [[1, 2], [3, 4], [5]], .upload 0 .ok, .start "u2" [[7]], .upload 0 .ok, .upload 1 (.failed true),
   .submit 1 { id := 8, contents := [] } 9 [], .upload 0 .ok,
   .submit 0 { id := 7, contents := [] } 10 [], .server (.connect 1), view 1 (req 1 3),
   .server (.row 1), .server (.join 1), .server (.row 1), .server (.join 1), .server (.row 1), .server (.join 1),
   .take 0 true, .take 1 false, .take 1 true, .take 0 true, .finish 0 0 .ok, .finish 1 0 (.failed true),
   .server (.report 1 (.fail ⟨7, 1⟩ "oops")), .send 0 1, .finish 2 0 .ok, .send 2 1,
   .server (.handle true 11 12 13 []), .server (.release true), .server (.handle true 14 15 16 []),
   .server (.release true), .server (.handle true 17 18 19 [.crashLate]),
   .server (.connect 2), view 2 (req 2 5), .server (.row 2), .server (.join 2), .server (.row 2), .server (.join 2),
   .server (.row 2), .take 3 true, .take 4 true, .finish 3 0 .ok, .finish 4 0 .ok, .send 3 2, .send 4 2,
   .server (.handle true 20 21 22 []), .server (.release true), .server (.handle true 23 24 25 [])]

example : Started exampleHistory "u1" [[1, 2], [3, 4], [5]] := ⟨by decide, [], _, rfl, by simp⟩

example :
    let w := run "b".toList (applying Python.byteFormat addOne) 100 5 exampleHistory
    let s : SubmissionCompleted :=
      { id := 7, pfx := some "u1", chunksTotal := 3, chunkSize := 1, metadata := none, strategic := [], completedAt := 24
        otel := "{}" }
    Python.chunkIterator Python.byteFormat 2 [1, 2, 3, 4, 5] = some ([[1, 2], [3, 4], [5]].map .ok) ∧
    FreshIds w.server.calls ∧ statusAt w.server.db 7 = .ok (some (.completed s)) ∧
    results Python.byteFormat "b".toList (.ok (some (.completed s))) (fun _ => w.store) = some ([2, 3, 4, 5, 6], none) ∧
    retrieveChunk "b".toList w.store "u1" 2 .output = .ok [6] ∧
    retrieveChunk "b".toList w.store "u2" 0 .output = .error () ∧
    -- chunk 0 was executed twice, chunk 1 was given out twice
    w.jobs.map (·.chunk.chunkIndex) = [0, 1, 0, 1, 2] ∧ w.server.calls.length = 6 := by
  decide +kernel

/-- **C47, no results too early.** There is a stream of results only when the submission was reported completed; in
particular a submission in progress, failed, cancelled or unknown has no (empty) results. -/
theorem C47_results_only_if_completed {α : Type} (F : Format α) (base : List Char) (answer : Python.Answer)
    (stores : Nat → Store) : (results F base answer stores).isSome = true ↔ ∃ s, answer = .ok (some (.completed s)) := by
  rcases answer with _ | _ | ⟨_ | _ | _ | _⟩ <;> simp [results, Python.maybeStream]

end Opsqueue.EndToEnd
