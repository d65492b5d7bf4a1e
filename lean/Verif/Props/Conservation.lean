import Verif.Proofs.Counting

/-!
# C01, C02: conservation of chunks, one state per submission
-/

namespace Opsqueue
open SubmissionDb

/-- **C01.** After any history of calls, under any faults and crashes: while submission `id` is
reported in progress with total `s.chunksTotal`, every index below the total is either in the
backlog exactly once and was never completed, or not in the backlog and was completed by a
complete-chunk call of the history; no other index is in the backlog or was ever completed; and
`chunks_done` is the number of indexes no longer in the backlog. -/
theorem C01_chunks_conserved (ops : List Op) (hf : FreshIds ops) (id : SubmissionId) (s : Submission)
    (h : statusAt (run ops) id = .ok (some (.inProgress s))) :
    (∀ i, i < s.chunksTotal →
      (backlogCount (run ops) ⟨id, i⟩ = 1 ∧ ¬ CompletedIn ops ⟨id, i⟩) ∨
      (backlogCount (run ops) ⟨id, i⟩ = 0 ∧ CompletedIn ops ⟨id, i⟩)) ∧
    (∀ i, s.chunksTotal ≤ i → backlogCount (run ops) ⟨id, i⟩ = 0 ∧ ¬ CompletedIn ops ⟨id, i⟩) ∧
    CountIs (fun i => i < s.chunksTotal ∧ backlogCount (run ops) ⟨id, i⟩ = 0) s.chunksDone := by
  have hI := inv_run hf
  obtain ⟨r, hr, rfl, rfl⟩ := statusAt_inProgress h
  refine ⟨?_, ?_, ?_⟩
  · intro i hi
    by_cases hk : (⟨r.id, i⟩ : ChunkId) ∈ keys (run ops)
    · exact .inl ⟨(backlogCount_one hI).2 hk, fun hc => hc.not_key hf hk⟩
    · exact .inr ⟨backlogCount_zero.2 hk, (comp_run ops hf).sub r hr i hi hk⟩
  · intro i hi
    have hi : r.chunksTotal ≤ i := hi
    refine ⟨backlogCount_zero.2 ?_, ?_⟩
    · intro hk
      obtain ⟨c, hc, e⟩ := List.mem_map.1 hk
      obtain ⟨r', hr', e', hlt⟩ := hI.owner c hc
      have e1 : c.submissionId = r.id := congrArg ChunkId.submissionId e
      have e2 : c.chunkIndex = i := congrArg ChunkId.chunkIndex e
      have := eq_of_key_eq hI.subIds hr hr' (e1.symm.trans e'.symm)
      rw [← this, e2] at hlt
      exact Nat.not_lt.2 hi hlt
    · intro hc
      obtain ⟨a, n, o, hm, hid, hlt⟩ := hc.inserted hf
      obtain ⟨b, n', o', hm', e⟩ := (prov_run ops hf).sub r hr
      have hb : b.id = r.id := by rw [e]; rfl
      have := insert_unique hf hm hm' (hid.trans hb.symm)
      injection this with hab
      have ht : r.chunksTotal = b.contents.length := by rw [e]; rfl
      rw [hab] at hlt
      rw [← ht] at hlt
      exact Nat.not_lt.2 hi hlt
  · have hd := hI.done r hr
    let l := ((run ops).chunks.filter (·.submissionId == r.id)).map (·.chunkIndex)
    have hl : l.Nodup := by
      have hn : (((run ops).chunks.filter (·.submissionId == r.id)).map ChunkRow.key).Nodup :=
        nodup_map_filter hI.chunkKeys _
      have : ((run ops).chunks.filter (·.submissionId == r.id)).map ChunkRow.key =
          l.map (fun i => (⟨r.id, i⟩ : ChunkId)) := by
        simp only [l, List.map_map]
        apply List.map_congr_left
        intro c hc
        have := (List.mem_filter.1 hc).2
        simp only [beq_iff_eq] at this
        simp [ChunkRow.key, this]
      rw [this] at hn
      exact (List.pairwise_map.1 hn).imp (fun hne e => hne (by rw [e]))
    have hb : ∀ i ∈ l, i < r.chunksTotal := by
      intro i hi
      obtain ⟨c, hc, rfl⟩ := List.mem_map.1 hi
      have hc' := List.mem_filter.1 hc
      obtain ⟨r', hr', e', hlt⟩ := hI.owner c hc'.1
      have hs : c.submissionId = r.id := by simpa using hc'.2
      have := eq_of_key_eq hI.subIds hr hr' (hs.symm.trans e'.symm)
      subst this
      exact hlt
    have hc := countIs_compl hl hb
    have hlen : r.chunksTotal - l.length = r.chunksDone := by
      simp only [l, List.length_map]; omega
    rw [hlen] at hc
    refine hc.congr fun i => ?_
    simp only [subView, backlogCount_zero, and_congr_right_iff]
    intro _
    apply not_congr
    simp only [l, List.mem_map, List.mem_filter, beq_iff_eq]
    constructor
    · rintro ⟨c, ⟨hc, hs⟩, rfl⟩
      exact ⟨c, hc, by simp [ChunkRow.key, hs]⟩
    · rintro ⟨c, hc, e⟩
      exact ⟨c, ⟨hc, congrArg ChunkId.submissionId e⟩, congrArg ChunkId.chunkIndex e⟩

/-- A history with a retry, a completion, a crash and an I/O failure, used as a concrete case. -/
def exampleOps : List Op :=
  [ .insert { id := 7, contents := [some [1], some [2], none], strategic := [("k", 3)] } 10 [],
    .insert { id := 9, contents := [some [5]], pfx := some "p" } 10 [],
    .complete ⟨7, 1⟩ (some [9]) 11 12 [],
    .complete ⟨7, 2⟩ (some [9]) 11 12 [.ok, .ok, .crash],
    .fail ⟨7, 0⟩ "oops" 5 13 14 15 [],
    .complete ⟨7, 0⟩ (some [9]) 11 12 [.ok, .fail],
    .cancel 9 20 21 [] ]

example : FreshIds exampleOps ∧ statusAt (run exampleOps) 7 = .ok (some (.inProgress
    { id := 7, pfx := none, chunksTotal := 3, chunksDone := 1, chunkSize := 1, metadata := none,
      strategic := [("k", 3)], otel := "{}" })) ∧
    backlogCount (run exampleOps) ⟨7, 0⟩ = 1 ∧ backlogCount (run exampleOps) ⟨7, 1⟩ = 0 := by
  decide +kernel

/-- **C02.** After any history, there is at most one row about an id in the four submission
tables together, so at most one of the four table look-ups of the status call can find it. -/
theorem C02_one_state (ops : List Op) (hf : FreshIds ops) (id : SubmissionId) :
    occurrences (run ops) id ≤ 1 := by
  have hn := (inv_run hf).ids
  have hc : ∀ (α : Type) (l : List α) (f : α → SubmissionId),
      (l.filter (fun r => f r == id)).length = (l.map f).count id := by
    intro α l f
    induction l with
    | nil => rfl
    | cons x xs ih =>
      simp only [List.filter_cons, List.map_cons, List.count_cons]
      split <;> simp_all
  have : occurrences (run ops) id = (allIds (run ops)).count id := by
    simp only [occurrences, allIds, List.count_append]
    rw [hc _ _ SubmissionRow.id, hc _ _ CompletedRow.id, hc _ _ FailedRow.id, hc _ _ CancelledRow.id]
  rw [this]
  exact List.nodup_iff_count.1 hn id

/-- C02 in terms of the look-ups: no two of them succeed. -/
theorem C02_lookups_exclusive (ops : List Op) (hf : FreshIds ops) (id : SubmissionId) :
    (((Stmt.selectSubmission id (run ops)).isSome.toNat
      + (Stmt.selectCompleted id (run ops)).isSome.toNat
      + (Stmt.selectFailed id (run ops)).isSome.toNat
      + (Stmt.selectCancelled id (run ops)).isSome.toNat) ≤ 1) := by
  have h := C02_one_state ops hf id
  have key : ∀ (α : Type) (l : List α) (p : α → Bool),
      (l.find? p).isSome.toNat ≤ (l.filter p).length := by
    intro α l p
    cases hfd : l.find? p with
    | none => simp
    | some x =>
      have : x ∈ l.filter p := List.mem_filter.2 ⟨List.mem_of_find?_eq_some hfd, List.find?_some hfd⟩
      exact List.length_pos_of_mem this
  simp only [occurrences] at h
  have k1 := key _ (run ops).submissions (·.id == id)
  have k2 := key _ (run ops).submissionsCompleted (·.id == id)
  have k3 := key _ (run ops).submissionsFailed (·.id == id)
  have k4 := key _ (run ops).submissionsCancelled (·.id == id)
  simp only [Stmt.selectSubmission, Stmt.selectCompleted, Stmt.selectFailed, Stmt.selectCancelled,
    Option.isSome_map]
  omega

example : occurrences (run exampleOps) 9 = 1 ∧ occurrences (run exampleOps) 7 = 1 ∧
    occurrences (run exampleOps) 8 = 0 := by
  decide +kernel

end Opsqueue
