import Verif.Proofs.Reads
import Verif.Proofs.StatusReads
import Verif.Props.Atomicity

/-!
# C14, C15, C18, C19, C20: what readers see

For C14 a status call performs its table reads at four successive moments, given by the histories
`xs`, `xs ++ y1`, `xs ++ y1 ++ y2`, `xs ++ y1 ++ y2 ++ y3`: arbitrary calls, with arbitrary faults,
happen in between. (The last read is either of the failed chunk or of the cancelled submissions.)
-/

namespace Opsqueue
open SubmissionDb

/-- The answer of a status call on a reader connection whose reads see these four moments. -/
def concurrentStatus (id : SubmissionId) (xs y1 y2 y3 : List Op) :
    Except DbErr (Option SubmissionStatus) :=
  statusReads id (run xs) (run (xs ++ y1)) (run (xs ++ (y1 ++ y2)))
    (run (xs ++ (y1 ++ y2 ++ y3))) (run (xs ++ (y1 ++ y2 ++ y3)))

/-- **C14.** Whatever happens between its reads: if the call returns an answer (a status, or none),
then there is a moment during the call at which an undisturbed status call returns exactly this. -/
theorem C14_status_was_true_at_some_moment (id : SubmissionId) (xs y1 y2 y3 : List Op)
    (hf : FreshIds (xs ++ (y1 ++ y2 ++ y3))) (r : Option SubmissionStatus)
    (h : concurrentStatus id xs y1 y2 y3 = .ok r) :
    ∃ zs, zs <+: y1 ++ y2 ++ y3 ∧ statusAt (run (xs ++ zs)) id = .ok r := by
  rcases status_moment id xs y1 y2 y3 hf r h with h | h | h | h
  · exact ⟨[], ⟨_, rfl⟩, by rw [List.append_nil]; exact h⟩
  · exact ⟨y1, ⟨y2 ++ y3, by simp⟩, h⟩
  · exact ⟨y1 ++ y2, ⟨y3, rfl⟩, h⟩
  · exact ⟨y1 ++ y2 ++ y3, ⟨[], by simp⟩, h⟩

/-- C14, second part: a submission that is known when the call begins, with no cleanup during the
call, is never missed: the call succeeds with the status the submission had at the beginning. -/
theorem C14_known_never_missed (id : SubmissionId) (xs y1 y2 y3 : List Op)
    (hf : FreshIds (xs ++ (y1 ++ y2 ++ y3))) (st : SubmissionStatus)
    (h : statusAt (run xs) id = .ok (some st))
    (hn : ∀ op ∈ y1 ++ y2 ++ y3, op.isCleanup = false) :
    concurrentStatus id xs y1 y2 y3 = .ok (some st) := by
  have f2 : FreshIds (xs ++ (y1 ++ y2)) := FreshIds.prefix (ys := y3) (by simpa using hf)
  have f1 : FreshIds (xs ++ y1) := FreshIds.prefix (ys := y2) (by simpa using f2)
  have f0 : FreshIds xs := f1.prefix
  have hI0 := inv_run f0
  have hI1 := inv_run f1
  have hI2 := inv_run f2
  have hI3 := inv_run hf
  have n1 : ¬ ∃ op ∈ y1, op.isCleanup = true := by
    rintro ⟨op, ho, e⟩; rw [hn op (by simp [ho])] at e; cases e
  have n2 : ¬ ∃ op ∈ y1 ++ y2, op.isCleanup = true := by
    rintro ⟨op, ho, e⟩; rw [hn op (List.mem_append_left _ ho)] at e; cases e
  have n3 : ¬ ∃ op ∈ y1 ++ y2 ++ y3, op.isCleanup = true := by
    rintro ⟨op, ho, e⟩; rw [hn op ho] at e; cases e
  unfold concurrentStatus statusReads
  cases st with
  | inProgress s =>
    obtain ⟨r, hr, rfl, rfl⟩ := statusAt_inProgress h
    rw [select_sub hI0 hr]
  | completed s =>
    obtain ⟨r, hr, rfl, rfl⟩ := statusAt_completed h
    rcases comp_stable f1 hr with h1 | ⟨hc, _⟩
    · rw [selectSubmission_none.2 (not_sub_of_comp hI0 (List.mem_map_of_mem hr)), select_comp hI1 h1]
      simp only [compView, strategic_stable f1 (mem_allIds_comp hr) (mem_allIds_comp h1)]
    · exact absurd hc n1
  | failed s c =>
    obtain ⟨r, hr, rfl, rfl, d, hd, hk, rfl⟩ := statusAt_failed h
    rcases failedChunk_stable f2 hr hd hk with ⟨h1, _⟩ | ⟨hc, _⟩ | ⟨hc, _⟩
    · rcases failedChunk_stable hf hr hd hk with ⟨_, h2⟩ | ⟨hc, _⟩ | ⟨hc, _⟩
      · rcases fail_stable f1 hr with h0 | ⟨hc, _⟩
        · rw [selectSubmission_none.2 (not_sub_of_fail hI0 (List.mem_map_of_mem hr)),
            selectCompleted_none.2 (fun hx => hI1.comp_fail hx (List.mem_map_of_mem h0)),
            select_fail hI2 h1]
          simp only [failView, strategic_stable f2 (mem_allIds_fail hr) (mem_allIds_fail h1)]
          rw [← hk, select_chunkFailed hI3 h2]
        · exact absurd hc n1
      · exact absurd hc n3
      · exact absurd hc n3
    · exact absurd hc n2
    · exact absurd hc n2
  | cancelled s =>
    obtain ⟨r, hr, rfl, rfl⟩ := statusAt_cancelled h
    rcases canc_stable f1 hr with h1 | ⟨hc, _⟩
    · rcases canc_stable f2 hr with h2 | ⟨hc, _⟩
      · rcases canc_stable hf hr with h3 | ⟨hc, _⟩
        · rw [selectSubmission_none.2 (not_sub_of_canc hI0 (List.mem_map_of_mem hr)),
            selectCompleted_none.2 (fun hx => hI1.comp_canc hx (List.mem_map_of_mem h1)),
            selectFailed_none.2 (fun hx => hI2.fail_canc hx (List.mem_map_of_mem h2)),
            select_canc hI3 h3]
          simp only [cancView, strategic_stable hf (mem_allIds_canc hr) (mem_allIds_canc h3)]
        · exact absurd hc n3
      · exact absurd hc n2
    · exact absurd hc n1

/-- A status read is crossed by other calls, and by a cleanup that removes the submission; a cleanup between the last
two reads makes it end in a missing-row error although no answer was wrong (so "never an error" is
not claimed by C14). -/
example :
    FreshIds (exampleFailed ++ ([] ++ [] ++ exampleAfter)) ∧
    concurrentStatus 7 exampleFailed [] [] exampleAfter = .ok (some exampleFailedStatus) ∧
    (exampleAfter.any Op.isCleanup) = true ∧
    concurrentStatus 7 exampleFailed [] [] [.cleanup 50 []] = .error .rowNotFound ∧
    concurrentStatus 7 exampleFailed [.cleanup 50 []] [] [] = .ok none := by
  decide +kernel

/-! ### C15 -/

/-- **C15**, under the assumption that within each failure report the second clock reading is not
before the first: after any history a status call never ends in an error, and the status of every
failed submission shows the chunk that made it fail.

What is missing: without the assumption on the clock the claim is false of the program
(`C15_refuted_for_backward_clock`); and for status calls on a reader connection, whose reads see
different moments, it is false too (example below). -/
theorem C15_failed_shows_chunk_partial (ops : List Op) (hf : FreshIds ops)
    (hc : ∀ op ∈ ops, op.ClockOk) (id : SubmissionId) :
    (∀ e, statusAt (run ops) id ≠ .err e) ∧
    (∀ s c, statusAt (run ops) id = .ok (some (.failed s c)) →
      c.submissionId = id ∧ c.chunkIndex = s.failedChunkId ∧
      chunkFailedAt (run ops) ⟨id, s.failedChunkId⟩ = .ok c) := by
  refine ⟨statusAt_no_err hf hc id, ?_⟩
  intro s c h
  obtain ⟨r, hr, rfl, rfl, d, hd, hk, rfl⟩ := statusAt_failed h
  have h1 : d.submissionId = r.id := congrArg ChunkId.submissionId hk
  have h2 : d.chunkIndex = r.failedChunkId := congrArg ChunkId.chunkIndex hk
  refine ⟨h1, h2, ?_⟩
  have := (chunkFailedAt_ok (inv_run hf).cfKeys hd).1
  rw [hk] at this
  exact this

example : FreshIds (exampleFailed ++ exampleAfter) ∧
    (∀ op ∈ exampleFailed ++ exampleAfter, op.ClockOk) ∧
    statusAt (run (exampleFailed ++ exampleAfter)) 7 = .ok (some exampleFailedStatus) := by
  refine ⟨by decide +kernel, ?_, by decide +kernel⟩
  simp [exampleFailed, exampleAfter, Op.ClockOk]

/-- C15: under the same assumption the failed chunk that a status shows is not dated before the submission. -/
theorem C15_dates (ops : List Op) (hf : FreshIds ops) (hc : ∀ op ∈ ops, op.ClockOk) (id : SubmissionId)
    (st : SubmissionStatus) (h : statusAt (run ops) id = .ok (some st)) : st.DatesOk := by
  cases st with
  | failed s c =>
    obtain ⟨r, hr, rfl, rfl, d, hd, hk, rfl⟩ := statusAt_failed h
    obtain ⟨d', hd', hk', hle⟩ := failedDates_run ops hf hc r hr
    have := eq_of_key_eq (inv_run hf).cfKeys hd hd' (hk.trans hk'.symm)
    subst this
    exact hle
  | _ => trivial

/-- The full statement of C15 is false of the program: the clock is read once for the submission and
once for the chunk; if it is set back in between, a cleanup may remove the chunk and keep the
submission, whose status is an error from then on. -/
theorem C15_refuted_for_backward_clock :
    ¬ ∀ (ops : List Op), FreshIds ops → ∀ id e, statusAt (run ops) id ≠ .err e := by
  intro h
  refine h [.insert { id := 7, contents := [some [1]] } 10 [],
    .fail ⟨7, 0⟩ "oops" 1 20 15 21 [], .cleanup 18 []] (by decide +kernel) 7 .rowNotFound ?_
  decide +kernel

/-! ### C18 -/

/-- The answer of an undisturbed lookup by strategic metadata. -/
def lookupAt (db : DB) (kvs : StrategicMetadata) (max : Nat) :
    Res (E DbErr TooManyMatchingSubmissions) (List SubmissionId) :=
  (lookupIdsByStrategicMetadata kvs max ⟨[], db⟩).1

/-- The submission is in progress and has all the key/value pairs. -/
def Matches (db : DB) (kvs : StrategicMetadata) (id : SubmissionId) : Prop :=
  ∃ s, InProgressAt db id s ∧ ∀ kv ∈ kvs, kv ∈ s.strategic

/-- **C18.** There are `n` matching submissions; if `n ≤ max` the lookup returns exactly their ids in
strictly increasing order, otherwise the too-many error carrying `max`. For `kvs = []` all
submissions in progress match. -/
theorem C18_metadata_lookup (ops : List Op) (hf : FreshIds ops) (kvs : StrategicMetadata) (max : Nat) :
    ∃ n, CountIs (Matches (run ops) kvs) n ∧
      ((n ≤ max ∧ ∃ ids, lookupAt (run ops) kvs max = .ok ids ∧ ids.Pairwise (· < ·) ∧
          ∀ id, id ∈ ids ↔ Matches (run ops) kvs id) ∨
       (max < n ∧ lookupAt (run ops) kvs max = .err (.R ⟨max⟩))) := by
  have hI := inv_run hf
  generalize run ops = db at hI
  have hmem : ∀ id, id ∈ matched kvs db ↔ Matches db kvs id := by
    intro id
    simp only [matched, List.mem_map, List.mem_filter, decide_eq_true_eq, Matches, InProgressAt]
    constructor
    · rintro ⟨r, ⟨hr, hk⟩, rfl⟩
      exact ⟨_, statusAt_sub hI hr, hk⟩
    · rintro ⟨s, hs, hk⟩
      obtain ⟨r, hr, rfl, rfl⟩ := statusAt_inProgress hs
      exact ⟨r, ⟨hr, hk⟩, rfl⟩
  have hnd := matched_nodup hI kvs
  let srt := orderBy (fun a b => decide (a ≤ b)) (matched kvs db)
  have hperm : srt.Perm (matched kvs db) := orderBy_perm _ _
  have hlen : srt.length = (matched kvs db).length := hperm.length_eq
  refine ⟨(matched kvs db).length, ⟨_, hnd, hmem, rfl⟩, ?_⟩
  have hl : lookupAt db kvs max =
      if (srt.take (max + 1)).length > max then .err (.R ⟨max⟩) else .ok (srt.take (max + 1)) := by
    simp only [lookupAt, lookupIdsByStrategicMetadata, Sql.bind_run, Sql.mapErr_run, Sql.query_nil,
      matchingIds_eq hI]
    split <;> rfl
  rw [hl]
  by_cases hn : (matched kvs db).length ≤ max
  · left
    have ht : srt.take (max + 1) = srt := List.take_of_length_le (by omega)
    rw [ht, if_neg (by omega)]
    refine ⟨hn, srt, rfl, ?_, fun id => (hperm.mem_iff).trans (hmem id)⟩
    have h1 : srt.Pairwise (fun a b => decide (a ≤ b) = true) := by
      apply orderBy_sorted
      · intro a b c; simp only [decide_eq_true_eq]; exact Nat.le_trans
      · intro a b; simp only [Bool.or_eq_true, decide_eq_true_eq]; exact Nat.le_total a b
    have h2 : srt.Pairwise (· ≠ ·) := hperm.nodup_iff.2 hnd
    refine (h1.and h2).imp ?_
    intro a b ⟨h, h'⟩
    simp only [decide_eq_true_eq] at h
    exact Nat.lt_of_le_of_ne h h'
  · right
    refine ⟨by omega, if_pos ?_⟩
    rw [List.length_take]
    omega

/-- Three submissions, one finished; two keys. -/
def exampleMeta : List Op :=
  [ .insert { id := 9, contents := [none], strategic := [("a", 1), ("b", 2)] } 10 [],
    .insert { id := 5, contents := [none], strategic := [("b", 2)] } 11 [],
    .insert { id := 4, contents := [none], strategic := [("b", 2), ("a", 1)] } 12 [],
    .insert { id := 3, contents := [none], strategic := [("b", 2)], pfx := some "p" } 13 [],
    .cancel 3 14 15 [] ]

example : FreshIds exampleMeta ∧
    lookupAt (run exampleMeta) [("b", 2)] 3 = .ok [4, 5, 9] ∧
    lookupAt (run exampleMeta) [("b", 2)] 2 = .err (.R ⟨2⟩) ∧
    lookupAt (run exampleMeta) [("b", 2), ("a", 1)] 2 = .ok [4, 9] ∧
    lookupAt (run exampleMeta) [] 7 = .ok [4, 5, 9] ∧
    lookupAt (run exampleMeta) [("b", 3)] 7 = .ok [] := by decide +kernel

/-! ### C19 -/

/-- The answer of an undisturbed lookup by prefix. -/
def prefixAt (db : DB) (p : String) : Res DbErr (Option SubmissionId) :=
  (lookupIdByPrefix p ⟨[], db⟩).1

/-- **C19**, without cancelled submissions: an id is returned only if a submission with exactly this
prefix was inserted under this id and it is still known; and some id is returned whenever a submission
with this prefix is known as in progress, completed or failed.

What is missing: a cancelled submission is not found (`C19_refuted_for_cancelled`). -/
theorem C19_prefix_lookup_partial (ops : List Op) (hf : FreshIds ops) (p : String) :
    (∀ id, prefixAt (run ops) p = .ok (some id) →
      (∃ a now o, Op.insert a now o ∈ ops ∧ a.id = id ∧ a.pfx = some p) ∧
      statusAt (run ops) id ≠ .ok none) ∧
    (∀ id st, statusAt (run ops) id = .ok (some st) → st.pfx = some p → st.isCancelled = false →
      ∃ id', prefixAt (run ops) p = .ok (some id')) := by
  have hp : prefixAt (run ops) p = .ok (prefixRows p (run ops)).head? := by
    simp [prefixAt, lookupIdByPrefix, Sql.query_nil]
  have hprov := prov_run ops hf
  refine ⟨?_, ?_⟩
  · intro id h
    rw [hp] at h
    simp only [Res.ok.injEq] at h
    have hm := List.mem_of_head? h
    simp only [prefixRows, List.mem_append, List.mem_map, List.mem_filter, beq_iff_eq] at hm
    rw [ne_eq, statusAt_eq_none]
    rcases hm with (⟨r, ⟨hr, hx⟩, rfl⟩ | ⟨r, ⟨hr, hx⟩, rfl⟩) | ⟨r, ⟨hr, hx⟩, rfl⟩
    · obtain ⟨a, n, o, hm, e⟩ := hprov.sub r hr
      refine ⟨⟨a, n, o, hm, by rw [e]; rfl, ?_⟩, fun h => h (mem_allIds_sub hr)⟩
      rw [e] at hx; exact hx
    · obtain ⟨a, n, o, hm, e⟩ := hprov.comp r hr
      refine ⟨⟨a, n, o, hm, by rw [e]; rfl, ?_⟩, fun h => h (mem_allIds_comp hr)⟩
      rw [e] at hx; exact hx
    · obtain ⟨a, n, o, hm, d, i, e, _⟩ := hprov.fail r hr
      refine ⟨⟨a, n, o, hm, by rw [e]; rfl, ?_⟩, fun h => h (mem_allIds_fail hr)⟩
      rw [e] at hx; exact hx
  · intro id st h hpx hca
    suffices hm : id ∈ prefixRows p (run ops) by
      rw [hp]
      cases hl : prefixRows p (run ops) with
      | nil => rw [hl] at hm; simp at hm
      | cons x xs => exact ⟨x, rfl⟩
    simp only [prefixRows, List.mem_append, List.mem_map, List.mem_filter, beq_iff_eq]
    cases st with
    | inProgress s =>
      obtain ⟨r, hr, hid, rfl⟩ := statusAt_inProgress h
      exact .inl (.inl ⟨r, ⟨hr, hpx⟩, hid⟩)
    | completed s =>
      obtain ⟨r, hr, hid, rfl⟩ := statusAt_completed h
      exact .inl (.inr ⟨r, ⟨hr, hpx⟩, hid⟩)
    | failed s c =>
      obtain ⟨r, hr, hid, rfl, _⟩ := statusAt_failed h
      exact .inr ⟨r, ⟨hr, hpx⟩, hid⟩
    | cancelled s => simp [SubmissionStatus.isCancelled] at hca

/-- The full statement of C19 is false of the program: cancelled submissions are not looked at. -/
theorem C19_refuted_for_cancelled :
    ¬ ∀ (ops : List Op), FreshIds ops → ∀ p id st, statusAt (run ops) id = .ok (some st) →
      st.pfx = some p → ∃ id', prefixAt (run ops) p = .ok (some id') := by
  intro h
  obtain ⟨id', h'⟩ := h exampleMeta (by decide +kernel) "p" 3 (.cancelled
    { id := 3, pfx := some "p", chunksTotal := 1, chunksDone := 0, metadata := none,
      strategic := [("b", 2)], cancelledAt := 14 }) (by decide +kernel) rfl
  have : prefixAt (run exampleMeta) "p" = .ok none := by decide +kernel
  rw [this] at h'
  simp at h'

example : let ops := exampleMeta ++ [.insert { id := 2, contents := [none], pfx := some "p" } 20 []]
    FreshIds ops ∧ prefixAt (run ops) "p" = .ok (some 2) := by decide +kernel

/-! ### C20 -/

/-- **C20.** Each count equals the number of submissions reported in that state, the backlog count the
number of chunks in the backlog (each belonging to a submission in progress and below its total), and
the estimate of operations the sum over these chunks of the chunk size of their submission. A failed
submission whose failed chunk is gone, so that its status call ends in an error (see C15), counts as failed. -/
theorem C20_counts (ops : List Op) (hf : FreshIds ops) :
    (∃ n, (countSubmissions ⟨[], run ops⟩).1 = .ok n ∧
      CountIs (fun id => ∃ s, statusAt (run ops) id = .ok (some (.inProgress s))) n) ∧
    (∃ n, (countSubmissionsCompleted ⟨[], run ops⟩).1 = .ok n ∧
      CountIs (fun id => ∃ s, statusAt (run ops) id = .ok (some (.completed s))) n) ∧
    (∃ n, (countSubmissionsFailed ⟨[], run ops⟩).1 = .ok n ∧
      CountIs (fun id => (∃ s c, statusAt (run ops) id = .ok (some (.failed s c))) ∨
        statusAt (run ops) id = .err .rowNotFound) n) ∧
    (∃ n, (ChunkDb.countChunks ⟨[], run ops⟩).1 = .ok n ∧
      CountIs (fun cid => backlogCount (run ops) cid = 1) n) ∧
    (∃ l : List ChunkId, ∃ size : SubmissionId → Int, l.Nodup ∧
      (∀ cid, cid ∈ l ↔ backlogCount (run ops) cid = 1) ∧
      (∀ cid ∈ l, ∃ s, statusAt (run ops) cid.submissionId = .ok (some (.inProgress s)) ∧
        cid.chunkIndex < s.chunksTotal ∧ s.chunkSize = size cid.submissionId) ∧
      (ChunkDb.countOpsInBacklogEstimate ⟨[], run ops⟩).1 =
        .ok (l.map fun cid => size cid.submissionId).sum) := by
  have hI := inv_run hf
  have hprov := prov_run ops hf
  refine ⟨⟨_, rfl, (run ops).submissions.map (·.id), hI.subIds, ?_, by simp⟩,
    ⟨_, rfl, (run ops).submissionsCompleted.map (·.id), hI.compIds, ?_, by simp⟩,
    ⟨_, rfl, (run ops).submissionsFailed.map (·.id), hI.failIds, ?_, by simp⟩,
    ⟨_, rfl, (run ops).chunks.map ChunkRow.key, hI.chunkKeys, ?_, by simp⟩, ?_⟩
  · intro id
    simp only [List.mem_map]
    constructor
    · rintro ⟨r, hr, rfl⟩; exact ⟨_, statusAt_sub hI hr⟩
    · rintro ⟨s, hs⟩
      obtain ⟨r, hr, rfl, _⟩ := statusAt_inProgress hs
      exact ⟨r, hr, rfl⟩
  · intro id
    simp only [List.mem_map]
    constructor
    · rintro ⟨r, hr, rfl⟩; exact ⟨_, statusAt_comp hI hr⟩
    · rintro ⟨s, hs⟩
      obtain ⟨r, hr, rfl, _⟩ := statusAt_completed hs
      exact ⟨r, hr, rfl⟩
  · intro id
    simp only [List.mem_map]
    constructor
    · rintro ⟨r, hr, rfl⟩
      by_cases hk : (⟨r.id, r.failedChunkId⟩ : ChunkId) ∈ (run ops).chunksFailed.map ChunkFailedRow.key
      · obtain ⟨d, hd, hk⟩ := List.mem_map.1 hk
        exact .inl ⟨_, _, statusAt_fail_ok hI hr hd hk⟩
      · right
        rcases statusAt_inv (rfl : statusAt (run ops) r.id = _) with
          ⟨x, hx, hxe, -⟩ | ⟨x, hx, hxe, -⟩ | ⟨x, hx, hxe, ⟨c, hc, hck, -⟩ | ⟨-, hres⟩⟩ | ⟨x, hx, hxe, -⟩ | ⟨hno, -⟩
        · exact absurd (hxe ▸ List.mem_map_of_mem hx) (not_sub_of_fail hI (List.mem_map_of_mem hr))
        · exact absurd (hxe ▸ List.mem_map_of_mem hx) fun h => hI.comp_fail h (List.mem_map_of_mem hr)
        · have hxr := eq_of_key_eq hI.failIds hx hr hxe
          subst hxr
          exact absurd (hck ▸ List.mem_map_of_mem hc) hk
        · exact hres
        · exact absurd (hxe ▸ List.mem_map_of_mem hx) fun h => hI.fail_canc (List.mem_map_of_mem hr) h
        · exact absurd (mem_allIds_fail hr) hno
    · rintro (⟨s, c, hs⟩ | hs)
      · obtain ⟨r, hr, rfl, _⟩ := statusAt_failed hs
        exact ⟨r, hr, rfl⟩
      · rcases statusAt_inv hs with ⟨x, hx, hxe, h⟩ | ⟨x, hx, hxe, h⟩ | ⟨x, hx, hxe, -⟩ | ⟨x, hx, hxe, h⟩ | ⟨-, h⟩
        · cases h
        · cases h
        · exact ⟨x, hx, hxe⟩
        · cases h
        · cases h
  · intro cid
    exact (backlogCount_one hI).symm
  · let size : SubmissionId → Int := fun id =>
      (((run ops).submissions.filter (fun s => id == s.id)).map fun s => s.chunkSize.getD 0).sum
    refine ⟨(run ops).chunks.map ChunkRow.key, size, hI.chunkKeys,
      fun cid => (backlogCount_one hI).symm, ?_, ?_⟩
    · intro cid hcid
      obtain ⟨c, hc, rfl⟩ := List.mem_map.1 hcid
      obtain ⟨s, hs, e, hlt⟩ := hI.owner c hc
      refine ⟨subView (run ops) s, ?_, hlt, ?_⟩
      · rw [show c.key.submissionId = s.id from e.symm]
        exact statusAt_sub hI hs
      · obtain ⟨a, n, o, _, ha⟩ := hprov.sub s hs
        have hcs : s.chunkSize = some a.chunkSize := by rw [ha]; rfl
        have h1 : (run ops).submissions.filter (fun r => c.key.submissionId == r.id) = [s] := by
          rw [show c.key.submissionId = s.id from e.symm, ← filter_key_of_mem hI.subIds hs]
          apply List.filter_congr
          intro r _
          exact Bool.beq_comm
        show decodeChunkSize s.chunkSize = (((run ops).submissions.filter
          (fun r => c.key.submissionId == r.id)).map fun s => s.chunkSize.getD 0).sum
        rw [h1, hcs]
        simp [decodeChunkSize, hcs]
    · simp only [ChunkDb.countOpsInBacklogEstimate, Sql.query_nil, Res.ok.injEq, List.map_map]
      have key : ∀ l : List ChunkRow, (l.flatMap fun c =>
          ((run ops).submissions.filter (fun s => c.submissionId == s.id)).map
            fun s => s.chunkSize.getD 0).sum =
          (l.map ((fun cid => size cid.submissionId) ∘ ChunkRow.key)).sum := by
        intro l
        induction l with
        | nil => rfl
        | cons c l ih =>
          rw [List.flatMap_cons, List.sum_append, ih]
          rfl
      exact key _

example : let ops := exampleMeta ++ [.insert { id := 2, contents := [none, none], chunkSize := 10 } 20 []]
    FreshIds ops ∧ (countSubmissions ⟨[], run ops⟩).1 = .ok 4 ∧
    (ChunkDb.countChunks ⟨[], run ops⟩).1 = .ok 5 ∧
    (ChunkDb.countOpsInBacklogEstimate ⟨[], run ops⟩).1 = .ok 23 ∧
    (countSubmissionsFailed ⟨[], run exampleFailed⟩).1 = .ok 1 := by decide +kernel

/-- **C20** (finished chunks). The counts of completed and of failed chunks are the numbers of chunks for
which there is a record of their completion or failure. -/
theorem C20_finished_counts (ops : List Op) (hf : FreshIds ops) :
    (∃ n, (ChunkDb.countChunksCompleted ⟨[], run ops⟩).1 = .ok n ∧
      CountIs (fun cid => ∃ c, chunkCompletedAt (run ops) cid = .ok c) n) ∧
    (∃ n, (ChunkDb.countChunksFailed ⟨[], run ops⟩).1 = .ok n ∧
      CountIs (fun cid => ∃ c, chunkFailedAt (run ops) cid = .ok c) n) := by
  have hI := inv_run hf
  refine ⟨⟨_, rfl, (run ops).chunksCompleted.map ChunkCompletedRow.key, hI.ccKeys, ?_, by simp⟩,
    ⟨_, rfl, (run ops).chunksFailed.map ChunkFailedRow.key, hI.cfKeys, ?_, by simp⟩⟩
  · intro cid
    constructor
    · intro h
      obtain ⟨r, hr, rfl⟩ := List.mem_map.1 h
      exact ⟨r, chunkCompletedAt_ok hI.ccKeys hr⟩
    · rintro ⟨c, hc⟩
      rw [chunkCompletedAt_eq, Stmt.selectChunkCompleted] at hc
      cases h : (run ops).chunksCompleted.find? (fun r => r.key == cid) with
      | none => rw [h] at hc; cases hc
      | some r => exact List.mem_map.2 ⟨r, List.mem_of_find?_eq_some h, by simpa using List.find?_some h⟩
  · intro cid
    constructor
    · intro h
      obtain ⟨r, hr, rfl⟩ := List.mem_map.1 h
      exact ⟨_, (chunkFailedAt_ok hI.cfKeys hr).1⟩
    · rintro ⟨c, hc⟩
      rw [chunkFailedAt_eq, Stmt.selectChunkFailed] at hc
      cases h : (run ops).chunksFailed.find? (fun r => r.key == cid) with
      | none => rw [h] at hc; cases hc
      | some r => exact List.mem_map.2 ⟨r, List.mem_of_find?_eq_some h, by simpa using List.find?_some h⟩

example : FreshIds exampleFailed ∧ (ChunkDb.countChunksCompleted ⟨[], run exampleFailed⟩).1 = .ok 1 ∧
    (ChunkDb.countChunksFailed ⟨[], run exampleFailed⟩).1 = .ok 1 := by decide +kernel

end Opsqueue
