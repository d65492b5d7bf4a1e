import Verif.Proofs.Budget
import Verif.Props.Reports
import Verif.Props.Settled

/-!
# C91: a submission is given up only after its chunk was tried often enough

`--max-chunk-retries` is documented as the number of times a chunk is tried before its submission fails. The server counts
failure reports, not tries. Here: how many tries there are.
-/

namespace Opsqueue.Server
open Conn (Request Response Report)

/-- **C91** (in full; false). When a submission has failed, the chunk because of which it failed had been handed out at least
`max 1 m` times, if consumers report a failure once for each time they are handed the chunk, and once for each time they are
told that their reservation of it has expired. -/
def C91_full : Prop :=
  ∀ (ttl m : Nat) (h : List Action) (sid : SubmissionId) (sub : SubmissionFailed) (cf : ChunkFailed),
    let s := Server.run ttl m h
    0 < ttl → FreshIds s.calls → (∀ id, ReportsAsTold ttl m h id) →
    statusAt s.db sid = .ok (some (.failed sub cf)) → max 1 m ≤ timesHandedOut s ⟨sid, cf.chunkIndex⟩

/-- **C91** (reports). A submission fails only after `max 1 m` failure reports on the chunk because of which it failed have
arrived. -/
theorem C91_enough_reports (ttl m : Nat) (h : List Action) (sid : SubmissionId) (sub : SubmissionFailed) (cf : ChunkFailed)
    (hf : FreshIds (Server.run ttl m h).calls)
    (hst : statusAt (Server.run ttl m h).db sid = .ok (some (.failed sub cf))) :
    max 1 m ≤ failsOn ttl m h ⟨sid, cf.chunkIndex⟩ := by
  rw [db_run] at hst
  obtain ⟨r, hr, rfl, -, d, hd, hk, rfl⟩ := statusAt_failed hst
  have hi : (chunkFailedView d).chunkIndex = r.failedChunkId := by
    have := congrArg ChunkId.chunkIndex hk
    exact this
  rw [hi]
  have hb : Budget m (Server.run ttl m h).calls := fun cid f m' t1 t2 t3 o h' =>
    C07_server_uses_its_budget ttl m h cid f m' t1 t2 t3 o h'
  refine Nat.le_trans ((failed_calls hf hb).2 r hr) ?_
  have h1 := (C55_in_order ttl m h).filter (Conn.Report.failsOn ⟨r.id, r.failedChunkId⟩)
  have h2 : ∀ (l : List Op) (id : ChunkId),
      (l.filter (Op.fails id)).length = ((l.filterMap Op.report?).filter (Conn.Report.failsOn id)).length := by
    intro l id
    induction l with
    | nil => rfl
    | cons op l ih =>
      cases op <;> simp only [List.filter_cons, List.filterMap_cons, Op.report?, Op.fails, Conn.Report.failsOn] <;>
        first
        | exact ih
        | (simp only [Bool.false_eq_true, if_false]; exact ih)
        | (rename_i cid _ _ _ _ _ _; by_cases hc : (cid == id) = true <;> simp [hc, List.filter_cons, Conn.Report.failsOn, ih])
  rw [h2]
  refine Nat.le_trans h1.length_le ?_
  unfold failsOn
  rw [List.filter_map, List.length_map]
  exact Nat.le_refl _

/-- The reports on the chunk, consumer by consumer. -/
theorem failsOn_le {ttl m : Nat} {h : List Action} {id : ChunkId} (w : ConnId → Nat)
    (hw : ∀ c, failsBy ttl m h c id ≤ timesHandedTo (Server.run ttl m h) c id + w c) :
    failsOn ttl m h id ≤ timesHandedOut (Server.run ttl m h) id + (((Server.run ttl m h).conns.map (·.1)).map w).sum := by
  have h1 := sum_filter_ge (·.1) (fun x : ConnId × Report => x.2.failsOn id) ((Server.run ttl m h).conns.map (·.1))
    (acceptedFrom (init ttl m) h) (accepted_known (init ttl m) h).2
  have h2 : timesHandedOut (Server.run ttl m h) id =
      (((Server.run ttl m h).conns.map (·.1)).map fun c => timesHandedTo (Server.run ttl m h) c id).sum := by
    rw [timesHandedOut_eq, List.map_map]
    congr 1
    refine List.map_congr_left fun p hp => ?_
    exact (timesHandedTo_eq (Map.get_of_mem (conns_wf_run ttl m h) (show (p.1, p.2) ∈ _ from hp)) id).symm
  refine Nat.le_trans h1 ?_
  rw [h2]
  generalize (Server.run ttl m h).conns.map (·.1) = ks
  induction ks with
  | nil => exact Nat.le_refl _
  | cons c cs ih =>
    simp only [List.map_cons, List.sum_cons]
    have := hw c
    unfold failsBy at this
    omega

/-- **C91** (partial: if no reservation of the chunk expires). If every consumer reports the failure of the chunk at most once for
each time it is handed it, the chunk has been handed out at least `max 1 m` times when its submission fails because of it. -/
theorem C91_tries_partial (ttl m : Nat) (h : List Action) (sid : SubmissionId) (sub : SubmissionFailed) (cf : ChunkFailed)
    (hf : FreshIds (Server.run ttl m h).calls)
    (hrep : ∀ c, failsBy ttl m h c ⟨sid, cf.chunkIndex⟩ ≤ timesHandedTo (Server.run ttl m h) c ⟨sid, cf.chunkIndex⟩)
    (hst : statusAt (Server.run ttl m h).db sid = .ok (some (.failed sub cf))) :
    max 1 m ≤ timesHandedOut (Server.run ttl m h) ⟨sid, cf.chunkIndex⟩ := by
  have h1 := C91_enough_reports ttl m h sid sub cf hf hst
  have h2 := failsOn_le (id := ⟨sid, cf.chunkIndex⟩) (fun _ => 0) hrep
  have h3 : ∀ ks : List ConnId, (ks.map fun _ => (0 : Nat)).sum = 0 := by
    intro ks; induction ks with
    | nil => rfl
    | cons c cs ih => simpa using ih
  rw [h3] at h2
  exact Nat.le_trans h1 h2

/-- **C91** (partial: half of the tries). If the consumers report as they are told, no reserve request is cut short after it has
reserved the chunk, and none is just reserving it, the chunk has been handed out at least half of `max 1 m` times when its
submission fails because of it. -/
theorem C91_half_the_tries_partial (ttl m : Nat) (h : List Action) (sid : SubmissionId) (sub : SubmissionFailed)
    (cf : ChunkFailed) (hf : FreshIds (Server.run ttl m h).calls)
    (hrep : ReportsAsTold ttl m h ⟨sid, cf.chunkIndex⟩)
    (hcut : ∀ p a q, h = p ++ a :: q → ¬ CutShort (Server.run ttl m p) a ⟨sid, cf.chunkIndex⟩)
    (hidle : ∀ c f, fetchOf (Server.run ttl m h) c = some f →
      ⟨sid, cf.chunkIndex⟩ ∉ f.got ∧ f.joining ≠ some ⟨sid, cf.chunkIndex⟩)
    (hst : statusAt (Server.run ttl m h).db sid = .ok (some (.failed sub cf))) :
    max 1 m ≤ 2 * timesHandedOut (Server.run ttl m h) ⟨sid, cf.chunkIndex⟩ := by
  have h1 := C91_enough_reports ttl m h sid sub cf hf hst
  have h2 := failsOn_le (id := ⟨sid, cf.chunkIndex⟩) (fun c => noticesTo ttl m h c ⟨sid, cf.chunkIndex⟩) hrep
  have hnd : ((Server.run ttl m h).conns.map (·.1)).Nodup := by
    have := conns_wf_run ttl m h
    simpa only [Map.WF] using this
  have h3 := sum_count_le ((Server.run ttl m h).conns.map (·.1)) hnd
    (noticesFrom (init ttl m) h) ⟨sid, cf.chunkIndex⟩
  have h4 := (notices_run hcut).2
  rw [total_eq, taking_none (conns_wf_run ttl m h) hidle] at h4
  unfold noticesTo at h2
  omega

/-- One consumer, one chunk, two tries allowed. The chunk takes longer than its reservation, so that the client reports a
failure; then it fails, which is reported, too. -/
def slowAndFailing : List Action :=
  [.connect 1, .producer (.insert { id := 1, contents := [some [10]] } 0 []), .notify,
   .request 1 ⟨0, 1, .oldest⟩ ⟨0, fun _ => false, fun _ => []⟩, .row 1, .join 1,
   .tick (.advance 1000), .tick .runPendingTasks,
   .report 1 (.fail ⟨1, 0⟩ "Reservation expired"), .handle true 5 5 5 [], .release true,
   .report 1 (.fail ⟨1, 0⟩ "exception"), .handle true 6 6 6 [], .release true]

/-- One consumer, one chunk, one try allowed. An error of the database ends the request that has just reserved the chunk; the
reservation expires, and the client, which has never heard of the chunk, reports its failure. -/
def neverTried : List Action :=
  [.connect 1, .producer (.insert { id := 1, contents := [some [10]] } 0 []), .notify,
   .request 1 ⟨0, 1, .oldest⟩ ⟨0, fun _ => false, fun _ => []⟩, .row 1, .fetchFails 1,
   .tick (.advance 1000), .tick .runPendingTasks,
   .report 1 (.fail ⟨1, 0⟩ "Reservation expired"), .handle true 5 5 5 [], .release true]

/-- Reports on other chunks, and of other consumers, are not made in these examples. -/
theorem asTold_of {ttl m : Nat} {h : List Action}
    (hacc : ∀ x ∈ acceptedFrom (init ttl m) h, x.1 = 1 ∧ x.2.id = ⟨1, 0⟩)
    (h1 : failsBy ttl m h 1 ⟨1, 0⟩ ≤ timesHandedTo (Server.run ttl m h) 1 ⟨1, 0⟩ + noticesTo ttl m h 1 ⟨1, 0⟩) (id : ChunkId) :
    ReportsAsTold ttl m h id := by
  intro c
  by_cases hc : c = 1 ∧ id = ⟨1, 0⟩
  · obtain ⟨rfl, rfl⟩ := hc; exact h1
  · have : failsBy ttl m h c id = 0 := by
      unfold failsBy
      rw [List.length_eq_zero_iff, List.filter_eq_nil_iff]
      rintro ⟨c', r⟩ hx hp
      obtain ⟨e1, e2⟩ := hacc _ hx
      simp only [Bool.and_eq_true, beq_iff_eq] at hp
      refine hc ⟨hp.1.symm.trans e1, ?_⟩
      cases r with
      | complete _ _ => simp [Conn.Report.failsOn] at hp
      | fail i f => simp [Conn.Report.failsOn] at hp; exact hp.2.symm.trans e2
    rw [this]; exact Nat.zero_le _

/-- `CutShort`, as a test. -/
def cuts (s : State) (a : Action) (id : ChunkId) : Bool :=
  s.conns.any fun p => (fetchOf s p.1).any (fun f => f.got.contains id || f.joining == some id) &&
    (fetchOf (step s a) p.1).isNone && timesHandedTo (step s a) p.1 id == timesHandedTo s p.1 id

theorem cuts_of {s : State} {a : Action} {id : ChunkId} (h : CutShort s a id) : cuts s a id = true := by
  obtain ⟨c, f, hf, hg, hn, he⟩ := h
  have hm : ∃ k, (c, k) ∈ s.conns := by
    unfold fetchOf State.conn at hf
    cases hk : s.conns.get c with
    | none => rw [hk] at hf; simp at hf
    | some k => exact ⟨k, Map.mem_of_get hk⟩
  obtain ⟨k, hm⟩ := hm
  unfold cuts
  rw [List.any_eq_true]
  refine ⟨(c, k), hm, ?_⟩
  simp only [hf, hn, he, Option.any_some, Option.isNone_none, beq_self_eq_true, Bool.and_true, Bool.or_eq_true]
  exact hg.imp (fun h => List.contains_iff_mem.2 h) (fun h => beq_iff_eq.2 h)

theorem uncut {ttl m : Nat} {h : List Action} {id : ChunkId}
    (hc : ∀ i, i < h.length → (h[i]?).any (fun a => cuts (Server.run ttl m (h.take i)) a id) = false) :
    ∀ p a q, h = p ++ a :: q → ¬ CutShort (Server.run ttl m p) a id := by
  rintro p a q rfl hcut
  have := hc p.length (by simp)
  simp [cuts_of hcut] at this

/-- Two reports are needed, and there are two. -/
example : (FreshIds (Server.run 1000 2 slowAndFailing).calls ∧ failsOn 1000 2 slowAndFailing ⟨1, 0⟩ = 2) := by
  decide +kernel

/-- The hypotheses of the theorem on half of the tries are met by the consumer that is too slow and then fails: one try, two
failures. So the bound cannot be improved. -/
example : ReportsAsTold 1000 2 slowAndFailing ⟨1, 0⟩ ∧
    (∀ p a q, slowAndFailing = p ++ a :: q → ¬ CutShort (Server.run 1000 2 p) a ⟨1, 0⟩) ∧
    fetchOf (Server.run 1000 2 slowAndFailing) 1 = none ∧ timesHandedOut (Server.run 1000 2 slowAndFailing) ⟨1, 0⟩ = 1 ∧
    (∃ sub cf, statusAt (Server.run 1000 2 slowAndFailing).db 1 = .ok (some (.failed sub cf))) :=
  ⟨asTold_of (by decide +kernel) (by decide +kernel) _, uncut (by decide +kernel), by decide +kernel, by decide +kernel,
    { id := 1, pfx := none, chunksTotal := 1, chunksDone := some 0, chunkSize := 1, metadata := none, strategic := [],
      failedAt := 6, failedChunkId := 0, otel := "{}" },
    { submissionId := 1, chunkIndex := 0, inputContent := some [10], failure := "exception", failedAt := 6 },
    by decide +kernel⟩

/-- Two consumers try the chunk, in time, one after the other. -/
def triedTwice : List Action :=
  [.connect 1, .connect 2, .producer (.insert { id := 1, contents := [some [10]] } 0 []), .notify,
   .request 1 ⟨0, 1, .oldest⟩ ⟨0, fun _ => false, fun _ => []⟩, .row 1, .join 1,
   .report 1 (.fail ⟨1, 0⟩ "exception"), .handle true 5 5 5 [], .release true,
   .request 2 ⟨0, 1, .oldest⟩ ⟨0, fun _ => false, fun _ => []⟩, .row 2, .join 2,
   .report 2 (.fail ⟨1, 0⟩ "exception"), .handle true 6 6 6 [], .release true]

example : failsBy 1000 2 triedTwice 1 ⟨1, 0⟩ = 1 ∧ timesHandedTo (Server.run 1000 2 triedTwice) 1 ⟨1, 0⟩ = 1 ∧
    failsBy 1000 2 triedTwice 2 ⟨1, 0⟩ = 1 ∧ timesHandedTo (Server.run 1000 2 triedTwice) 2 ⟨1, 0⟩ = 1 ∧
    timesHandedOut (Server.run 1000 2 triedTwice) ⟨1, 0⟩ = 2 ∧
    (∃ sub cf, statusAt (Server.run 1000 2 triedTwice).db 1 = .ok (some (.failed sub cf))) :=
  ⟨by decide +kernel, by decide +kernel, by decide +kernel, by decide +kernel, by decide +kernel,
    { id := 1, pfx := none, chunksTotal := 1, chunksDone := some 0, chunkSize := 1, metadata := none, strategic := [],
      failedAt := 6, failedChunkId := 0, otel := "{}" },
    { submissionId := 1, chunkIndex := 0, inputContent := some [10], failure := "exception", failedAt := 6 },
    by decide +kernel⟩

/-- C91 fails: a consumer that is too slow and then fails uses up two of the tries of a chunk at once. -/
theorem C91_refuted_by_expiry : ¬ C91_full := by
  intro h
  have := h 1000 2 slowAndFailing 1
    { id := 1, pfx := none, chunksTotal := 1, chunksDone := some 0, chunkSize := 1, metadata := none, strategic := [],
      failedAt := 6, failedChunkId := 0, otel := "{}" }
    { submissionId := 1, chunkIndex := 0, inputContent := some [10], failure := "exception", failedAt := 6 }
    (by decide) (by decide +kernel) (asTold_of (by decide +kernel) (by decide +kernel)) (by decide +kernel)
  revert this
  decide +kernel

/-- C91 fails: the last try of a chunk can be used up without anybody having been given the chunk. -/
theorem C91_refuted_by_lost_reservation :
    timesHandedOut (Server.run 1000 1 neverTried) ⟨1, 0⟩ = 0 ∧ (∀ id, ReportsAsTold 1000 1 neverTried id) ∧
    ∃ sub cf, statusAt (Server.run 1000 1 neverTried).db 1 = .ok (some (.failed sub cf)) := by
  refine ⟨by decide +kernel, asTold_of (by decide +kernel) (by decide +kernel), 
    { id := 1, pfx := none, chunksTotal := 1, chunksDone := some 0, chunkSize := 1, metadata := none, strategic := [],
      failedAt := 5, failedChunkId := 0, otel := "{}" },
    { submissionId := 1, chunkIndex := 0, inputContent := some [10], failure := "Reservation expired", failedAt := 5 },
    by decide +kernel⟩

end Opsqueue.Server
