import Verif.Proofs.Settled
import Verif.Props.Calls
import Verif.Props.Holding
import Verif.Props.Reserver

/-!
# C07, C24, C26: what happens to a reservation when a report on the chunk is dealt with

The server is in the state after an arbitrary history `h`. The report of consumer `c` is the next in the
mailbox of the completer, and nobody else has to do with the chunk (`NextReport`). The completer makes
the database call and releases the reservation; then anything happens (`es`).
-/

namespace Opsqueue
open Server
open Conn (Request Report)

/-! ### C07 -/

/-- **C07, at the server.** All failure reports are dealt with using the retry budget the server was
started with. -/
theorem C07_server_uses_its_budget (ttl m : Nat) (h : List Action) (cid : ChunkId) (f : String) (m' : Nat)
    (t1 t2 t3 : Time) (o : List Fault)
    (hop : Op.fail cid f m' t1 t2 t3 o ∈ (Server.run ttl m h).calls) : m' = m :=
  budget_run hop

/-- **C07, at the server.** A chunk of a submission that was inserted is failed permanently by the
failure report number `max 1 m`, and not before, in every history of the server in which the database
works. -/
theorem C07_server_fails_at_max_one_m (ttl m : Nat) (h : List Action) (pre post : List Op)
    (a : SubmissionDb.InsertArgs) (now : Time) (o : List Fault) (i : ChunkIndex) (row : ChunkRow)
    (hcalls : (Server.run ttl m h).calls = pre ++ .insert a now o :: post)
    (hf : FreshIds (Server.run ttl m h).calls)
    (hpost : ∀ f m' t1 t2 t3 o', Op.fail ⟨a.id, i⟩ f m' t1 t2 t3 o' ∈ post → o' = [])
    (hrow : chunkAt (Server.run ttl m h).db ⟨a.id, i⟩ = .ok row) (c : ConnId) (f : String)
    (hnext : NextReport (Server.run ttl m h) c (.fail ⟨a.id, i⟩ f)) (t1 t2 t3 : Time) (b : Bool) :
    let n := (post.filter (Op.fails ⟨a.id, i⟩)).length
    let s' := Server.run ttl m (h ++ [.handle true t1 t2 t3 [], .release b])
    (n + 1 < max 1 m → (∃ row', chunkAt s'.db ⟨a.id, i⟩ = .ok row') ∧
      s'.reserver.isReserved ⟨a.id, i⟩ = false) ∧
    (max 1 m ≤ n + 1 → ∃ sub d, statusAt s'.db a.id = .ok (some (.failed sub d))) := by
  intro n s'
  have hdb := db_run ttl m h
  have hm : (Server.run ttl m h).maxRetries = m := maxRetries_exec _ _
  have hf' := hf
  rw [hcalls] at hf'
  rw [hdb] at hrow
  have hret := C07_retries_are_reports pre post a now o hf' i row (by rw [← hcalls]; exact hrow)
  have hn : row.retries = n := hret.2 hpost
  have hs' : s' = exec (Server.run ttl m h) [.handle true t1 t2 t3 [], .release b] := exec_append _ _ _
  constructor
  · intro hlt
    obtain ⟨h1, h2, -⟩ := C07_retry_below_budget _ hf _ row hrow f m t1 t2 t3 (by omega) _ _ rfl
    have hs := settle hnext t1 t2 t3 [] b (by rw [hdb, hm]; exact congrArg Out.crashed h1)
    rw [← hs', hdb, hm] at hs
    refine ⟨⟨_, by rw [hs.2.2.1]; exact h2⟩, ?_⟩
    rw [hs.2.1]
    replace h1 : delayedAfter (Opsqueue.step (Opsqueue.run (Server.run ttl m h).calls)
      (reportOp m t1 t2 t3 [] (.fail ⟨a.id, i⟩ f))).1 = false := congrArg delayedAfter h1
    rw [h1]
    exact (C26_retry_at_once _ _ (⟨0, 0⟩ : ChunkId) 0).1
  · intro hge
    obtain ⟨h1, sub, d, h2⟩ := C07_fail_at_budget _ hf _ row hrow f m t1 t2 t3 (by omega) _ _ rfl
    have hs := settle hnext t1 t2 t3 [] b (by rw [hdb, hm]; exact congrArg Out.crashed h1)
    rw [← hs', hdb, hm] at hs
    exact ⟨sub, d, by rw [hs.2.2.1]; exact h2⟩

/-- Consumer 1 was sent both chunks of submission 1 (see `fetchHistory`) and reported a failure of chunk
0. It is sent it again, and reports another failure. -/
def failHistory : List Action :=
  fetchHistory ++ [.report 1 (.fail ⟨1, 0⟩ "x"), .handle true 5 5 5 [], .release true,
    .request 1 ⟨1, 1, .oldest⟩ ⟨0, fun _ => false, fun _ => []⟩, .row 1, .join 1, .report 1 (.fail ⟨1, 0⟩ "y")]

/-- With a budget of 3 it goes back to the backlog, with a budget of 2 the submission fails. -/
example :
    (∀ m ∈ [2, 3], nextReportTest (Server.run 10000 m failHistory) 1 (.fail ⟨1, 0⟩ "y") = true ∧
      FreshIds (Server.run 10000 m failHistory).calls ∧
      ((Server.run 10000 m failHistory).calls.filter (Op.fails ⟨1, 0⟩)).length = 1 ∧
      backlogCount (Server.run 10000 m failHistory).db ⟨1, 0⟩ = 1) ∧
    backlogCount (Server.run 10000 3 (failHistory ++ [.handle true 6 6 6 [], .release true])).db ⟨1, 0⟩ = 1 ∧
    backlogCount (Server.run 10000 2 (failHistory ++ [.handle true 6 6 6 [], .release true])).db ⟨1, 0⟩ = 0 := by
  decide +kernel

/-! ### C26 -/

private theorem here_of_lookup {r : Reserver ChunkId ChunkId ConnId} {id : ChunkId}
    {e : Reservation ChunkId ConnId} (h : r.lookup id = some e) : Reserver.Here id e r := by
  unfold Reserver.lookup at h
  have := Option.filter_eq_some_iff.1 h
  exact ⟨this.1, this.2⟩

private theorem settled_core {ttl m : Nat} {h es : List Action} {c : ConnId} {r : Report}
    {e : Reservation ChunkId ConnId} {n1 n2 n3 : Time} {o : List Fault} {b : Bool}
    (hnext : NextReport (Server.run ttl m h) c r)
    (hl : (Server.run ttl m h).reserver.lookup r.id = some e)
    (hrep : ∀ a ∈ es, a.reportsOn r.id = false)
    (hcr : NeverCrashed (Server.run ttl m (h ++ [.handle true n1 n2 n3 o, .release b] ++ es)).calls)
    (hnc : (Opsqueue.step (Server.run ttl m h).db (reportOp m n1 n2 n3 o r)).1.crashed = false)
    (hd : delayedAfter (Opsqueue.step (Server.run ttl m h).db (reportOp m n1 n2 n3 o r)).1 = true)
    (h1 : (Server.run ttl m (h ++ [.handle true n1 n2 n3 o, .release b] ++ es)).reserver.now <
      (Server.run ttl m h).reserver.now + 1000)
    (h2 : (Server.run ttl m (h ++ [.handle true n1 n2 n3 o, .release b] ++ es)).reserver.now <
      e.reservedAt + ttl) :
    holder (Server.run ttl m (h ++ [.handle true n1 n2 n3 o, .release b] ++ es)) r.id = some e.sender := by
  have hm : (Server.run ttl m h).maxRetries = m := maxRetries_exec _ _
  have htt : (Server.run ttl m h).reserver.ttl = ttl := Server.ttl_exec _ _
  have hs := settle hnext n1 n2 n3 o b (by rw [hm]; exact hnc)
  have e1 : exec (Server.run ttl m h) [.handle true n1 n2 n3 o, .release b] =
      Server.run ttl m (h ++ [.handle true n1 n2 n3 o, .release b]) := (exec_append _ _ _).symm
  rw [hm, hd, e1] at hs
  obtain ⟨hu, hr, -, -⟩ := hs
  have e2 : Server.run ttl m (h ++ [.handle true n1 n2 n3 o, .release b] ++ es) =
      exec (Server.run ttl m (h ++ [.handle true n1 n2 n3 o, .release b])) es := exec_append _ _ _
  rw [e2] at hcr h1 h2 ⊢
  have hfin : ((Server.run ttl m h).reserver.finish r.id true).2 =
      (Server.run ttl m h).reserver.schedule r.id := by
    unfold Reserver.finish; rw [hl]; rfl
  rw [hfin] at hr
  have hsch := hnext.scheduled
  have hh : Reserver.Here r.id e ((Server.run ttl m h).reserver.schedule r.id) := by
    have := here_of_lookup hl
    exact ⟨this.1, this.2⟩
  have := settled_exec (t := (Server.run ttl m h).reserver.now + 1000) (db_run _ _ _) es hcr
    (by rw [hr]; exact hh) hu hrep
    (by
      intro p hp hpi
      rw [hr] at hp
      rcases List.mem_append.1 hp with hp | hp
      · exact absurd (List.mem_map.2 ⟨p, hp, hpi⟩) hsch
      · cases List.mem_singleton.1 hp; exact Nat.le_refl _)
    (by rw [hr]; exact Nat.le_refl _) h1
    (by rw [hr]; show _ < e.reservedAt + (Server.run ttl m h).reserver.ttl; rw [htt]; exact h2)
  unfold holder
  rw [this.lookup]; rfl

/-- **C26, completion, at the server.** The report is a completion, and the chunk is still reserved
(entry `e`). Whatever happens after the report has been dealt with — including the end of the reporter's
connection, and whether or not the database call succeeded — short of a crash of the server and of further
reports on the chunk: until one second has passed or the reservation has expired, the chunk stays
reserved. (Missing: several reports on the same chunk, for which the claim is false, see
`C26_refuted_for_repeated_finish`.) -/
theorem C26_completed_stays_reserved_partial (ttl m : Nat) (h es : List Action) (c : ConnId)
    (id : ChunkId) (output : Content) (e : Reservation ChunkId ConnId) (n1 n2 n3 : Time) (o : List Fault)
    (b : Bool) (hnext : NextReport (Server.run ttl m h) c (.complete id output))
    (hl : (Server.run ttl m h).reserver.lookup id = some e)
    (hrep : ∀ a ∈ es, a.reportsOn id = false)
    (hcr : NeverCrashed (Server.run ttl m (h ++ [.handle true n1 n2 n3 o, .release b] ++ es)).calls) :
    let s := Server.run ttl m h
    let s' := Server.run ttl m (h ++ [.handle true n1 n2 n3 o, .release b] ++ es)
    s'.reserver.now < s.reserver.now + 1000 → s'.reserver.now < e.reservedAt + ttl →
    holder s' id = some e.sender := by
  intro s s' h1 h2
  have hnc : (Opsqueue.step s.db (.complete id output n1 n2 o)).1.crashed = false := by
    by_cases hc : (Opsqueue.step s.db (.complete id output n1 n2 o)).1.crashed = false
    · exact hc
    · exfalso
      have hq : ∃ rest, s.queue = (c, .complete id output) :: rest := by
        have := hnext.next
        cases hq : s.queue with
        | nil => rw [hq] at this; cases this
        | cons x rest => rw [hq] at this; cases (Option.some.inj this); exact ⟨rest, rfl⟩
      obtain ⟨rest, hq⟩ := hq
      have e1 : s' = exec (Server.step s (.handle true n1 n2 n3 o)) ([.release b] ++ es) := by
        show Server.run _ _ _ = _
        rw [List.append_assoc]
        exact exec_append _ _ _
      obtain ⟨h3, -⟩ := calls_ok (a := .handle true n1 n2 n3 o) (es := [.release b] ++ es)
        (db_run ttl m h) (by rw [← e1]; exact hcr)
      refine hc (h3 _ ?_)
      have g := dbCall_spec { s with queue := rest } (.complete id output n1 n2 o)
      show (handle s true n1 n2 n3 o).calls = _
      have hi : s.completing = none := hnext.idle
      have : (handle s true n1 n2 n3 o).calls =
          (dbCall { s with queue := rest } (.complete id output n1 n2 o)).2.calls := by
        simp only [handle, hi, hq, if_true, reportOp]
        split <;> rfl
      rw [this]
      exact g.2.2.1
  refine settled_core (r := .complete id output) hnext hl hrep hcr hnc ?_ h1 h2
  show delayedAfter (Opsqueue.step s.db (.complete id output n1 n2 o)).1 = true
  rfl

/-- **C26, permanent failure, at the server.** The same for a failure report that uses up the retry
budget. -/
theorem C26_failed_stays_reserved_partial (ttl m : Nat) (h es : List Action) (c : ConnId) (id : ChunkId)
    (f : String) (row : ChunkRow) (e : Reservation ChunkId ConnId) (n1 n2 n3 : Time)
    (b : Bool) (hf : FreshIds (Server.run ttl m h).calls)
    (hrow : chunkAt (Server.run ttl m h).db id = .ok row) (hm : m ≤ row.retries + 1)
    (hnext : NextReport (Server.run ttl m h) c (.fail id f))
    (hl : (Server.run ttl m h).reserver.lookup id = some e)
    (hrep : ∀ a ∈ es, a.reportsOn id = false)
    (hcr : NeverCrashed (Server.run ttl m (h ++ [.handle true n1 n2 n3 [], .release b] ++ es)).calls) :
    let s := Server.run ttl m h
    let s' := Server.run ttl m (h ++ [.handle true n1 n2 n3 [], .release b] ++ es)
    s'.reserver.now < s.reserver.now + 1000 → s'.reserver.now < e.reservedAt + ttl →
    holder s' id = some e.sender := by
  intro s s' h1 h2
  have hdb := db_run ttl m h
  rw [hdb] at hrow
  obtain ⟨h3, -⟩ := C07_fail_at_budget _ hf _ row hrow f m n1 n2 n3 hm _ _ rfl
  rw [← hdb] at h3
  exact settled_core (r := .fail id f) hnext hl hrep hcr (congrArg Out.crashed h3)
    (congrArg delayedAfter h3) h1 h2

/-- Chunk 0 of submission 1 fails for good (budget 2); its consumer disconnects, and consumer 2 asks for
chunks with a query that still sees it as free: it does not get it. Chunk 1 is completed with a failing
database; when its consumer disconnects it stays reserved. -/
example :
    let h := failHistory
    let s := Server.run 10000 2 h
    let es : List Action := [.disconnect 1, .tick (.advance 999), .tick .runPendingTasks, .tick .purgeNext]
    let s' := Server.run 10000 2 (h ++ [.handle true 6 6 6 [], .release true] ++ es)
    nextReportTest s 1 (.fail ⟨1, 0⟩ "y") = true ∧ s.reserver.lookup ⟨1, 0⟩ = some ⟨⟨1, 0⟩, 1, 0⟩ ∧
    backlogCount s.db ⟨1, 0⟩ = 1 ∧ holder s' ⟨1, 0⟩ = some 1 ∧ holder s' ⟨1, 1⟩ = none ∧
    (s'.conn 1).isNone ∧
    holder (exec s' [.tick (.advance 1), .tick .runPendingTasks]) ⟨1, 0⟩ = none ∧
    let g := fetchHistory ++ [.report 1 (.complete ⟨1, 1⟩ none)]
    let es : List Action := [.disconnect 1, .tick (.advance 999), .tick .runPendingTasks]
    nextReportTest (Server.run 10000 2 g) 1 (.complete ⟨1, 1⟩ none) = true ∧
    holder (Server.run 10000 2 (g ++ [.handle true 6 6 6 [.ok, .fail], .release false] ++ es)) ⟨1, 1⟩ = some 1 ∧
    backlogCount (Server.run 10000 2 (g ++ [.handle true 6 6 6 [.ok, .fail], .release false] ++ es)).db ⟨1, 1⟩ = 1 := by
  decide +kernel

/-- **C26, retry, at the server.** If a failure report does not use up the retry budget, the chunk is
back in the backlog and not reserved as soon as the report has been dealt with. -/
theorem C26_server_retry_at_once (ttl m : Nat) (h : List Action) (c : ConnId) (id : ChunkId) (f : String)
    (row : ChunkRow) (n1 n2 n3 : Time) (b : Bool) (hf : FreshIds (Server.run ttl m h).calls)
    (hrow : chunkAt (Server.run ttl m h).db id = .ok row) (hm : row.retries + 1 < m)
    (hnext : NextReport (Server.run ttl m h) c (.fail id f)) :
    let s' := Server.run ttl m (h ++ [.handle true n1 n2 n3 [], .release b])
    Free s' id := by
  intro s'
  have hdb := db_run ttl m h
  have hmx : (Server.run ttl m h).maxRetries = m := maxRetries_exec _ _
  rw [hdb] at hrow
  obtain ⟨h1, h2, -⟩ := C07_retry_below_budget _ hf _ row hrow f m n1 n2 n3 hm _ _ rfl
  have hs := settle hnext n1 n2 n3 [] b (by rw [hdb, hmx]; exact congrArg Out.crashed h1)
  rw [show exec (Server.run ttl m h) [.handle true n1 n2 n3 [], .release b] = s' from
    (exec_append _ _ _).symm, hdb, hmx] at hs
  refine ⟨⟨_, by rw [hs.2.2.1]; exact h2⟩, ?_⟩
  rw [hs.2.1]
  replace h1 : delayedAfter (Opsqueue.step (Opsqueue.run (Server.run ttl m h).calls)
    (reportOp m n1 n2 n3 [] (.fail id f))).1 = false := congrArg delayedAfter h1
  rw [h1]
  exact (C26_retry_at_once _ _ (⟨0, 0⟩ : ChunkId) 0).1

/-! ### C24 -/

/-- **C24, after a report.** The report of consumer `c` that is dealt with puts the chunk back for
retry. Later (after `es1`) it is reserved for consumer `c'`, and was not reserved for anybody else in
between. Then, whatever `c` and all others do — in particular, if `c` disconnects — short of reporting on
the chunk, it stays reserved for `c'` until `c'` disconnects or the reservation expires. (Missing: as for
`C24_only_holder_ends_partial`.) -/
theorem C24_nothing_left_after_report_partial (ttl m : Nat) (h es1 es2 : List Action) (c c' : ConnId)
    (id : ChunkId) (f : String) (row : ChunkRow) (e : Reservation ChunkId ConnId) (n1 n2 n3 : Time)
    (b : Bool) (httl : 0 < ttl) (hf : FreshIds (Server.run ttl m h).calls)
    (hrow : chunkAt (Server.run ttl m h).db id = .ok row) (hm : row.retries + 1 < m)
    (hnext : NextReport (Server.run ttl m h) c (.fail id f))
    (hrep : ∀ a ∈ es1 ++ es2, a.reportsOn id = false) :
    let s1 := Server.run ttl m (h ++ [.handle true n1 n2 n3 [], .release b])
    let s2 := exec s1 es1
    let s3 := exec s2 es2
    (∀ p q, es1 = p ++ q → holder (exec s1 p) id = none ∨ holder (exec s1 p) id = some c') →
    (s2.conn c').isSome → s2.reserver.lookup id = some e → e.sender = c' →
    (s3.conn c').isSome → s3.reserver.now < e.reservedAt + ttl →
    holder s3 id = some c' := by
  intro s1 s2 s3 honly hup0 hl hc hup ht
  have hdb := db_run ttl m h
  have hmx : (Server.run ttl m h).maxRetries = m := maxRetries_exec _ _
  rw [hdb] at hrow
  obtain ⟨h1, h2, -⟩ := C07_retry_below_budget _ hf _ row hrow f m n1 n2 n3 hm _ _ rfl
  have hs := settle hnext n1 n2 n3 [] b (by rw [hdb, hmx]; exact congrArg Out.crashed h1)
  have e0 : exec (Server.run ttl m h) [.handle true n1 n2 n3 [], .release b] = s1 :=
    (exec_append _ _ _).symm
  rw [e0, hdb, hmx] at hs
  replace h1 : delayedAfter (Opsqueue.step (Opsqueue.run (Server.run ttl m h).calls)
    (reportOp m n1 n2 n3 [] (.fail id f))).1 = false := congrArg delayedAfter h1
  rw [h1] at hs
  have hpend : id ∉ s1.reserver.pending.map (·.1) := by
    intro hp
    obtain ⟨p, hp, hpi⟩ := List.mem_map.1 hp
    rw [hs.2.1] at hp
    rcases Server.pending_step (op := .finish id false) hp with h | h | h
    · exact hnext.scheduled (List.mem_map.2 ⟨p, h, hpi⟩)
    · cases h
    · cases h
  have htt : s1.reserver.ttl = ttl := Server.ttl_exec _ _
  have hst := no_stale_from (s := s1) (es := es1) (c := c') (id := id) (by omega) hs.1 hpend honly
    (fun a ha => hrep a (List.mem_append_left _ ha))
  have e2 : s2 = Server.run ttl m (h ++ [.handle true n1 n2 n3 [], .release b] ++ es1) :=
    (exec_append _ _ _).symm
  have key := C24_only_holder_ends_partial ttl m
    (h ++ [.handle true n1 n2 n3 [], .release b] ++ es1) es2 c' id e
  rw [← e2] at key
  exact key hup0 hl hc hst (fun a ha => hrep a (List.mem_append_right _ ha)) hup ht

/-- The chunk that consumer 1 failed (budget 3) is sent to consumer 2. Then consumer 1 disconnects: its
other chunk is given back, but not this one. -/
example :
    let s := Server.run 10000 3 failHistory
    let s1 := Server.run 10000 3 (failHistory ++ [.handle true 6 6 6 [], .release true])
    let s2 := exec s1 [.tick (.advance 7), .request 2 ⟨1, 1, .oldest⟩ ⟨0, fun _ => false, fun _ => []⟩, .row 2,
      .join 2]
    let s3 := exec s2 [.disconnect 1, .tick (.advance 9000), .tick .runPendingTasks]
    nextReportTest s 1 (.fail ⟨1, 0⟩ "y") = true ∧ FreshIds s.calls ∧ backlogCount s.db ⟨1, 0⟩ = 1 ∧
    holder s1 ⟨1, 0⟩ = none ∧ s2.reserver.lookup ⟨1, 0⟩ = some ⟨⟨1, 0⟩, 2, 7⟩ ∧ (s3.conn 2).isSome ∧
    holder s2 ⟨1, 1⟩ = some 1 ∧ holder s3 ⟨1, 1⟩ = none ∧ holder s3 ⟨1, 0⟩ = some 2 := by
  decide +kernel

end Opsqueue
