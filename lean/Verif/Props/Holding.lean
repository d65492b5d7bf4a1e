import Verif.Proofs.Holding
import Verif.Props.Fetch

/-!
# C24, C35: how reservations end

The server is in the state after an arbitrary history `h` of actions of any number of consumers and
producers, the completer and the clock.
-/

namespace Opsqueue
open Server
open Conn (Request Report)

/-! ### C35 -/

/-- **C35.** A consumer was sent chunk `id` in the answer to a reserve request (by action `a`), and has
not reported on it since. When its connection ends — whatever the action `e` by which that happens: the
consumer disconnects, its task panics, or the server crashes — the chunk is not reserved for anybody any
more, and the next attempt to reserve it succeeds. -/
theorem C35_disconnect_gives_back (ttl m : Nat) (h1 : List Action) (a : Action) (h2 : List Action)
    (e : Action) (c : ConnId) (n : Nat) (ids : List ChunkId) (id : ChunkId)
    (hans : answersTo (Server.run ttl m (h1 ++ [a])) c =
      answersTo (Server.run ttl m h1) c ++ [(n, some ids)])
    (hid : id ∈ ids) (hnew : ¬ ReportPending (Server.run ttl m (h1 ++ [a])) c id)
    (hrep : ∀ b ∈ h2, b.reportsOnBy c id = false)
    (hup : ((Server.run ttl m (h1 ++ [a] ++ h2)).conn c).isSome)
    (hend : (Server.run ttl m (h1 ++ [a] ++ h2 ++ [e])).conn c = none) :
    let s := Server.run ttl m (h1 ++ [a] ++ h2 ++ [e])
    s.reserver.isReserved id = false ∧ ∀ c', (s.reserver.tryReserve id id c').1 = some id := by
  intro s
  have e1 : Server.run ttl m (h1 ++ [a]) = Server.step (Server.run ttl m h1) a := exec_snoc _ _ _
  have e2 : Server.run ttl m (h1 ++ [a] ++ h2) = exec (Server.run ttl m (h1 ++ [a])) h2 :=
    exec_append _ _ _
  have e3 : s = Server.step (Server.run ttl m (h1 ++ [a] ++ h2)) e := exec_snoc _ _ _
  rw [e1] at hans
  obtain ⟨k, hk, hheld⟩ := answered_held hans
  rw [← e1] at hk
  rw [e2] at hup
  obtain ⟨k2, hk2, hheld2⟩ := held_exec hk (hheld id hid) hnew h2 hrep hup
  rw [← e2] at hk2
  have hl : s.reserver.lookup id = none := by
    rw [e3]
    exact ends_step hk2 (by rw [← e3]; exact hend) id hheld2
  exact ⟨isReserved_eq_false.2 hl, fun c' => by rw [Reserver.tryReserve_some hl]⟩

/-- In `fetchHistory` consumer 1 was sent both chunks of submission 1. It reports one, asks for more
and disconnects. The other one is given back, also the one it was sent later. -/
example :
    let h1 := fetchHistory.take 12
    let a : Action := .join 1
    let h2 : List Action := [.report 1 (.complete ⟨1, 0⟩ none), .handle true 5 5 5 [], .release true,
      .request 1 ⟨1, 1, .newest⟩ ⟨0, fun _ => false, fun _ => []⟩, .row 1, .join 1]
    let s := Server.run 1000 3 (h1 ++ [a] ++ h2)
    let s' := Server.run 1000 3 (h1 ++ [a] ++ h2 ++ [.disconnect 1])
    answersTo (Server.run 1000 3 (h1 ++ [a])) 1 =
      answersTo (Server.run 1000 3 h1) 1 ++ [(0, some [⟨1, 0⟩, ⟨1, 1⟩])] ∧
    (∀ b ∈ h2, b.reportsOnBy 1 ⟨1, 1⟩ = false) ∧
    s.queue = [] ∧ s.completing = none ∧ (s.conn 1).isSome ∧ s'.conn 1 = none ∧
    holder s ⟨1, 1⟩ = some 1 ∧ holder s' ⟨1, 1⟩ = none ∧ holder s ⟨3, 0⟩ = some 1 ∧
    holder s' ⟨3, 0⟩ = none ∧ holder s' ⟨1, 0⟩ = some 1 := by
  decide +kernel

/-- **C35, seen by another consumer.** If the chunk is still in the backlog, any other consumer that
asks for sufficiently many chunks and is served undisturbed is sent it. -/
theorem C35_another_consumer_gets_it (ttl m : Nat) (h1 : List Action) (a : Action) (h2 : List Action)
    (e : Action) (c : ConnId) (n : Nat) (ids : List ChunkId) (id : ChunkId) (row : ChunkRow)
    (c' : ConnId) (r : Request) (offset rounds : Nat) (ht : 0 < ttl)
    (hf : FreshIds (Server.run ttl m (h1 ++ [a] ++ h2 ++ [e])).calls)
    (hans : answersTo (Server.run ttl m (h1 ++ [a])) c =
      answersTo (Server.run ttl m h1) c ++ [(n, some ids)])
    (hid : id ∈ ids) (hnew : ¬ ReportPending (Server.run ttl m (h1 ++ [a])) c id)
    (hrep : ∀ b ∈ h2, b.reportsOnBy c id = false)
    (hup : ((Server.run ttl m (h1 ++ [a] ++ h2)).conn c).isSome)
    (hend : (Server.run ttl m (h1 ++ [a] ++ h2 ++ [e])).conn c = none)
    (hback : chunkAt (Server.run ttl m (h1 ++ [a] ++ h2 ++ [e])).db id = .ok row)
    (hidle : Idle (Server.run ttl m (h1 ++ [a] ++ h2 ++ [e])) c')
    (hmax : (Server.run ttl m (h1 ++ [a] ++ h2 ++ [e])).db.chunks.length < r.max)
    (hrounds : (Server.run ttl m (h1 ++ [a] ++ h2 ++ [e])).db.chunks.length < rounds) :
    let s := Server.run ttl m (h1 ++ [a] ++ h2 ++ [e])
    let s' := exec s (.request c' r (s.view offset) :: undisturbed c' rounds)
    ∃ ids', answersTo s' c' = answersTo s c' ++ [(r.nonce, some ids')] ∧ id ∈ ids' ∧
      holder s' id = some c' := by
  have hfree := (C35_disconnect_gives_back ttl m h1 a h2 e c n ids id hans hid hnew hrep hup hend).1
  obtain ⟨h3, h4, -, h6, -⟩ := C28_takes_the_first_free ttl m (h1 ++ [a] ++ h2 ++ [e]) c' r offset rounds ht hf
    hidle (by omega) hrounds
  have hI : Inv (Server.run ttl m (h1 ++ [a] ++ h2 ++ [e])).db := by rw [db_run]; exact inv_run hf
  have hwf : ∀ k, Map.WF ((Server.run ttl m (h1 ++ [a] ++ h2 ++ [e])).counters.countsOf k) := fun k =>
    MetaConc.fieldsWF_getD (fieldsWF_run _ _ _) k
  clear hans hnew hup hend
  generalize Server.run ttl m (h1 ++ [a] ++ h2 ++ [e]) = s at *
  have hr := h3.2 id row hback hfree
  have hmem : id ∈ (r.strategy.chunkRows offset s.reserver.isReserved s.counters.countsOf s.db).map
      ChunkRow.key := by
    have : row ∈ (r.strategy.chunkRows offset s.reserver.isReserved s.counters.countsOf s.db).filter
      (fun d => d.key == id) := by rw [hr]; exact List.mem_singleton.2 rfl
    obtain ⟨h7, h8⟩ := List.mem_filter.1 this
    exact List.mem_map.2 ⟨row, h7, by simpa using h8⟩
  have hlen : ((r.strategy.chunkRows offset s.reserver.isReserved s.counters.countsOf s.db).map
      ChunkRow.key).length ≤ r.max := by
    have h1 := (chunkRows_perm hI r.strategy offset s.reserver.isReserved hwf).length_eq
    have h2 := List.length_filter_le (fun c : ChunkRow => !s.reserver.isReserved c.key) s.db.chunks
    rw [List.length_map]; omega
  have htake := List.take_of_length_le hlen
  refine ⟨_, h4 ?_, ?_, h6 id ?_⟩
  · rw [htake]; intro h; rw [h] at hmem; cases hmem
  · rw [htake]; exact hmem
  · rw [htake]; exact hmem

/-- Consumer 2 gets the chunk of consumer 1 that disconnected. -/
example :
    let s := Server.run 1000 3 (fetchHistory ++ [.disconnect 1])
    let s' := exec s (.request 2 ⟨7, 10, .random⟩ (s.view 100) :: undisturbed 2 9)
    FreshIds s.calls ∧ Idle s 2 ∧ s.db.chunks.length = 5 ∧ chunkAt s.db ⟨1, 1⟩ ≠ .err .rowNotFound ∧
    holder s' ⟨1, 1⟩ = some 2 := by
  decide +kernel

/-! ### C24 -/

/-- Full statement of C24. In state `s` chunk `id` is reserved for consumer `c` (entry `e`), `c` has
not reported on it and no delayed removal of it is due to happen. Then, as long as `c` does not report on
it and does not disconnect, and until its reservation expires, it stays reserved for `c`. -/
def C24_full : Prop :=
  ∀ (ttl m : Nat) (h es : List Action) (c : ConnId) (id : ChunkId) (e : Reservation ChunkId ConnId),
    let s := Server.run ttl m h
    let s' := exec s es
    0 < ttl → FreshIds s'.calls → (s.conn c).isSome →
    s.reserver.lookup id = some e → e.sender = c →
    ¬ ReportPending s c id → id ∉ s.reserver.pending.map (·.1) →
    (∀ a ∈ es, a.reportsOnBy c id = false) → (s'.conn c).isSome →
    s'.reserver.now < e.reservedAt + ttl →
    holder s' id = some c

/-- Consumer 1 is sent the only chunk and does not report on it in time; then consumer 2 is sent it. -/
def lateHistory : List Action :=
  [.connect 1, .connect 2, .connect 3, .producer (.insert { id := 1, contents := [some [10]] } 0 []), .notify,
   .request 1 ⟨0, 1, .oldest⟩ ⟨0, fun _ => false, fun _ => []⟩, .row 1, .join 1,
   .tick (.advance 1000), .tick .runPendingTasks,
   .request 2 ⟨0, 1, .oldest⟩ ⟨0, fun _ => false, fun _ => []⟩, .row 2, .join 2]

/-- **C24, refuted.** A late failure report by consumer 1 ends the reservation of consumer 2. (The
client sends exactly such a report when it learns of the expiry: C39.) -/
theorem C24_refuted_by_late_report : ¬ C24_full := by
  intro h
  have := h 1000 3 lateHistory
    [.report 1 (.fail ⟨1, 0⟩ "late"), .handle true 5 5 5 [], .release true] 2 ⟨1, 0⟩ ⟨⟨1, 0⟩, 2, 1000⟩
    (by decide) (by decide +kernel) (by decide +kernel) (by decide +kernel) (by decide +kernel)
    (by unfold ReportPending
        rintro (⟨r, hr, _⟩ | ⟨d, hd⟩)
        · have : (Server.run 1000 3 lateHistory).queue = [] := by decide +kernel
          rw [this] at hr; cases hr
        · have : (Server.run 1000 3 lateHistory).completing = none := by decide +kernel
          rw [this] at hd; cases hd)
    (by decide +kernel) (by decide +kernel) (by decide +kernel) (by decide +kernel)
  exact absurd this (by decide +kernel)

/-- So does the end of the connection of consumer 1, and the chunk is handed to a third consumer. -/
example :
    let s := exec (Server.run 1000 3 lateHistory) [.disconnect 1]
    let s' := exec s (.request 3 ⟨0, 1, .oldest⟩ (s.view 0) :: undisturbed 3 2)
    holder (Server.run 1000 3 lateHistory) ⟨1, 0⟩ = some 2 ∧ holder s ⟨1, 0⟩ = none ∧
    answersTo s' 2 = [(0, some [⟨1, 0⟩])] ∧ answersTo s' 3 = [(0, some [⟨1, 0⟩])] ∧
    (s'.conn 2).isSome ∧ s'.reserver.now = 1000 := by
  decide +kernel

/-- **C24.** As `C24_full`, whatever the other consumers do, provided that there are no stale claims
to the chunk, that is no remains of earlier reservations of it, and that nobody else reports on it.
(Missing: the case that another consumer held the chunk before and lost it by expiry.) -/
theorem C24_only_holder_ends_partial (ttl m : Nat) (h es : List Action) (c : ConnId) (id : ChunkId)
    (e : Reservation ChunkId ConnId) (hup0 : ((Server.run ttl m h).conn c).isSome)
    (hl : (Server.run ttl m h).reserver.lookup id = some e) (hc : e.sender = c)
    (hstale : ¬ StaleClaim (Server.run ttl m h) c id)
    (hrep : ∀ a ∈ es, a.reportsOn id = false)
    (hup : ((exec (Server.run ttl m h) es).conn c).isSome)
    (ht : (exec (Server.run ttl m h) es).reserver.now < e.reservedAt + ttl) :
    holder (exec (Server.run ttl m h) es) id = some c := by
  obtain ⟨k, hk⟩ := Option.isSome_iff_exists.1 hup0
  have htt : (Server.run ttl m h).reserver.ttl = ttl := Server.ttl_exec _ _
  have hh : Reserver.Here id e (Server.run ttl m h).reserver := by
    unfold Reserver.lookup at hl
    cases hg : (Server.run ttl m h).reserver.cache.get id with
    | none => rw [hg] at hl; cases hl
    | some e' =>
      rw [hg, Option.filter_some] at hl
      split at hl
      · rename_i ha; cases hl; exact ⟨hg, ha⟩
      · cases hl
  have := safe_exec (conn_eq.1 hk).1 hh hstale es hup hrep (by rw [htt]; exact ht)
  unfold holder
  rw [this.lookup, ← hc]; rfl

/-- **C24, first holder.** In particular: if the chunk has never been reserved for anybody but `c`, and
nobody has reported on it, it stays reserved for `c` until `c` reports on it or disconnects or the
reservation expires, whatever the other consumers do short of reporting on a chunk they were never
sent. -/
theorem C24_first_holder_partial (ttl m : Nat) (h es : List Action) (c : ConnId) (id : ChunkId)
    (e : Reservation ChunkId ConnId) (httl : 0 < ttl)
    (hup0 : ((Server.run ttl m h).conn c).isSome)
    (hl : (Server.run ttl m h).reserver.lookup id = some e) (hc : e.sender = c)
    (honly : ∀ p q, h = p ++ q →
      holder (Server.run ttl m p) id = none ∨ holder (Server.run ttl m p) id = some c)
    (hrep : ∀ a ∈ h ++ es, a.reportsOn id = false)
    (hup : ((exec (Server.run ttl m h) es).conn c).isSome)
    (ht : (exec (Server.run ttl m h) es).reserver.now < e.reservedAt + ttl) :
    holder (exec (Server.run ttl m h) es) id = some c :=
  C24_only_holder_ends_partial ttl m h es c id e hup0 hl hc
    (no_stale httl honly fun a ha => hrep a (List.mem_append_left _ ha))
    (fun a ha => hrep a (List.mem_append_right _ ha)) hup ht

/-- Consumer 1 holds chunk 1 of submission 1; it completes chunk 0; consumer 2 takes other chunks, fails
one and disconnects; maintenance runs; almost all of the time to live passes. -/
example :
    let es : List Action := [.report 1 (.complete ⟨1, 0⟩ none), .handle true 5 5 5 [], .release true,
      .request 2 ⟨5, 3, .oldest⟩ ⟨0, fun _ => false, fun _ => []⟩, .row 2, .row 2, .row 2, .join 2, .row 2,
      .join 2, .row 2, .join 2, .report 2 (.fail ⟨2, 0⟩ "x"), .handle true 5 5 5 [], .release true,
      .tick (.advance 900), .disconnect 2, .tick .runPendingTasks, .tick (.advance 99)]
    let s := Server.run 1000 3 fetchHistory
    (s.conn 1).isSome ∧ s.reserver.lookup ⟨1, 1⟩ = some ⟨⟨1, 1⟩, 1, 0⟩ ∧
    (∀ n ≤ fetchHistory.length, holder (Server.run 1000 3 (fetchHistory.take n)) ⟨1, 1⟩ ∈ [none, some 1]) ∧
    (∀ a ∈ fetchHistory ++ es, a.reportsOn ⟨1, 1⟩ = false) ∧ ((exec s es).conn 1).isSome ∧
    (exec s es).reserver.now = 999 ∧
    answersTo (exec s es) 2 = [(5, some [⟨2, 0⟩, ⟨3, 0⟩, ⟨3, 1⟩])] := by
  decide +kernel

end Opsqueue
