import Verif.Proofs.Fetch
import Verif.Props.Strategy

/-!
# C27, C28: what a reserve request returns and reserves

The server is in the state after an arbitrary history `h` of actions of any number of consumers and
producers, the completer and the clock. `FreshIds` is the assumption that generated submission ids do
not repeat.
-/

namespace Opsqueue
open Server
open Conn (Request)

/-- **C27, limit 0.** The request is rejected; nothing but the answer changes. -/
theorem C27_limit_zero_rejected (s : Server.State) (c : ConnId) (k : ConnState) (r : Request) (v : View)
    (hk : s.conn c = some k) (hidle : k.fetching = none) (hmax : r.max = 0) :
    Server.step s (.request c r v) = { s with conns := s.conns.set c { k with
      answers := k.answers ++ [(r.nonce, none)] } } := by
  rw [request_cases hk hidle]
  unfold begin
  rw [if_pos hmax]
  unfold State.setConn ConnState.answer
  rw [hidle]

/-- What a reserve request is supposed to achieve. Connection `c` sends request `r` (with positive
limit) in state `s`; `es ++ [a]` is what happens, on all connections, until it is answered with `ids`.
-/
def ReservesExactly (s : Server.State) (c : ConnId) (r : Request) (s1 : Server.State)
    (es : List Action) (ids : List ChunkId) : Prop :=
  ids.length ≤ r.max ∧ ids.Nodup ∧
  -- each chunk is in the backlog as of the request, was not reserved just before it was taken
  -- and was reserved for `c` just after
  (∀ id ∈ ids, (∃ row, chunkAt s.db id = .ok row) ∧
    ∃ p q, es = p ++ .row c :: q ∧ (exec s1 p).reserver.isReserved id = false ∧
      holder (exec s1 (p ++ [.row c])) id = some c) ∧
  -- no other chunk becomes reserved by the work done for the request
  ∀ p q a id, es = p ++ a :: q → a.FetchStep c →
    (exec s1 p).reserver.isReserved id = false → (exec s1 (p ++ [a])).reserver.isReserved id = true →
    id ∈ ids

/-- Full statement of C27 for positive limits: whenever a request is answered. -/
def C27_full : Prop :=
  ∀ (ttl m : Nat) (h : List Action) (c : ConnId) (r : Request) (v : View) (es : List Action)
    (a : Action) (ids : List ChunkId), 0 < ttl → FreshIds (Server.run ttl m h).calls →
    Idle (Server.run ttl m h) c → r.max ≠ 0 → (∀ k, Map.WF (v.counts k)) →
    let s := Server.run ttl m h
    let s1 := Server.step s (.request c r v)
    (∀ p q, es = p ++ q → Busy (exec s1 p) c) →
    answersTo (exec s1 (es ++ [a])) c = answersTo s c ++ [(r.nonce, some ids)] →
    ReservesExactly s c r s1 (es ++ [a]) ids

/-- **C27.** A request that is answered with chunks returns at most `max` chunks, pairwise different,
all of them in the backlog and free when they were taken, and reserves these and no others — whatever
happens on other connections in between. (Missing: requests answered with no chunks, that is those that
end with a database error, for which the last part is false.) -/
theorem C27_reserves_exactly_partial (ttl m : Nat) (h : List Action) (c : ConnId) (r : Request)
    (v : View) (es : List Action) (a : Action) (ids : List ChunkId) (ht : 0 < ttl)
    (hf : FreshIds (Server.run ttl m h).calls) (hidle : Idle (Server.run ttl m h) c)
    (hmax : r.max ≠ 0) (hv : ∀ k, Map.WF (v.counts k))
    (hbusy : ∀ p q, es = p ++ q → Busy (exec (Server.step (Server.run ttl m h) (.request c r v)) p) c)
    (hans : answersTo (exec (Server.step (Server.run ttl m h) (.request c r v)) (es ++ [a])) c =
      answersTo (Server.run ttl m h) c ++ [(r.nonce, some ids)])
    (hne : ids ≠ []) :
    ReservesExactly (Server.run ttl m h) c r (Server.step (Server.run ttl m h) (.request c r v))
      (es ++ [a]) ids := by
  have htt : (Server.run ttl m h).reserver.ttl = ttl := ttl_exec _ _
  have hdb := db_run ttl m h
  generalize Server.run ttl m h = s at *
  have hI : Inv s.db := by rw [hdb]; exact inv_run hf
  obtain ⟨k, hk⟩ := Option.isSome_iff_exists.1 hidle.1
  have hkf : k.fetching = none := by have := hidle.2; unfold fetchOf at this; rw [hk] at this; exact this
  obtain ⟨hkg, hkl⟩ := conn_eq.1 hk
  obtain ⟨rows0, hrows⟩ : ∃ rows0, rows0 = r.strategy.chunkRows v.offset v.reserved v.counts s.db := ⟨_, rfl⟩
  obtain ⟨s1, hs1⟩ : ∃ s1, s1 = Server.step s (.request c r v) := ⟨_, rfl⟩
  rw [← hs1] at hbusy hans ⊢
  have e1 : s1 = s.setConn c { k with fetching := some { req := r, rows := rows0 } } := by
    rw [hs1, request_cases hk hkf]; unfold begin; rw [if_neg hmax, hrows]
  have hfo : fetchOf s1 c = some { req := r, rows := rows0 } := by
    rw [e1, fetchOf_setConn]; exact hkl
  have hans1 : answersTo s1 c = answersTo s c := by
    rw [e1, answersTo_setConn]; unfold answersTo; rw [hkg]; rfl
  have hP0 : Progress rows0 r c s1 [] { req := r, rows := rows0 } :=
    ⟨rfl, ⟨[], rfl, List.nil_sublist _⟩, Nat.pos_of_ne_zero hmax, (fun id hid => by cases hid),
      (fun p q a id hp => by simp at hp), rfl⟩
  obtain ⟨f, hff, hP⟩ := progress_exec (by rw [e1]; show 0 < s.reserver.ttl; omega) hfo hP0 es hbusy
  have hans2 : answersTo (Server.step (exec s1 es) a) c =
      answersTo (exec s1 es) c ++ [(r.nonce, some ids)] := by
    rw [← exec_snoc, hans, hP.answers, hans1]
  obtain ⟨-, hres, hstep, hids⟩ := answer_step hff hne hans2
  have hids : ids = f.taken := by
    rcases hids with ⟨hj, h⟩ | ⟨id, hj, h⟩ <;> simp [Fetching.taken, hj, h]
  have hlen : ids.length ≤ r.max := by
    have := hP.lt
    rw [hids]; unfold Fetching.taken
    cases f.joining <;> simp <;> omega
  obtain ⟨seen, hseen, hsub⟩ := hP.seen
  have hperm := chunkRows_perm hI r.strategy v.offset v.reserved hv
  rw [← hrows] at hperm
  have hkeys : (rows0.map ChunkRow.key).Nodup := by
    have : (s.db.chunks.filter fun c => !v.reserved c.key).map ChunkRow.key |>.Nodup :=
      hI.chunkKeys.sublist (List.filter_sublist.map _)
    exact (hperm.map _).nodup_iff.2 this
  have hsub0 : ids.Sublist (rows0.map ChunkRow.key) := by
    rw [hids, hseen, List.map_append]
    exact hsub.trans (List.sublist_append_left _ _)
  refine ⟨hlen, hkeys.sublist hsub0, ?_, ?_⟩
  · intro id hid
    constructor
    · obtain ⟨row, hrow, rfl⟩ := List.mem_map.1 (hsub0.subset hid)
      exact ⟨row, (chunkAt_ok_iff hI.chunkKeys).2
        ⟨(List.mem_filter.1 (hperm.mem_iff.1 hrow)).1, rfl⟩⟩
    · rw [hids] at hid
      exact (hP.taken id hid).mono _
  · intro p q b id hpq hb h1 h2
    rw [hids]
    rcases snoc_split hpq with ⟨rfl, rfl, rfl⟩ | ⟨q', rfl, hp⟩
    · rw [exec_snoc, hres, h1] at h2; cases h2
    · exact hP.only p q' b id hp hb h1 h2

theorem busy_of_take {s : Server.State} {c : ConnId} {es : List Action}
    (h : ∀ n, n < es.length + 1 → Busy (exec s (es.take n)) c) :
    ∀ p q, es = p ++ q → Busy (exec s p) c := by
  intro p q hpq
  have := h p.length (by rw [hpq]; simp; omega)
  rwa [hpq, List.take_left] at this

/-- Two consumers; three submissions with five chunks in all; consumer 1 has reserved the two chunks of
submission 1. -/
def fetchHistory : List Action :=
  [.connect 1, .connect 2,
   .producer (.insert { id := 2, contents := [some [20]], strategic := [("company", 8)] } 0 []), .notify,
   .producer (.insert
      { id := 1, contents := [some [10], some [11]], strategic := [("company", 7), ("user", 1)] } 0 []),
   .notify,
   .producer (.insert { id := 3, contents := [some [30], some [31]] } 0 []), .notify,
   .request 1 ⟨0, 2, .oldest⟩ ⟨0, fun _ => false, fun _ => []⟩,
   .row 1, .join 1, .row 1, .join 1]

/-- Consumer 2 asks for three chunks, oldest first, and its query still sees the chunks of submission 1
as free. While it is served, consumer 1 completes one of its chunks and asks for another, and takes
chunk 0 of submission 3. -/
example :
    let s := Server.run 1000 3 fetchHistory
    let r : Request := ⟨5, 3, .oldest⟩
    let v : View := ⟨0, fun _ => false, fun _ => []⟩
    let es : List Action := [.row 2, .report 1 (.complete ⟨1, 0⟩ none), .handle true 5 5 5 [], .row 2,
      .release true, .row 2, .request 1 ⟨1, 1, .newest⟩ (s.view 0), .row 1, .join 2, .join 1, .row 2,
      .row 2, .join 2]
    FreshIds s.calls ∧ Idle s 2 ∧ r.max ≠ 0 ∧
    (∀ n, n < es.length + 1 → Busy (exec (Server.step s (.request 2 r v)) (es.take n)) 2) ∧
    answersTo (exec (Server.step s (.request 2 r v)) (es ++ [.row 2])) 2 =
      answersTo s 2 ++ [(5, some [⟨2, 0⟩, ⟨3, 1⟩])] ∧
    answersTo (exec (Server.step s (.request 2 r v)) (es ++ [.row 2])) 1 =
      [(0, some [⟨1, 0⟩, ⟨1, 1⟩]), (1, some [⟨3, 0⟩])] := by
  decide +kernel

/-- **C27, refuted for requests that end with a database error.** The chunk taken before the error stays
reserved although the answer contains no chunks. -/
theorem C27_refuted_when_fetch_fails : ¬ C27_full := by
  intro h
  have h1 := h 1000 3 fetchHistory 2 ⟨5, 3, .oldest⟩ ⟨0, fun _ => false, fun _ => []⟩
    [.row 2, .row 2, .row 2, .join 2] (.fetchFails 2) [] (by decide) (by decide +kernel)
    (by decide +kernel) (by decide) (fun _ => Map.wf_nil)
    (busy_of_take (by decide +kernel)) (by decide +kernel)
  have h2 := h1.2.2.2 [.row 2, .row 2] [.join 2, .fetchFails 2] (.row 2) ⟨2, 0⟩ rfl .row
    (by decide +kernel) (by decide +kernel)
  cases h2

/-- The chunk stays reserved for the consumer, which does not know about it, until the reservation
expires. -/
example :
    let s := exec (Server.run 1000 3 fetchHistory)
      [.request 2 ⟨5, 3, .oldest⟩ ⟨0, fun _ => false, fun _ => []⟩, .row 2, .row 2, .row 2, .join 2,
       .fetchFails 2, .tick (.advance 999)]
    answersTo s 2 = [(5, some [])] ∧ holder s ⟨2, 0⟩ = some 2 ∧
      holder (Server.step s (.tick (.advance 1))) ⟨2, 0⟩ = none := by
  decide +kernel

/-- **C28.** If nothing else happens until it is done, a request with limit `max > 0` takes exactly the
first `max` of the free chunks in the order of its strategy (or all, if there are fewer) and answers with
them; if there is none it waits. `rows` is the order in which the strategy offers the free chunks
(C29 – C31), `n` any number of rounds that suffices. -/
theorem C28_takes_the_first_free (ttl m : Nat) (h : List Action) (c : ConnId) (r : Request)
    (offset n : Nat) (ht : 0 < ttl) (hf : FreshIds (Server.run ttl m h).calls)
    (hidle : Idle (Server.run ttl m h) c) (hmax : r.max ≠ 0)
    (hn : (Server.run ttl m h).db.chunks.length < n) :
    let s := Server.run ttl m h
    let rows := r.strategy.chunkRows offset s.reserver.isReserved s.counters.countsOf s.db
    let ids := (rows.map ChunkRow.key).take r.max
    let s' := exec s (.request c r (s.view offset) :: undisturbed c n)
    OffersFreeOnce s.db s.reserver.isReserved rows ∧
    (ids ≠ [] → answersTo s' c = answersTo s c ++ [(r.nonce, some ids)]) ∧
    (ids = [] → answersTo s' c = answersTo s c ∧ ∃ k, s'.conn c = some k ∧ r ∈ k.spawned) ∧
    (∀ id ∈ ids, holder s' id = some c) ∧
    (∀ id, s'.reserver.isReserved id = true ↔ s.reserver.isReserved id = true ∨ id ∈ ids) ∧
    (ids.length < r.max → ∀ id, ¬ Free s' id) ∧
    (ids = [] ↔ ∀ id, ¬ Free s id) := by
  have htt : (Server.run ttl m h).reserver.ttl = ttl := ttl_exec _ _
  have hdb := db_run ttl m h
  have hwf : ∀ k, Map.WF ((Server.run ttl m h).counters.countsOf k) := fun k =>
    MetaConc.fieldsWF_getD (fieldsWF_run ttl m h) k
  generalize Server.run ttl m h = s at *
  intro s0 rows ids s'
  have hI : Inv s.db := by rw [hdb]; exact inv_run hf
  obtain ⟨k, hk⟩ := Option.isSome_iff_exists.1 hidle.1
  have hkf : k.fetching = none := by have := hidle.2; unfold fetchOf at this; rw [hk] at this; exact this
  obtain ⟨hkg, hkl⟩ := conn_eq.1 hk
  have hperm : rows.Perm (s.db.chunks.filter fun c => !s.reserver.isReserved c.key) :=
    chunkRows_perm hI r.strategy offset s.reserver.isReserved hwf
  have e1 : s' = exec (begin s c k r (s.view offset)) (undisturbed c n) := by
    rw [← request_cases hk hkf]; rfl
  have hans : k.answers = answersTo s c := by unfold answersTo; rw [hkg]; rfl
  obtain ⟨h1, h2, h3⟩ := begin_served (c := c) hI hwf (by omega) hkl r offset hmax hn
  rw [← e1] at h1 h2 h3
  refine ⟨offersFreeOnce_of_perm hI hperm, ?_, ?_, h3⟩
  · intro hne
    show answersTo s' c = answersTo s c ++ _
    rw [← hans]
    unfold answersTo
    rw [h1 hne]; rfl
  · intro he
    have := h2 he
    refine ⟨?_, _, conn_eq.2 ⟨this, hkl⟩, ?_⟩
    · show answersTo s' c = answersTo s c
      rw [← hans]
      unfold answersTo
      rw [this]; rfl
    · exact List.mem_append_right _ (List.mem_singleton.2 rfl)

/-- Consumer 2 asks for two chunks, newest first; then for ten more; then there is nothing left. -/
example :
    let s := Server.run 1000 3 fetchHistory
    let s2 := exec s (.request 2 ⟨0, 2, .newest⟩ (s.view 0) :: undisturbed 2 9)
    let s3 := exec s2 (.request 2 ⟨1, 10, .preferDistinct "company" .oldest⟩ (s2.view 0) :: undisturbed 2 9)
    let s4 := exec s3 (.request 2 ⟨2, 1, .oldest⟩ (s3.view 0) :: undisturbed 2 9)
    FreshIds s.calls ∧ Idle s 2 ∧ Idle s2 2 ∧ Idle s3 2 ∧ s.db.chunks.length < 9 ∧
    answersTo s4 2 = [(0, some [⟨3, 0⟩, ⟨3, 1⟩]), (1, some [⟨2, 0⟩])] ∧
    (s4.conn 2).map (·.spawned) = some [⟨2, 1, .oldest⟩] := by
  decide +kernel

end Opsqueue
