import Verif.Proofs.ProgressRecord
import Verif.Proofs.Fetch
import Verif.Props.Fetch

/-!
# C62: the work can always be finished

The server is in the state after an arbitrary history `h`, with crashes, disconnects, expired reservations, reports by
consumers that had lost their chunk, and so on. From then on: the completer deals with the reports that have arrived,
time passes until the oldest reservation has expired, and a consumer that was never seen before connects, asks for
chunks and reports every chunk it gets as complete. `FreshIds` and `MapArgs` say that generated ids do not repeat
and that strategic metadata is a map.
-/

namespace Opsqueue
open Server
open Conn (Request Report)

/-- The reports are dealt with, the reservations expire, and `c` connects. -/
def recover (s : Server.State) (t : Time) (c : ConnId) : Server.State :=
  exec s (catchUp t s.queue.length ++ [.tick (.advance s.reserver.ttl), .connect c])

theorem recover_spec (ttl m : Nat) (h : List Action) (c : ConnId) (t : Time)
    (hf : FreshIds (Server.run ttl m h).calls) (hm : Machine.MapArgs (Server.run ttl m h).calls)
    (hc : (Server.run ttl m h).conns.get c = none) :
    let s := Server.run ttl m h
    let s1 := recover s t c
    s1.completing = none ∧ s1.queue = [] ∧
    s1.calls = s.calls ++ s.queue.map (fun x => reportOp s.maxRetries t t t [] x.2) ∧
    s1.db = run s1.calls ∧ FreshIds s1.calls ∧ Machine.MapArgs s1.calls ∧
    s1.conns.get c = some {} ∧ (∀ id, s1.reserver.isReserved id = false) ∧
    s1 = Server.run ttl m (h ++ (catchUp t s.queue.length ++ [.tick (.advance s.reserver.ttl), .connect c])) := by
  intro s s1
  obtain ⟨h1, h2, h3, h4, h5, h6⟩ := catchUp_spec t s (db_run ttl m h) hf
  have e : s1 = exec (exec s (catchUp t s.queue.length)) [.tick (.advance s.reserver.ttl), .connect c] :=
    exec_append _ _ _
  have hlast : s1 = Server.run ttl m
      (h ++ (catchUp t s.queue.length ++ [.tick (.advance s.reserver.ttl), .connect c])) :=
    (exec_append _ h _).symm
  have hp : Past (exec s (catchUp t s.queue.length)).reserver := past_exec (past_run ttl m h) _
  have htt : (exec s (catchUp t s.queue.length)).reserver.ttl = s.reserver.ttl := ttl_exec _ _
  have hg := h1.gone c hc
  generalize exec s (catchUp t s.queue.length) = s0 at *
  have e2 : s1 = ({ s0 with reserver := s0.reserver.step (.advance s.reserver.ttl) } : Server.State).setConn c {} := by
    rw [e]
    show Server.step ({ s0 with reserver := s0.reserver.step (.advance s.reserver.ttl) } : Server.State) (.connect c) = _
    simp only [Server.step, hg]
  rw [← hlast]
  rw [e2]
  refine ⟨h2, h3, h4, h5, h6, ?_, ?_, ?_, rfl⟩
  · intro a now o hin
    replace hin : Op.insert a now o ∈ s0.calls := hin
    rw [h4] at hin
    rcases List.mem_append.1 hin with hin | hin
    · exact hm a now o hin
    · obtain ⟨x, _, hx⟩ := List.mem_map.1 hin
      have := insertId_reportOp s.maxRetries t t t [] x.2
      rw [hx] at this; cases this
  · rw [get_setConn, if_pos rfl]
  · intro id
    show (s0.reserver.step (.advance s.reserver.ttl)).isReserved id = false
    rw [← htt]; exact isReserved_advance hp id

theorem offers_everything (ttl m : Nat) (h : List Action) (c : ConnId) (r : Request) (offset n : Nat) (s1 : Server.State)
    (g9 : s1 = Server.run ttl m h) (ht : 0 < ttl) (g4 : s1.db = run s1.calls) (g5 : FreshIds s1.calls)
    (g7 : s1.conns.get c = some {}) (g8 : ∀ id, s1.reserver.isReserved id = false) :
    let s2 := exec s1 (.request c r (s1.view offset) :: undisturbed c n)
    s1.db.chunks.length ≤ r.max → s1.db.chunks.length < n → s1.db.chunks ≠ [] →
    ∃ ids : List ChunkId, answersTo s2 c = [(r.nonce, some ids)] ∧ ids.Nodup ∧
      (∀ id, id ∈ ids ↔ ∃ row, chunkAt s1.db id = .ok row) ∧ (∀ id ∈ ids, holder s2 id = some c) := by
  intro s2 hmax hn hne
  have hI : Inv s1.db := inv_of_fresh g4 g5
  have hpos : r.max ≠ 0 := by
    have := List.length_pos_iff.2 hne
    omega
  have hidle : Idle s1 c := by
    have : s1.conn c = some {} := conn_eq.2 ⟨g7, rfl⟩
    refine ⟨by rw [this]; rfl, ?_⟩
    unfold fetchOf; rw [this]; rfl
  have key := C28_takes_the_first_free ttl m h c r offset n ht
    (by rw [← g9]; exact g5) (by rw [← g9]; exact hidle) hpos (by rw [← g9]; exact hn)
  rw [← g9] at key
  obtain ⟨k1, k2, k3, k4, k5, k6, k7⟩ := key
  have hwf : ∀ k, Map.WF (s1.counters.countsOf k) := by
    intro k
    have : s1 = Server.run ttl m _ := g9
    rw [this]
    exact MetaConc.fieldsWF_getD (fieldsWF_run ttl m _) k
  have hperm : (r.strategy.chunkRows offset s1.reserver.isReserved s1.counters.countsOf s1.db).Perm
      (s1.db.chunks.filter fun c => !s1.reserver.isReserved c.key) :=
    chunkRows_perm hI r.strategy offset s1.reserver.isReserved hwf
  have hall : (s1.db.chunks.filter fun c => !s1.reserver.isReserved c.key) = s1.db.chunks := by
    rw [List.filter_eq_self]
    intro c _
    have : s1.reserver.isReserved c.key = false := g8 c.key
    simp [this]
  rw [hall] at hperm
  have htake : ((r.strategy.chunkRows offset s1.reserver.isReserved s1.counters.countsOf s1.db).map
      ChunkRow.key).take r.max =
      (r.strategy.chunkRows offset s1.reserver.isReserved s1.counters.countsOf s1.db).map ChunkRow.key := by
    apply List.take_of_length_le
    rw [List.length_map, hperm.length_eq]; exact hmax
  rw [htake] at k2 k4
  refine ⟨_, ?_, (hperm.map _).nodup_iff.2 hI.chunkKeys, ?_, k4⟩
  · have := k2 (by
      intro he
      have := List.map_eq_nil_iff.1 he
      rw [this] at hperm
      exact hne (hperm.nil_eq).symm)
    refine this.trans ?_
    have : answersTo s1 c = [] := by unfold answersTo; rw [g7]; rfl
    rw [this]; rfl
  · intro id
    rw [(hperm.map ChunkRow.key).mem_iff]
    constructor
    · intro hid
      obtain ⟨row, hrow, rfl⟩ := List.mem_map.1 hid
      exact ⟨row, (chunkAt_ok_iff hI.chunkKeys).2 ⟨hrow, rfl⟩⟩
    · rintro ⟨row, hrow⟩
      obtain ⟨h1, rfl⟩ := (chunkAt_ok_iff hI.chunkKeys).1 hrow
      exact List.mem_map_of_mem h1

/-- **C62, every waiting chunk is offered.** The new consumer, asking for at least as many chunks as there are, in
whatever order, gets all chunks in the backlog, each once, and no others. -/
theorem C62_every_chunk_is_offered (ttl m : Nat) (h : List Action) (c : ConnId) (t : Time) (r : Request)
    (offset n : Nat) (ht : 0 < ttl) (hf : FreshIds (Server.run ttl m h).calls)
    (hm : Machine.MapArgs (Server.run ttl m h).calls) (hc : (Server.run ttl m h).conns.get c = none) :
    let s1 := recover (Server.run ttl m h) t c
    let s2 := exec s1 (.request c r (s1.view offset) :: undisturbed c n)
    s1.db.chunks.length ≤ r.max → s1.db.chunks.length < n → s1.db.chunks ≠ [] →
    ∃ ids : List ChunkId, answersTo s2 c = [(r.nonce, some ids)] ∧ ids.Nodup ∧
      (∀ id, id ∈ ids ↔ ∃ row, chunkAt s1.db id = .ok row) ∧ (∀ id ∈ ids, holder s2 id = some c) := by
  intro s1 s2
  obtain ⟨g1, g2, g3, g4, g5, g6, g7, g8, g9⟩ := recover_spec ttl m h c t hf hm hc
  exact offers_everything ttl m _ c r offset n s1 g9 ht g4 g5 g7 g8

/-- All chunks a consumer was given so far. -/
def offered (s : Server.State) (c : ConnId) : List ChunkId := (answersTo s c).flatMap fun a => a.2.getD []

/-- What the new consumer is given is the backlog, and the fetch leaves everything else alone. -/
theorem offer_spec (ttl m : Nat) (h : List Action) (c : ConnId) (t : Time) (r : Request)
    (offset n : Nat) (ht : 0 < ttl) (hf : FreshIds (Server.run ttl m h).calls)
    (hm : Machine.MapArgs (Server.run ttl m h).calls) (hc : (Server.run ttl m h).conns.get c = none) :
    let s1 := recover (Server.run ttl m h) t c
    let s2 := exec s1 (.request c r (s1.view offset) :: undisturbed c n)
    s1.db.chunks.length < r.max → s1.db.chunks.length < n →
    (∀ id, id ∈ offered s2 c ↔ id ∈ s1.db.chunks.map ChunkRow.key) ∧
    s2.calls = s1.calls ∧ s2.db = run s2.calls ∧ s2.queue = [] ∧ s2.completing = none ∧ Idle s2 c := by
  intro s1 s2 hmax hn
  obtain ⟨g1, g2, g3, g4, g5, g6, g7, g8, g9⟩ := recover_spec ttl m h c t hf hm hc
  have hI : Inv s1.db := inv_of_fresh g4 g5
  have hidle : Idle s1 c := by
    have : s1.conn c = some {} := conn_eq.2 ⟨g7, rfl⟩
    refine ⟨by rw [this]; rfl, ?_⟩
    unfold fetchOf; rw [this]; rfl
  -- what is offered is the backlog
  have hoff : ∀ id, id ∈ offered s2 c ↔ id ∈ s1.db.chunks.map ChunkRow.key := by
    intro id
    by_cases hne : s1.db.chunks = []
    · have key := C28_takes_the_first_free ttl m
        (h ++ (catchUp t (Server.run ttl m h).queue.length ++
          [.tick (.advance (Server.run ttl m h).reserver.ttl), .connect c])) c r offset n ht
        (by rw [← g9]; exact g5) (by rw [← g9]; exact hidle) (by omega) (by rw [← g9]; exact hn)
      rw [← g9] at key
      obtain ⟨k1, k2, k3, k4, k5, k6, k7⟩ := key
      have h0 := k3 (k7.2 (by
        rintro id ⟨⟨row, hrow⟩, _⟩
        obtain ⟨hin, _⟩ := (chunkAt_ok_iff hI.chunkKeys).1 hrow
        replace hin : row ∈ s1.db.chunks := hin
        rw [hne] at hin; cases hin))
      have ha : answersTo s2 c = [] := by
        refine h0.1.trans ?_
        unfold answersTo; rw [g7]; rfl
      unfold offered
      rw [ha, hne]; simp
    · obtain ⟨ids, a1, a2, a3, a4⟩ := C62_every_chunk_is_offered ttl m h c t r offset n ht hf hm hc
        (Nat.le_of_lt hmax) hn hne
      have : offered s2 c = ids := by
        unfold offered
        show (answersTo s2 c).flatMap _ = ids
        replace a1 : answersTo s2 c = [(r.nonce, some ids)] := a1
        rw [a1]; simp
      rw [this, a3 id]
      constructor
      · rintro ⟨row, hrow⟩
        obtain ⟨hin, rfl⟩ := (chunkAt_ok_iff hI.chunkKeys).1 hrow
        exact List.mem_map_of_mem hin
      · intro hid
        obtain ⟨row, hrow, rfl⟩ := List.mem_map.1 hid
        exact ⟨row, (chunkAt_ok_iff hI.chunkKeys).2 ⟨hrow, rfl⟩⟩
  -- the fetch leaves the database alone
  obtain ⟨u1, u2, u3, u4⟩ := undisturbed_frame c n (Server.step s1 (.request c r (s1.view offset)))
  obtain ⟨v1, v2, v3, v4⟩ := fetchStep_frame s1 c (a := .request c r (s1.view offset)) (.inl ⟨_, _, rfl⟩)
  have w2 : s2.calls = s1.calls := u2.trans v2
  have w1 : s2.db = run s2.calls := by rw [w2]; exact (u1.trans v1).trans g4
  have w3 : s2.queue = [] := (u3.trans v3).trans g2
  have w4 : s2.completing = none := (u4.trans v4).trans g1
  have w5 : Idle s2 c := by
    have hk : s1.conn c = some {} := conn_eq.2 ⟨g7, rfl⟩
    have hbs := begin_served (s := s1) (c := c) (k := {}) hI (by
      intro k
      have : s1 = Server.run ttl m _ := g9
      rw [this]
      exact MetaConc.fieldsWF_getD (fieldsWF_run ttl m _) k) (by
        have : s1.reserver.ttl = ttl := by
          have : s1 = Server.run ttl m _ := g9
          rw [this]; exact ttl_exec _ _
        omega) rfl r offset (n := n) (by omega) hn
    have e2 : s2 = exec (begin s1 c {} r (s1.view offset)) (undisturbed c n) := by
      rw [← request_cases hk rfl]; rfl
    rw [← e2] at hbs
    obtain ⟨b1, b2, _⟩ := hbs
    have : ∃ k, s2.conns.get c = some k ∧ k.live = true ∧ k.fetching = none := by
      by_cases hids : ((r.strategy.chunkRows offset s1.reserver.isReserved s1.counters.countsOf s1.db).map
        ChunkRow.key).take r.max = []
      · exact ⟨_, b2 hids, rfl, rfl⟩
      · exact ⟨_, b1 hids, rfl, rfl⟩
    obtain ⟨k, k1, k2, k3⟩ := this
    have hk2 : s2.conn c = some k := conn_eq.2 ⟨k1, k2⟩
    refine ⟨by rw [hk2]; rfl, ?_⟩
    unfold fetchOf; rw [hk2]; exact k3
  exact ⟨hoff, w2, w1, w3, w4, w5⟩

/-- What becomes of a submission that was in progress, if the reports that have arrived are dealt with and then the
chunks `ids` are completed, among which are all its chunks in the backlog. -/
theorem status_after {calls : List Op} (hf : FreshIds calls) (hm : Machine.MapArgs calls) (m : Nat) (t t' : Time)
    (q : List (ConnId × Report)) (out : ChunkId → Content) (ids : List ChunkId) {sub : SubmissionId} {p : Submission}
    (hp : statusAt (run calls) sub = .ok (some (.inProgress p))) (htot : p.chunksTotal ≠ 0)
    (hids : let calls1 := calls ++ q.map (fun x => reportOp m t t t [] x.2)
      ∀ row ∈ (run calls1).chunks, row.submissionId = sub → row.key ∈ ids) :
    let calls1 := calls ++ q.map (fun x => reportOp m t t t [] x.2)
    let calls3 := calls1 ++ Machine.completes out t' ids
    (∃ s, statusAt (run calls3) sub = .ok (some (.completed s)) ∧ s.chunksTotal = p.chunksTotal ∧ s.pfx = p.pfx) ∨
    (∃ s f, statusAt (run calls3) sub = .ok (some (.failed s f)) ∧ s.chunksTotal = p.chunksTotal ∧
      ∃ c' id msg, (c', .fail id msg) ∈ q ∧ id.submissionId = sub) := by
  intro calls1 calls3
  have hq : ∀ op ∈ q.map (fun x => reportOp m t t t [] x.2), op.clean = op ∧ op.insertId = none := by
    intro op hop
    obtain ⟨x, _, rfl⟩ := List.mem_map.1 hop
    exact ⟨by cases x.2 <;> rfl, insertId_reportOp _ _ _ _ _ _⟩
  have hf1 : FreshIds calls1 := fresh_append hf fun op h => (hq op h).2
  have hI : Inv (run calls1) := inv_run hf1
  obtain ⟨r0, h0⟩ := Machine.record_of hf hm sub
  rw [(Machine.shows_of h0).status] at hp
  obtain ⟨i, size, otel, w, hl, hpt, hpp⟩ := Machine.running_status hp
  have h1 : Machine.sel sub (run calls1) = _ := Machine.record_run _ calls r0 hf h0 hq
  have hafter := Machine.after_run (me := sub) (i := i) m t (q.map (·.2)) (q.map (·.2)) r0
    (fun _ h => h) (.running size otel w hl)
  rw [List.map_map] at hafter
  replace hafter : Machine.After sub i (q.map (·.2))
    ((q.map (fun x => reportOp m t t t [] x.2)).foldl (Machine.Record.apply sub) r0) := hafter
  generalize (q.map (fun x => reportOp m t t t [] x.2)).foldl (Machine.Record.apply sub) r0 = r1 at *
  have h3 : Machine.sel sub (run calls3) = Machine.image sub
      ((Machine.completes out t' ids).foldl (Machine.Record.apply sub) r1) :=
    Machine.record_run _ _ _ hf1 h1 (Machine.completes_ok _ _ _)
  have hs := (Machine.shows_of h3).status
  cases hafter with
  | running size' otel' w' hl' =>
    left
    have hwne : w' ≠ [] := Machine.running_left hf1 h1 hl' (by rw [← hpt]; exact htot)
    have hwait : r1.waiting = w' := by unfold Machine.Record.waiting; rw [hl']
    have o1 : ∀ x ∈ w', (⟨sub, x.index⟩ : ChunkId) ∈ ids := by
      intro x hx
      have hmem := Machine.mem_waiting h1 (hwait ▸ hx)
      exact hids _ hmem rfl
    have o2 : ∀ o ∈ r1.outputs, o.index ∉ w'.map (·.index) := by
      intro o ho hmem
      obtain ⟨x, hx, hxo⟩ := List.mem_map.1 hmem
      have hcc : o.row sub ∈ (run calls1).chunksCompleted := by
        have : o.row sub ∈ (Machine.sel sub (run calls1)).chunksCompleted := by
          rw [h1]; exact List.mem_map_of_mem ho
        exact (List.mem_filter.1 this).1
      refine hI.ccDisj _ (Machine.mem_waiting h1 (hwait ▸ hx)) _ hcc ?_
      show (⟨sub, o.index⟩ : ChunkId) = ⟨sub, x.index⟩
      rw [hxo]
    obtain ⟨c1, c2⟩ := Machine.completes_all out t' ids r1 i size' otel' w' hl' hwne o1 o2
    unfold Machine.Record.status at hs
    rw [c1] at hs
    exact ⟨_, hs, hpt.symm, hpp.symm⟩
  | completed t0 hl' =>
    left
    rw [Machine.completes_idle _ _ _ _ (by unfold Machine.Record.waiting; rw [hl'])] at hs
    unfold Machine.Record.status at hs
    rw [hl'] at hs
    exact ⟨_, hs, hpt.symm, hpp.symm⟩
  | failed d cu t0 f id msg hl' hfi hq' hid =>
    right
    rw [Machine.completes_idle _ _ _ _ (by unfold Machine.Record.waiting; rw [hl'])] at hs
    unfold Machine.Record.status Machine.Record.failureOf at hs
    rw [hl'] at hs
    dsimp only at hs
    rw [hfi] at hs
    obtain ⟨⟨c', x⟩, hx, hxe⟩ := List.mem_map.1 hq'
    dsimp only at hxe
    subst hxe
    exact ⟨_, _, hs, hpt.symm, c', id, msg, hx, hid⟩

/-- **C62.** The new consumer reports all it was given as complete, with whatever outputs. Then the backlog is empty,
the outputs are stored, and every submission that was in progress after `h` and has chunks is completed; unless a
failure report about one of its chunks had arrived and was not dealt with yet, in which case it may be failed
instead. -/
theorem C62_all_work_gets_done (ttl m : Nat) (h : List Action) (c : ConnId) (t t' : Time) (r : Request)
    (offset n : Nat) (out : ChunkId → Content) (ht : 0 < ttl) (hf : FreshIds (Server.run ttl m h).calls)
    (hm : Machine.MapArgs (Server.run ttl m h).calls) (hc : (Server.run ttl m h).conns.get c = none) :
    let s := Server.run ttl m h
    let s1 := recover s t c
    let s2 := exec s1 (.request c r (s1.view offset) :: undisturbed c n)
    let s3 := exec s2 (finishing c out t' (offered s2 c))
    s1.db.chunks.length < r.max → s1.db.chunks.length < n →
    (∀ id, chunkAt s3.db id = .err .rowNotFound) ∧
    (∀ id ∈ offered s2 c, chunkCompletedAt s3.db id = .ok ⟨id.submissionId, id.chunkIndex, out id, t'⟩) ∧
    ∀ sub p, statusAt s.db sub = .ok (some (.inProgress p)) → p.chunksTotal ≠ 0 →
      (∃ q, statusAt s3.db sub = .ok (some (.completed q)) ∧ q.chunksTotal = p.chunksTotal) ∨
      (∃ q f, statusAt s3.db sub = .ok (some (.failed q f)) ∧ q.chunksTotal = p.chunksTotal ∧
        ∃ c' id msg, (c', .fail id msg) ∈ s.queue ∧ id.submissionId = sub) := by
  intro s s1 s2 s3 hmax hn
  obtain ⟨g1, g2, g3, g4, g5, g6, g7, g8, g9⟩ := recover_spec ttl m h c t hf hm hc
  have hI : Inv s1.db := inv_of_fresh g4 g5
  have hidle : Idle s1 c := by
    have : s1.conn c = some {} := conn_eq.2 ⟨g7, rfl⟩
    refine ⟨by rw [this]; rfl, ?_⟩
    unfold fetchOf; rw [this]; rfl
  obtain ⟨hoff, w2, w1, w3, w4, w5⟩ := offer_spec ttl m h c t r offset n ht hf hm hc hmax hn
  obtain ⟨x1, x2, x3, x4, x5, x6⟩ := finishing_spec c out t' (offered s2 c) s2 w1 (by rw [w2]; exact g5) w4 w3 w5
  replace x5 : s3.db = run s3.calls := x5
  replace x4 : s3.calls = s1.calls ++ Machine.completes out t' (offered s2 c) := by rw [← w2]; exact x4
  -- the records
  have hrec : ∀ me, ∃ r1, Machine.sel me s1.db = Machine.image me r1 ∧
      Machine.sel me s3.db = Machine.image me
        ((Machine.completes out t' (offered s2 c)).foldl (Machine.Record.apply me) r1) := by
    intro me
    obtain ⟨r1, h1⟩ := Machine.record_of g5 g6 me
    refine ⟨r1, by rw [g4]; exact h1, ?_⟩
    rw [x5, x4]
    exact Machine.record_run _ _ _ g5 h1 (Machine.completes_ok _ _ _)
  have houts : ∀ me r1, Machine.sel me s1.db = Machine.image me r1 →
      (∀ x ∈ r1.waiting, (⟨me, x.index⟩ : ChunkId) ∈ offered s2 c) ∧
      (∀ o ∈ r1.outputs, o.index ∉ r1.waiting.map (·.index)) := by
    intro me r1 h1
    refine ⟨fun x hx => (hoff _).2 (List.mem_map.2 ⟨_, Machine.mem_waiting h1 hx, rfl⟩), ?_⟩
    intro o ho hmem
    obtain ⟨x, hx, hxo⟩ := List.mem_map.1 hmem
    have hcc : o.row me ∈ s1.db.chunksCompleted := by
      have : o.row me ∈ (Machine.sel me s1.db).chunksCompleted := by
        rw [h1]; exact List.mem_map_of_mem ho
      exact (List.mem_filter.1 this).1
    refine hI.ccDisj _ (Machine.mem_waiting h1 hx) _ hcc ?_
    show (⟨me, o.index⟩ : ChunkId) = ⟨me, x.index⟩
    rw [hxo]
  refine ⟨?_, ?_, ?_⟩
  · intro id
    obtain ⟨r1, h1, h3⟩ := hrec id.submissionId
    have hs := (Machine.shows_of h3).chunk id.chunkIndex
    refine hs.trans ?_
    by_cases hw : r1.waiting = []
    · rw [Machine.completes_idle _ _ _ _ hw]
      unfold Machine.Record.chunk; rw [hw]; rfl
    · obtain ⟨i, size, otel, hl⟩ : ∃ i size otel, r1.life = some (.running i size otel r1.waiting) := by
        unfold Machine.Record.waiting at hw ⊢
        split at hw
        · rename_i hl; exact ⟨_, _, _, by rw [hl]⟩
        · exact absurd rfl hw
      obtain ⟨o1, o2⟩ := houts _ r1 h1
      obtain ⟨c1, c2⟩ := Machine.completes_all out t' (offered s2 c) r1 i size otel _ hl hw o1 o2
      unfold Machine.Record.chunk Machine.Record.waiting; rw [c1]; rfl
  · intro id hid
    obtain ⟨r1, h1, h3⟩ := hrec id.submissionId
    have hs := (Machine.shows_of h3).output id.chunkIndex
    refine hs.trans ?_
    obtain ⟨row, hrow, hkey⟩ := List.mem_map.1 ((hoff id).1 hid)
    obtain ⟨x, hx, hxrow⟩ := Machine.waiting_mem h1 hrow (by rw [← hkey]; rfl)
    have hxi : x.index = id.chunkIndex := by rw [← hkey, hxrow]; rfl
    have hw : r1.waiting ≠ [] := by intro he; rw [he] at hx; cases hx
    obtain ⟨i, size, otel, hl⟩ : ∃ i size otel, r1.life = some (.running i size otel r1.waiting) := by
      unfold Machine.Record.waiting at hw ⊢
      split at hw
      · rename_i hl; exact ⟨_, _, _, by rw [hl]⟩
      · exact absurd rfl hw
    obtain ⟨o1, o2⟩ := houts _ r1 h1
    obtain ⟨c1, c2⟩ := Machine.completes_all out t' (offered s2 c) r1 i size otel _ hl hw o1 o2
    have := c2 x hx
    rw [hxi] at this
    unfold Machine.Record.outputOf
    rw [this]
  · intro sub p hp htot
    have hsdb : s.db = run s.calls := db_run ttl m h
    rw [hsdb] at hp
    have e3 : s3.db = run (s.calls ++ s.queue.map (fun x => reportOp s.maxRetries t t t [] x.2) ++
        Machine.completes out t' (offered s2 c)) := by rw [x5, x4, ← g3]
    rw [e3]
    rcases status_after hf hm s.maxRetries t t' s.queue out (offered s2 c) hp htot (by
      intro calls1 row hrow hsub
      refine (hoff _).2 (List.mem_map_of_mem ?_)
      have : s1.db = run calls1 := by rw [show calls1 = s1.calls from g3.symm]; exact g4
      rw [this]; exact hrow) with ⟨q, h1, h2, _⟩ | h1
    · exact .inl ⟨q, h1, h2⟩
    · exact .inr h1

/-- A history with all kinds of trouble: consumer 1 takes three chunks, one of which completes; it reports a failure
of another one, which is still in the mailbox; consumer 2 is in the middle of a fetch. -/
def troubledHistory : List Action :=
  [ .producer (.insert { id := 1, contents := [some [1], some [2], some [3]] } 10 []), .notify,
    .producer (.insert { id := 2, contents := [some [4], none], strategic := [("a", 7)] } 11 []),
    .connect 1, .request 1 ⟨0, 3, .oldest⟩ ⟨0, fun _ => false, fun _ => []⟩ ] ++ undisturbed 1 4 ++
  [ .report 1 (.complete ⟨1, 1⟩ (some [8])), .handle true 12 12 12 [], .report 1 (.fail ⟨1, 0⟩ "bad"),
    .connect 2, .request 2 ⟨0, 3, .newest⟩ ⟨0, fun _ => false, fun _ => []⟩, .row 2 ]

/-- The hypotheses of C62 hold after it, and this is what happens: with a budget of three attempts both submissions
are completed, with a budget of one the first one is failed. -/
example :
    let s := Server.run 1000 3 troubledHistory
    let s1 := recover s 20 3
    let s2 := exec s1 (.request 3 ⟨0, 10, .preferDistinct "a" .newest⟩ (s1.view 0) :: undisturbed 3 9)
    let s3 := exec s2 (finishing 3 (fun _ => none) 30 (offered s2 3))
    FreshIds s.calls ∧ s.conns.get 3 = none ∧ s.queue = [(1, .fail ⟨1, 0⟩ "bad")] ∧
    s1.db.chunks.length = 4 ∧ (offered s2 3).length = 4 ∧ s3.db.chunks = [] ∧
    (s3.db.submissionsCompleted.map (·.id)) = [2, 1] := by decide +kernel

example :
    let s := Server.run 1000 1 troubledHistory
    let s1 := recover s 20 3
    let s2 := exec s1 (.request 3 ⟨0, 10, .oldest⟩ (s1.view 0) :: undisturbed 3 9)
    let s3 := exec s2 (finishing 3 (fun _ => none) 30 (offered s2 3))
    offered s2 3 = [⟨2, 0⟩, ⟨2, 1⟩] ∧ (s3.db.submissionsCompleted.map (·.id)) = [2] ∧
    (s3.db.submissionsFailed.map (·.id)) = [1] := by decide +kernel

/-- The remaining hypothesis. -/
example : Machine.MapArgs (Server.run 1000 3 troubledHistory).calls := by
  have : (Server.run 1000 3 troubledHistory).calls =
    [ .insert { id := 1, contents := [some [1], some [2], some [3]] } 10 [],
      .insert { id := 2, contents := [some [4], none], strategic := [("a", 7)] } 11 [],
      .complete ⟨1, 1⟩ (some [8]) 12 12 [] ] := by decide +kernel
  rw [this]
  intro a now o h
  simp only [List.mem_cons, Op.insert.injEq, List.not_mem_nil, or_false, reduceCtorEq] at h
  rcases h with ⟨rfl, _⟩ | ⟨rfl, _⟩ <;> decide

end Opsqueue
