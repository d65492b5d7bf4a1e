import Verif.Proofs.Holding
import Verif.Proofs.Reports

/-!
# What is left of a reservation after a report has been dealt with
-/

namespace Opsqueue.Server
open Conn (Request Report)

/-- Without a crash the reserver changes only by the operations of the action. -/
theorem reserver_step_ok {s : State} {a : Action}
    (hc : ∀ op, (step s a).calls = s.calls ++ [op] → (Opsqueue.step s.db op).1.crashed = false) :
    (step s a).reserver = s.reserver.exec (resOps s a) := by
  rcases reserver_step' s a with h | ⟨_, op, h1, h2⟩
  · exact h
  · rw [hc op h1] at h2; cases h2

theorem calls_ok {s : State} {a : Action} {es : List Action} (hs : s.db = Opsqueue.run s.calls)
    (hc : NeverCrashed (exec (step s a) es).calls) :
    (∀ op, (step s a).calls = s.calls ++ [op] → (Opsqueue.step s.db op).1.crashed = false) ∧
    (step s a).db = Opsqueue.run (step s a).calls := by
  constructor
  · intro op hop
    obtain ⟨ops2, _, h3⟩ := db_exec (step s a) es
    have := hc s.calls op ops2 (by rw [h3, hop]; simp)
    rw [← hs] at this
    exact this
  · obtain ⟨ops, h2, h1⟩ := db_exec s [a]
    have h1 : (step s a).calls = s.calls ++ ops := h1
    have h2 : (step s a).db = runFrom s.db ops := h2
    rw [h1, h2, hs, ← Opsqueue.run_append]

/-- No consumer claims the chunk and no report on it is on its way. -/
structure Unclaimed (s : State) (id : ChunkId) : Prop where
  claims : ∀ c k, s.conns.get c = some k → id ∉ k.claims
  reports : ∀ c, ¬ ReportPending s c id

/-- Then no action releases the chunk, except for delayed removals. -/
theorem resOps_unclaimed {s : State} {a : Action} {id : ChunkId} (h : Unclaimed s id) :
    ∀ op ∈ resOps s a, (∀ d, op ≠ .finish id d) ∧ op ≠ .finishSync id ∧ op ≠ .schedule id := by
  have fin : ∀ c k, s.conn c = some k → ∀ op ∈ k.held.map (.finishSync : ChunkId → Reserver.Op ChunkId ChunkId ConnId),
      (∀ d, op ≠ .finish id d) ∧ op ≠ .finishSync id ∧ op ≠ .schedule id := by
    intro c k hk op hop
    obtain ⟨i, hi, rfl⟩ := List.mem_map.1 hop
    refine ⟨(fun d h => by cases h), ?_, (fun h => by cases h)⟩
    intro he; cases he
    exact h.claims c k (conn_eq.1 hk).1 (List.mem_append_left _ hi)
  intro op hop
  cases a with
  | row c =>
    simp only [resOps] at hop
    repeat' split at hop
    · cases List.mem_singleton.1 hop
      exact ⟨(fun d h => by cases h), (fun h => by cases h), (fun h => by cases h)⟩
    all_goals cases hop
  | join c =>
    simp only [resOps] at hop
    cases hk : s.conn c with
    | none => rw [hk] at hop; cases hop
    | some k =>
      rw [hk] at hop
      dsimp only at hop
      repeat' split at hop
      all_goals first | (cases hop; done) | exact fin c k hk op hop
  | disconnect c =>
    simp only [resOps] at hop
    cases hk : s.conn c with
    | none => rw [hk] at hop; cases hop
    | some k =>
      rw [hk] at hop
      dsimp only at hop
      repeat' split at hop
      all_goals first | (cases hop; done) | exact fin c k hk op hop
  | release b =>
    simp only [resOps] at hop
    cases hc : s.completing with
    | none => rw [hc] at hop; cases hop
    | some q =>
      obtain ⟨c', id', d⟩ := q
      rw [hc] at hop
      cases List.mem_singleton.1 hop
      have hne : id' ≠ id := by rintro rfl; exact h.reports c' (.inr ⟨d, hc⟩)
      exact ⟨(fun d h => by cases h; exact hne rfl), (fun h => by cases h), (fun h => by cases h)⟩
  | tick t =>
    simp only [resOps] at hop
    cases List.mem_singleton.1 hop
    cases t <;> exact ⟨(fun d h => by cases h), (fun h => by cases h), (fun h => by cases h)⟩
  | _ => cases hop

theorem pending_exec {r : Reserver ChunkId ChunkId ConnId} {ops : List (Reserver.Op ChunkId ChunkId ConnId)}
    {id : ChunkId} (h : ∀ op ∈ ops, (∀ d, op ≠ .finish id d) ∧ op ≠ .finishSync id ∧ op ≠ .schedule id) :
    ∀ p ∈ (r.exec ops).pending, p.1 = id → p ∈ r.pending := by
  induction ops generalizing r with
  | nil => exact fun p hp _ => hp
  | cons op ops ih =>
    intro p hp hpi
    have h1 := ih (r := r.step op) (fun o ho => h o (List.mem_cons_of_mem _ ho)) p hp hpi
    have h2 := h op List.mem_cons_self
    rcases pending_step (r := r) (op := op) h1 with h3 | h3 | h3
    · exact h3
    · exact absurd (hpi ▸ h3) (h2.1 true)
    · exact absurd (hpi ▸ h3) h2.2.2

/-- A reserved chunk that nobody claims stays reserved until its removal falls due. -/
theorem settled_step {s : State} {a : Action} {id : ChunkId} {e : Reservation ChunkId ConnId} {t : Nat}
    (hc : ∀ op, (step s a).calls = s.calls ++ [op] → (Opsqueue.step s.db op).1.crashed = false)
    (hh : Reserver.Here id e s.reserver) (hu : Unclaimed s id) (ha : a.reportsOn id = false)
    (hp : ∀ p ∈ s.reserver.pending, p.1 = id → t ≤ p.2) (ht1 : t ≤ s.reserver.now + 1000)
    (ht2 : (step s a).reserver.now < t) (ht : (step s a).reserver.now < e.reservedAt + s.reserver.ttl) :
    Reserver.Here id e (step s a).reserver ∧ Unclaimed (step s a) id ∧
    (∀ p ∈ (step s a).reserver.pending, p.1 = id → t ≤ p.2) := by
  have hr := reserver_step_ok hc
  have ho := resOps_unclaimed (a := a) hu
  rw [hr, Reserver.now_exec] at ht ht2
  refine ⟨?_, ⟨?_, ?_⟩, ?_⟩
  · rw [hr]
    exact Reserver.here_exec hh _ (Reserver.neverReleased_of_pending hp ht1 _ ht2 fun op hop =>
      ⟨(ho op hop).1 false, (ho op hop).2.1⟩) ht
  · intro c k hk hid
    rcases claims_step hk hid with ⟨k0, h3, h4⟩ | ⟨_, h3, _⟩
    · exact hu.claims c k0 h3 h4
    · have : s.reserver.isReserved id = true := by unfold Reserver.isReserved; rw [hh.lookup]; rfl
      rw [this] at h3; cases h3
  · intro c hpend
    exact hu.reports c (reportPending_step' hpend ha)
  · intro p hp' hpi
    rw [hr] at hp'
    exact hp p (pending_exec ho p hp' hpi) hpi

theorem settled_exec {s : State} {id : ChunkId} {e : Reservation ChunkId ConnId} {t : Nat}
    (hs : s.db = Opsqueue.run s.calls) (es : List Action)
    (hc : NeverCrashed (exec s es).calls)
    (hh : Reserver.Here id e s.reserver) (hu : Unclaimed s id) (ha : ∀ a ∈ es, a.reportsOn id = false)
    (hp : ∀ p ∈ s.reserver.pending, p.1 = id → t ≤ p.2) (ht1 : t ≤ s.reserver.now + 1000)
    (ht2 : (exec s es).reserver.now < t) (ht : (exec s es).reserver.now < e.reservedAt + s.reserver.ttl) :
    Reserver.Here id e (exec s es).reserver := by
  induction es generalizing s with
  | nil => exact hh
  | cons a es ih =>
    have hc : NeverCrashed (exec (step s a) es).calls := hc
    have ht2 : (exec (step s a) es).reserver.now < t := ht2
    have ht : (exec (step s a) es).reserver.now < e.reservedAt + s.reserver.ttl := ht
    obtain ⟨h1, h2⟩ := calls_ok hs hc
    have hle := now_exec_le (step s a) es
    have hle' := now_step_le s a
    obtain ⟨h3, h4, h5⟩ := settled_step h1 hh hu (ha a List.mem_cons_self) hp ht1 (by omega) (by omega)
    exact ih h2 hc h3 h4 (fun b hb => ha b (List.mem_cons_of_mem _ hb)) h5 (by omega) ht2
      (by rw [ttl_step]; exact ht)

/-- The state after the completer has dealt with the next report. -/
theorem settle {s : State} {c : ConnId} {r : Report} (h : NextReport s c r) (n1 n2 n3 : Time)
    (o : List Fault) (b : Bool)
    (hc : (Opsqueue.step s.db (reportOp s.maxRetries n1 n2 n3 o r)).1.crashed = false) :
    let s' := exec s [.handle true n1 n2 n3 o, .release b]
    Unclaimed s' r.id ∧
    s'.reserver = (s.reserver.finish r.id
      (delayedAfter (Opsqueue.step s.db (reportOp s.maxRetries n1 n2 n3 o r)).1)).2 ∧
    s'.db = (Opsqueue.step s.db (reportOp s.maxRetries n1 n2 n3 o r)).2 ∧
    s'.calls = s.calls ++ [reportOp s.maxRetries n1 n2 n3 o r] := by
  intro s'
  have hnext := h.next
  cases hq : s.queue with
  | nil => rw [hq] at hnext; cases hnext
  | cons x rest =>
    rw [hq] at hnext
    cases (Option.some.inj hnext)
    have e1 : step s (.handle true n1 n2 n3 o) =
        { s with queue := rest, db := (Opsqueue.step s.db (reportOp s.maxRetries n1 n2 n3 o r)).2,
                 calls := s.calls ++ [reportOp s.maxRetries n1 n2 n3 o r],
                 completing := some (c, r.id, delayedAfter
                  (Opsqueue.step s.db (reportOp s.maxRetries n1 n2 n3 o r)).1) } := by
      simp only [step, handle, h.idle, hq, if_true]
      simp [dbCall, hc]
    have e2 : s' = step (step s (.handle true n1 n2 n3 o)) (.release b) := rfl
    rw [e1] at e2
    simp only [step, release] at e2
    refine ⟨⟨?_, ?_⟩, ?_, ?_, ?_⟩
    · intro c' k hk hid
      rw [e2] at hk
      dsimp only at hk
      have hold : ∀ k0, s.conns.get c' = some k0 → r.id ∈ k0.taken → False := by
        intro k0 hk0 hm
        unfold ConnState.taken at hm
        cases hf : k0.fetching with
        | none => rw [hf] at hm; cases hm
        | some f =>
          rw [hf] at hm
          have := h.taken c' k0 f hk0 hf
          replace hm : r.id ∈ f.got ++ f.joining.toList := hm
          rcases List.mem_append.1 hm with hm | hm
          · exact this.1 hm
          · exact this.2 (by simpa using hm)
      by_cases hcc : c' = c
      · subst hcc
        cases hg : s.conns.get c' with
        | none => rw [hg] at hk; dsimp only at hk; rw [hg] at hk; cases hk
        | some k0 =>
          rw [hg] at hk
          dsimp only at hk
          rw [Map.get_set, if_pos rfl] at hk
          cases hk
          rcases List.mem_append.1 hid with hm | hm
          · have := (List.mem_filter.1 hm).2
            simp at this
          · exact hold k0 hg hm
      · have hk' : s.conns.get c' = some k := by
          cases hg : s.conns.get c with
          | none => rw [hg] at hk; exact hk
          | some k0 =>
            rw [hg] at hk
            dsimp only at hk
            rw [Map.get_set, if_neg (fun e => hcc e.symm)] at hk
            exact hk
        rcases List.mem_append.1 hid with hm | hm
        · exact h.held c' k hcc hk' hm
        · exact hold k hk' hm
    · intro c' hpend
      rw [e2] at hpend
      rcases hpend with ⟨r', hr', hid⟩ | ⟨d, hd⟩
      · have := h.noOther (c', r') (by rw [hq]; exact hr')
        exact this hid
      · cases hd
    · rw [e2]
    · rw [e2]
    · rw [e2]

/-- If nobody had to do with a chunk and then it was reserved for nobody but `c`, and nobody reported on
it, there are no stale claims. -/
theorem no_stale_from {s : State} {es : List Action} {c : ConnId} {id : ChunkId} (ht : 0 < s.reserver.ttl)
    (hu : Unclaimed s id) (hp : id ∉ s.reserver.pending.map (·.1))
    (honly : ∀ p q, es = p ++ q → holder (exec s p) id = none ∨ holder (exec s p) id = some c)
    (hrep : ∀ a ∈ es, a.reportsOn id = false) : ¬ StaleClaim (exec s es) c id := by
  suffices H : (∀ c' k, c' ≠ c → (exec s es).conns.get c' = some k → id ∉ k.claims) ∧
      (∀ c', ¬ ReportPending (exec s es) c' id) ∧ id ∉ (exec s es).reserver.pending.map (·.1) by
    intro hst
    cases hst with
    | held c' k hne hk hid => exact H.1 c' k hne hk (List.mem_append_left _ hid)
    | taken c' k f hne hk hf hid =>
      refine H.1 c' k hne hk (List.mem_append_right _ ?_)
      rw [taken_of hf]
      unfold Fetching.taken
      rcases hid with h | h
      · exact List.mem_append_left _ h
      · rw [h]; exact List.mem_append_right _ (by simp)
    | reported c' hp => exact H.2.1 c' hp
    | scheduled hp => exact H.2.2 hp
  obtain ⟨n, hn⟩ : ∃ n, n = es.length := ⟨_, rfl⟩
  induction n generalizing es with
  | zero =>
    cases es with
    | cons _ _ => cases hn
    | nil => exact ⟨fun c' k _ hk => hu.claims c' k hk, hu.reports, hp⟩
  | succ n ih =>
    rcases List.eq_nil_or_concat es with rfl | ⟨p, a, rfl⟩
    · cases hn
    · rw [List.concat_eq_append] at *
      obtain ⟨h1, h2, h3⟩ := ih (es := p) (fun p' q hq => honly p' (q ++ [a]) (by rw [hq]; simp))
        (fun b hb => hrep b (List.mem_append_left _ hb)) (by simp at hn; omega)
      have hs : exec s (p ++ [a]) = step (exec s p) a := exec_snoc _ _ _
      rw [hs]
      refine ⟨?_, ?_, ?_⟩
      · intro c' k hne hk hid
        rcases claims_step hk hid with ⟨k0, h4, h5⟩ | ⟨_, _, h4⟩
        · exact h1 c' k0 hne h4 h5
        · have htt : (exec s p).reserver.ttl = s.reserver.ttl := ttl_exec _ _
          have h6 := h4 (by omega)
          have := honly (p ++ [a]) [] (by simp)
          rw [hs, h6] at this
          rcases this with h | h
          · cases h
          · cases h; exact hne rfl
      · intro c' hp
        exact h2 c' (reportPending_step' hp (hrep a (by simp)))
      · intro hp
        obtain ⟨q, hq, hqi⟩ := List.mem_map.1 hp
        rcases pending_server hq with h | ⟨c', d, h⟩
        · exact h3 (List.mem_map.2 ⟨q, h, hqi⟩)
        · exact h2 c' (.inr ⟨d, by rw [← hqi]; exact h⟩)

/-- A test for `NextReport`. -/
def nextReportTest (s : State) (c : ConnId) (r : Report) : Bool :=
  s.completing.isNone && decide (s.queue.head? = some (c, r)) && s.queue.tail.all (fun x => x.2.id != r.id) &&
  s.conns.all (fun p => (p.1 == c || !p.2.held.contains r.id) &&
    p.2.fetching.all (fun f => !f.got.contains r.id && f.joining != some r.id)) &&
  !(s.reserver.pending.map (·.1)).contains r.id

theorem nextReport_of_test {s : State} {c : ConnId} {r : Report} (h : nextReportTest s c r = true) :
    NextReport s c r := by
  simp only [nextReportTest, Bool.and_eq_true, List.all_eq_true, decide_eq_true_eq] at h
  obtain ⟨⟨⟨⟨h1, h2⟩, h3⟩, h4⟩, h5⟩ := h
  refine ⟨by simpa using h1, h2, fun x hx => by simpa using h3 x hx, ?_, ?_, by simpa using h5⟩
  · intro c' k hne hk
    have := (h4 (c', k) (Map.mem_of_get hk)).1
    simp only [Bool.or_eq_true, beq_iff_eq] at this
    rcases this with h | h
    · exact absurd h hne
    · simpa using h
  · intro c' k f hk hf
    have := (h4 (c', k) (Map.mem_of_get hk)).2
    dsimp only at this
    rw [hf] at this
    simpa using this

theorem maxRetries_step (s : State) (a : Action) : (step s a).maxRetries = s.maxRetries := by
  have hdb : ∀ (s : State) op, (dbCall s op).2.maxRetries = s.maxRetries := by
    intro s op
    simp only [dbCall]
    split <;> rfl
  cases a with
  | handle w n1 n2 n3 o =>
    simp only [step, handle]
    repeat' split
    all_goals first | rfl | exact hdb _ _
  | producer call =>
    obtain ⟨h1, ⟨id, hi, h⟩ | ⟨hi, h⟩⟩ := producer_cases s call
    · rw [h]; exact hdb _ _
    · rw [h]; exact hdb _ _
  | _ =>
    simp only [step, State.withIdle, State.withFetch, State.withConn, begin, fetchRow, fetchJoin,
      release]
    repeat' split
    all_goals first | rfl | simp

theorem maxRetries_exec (s : State) (es : List Action) : (exec s es).maxRetries = s.maxRetries := by
  induction es generalizing s with
  | nil => rfl
  | cons a es ih => exact (ih _).trans (maxRetries_step s a)

/-- Failure reports are handled with the configured number of retries. -/
theorem budget_step {s : State} {a : Action} {cid : ChunkId} {f : String} {m' : Nat} {t1 t2 t3 : Time}
    {o : List Fault} (h : Op.fail cid f m' t1 t2 t3 o ∈ (step s a).calls) :
    Op.fail cid f m' t1 t2 t3 o ∈ s.calls ∨ m' = s.maxRetries := by
  cases a with
  | handle w n1 n2 n3 o =>
    simp only [step] at h
    rcases handle_cases s w n1 n2 n3 o with h' | ⟨c', r, queue, hcomp, hq, h'⟩
    · rw [h'] at h; exact .inl h
    · rcases h' with ⟨_, h'⟩ | ⟨_, h1, h2⟩
      · rw [h'] at h; exact .inl h
      · obtain ⟨g1, g2, g3, -⟩ := dbCall_spec { s with queue := queue } (reportOp s.maxRetries n1 n2 n3 o r)
        have hcalls : (handle s w n1 n2 n3 o).calls = s.calls ++ [reportOp s.maxRetries n1 n2 n3 o r] := by
          cases hcr : (dbCall { s with queue := queue } (reportOp s.maxRetries n1 n2 n3 o r)).1.crashed with
          | true => rw [h1 hcr]; exact g3
          | false => rw [h2 hcr]; exact g3
        rw [hcalls] at h
        rcases List.mem_append.1 h with h | h
        · exact .inl h
        · have h := List.mem_singleton.1 h
          right
          cases r with
          | complete id out => cases h
          | fail id f => cases h; rfl
  | producer call =>
    obtain ⟨g1, g2, g3, -⟩ := dbCall_spec s call.op
    have hcalls : (step s (.producer call)).calls = s.calls ++ [call.op] := by
      obtain ⟨-, ⟨id, hi, h⟩ | ⟨hi, h⟩⟩ := producer_cases s call
      · rw [h]; exact g3
      · rw [h]; exact g3
    rw [hcalls] at h
    rcases List.mem_append.1 h with h | h
    · exact .inl h
    · have h := List.mem_singleton.1 h
      cases call <;> cases h
  | _ =>
    left
    revert h
    simp only [step, State.withIdle, State.withFetch, State.withConn, begin, fetchRow, fetchJoin,
      release]
    repeat' split
    all_goals exact id

theorem budget_run {ttl m : Nat} {h : List Action} {cid : ChunkId} {f : String} {m' : Nat} {t1 t2 t3 : Time}
    {o : List Fault} (hop : Op.fail cid f m' t1 t2 t3 o ∈ (run ttl m h).calls) : m' = m := by
  obtain ⟨n, hn⟩ : ∃ n, n = h.length := ⟨_, rfl⟩
  induction n generalizing h with
  | zero =>
    cases h with
    | cons _ _ => cases hn
    | nil => cases hop
  | succ n ih =>
    rcases List.eq_nil_or_concat h with rfl | ⟨p, a, rfl⟩
    · cases hn
    · rw [List.concat_eq_append] at *
      have hs : run ttl m (p ++ [a]) = step (run ttl m p) a := exec_snoc _ _ _
      rw [hs] at hop
      rcases budget_step hop with h | h
      · exact ih h (by simp at hn; omega)
      · rw [h]; exact maxRetries_exec _ _

end Opsqueue.Server
