import Verif.Proofs.Holding
import Verif.Proofs.Settled
import Verif.Proofs.Timeline
import Verif.Proofs.MachineRun

/-!
# Lemmas for C62: the work can always be finished
-/

namespace Opsqueue.Server
open Conn (Request Response Report)

/-! ### Nothing is reserved for longer than the time to live -/

/-- Reservations were made in the past. -/
def Past (r : Reserver ChunkId ChunkId ConnId) : Prop :=
  ∀ id e, r.cache.get id = some e → e.reservedAt ≤ r.now

theorem past_res {r : Reserver ChunkId ChunkId ConnId} (h : Past r) (op : Reserver.Op ChunkId ChunkId ConnId) :
    Past (r.step op) := by
  refine Reserver.step_pres (P := Past) (ok := fun _ _ _ => True) ?_ ?_ (fun _ _ h => h) h op ?_
    (fun _ _ _ _ _ => trivial)
  · intro r k h id e he
    rw [Reserver.drop_get] at he
    rw [Reserver.drop_now]
    split at he
    · cases he
    · exact h id e he
  · intro r k v s _ _ h id e he
    replace he : Map.get (Map.set _ _ _) _ = _ := he
    rw [Map.get_set] at he
    split at he
    · cases he; exact Nat.le_refl _
    · exact h id e he
  · rintro d -
    intro id e he
    have := h id e he
    show e.reservedAt ≤ r.now + d
    omega

theorem past_resExec {r : Reserver ChunkId ChunkId ConnId} (h : Past r)
    (ops : List (Reserver.Op ChunkId ChunkId ConnId)) : Past (r.exec ops) := by
  induction ops generalizing r with
  | nil => exact h
  | cons op ops ih => exact ih (past_res h op)

theorem past_step {s : State} (h : Past s.reserver) (a : Action) : Past (step s a).reserver := by
  rcases reserver_step s a with h1 | h1
  · rw [h1]; exact past_resExec h _
  · rw [h1.1]
    intro id e he
    cases he

theorem past_exec {s : State} (h : Past s.reserver) (es : List Action) : Past (exec s es).reserver := by
  induction es generalizing s with
  | nil => exact h
  | cons a es ih => exact ih (past_step h a)

theorem past_run (ttl m : Nat) (h : List Action) : Past (run ttl m h).reserver :=
  past_exec (by intro id e he; cases he) h

theorem isReserved_advance {r : Reserver ChunkId ChunkId ConnId} (h : Past r) (id : ChunkId) :
    (r.step (.advance r.ttl)).isReserved id = false := by
  rw [isReserved_eq_false]
  show ((r.cache.get id).filter (fun e => decide (r.now + r.ttl < e.reservedAt + r.ttl))) = none
  cases hg : r.cache.get id with
  | none => rfl
  | some e =>
    have := h id e hg
    rw [Option.filter_some, if_neg]
    simp; omega

/-! ### The completer, undisturbed -/

theorem not_crashed {db : DB} (hI : Inv db) (m : Nat) (t1 t2 t3 : Time) (r : Report) :
    (Opsqueue.step db (reportOp m t1 t2 t3 [] r)).1.crashed = false := by
  cases r with
  | complete id out =>
    show (Opsqueue.step db (.complete id out t1 t2 [])).1.crashed = false
    by_cases hk : id ∈ db.chunks.map ChunkRow.key
    · obtain ⟨c, hc, rfl⟩ := List.mem_map.1 hk
      obtain ⟨s, hs, hid, _⟩ := hI.owner c hc
      by_cases hl : s.chunksDone + 1 = s.chunksTotal
      · rw [step_complete_last hI out t1 t2 hc hs hid hl]; rfl
      · rw [step_complete_notLast hI out t1 t2 hc hs hid hl]; rfl
    · rw [step_complete_missing hk]; rfl
  | fail id f =>
    show (Opsqueue.step db (.fail id f m t1 t2 t3 [])).1.crashed = false
    by_cases hk : id ∈ db.chunks.map ChunkRow.key
    · obtain ⟨c, hc, rfl⟩ := List.mem_map.1 hk
      obtain ⟨s, hs, hid, _⟩ := hI.owner c hc
      by_cases hl : c.retries + 1 < m
      · rw [step_fail_retry hI f t1 t2 t3 hc hl]; rfl
      · rw [step_fail_fail hI f t1 t2 t3 hc hs hid (by omega)]; rfl
    · rw [step_fail_missing hk]; rfl

theorem inv_of_fresh {s : State} (hdb : s.db = Opsqueue.run s.calls) (hf : FreshIds s.calls) : Inv s.db := by
  rw [hdb]; exact inv_run hf

theorem insertId_reportOp (m : Nat) (t1 t2 t3 : Time) (o : List Fault) (r : Report) :
    (reportOp m t1 t2 t3 o r).insertId = none := by
  cases r <;> rfl

theorem fresh_append {ops more : List Op} (hf : FreshIds ops) (hn : ∀ op ∈ more, op.insertId = none) :
    FreshIds (ops ++ more) := by
  unfold FreshIds at *
  rw [List.filterMap_append, List.filterMap_eq_nil_iff.2 hn, List.append_nil]
  exact hf

/-- What the completer leaves alone. -/
structure Frame (s s' : State) : Prop where
  maxRetries : s'.maxRetries = s.maxRetries
  live : ∀ c k, s.conns.get c = some k →
    ∃ k', s'.conns.get c = some k' ∧ k'.live = k.live ∧ k'.fetching = k.fetching ∧ k'.answers = k.answers
  gone : ∀ c, s.conns.get c = none → s'.conns.get c = none

theorem Frame.refl (s : State) : Frame s s := ⟨rfl, fun _ k h => ⟨k, h, rfl, rfl, rfl⟩, fun _ h => h⟩

theorem Frame.trans {s1 s2 s3 : State} (h1 : Frame s1 s2) (h2 : Frame s2 s3) : Frame s1 s3 := by
  refine ⟨h2.maxRetries.trans h1.maxRetries, ?_, fun c h => h2.gone c (h1.gone c h)⟩
  intro c k hk
  obtain ⟨k2, e1, e2, e3, e4⟩ := h1.live c k hk
  obtain ⟨k3, f1, f2, f3, f4⟩ := h2.live c k2 e1
  exact ⟨k3, f1, f2.trans e2, f3.trans e3, f4.trans e4⟩

theorem release_frame (s : State) (b : Bool) :
    Frame s (step s (.release b)) ∧ (step s (.release b)).completing = none ∧
    (step s (.release b)).queue = s.queue ∧ (step s (.release b)).db = s.db ∧
    (step s (.release b)).calls = s.calls := by
  simp only [step, release]
  cases hc : s.completing with
  | none => exact ⟨Frame.refl _, hc, rfl, rfl, rfl⟩
  | some x =>
    obtain ⟨c, id, d⟩ := x
    refine ⟨⟨rfl, ?_, ?_⟩, rfl, rfl, rfl, rfl⟩
    · intro c' k hk
      dsimp only
      cases hg : s.conns.get c with
      | none => exact ⟨k, hk, rfl, rfl, rfl⟩
      | some k0 =>
        dsimp only
        rw [Map.get_set]
        split
        · rename_i he; subst he; rw [hg] at hk; cases hk
          exact ⟨_, rfl, rfl, rfl, rfl⟩
        · exact ⟨k, hk, rfl, rfl, rfl⟩
    · intro c' hk
      dsimp only
      cases hg : s.conns.get c with
      | none => exact hk
      | some k0 =>
        dsimp only
        rw [Map.get_set]
        split
        · rename_i he; subst he; rw [hg] at hk; cases hk
        · exact hk

/-- The completer deals with one report. -/
theorem deal {s : State} (hI : Inv s.db) (hc : s.completing = none) {c : ConnId} {r : Report}
    {q : List (ConnId × Report)} (hq : s.queue = (c, r) :: q) (t : Time) :
    let op := reportOp s.maxRetries t t t [] r
    let s' := exec s [.handle true t t t [], .release true]
    Frame s s' ∧ s'.completing = none ∧ s'.queue = q ∧ s'.db = (Opsqueue.step s.db op).2 ∧
    s'.calls = s.calls ++ [op] := by
  intro op s'
  have hcr := not_crashed hI s.maxRetries t t t r
  have e1 : step s (.handle true t t t []) =
      { s with queue := q, db := (Opsqueue.step s.db op).2, calls := s.calls ++ [op],
               completing := some (c, r.id, delayedAfter (Opsqueue.step s.db op).1) } := by
    simp only [step, handle, hc, hq, if_true]
    simp [dbCall, hcr, op]
  obtain ⟨h1, h2, h3, h4, h5⟩ := release_frame (step s (.handle true t t t [])) true
  have e2 : s' = step (step s (.handle true t t t [])) (.release true) := rfl
  rw [← e2] at h1 h2 h3 h4 h5
  rw [e1] at h3 h4 h5 h1
  exact ⟨⟨h1.maxRetries, h1.live, h1.gone⟩, h2, h3, h4, h5⟩

/-- The completer deals with everything in its mailbox. -/
theorem drain (t : Time) : ∀ (q : List (ConnId × Report)) (s : State), s.db = Opsqueue.run s.calls →
    FreshIds s.calls → s.completing = none → s.queue = q →
    let ops := q.map fun x => reportOp s.maxRetries t t t [] x.2
    let s' := exec s (List.replicate q.length [.handle true t t t [], .release true]).flatten
    Frame s s' ∧ s'.completing = none ∧ s'.queue = [] ∧ s'.calls = s.calls ++ ops ∧
    s'.db = Opsqueue.run s'.calls ∧ FreshIds s'.calls := by
  intro q
  induction q with
  | nil =>
    intro s hdb hf hc hq
    exact ⟨Frame.refl _, hc, hq, (List.append_nil _).symm, hdb, hf⟩
  | cons x q ih =>
    intro s hdb hf hc hq ops s'
    obtain ⟨c, r⟩ := x
    obtain ⟨h1, h2, h3, h4, h5⟩ := deal (inv_of_fresh hdb hf) hc hq t
    have e : s' = exec (exec s [.handle true t t t [], .release true])
        (List.replicate q.length [.handle true t t t [], .release true]).flatten := rfl
    generalize hs1 : exec s [.handle true t t t [], .release true] = s1 at *
    obtain ⟨g1, g2, g3, g4, g5, g6⟩ := ih s1 (by rw [h4, h5, run_snoc, ← hdb])
      (by rw [h5]; exact fresh_append hf (by simp [insertId_reportOp])) h2 h3
    rw [← e] at g1 g2 g3 g4 g5 g6
    refine ⟨h1.trans g1, g2, g3, ?_, g5, g6⟩
    rw [g4, h5, h1.maxRetries, List.append_assoc]; rfl

theorem catchUp_spec (t : Time) (s : State) (hdb : s.db = Opsqueue.run s.calls) (hf : FreshIds s.calls) :
    let ops := s.queue.map fun x => reportOp s.maxRetries t t t [] x.2
    let s' := exec s (catchUp t s.queue.length)
    Frame s s' ∧ s'.completing = none ∧ s'.queue = [] ∧ s'.calls = s.calls ++ ops ∧
    s'.db = Opsqueue.run s'.calls ∧ FreshIds s'.calls := by
  intro ops s'
  obtain ⟨h1, h2, h3, h4, h5⟩ := release_frame s true
  have e : s' = exec (step s (.release true))
      (List.replicate s.queue.length [.handle true t t t [], .release true]).flatten := rfl
  generalize step s (.release true) = s1 at *
  obtain ⟨g1, g2, g3, g4, g5, g6⟩ := drain t s.queue s1 (by rw [h4, h5]; exact hdb) (by rw [h5]; exact hf) h2 h3
  rw [← e] at g1 g2 g3 g4 g5 g6
  refine ⟨h1.trans g1, g2, g3, ?_, g5, g6⟩
  rw [g4, h5, h1.maxRetries]

/-- Reports of a consumer that is up, dealt with one after the other. -/
theorem finishing_spec (c : ConnId) (out : ChunkId → Content) (t : Time) : ∀ (ids : List ChunkId) (s : State),
    s.db = Opsqueue.run s.calls → FreshIds s.calls → s.completing = none → s.queue = [] → Idle s c →
    let s' := exec s (finishing c out t ids)
    Idle s' c ∧ s'.completing = none ∧ s'.queue = [] ∧
    s'.calls = s.calls ++ ids.map (fun id => .complete id (out id) t t []) ∧
    s'.db = Opsqueue.run s'.calls ∧ FreshIds s'.calls := by
  intro ids
  induction ids with
  | nil =>
    intro s hdb hf hc hq hi
    exact ⟨hi, hc, hq, (List.append_nil _).symm, hdb, hf⟩
  | cons id ids ih =>
    intro s hdb hf hc hq hi s'
    obtain ⟨k, hk⟩ := Option.isSome_iff_exists.1 hi.1
    have hkf : k.fetching = none := by have := hi.2; unfold fetchOf at this; rw [hk] at this; exact this
    have e0 : step s (.report c (.complete id (out id))) = { s with queue := [(c, .complete id (out id))] } := by
      simp only [step, State.withIdle, State.withConn, hk, hkf, hq]
      rfl
    have hdb0 : ({ s with queue := [(c, .complete id (out id))] } : State).db = Opsqueue.run s.calls := hdb
    obtain ⟨h1, h2, h3, h4, h5⟩ := deal (s := { s with queue := [(c, .complete id (out id))] })
      (inv_of_fresh hdb hf) hc rfl t
    have e : s' = exec (exec (step s (.report c (.complete id (out id)))) [.handle true t t t [], .release true])
        (finishing c out t ids) := by
      show exec s ([.report c (.complete id (out id)), .handle true t t t [], .release true] ++
        finishing c out t ids) = _
      rw [exec_append]; rfl
    rw [e0] at e
    generalize hs1 : exec { s with queue := [(c, .complete id (out id))] } [.handle true t t t [], .release true] =
      s1 at *
    have hi1 : Idle s1 c := by
      obtain ⟨hg, hl⟩ := conn_eq.1 hk
      obtain ⟨k', a1, a2, a3, _⟩ := h1.live c k hg
      have : s1.conn c = some k' := conn_eq.2 ⟨a1, a2.trans hl⟩
      refine ⟨by rw [this]; rfl, ?_⟩
      unfold fetchOf; rw [this]; exact a3.trans hkf
    obtain ⟨g1, g2, g3, g4, g5, g6⟩ := ih s1
      (by rw [h4, h5, run_snoc]; show _ = (Opsqueue.step (Opsqueue.run s.calls) _).2; rw [← hdb])
      (by rw [h5]; exact fresh_append hf (by simp [insertId_reportOp])) h2 h3 hi1
    rw [← e] at g1 g2 g3 g4 g5 g6
    refine ⟨g1, g2, g3, ?_, g5, g6⟩
    rw [g4, h5, List.append_assoc]; rfl

/-! ### Fetching leaves the database and the completer alone -/

theorem fetchStep_frame (s : State) (c : ConnId) {a : Action} (ha : (∃ r v, a = .request c r v) ∨ a = .row c ∨ a = .join c) :
    (step s a).db = s.db ∧ (step s a).calls = s.calls ∧ (step s a).queue = s.queue ∧
    (step s a).completing = s.completing := by
  rcases ha with ⟨r, v, rfl⟩ | rfl | rfl
  · simp only [step, State.withIdle, State.withConn, begin]
    repeat' split
    all_goals exact ⟨rfl, rfl, rfl, rfl⟩
  · simp only [step, State.withFetch, State.withConn, fetchRow]
    repeat' split
    all_goals exact ⟨rfl, rfl, rfl, rfl⟩
  · simp only [step, State.withFetch, State.withConn, fetchJoin, dropConn]
    repeat' split
    all_goals exact ⟨rfl, rfl, rfl, rfl⟩

theorem undisturbed_frame (c : ConnId) (n : Nat) (s : State) :
    (exec s (undisturbed c n)).db = s.db ∧ (exec s (undisturbed c n)).calls = s.calls ∧
    (exec s (undisturbed c n)).queue = s.queue ∧ (exec s (undisturbed c n)).completing = s.completing := by
  induction n generalizing s with
  | zero => exact ⟨rfl, rfl, rfl, rfl⟩
  | succ n ih =>
    obtain ⟨h1, h2, h3, h4⟩ := ih (step (step s (.row c)) (.join c))
    obtain ⟨a1, a2, a3, a4⟩ := fetchStep_frame s c (a := .row c) (.inr (.inl rfl))
    obtain ⟨b1, b2, b3, b4⟩ := fetchStep_frame (step s (.row c)) c (a := .join c) (.inr (.inr rfl))
    refine ⟨?_, ?_, ?_, ?_⟩
    · exact h1.trans (b1.trans a1)
    · exact h2.trans (b2.trans a2)
    · exact h3.trans (b3.trans a3)
    · exact h4.trans (b4.trans a4)

end Opsqueue.Server
