import Verif.Spec.Leftover
import Verif.Proofs.Budget

/-!
# Lemmas about tasks that outlive their connection
-/

namespace Opsqueue.Leftover
open Server (ConnId ConnState Fetching)
open Conn (Request)

/-- The unanswered requests of a connection. -/
def weight (k : ConnState) : Nat :=
  if k.live then (if k.fetching.isSome then 1 else 0) + k.spawned.length + k.waiting.length + k.retry.length else 0

/-- The unanswered requests of all connections. -/
def total (s : Server.State) : Nat := (s.conns.map fun p => weight p.2).sum

theorem openRequests_eq (s : State) : openRequests s = total s.server := rfl

theorem tasksOfOpen_le (s : State) : tasksOfOpen s ≤ total s.server := by
  unfold tasksOfOpen total
  induction s.server.conns with
  | nil => exact Nat.le_refl _
  | cons p l ih =>
    simp only [List.map_cons, List.sum_cons]
    have : (if p.2.live then p.2.spawned.length + p.2.waiting.length else 0) ≤ weight p.2 := by
      unfold weight; split <;> omega
    omega

theorem total_setConn {s s' : Server.State} {c : ConnId} {k k' : ConnState} (hw : Map.WF s.conns)
    (hk : s.conns.get c = some k) (h : s'.conns = s.conns.set c k') : total s' + weight k = total s + weight k' := by
  unfold total
  rw [h]
  exact Map.sum_set_some weight k' hw hk

theorem total_map {s s' : Server.State} {f : ConnState → ConnState} (hf : ∀ k, weight (f k) ≤ weight k)
    (h : s'.conns = s.conns.map fun p => (p.1, f p.2)) : total s' ≤ total s := by
  unfold total
  rw [h]
  induction s.conns with
  | nil => exact Nat.le_refl _
  | cons p l ih =>
    simp only [List.map_cons, List.sum_cons]
    have := hf p.2
    omega

theorem total_same {s s' : Server.State} (h : s'.conns = s.conns) : total s' = total s := by
  unfold total; rw [h]

theorem weight_finishFetch {k : ConnState} {f g : Fetching} (hf : k.fetching = some g) :
    weight (Server.finishFetch k f) ≤ weight k := by
  unfold Server.finishFetch weight
  cases f.got <;> simp [hf, ConnState.answer] <;> split <;> omega

theorem total_dbCall (s : Server.State) (op : Op) : total (Server.dbCall s op).2 ≤ total s := by
  unfold Server.dbCall
  dsimp only
  split
  · exact total_map (f := fun k => { live := false, answers := k.answers }) (fun k => Nat.zero_le _) rfl
  · exact Nat.le_of_eq (total_same rfl)

/-- What is left of the requests after a step. -/
def leftovers (s : Server.State) (a : Server.Action) : Nat :=
  ((ending s a).getD {}).spawned.length + ((ending s a).getD {}).waiting.length

theorem total_begin {s : Server.State} {c : ConnId} {k k0 : ConnState} {r : Request} {v : Server.View}
    (hw : Map.WF s.conns) (hk : s.conns.get c = some k0) (hl : k0.live = true) (hkl : k.live = true)
    (hf : k0.fetching = none)
    (h1 : k.spawned = k0.spawned) (h2 : k.waiting = k0.waiting) :
    total (Server.begin s c k r v) + k0.retry.length ≤ total s + k.retry.length + 1 := by
  have h0 : weight k0 = k0.spawned.length + k0.waiting.length + k0.retry.length := by
    simp [weight, hl, hf]
  unfold Server.begin
  dsimp only
  split
  · have h := total_setConn (s' := s.setConn c (k.answer r none)) hw hk rfl
    have h3 : weight (k.answer r none) = k.spawned.length + k.waiting.length + k.retry.length := by
      simp [weight, ConnState.answer, hkl]
    rw [h3, h0, h1, h2] at h
    omega
  · generalize hk' : ({ k with
      fetching := some ({ req := r, rows := r.strategy.chunkRows v.offset v.reserved v.counts s.db } : Fetching) } :
        ConnState) = k'
    have h := total_setConn (s' := s.setConn c k') hw hk rfl
    have h3 : weight k' = 1 + k.spawned.length + k.waiting.length + k.retry.length := by
      rw [← hk']; simp [weight, hkl]
    rw [h3, h0, h1, h2] at h
    omega

theorem total_drop {s : Server.State} {c : ConnId} {k : ConnState} (hw : Map.WF s.conns)
    (hk : s.conns.get c = some k) (hl : k.live = true) :
    total (Server.dropConn s c k) + (k.spawned.length + k.waiting.length) ≤ total s := by
  have := total_setConn (s' := Server.dropConn s c k) hw hk rfl
  have h0 : weight { live := false, answers := k.answers } = 0 := rfl
  rw [h0] at this
  have : k.spawned.length + k.waiting.length ≤ weight k := by
    unfold weight; rw [hl]; simp; omega
  omega

theorem conn_drop (s : Server.State) (c : ConnId) (k : ConnState) : (Server.dropConn s c k).conn c = none := by
  unfold Server.State.conn Server.dropConn
  dsimp only
  rw [Map.get_set, if_pos rfl]
  rfl

/-- One step of the server. -/
theorem total_step {s : Server.State} (hw : Map.WF s.conns) (a : Server.Action) :
    total (Server.step s a) + leftovers s a ≤ total s + if (Action.server a).asks then 1 else 0 := by
  have nothing : ending s a = none → leftovers s a = 0 := by
    intro h; unfold leftovers; rw [h]; rfl
  cases a with
  | connect c =>
    rw [nothing rfl]
    simp only [Server.step]
    cases hc : s.conns.get c with
    | some k => simp [Action.asks]
    | none =>
      have : total (s.setConn c {}) = total s + weight {} := Map.sum_set_none weight {} hc
      have h0 : weight {} = 0 := rfl
      dsimp only
      omega
  | request c r v =>
    rw [nothing rfl]
    simp only [Server.step, Server.State.withIdle, Server.State.withConn, Action.asks, if_true]
    cases hc : s.conn c with
    | none => dsimp only; omega
    | some k =>
      obtain ⟨hk, hl⟩ := Server.conn_eq.1 hc
      dsimp only
      split
      · omega
      · rename_i hf
        have hf : k.fetching = none := by cases h : k.fetching <;> simp_all
        have := total_begin (r := r) (v := v) hw hk hl hl hf rfl rfl
        omega
  | retry c v =>
    rw [nothing rfl]
    simp only [Server.step, Server.State.withIdle, Server.State.withConn]
    cases hc : s.conn c with
    | none => dsimp only; omega
    | some k =>
      obtain ⟨hk, hl⟩ := Server.conn_eq.1 hc
      dsimp only
      split
      · omega
      · rename_i hf
        have hf : k.fetching = none := by cases h : k.fetching <;> simp_all
        cases hr : k.retry with
        | nil => dsimp only; omega
        | cons r rest =>
          dsimp only
          have := total_begin (k := { k with retry := rest }) (r := r) (v := v) hw hk hl hl hf rfl rfl
          rw [hr] at this
          simp only [List.length_cons] at this
          omega
  | row c =>
    rw [nothing rfl]
    simp only [Server.step, Server.State.withFetch, Server.State.withConn]
    cases hc : s.conn c with
    | none => dsimp only; omega
    | some k =>
      obtain ⟨hk, hl⟩ := Server.conn_eq.1 hc
      dsimp only
      cases hf : k.fetching with
      | none => dsimp only; omega
      | some f =>
        dsimp only
        cases f.joining with
        | some i => dsimp only; omega
        | none =>
          dsimp only
          unfold Server.fetchRow
          cases hr : f.rows with
          | nil =>
            dsimp only
            have h1 := total_setConn (s' := s.setConn c (Server.finishFetch k f)) hw hk rfl
            have h2 := weight_finishFetch (f := f) hf
            omega
          | cons row rows =>
            dsimp only
            split
            all_goals
              rename_i reserver _
              first
              | have h1 := total_setConn (s' := Server.State.setConn { s with reserver } c
                  { k with fetching := some { f with rows } }) hw hk rfl
                have h2 : weight { k with fetching := some { f with rows } } = weight k := by
                  simp [weight, hf]
                omega
              | have h1 := total_setConn (s' := Server.State.setConn { s with reserver } c
                  { k with fetching := some { f with rows, joining := some row.key } }) hw hk rfl
                have h2 : weight { k with fetching := some { f with rows, joining := some row.key } } = weight k := by
                  simp [weight, hf]
                omega
  | join c =>
    have hstep : Server.step s (.join c) = s.withFetch c fun k f => match f.joining with
        | none => s
        | some id => Server.fetchJoin s c k f id := rfl
    have keep : (∃ k', (Server.step s (.join c)).conn c = some k') ∨ s.conn c = none → ending s (.join c) = none := by
      intro h
      rcases h with ⟨k', h⟩ | h
      · simp only [ending, h]
      · simp only [ending, h]; split <;> rfl
    simp only [Server.State.withFetch, Server.State.withConn] at hstep
    cases hc : s.conn c with
    | none =>
      rw [nothing (keep (.inr hc)), hstep, hc]
      dsimp only; omega
    | some k =>
      obtain ⟨hk, hl⟩ := Server.conn_eq.1 hc
      rw [hc] at hstep
      dsimp only at hstep
      cases hf : k.fetching with
      | none =>
        rw [hf] at hstep
        dsimp only at hstep
        rw [nothing (keep (.inl ⟨k, by rw [hstep]; exact hc⟩)), hstep]; omega
      | some f =>
        rw [hf] at hstep
        dsimp only at hstep
        cases hj : f.joining with
        | none =>
          rw [hj] at hstep
          dsimp only at hstep
          rw [nothing (keep (.inl ⟨k, by rw [hstep]; exact hc⟩)), hstep]; omega
        | some i =>
          rw [hj] at hstep
          dsimp only at hstep
          unfold Server.fetchJoin at hstep
          split at hstep
          · dsimp only at hstep
            generalize hk' : (if ({ f with joining := none, got := f.got ++ [i] } : Fetching).got.length = f.req.max then
                Server.finishFetch k { f with joining := none, got := f.got ++ [i] }
              else { k with fetching := some { f with joining := none, got := f.got ++ [i] } }) = k' at hstep
            have hk'l : k'.live = true := by
              rw [← hk']; split
              · unfold Server.finishFetch; split <;> exact hl
              · exact hl
            have hw' : weight k' ≤ weight k := by
              rw [← hk']; split
              · exact weight_finishFetch hf
              · simp [weight, hf]
            have hcc : (Server.step s (.join c)).conn c = some k' := by
              rw [hstep]
              exact Server.conn_eq.2 ⟨by rw [Server.get_setConn, if_pos rfl], hk'l⟩
            rw [nothing (keep (.inl ⟨k', hcc⟩))]
            have h1 := total_setConn (s' := Server.step s (.join c)) (k' := k') hw hk (by rw [hstep]; rfl)
            omega
          · have : ending s (.join c) = some k := by
              simp only [ending, hstep, conn_drop]
              exact hc
            unfold leftovers
            rw [this, hstep]
            have := total_drop hw hk hl
            simp only [Option.getD_some]
            omega
  | fetchFails c =>
    rw [nothing rfl]
    simp only [Server.step, Server.State.withFetch, Server.State.withConn]
    cases hc : s.conn c with
    | none => dsimp only; omega
    | some k =>
      obtain ⟨hk, hl⟩ := Server.conn_eq.1 hc
      dsimp only
      cases hf : k.fetching with
      | none => dsimp only; omega
      | some f =>
        dsimp only
        have h1 := total_setConn (s' := s.setConn c (k.answer f.req (some []))) hw hk rfl
        have h2 : weight (k.answer f.req (some [])) ≤ weight k := by
          simp [weight, hf, ConnState.answer]; split <;> omega
        omega
  | register c i =>
    rw [nothing rfl]
    simp only [Server.step, Server.State.withConn]
    cases hc : s.conn c with
    | none => dsimp only; omega
    | some k =>
      obtain ⟨hk, hl⟩ := Server.conn_eq.1 hc
      dsimp only
      cases hi : k.spawned[i]? with
      | none => dsimp only; omega
      | some r =>
        dsimp only
        have hlt : i < k.spawned.length := (List.getElem?_eq_some_iff.1 hi).1
        have h1 := total_setConn (s' := s.setConn c { k with
          spawned := k.spawned.eraseIdx i, waiting := k.waiting ++ [r] }) hw hk rfl
        have h2 : weight { k with spawned := k.spawned.eraseIdx i, waiting := k.waiting ++ [r] } = weight k := by
          simp [weight, List.length_eraseIdx, hlt]; split <;> omega
        omega
  | report c r =>
    rw [nothing rfl]
    simp only [Server.step, Server.State.withIdle, Server.State.withConn]
    cases s.conn c with
    | none => dsimp only; omega
    | some k =>
      dsimp only
      split
      · omega
      · have := total_same (s := s) (s' := { s with queue := s.queue ++ [(c, r)] }) rfl
        omega
  | handle w n1 n2 n3 o =>
    rw [nothing rfl]
    simp only [Server.step]
    unfold Server.handle
    split
    · rename_i c r queue _ _
      have h0 : total { s with queue } = total s := total_same rfl
      dsimp only
      split
      · have h1 := total_dbCall { s with queue } (Server.reportOp s.maxRetries n1 n2 n3 o r)
        split
        · omega
        · exact Nat.le_trans (Nat.le_of_eq (Nat.add_zero _)) (Nat.le_trans h1 (Nat.le_trans (Nat.le_of_eq h0)
            (Nat.le_add_right _ _)))
      · omega
    · omega
  | release m =>
    rw [nothing rfl]
    simp only [Server.step]
    unfold Server.release
    split
    · omega
    · rename_i c id delayed _
      cases hc : s.conns.get c with
      | none => simp [total]
      | some k =>
        have := total_setConn (k' := { k with held := k.held.filter (· ≠ id) }) (s' := { s with
          completing := none
          conns := s.conns.set c { k with held := k.held.filter (· ≠ id) }
          reserver := (s.reserver.finish id delayed).2
          counters := if m then
              Server.removeMetadata s.counters (Stmt.strategicOf id.submissionId s.db)
            else s.counters }) hw hc rfl
        have h2 : weight { k with held := k.held.filter (· ≠ id) } = weight k := rfl
        dsimp only at this ⊢
        omega
  | disconnect c =>
    cases hc : s.conn c with
    | none =>
      rw [nothing (by unfold ending; exact hc)]
      simp only [Server.step, Server.State.withConn, hc]
      omega
    | some k =>
      obtain ⟨hk, hl⟩ := Server.conn_eq.1 hc
      have : ending s (.disconnect c) = some k := hc
      unfold leftovers
      rw [this]
      simp only [Server.step, Server.State.withConn, hc, Option.getD_some]
      have := total_drop hw hk hl
      omega
  | producer call =>
    rw [nothing rfl]
    simp only [Server.step]
    unfold Server.producerCall
    have h1 := total_dbCall s call.op
    split
    · rename_i i s' h
      rw [h] at h1
      have := total_same (s := s') (s' := { s' with notifies := s'.notifies + 1 }) rfl
      dsimp only at h1
      omega
    · rename_i s' _ h
      rw [h] at h1
      dsimp only at h1
      omega
  | notify =>
    rw [nothing rfl]
    simp only [Server.step]
    split
    · omega
    · rename_i n _
      have := total_map (s := s) (s' := { s with notifies := n, conns := s.conns.map fun p => (p.1, p.2.wake) })
        (f := ConnState.wake) (fun k => by
          simp only [weight, ConnState.wake, List.length_append, List.length_nil]
          by_cases hl : k.live = true
          · by_cases hf : k.fetching.isSome = true <;> simp [hl, hf] <;> omega
          · simp [hl]) rfl
      omega
  | tick t =>
    rw [nothing rfl]
    have := total_same (s := s) (s' := Server.step s (.tick t)) rfl
    omega

theorem server_step (s : State) (a : Server.Action) : (step s (.server a)).server = Server.step s.server a := by
  simp only [step]; split <;> rfl

theorem register_server (s : State) (i : Nat) : (step s (.register i)).server = s.server := by
  simp only [step]; split <;> rfl

theorem run_snoc (ttl m : Nat) (h : List Action) (a : Action) : run ttl m (h ++ [a]) = step (run ttl m h) a := by
  unfold run exec; rw [List.foldl_append]; rfl

theorem server_run (ttl m : Nat) (h : List Action) : (run ttl m h).server = Server.run ttl m (serverPart h) := by
  induction h using snoc_induction with
  | nil => rfl
  | snoc h a ih =>
    rw [run_snoc]
    cases a with
    | server a =>
      rw [server_step, ih]
      have : serverPart (h ++ [.server a]) = serverPart h ++ [a] := by unfold serverPart; simp
      rw [this]
      exact (Server.exec_snoc _ _ _).symm
    | register i =>
      rw [register_server, ih]
      have : serverPart (h ++ [.register i]) = serverPart h := by unfold serverPart; simp
      rw [this]

theorem wf_run (ttl m : Nat) (h : List Action) : Map.WF (run ttl m h).server.conns := by
  rw [server_run]; exact Server.conns_wf_run _ _ _

/-- Everything there is for requests. -/
def load (s : State) : Nat := total s.server + s.fresh.length + s.parked.length

theorem load_step {s : State} (hw : Map.WF s.server.conns) (a : Action) :
    load (step s a) ≤ load s + if a.asks then 1 else 0 := by
  cases a with
  | server a =>
    have h := total_step hw a
    unfold leftovers at h
    unfold load
    simp only [step]
    split
    · simp only [List.length_nil]; omega
    · simp only [List.length_append]
      cases wakes s.server a
      · simp only [Bool.false_eq_true, if_false]; omega
      · simp only [if_true, List.length_nil]; omega
  | register i =>
    unfold load
    simp only [step]
    cases hi : s.fresh[i]? with
    | none => dsimp only; omega
    | some r =>
      have hlt : i < s.fresh.length := (List.getElem?_eq_some_iff.1 hi).1
      simp [List.length_eraseIdx, hlt]
      omega

theorem load_notify {s : State} (hw : Map.WF s.server.conns) (hn : s.server.notifies ≠ 0) :
    load (step s (.server .notify)) ≤ total s.server + s.fresh.length := by
  have h := total_step hw .notify
  have hd : dies s.server .notify = false := rfl
  have hk : wakes s.server .notify = true := by simp [wakes, hn]
  have he : ending s.server .notify = none := rfl
  unfold leftovers at h
  rw [he] at h
  unfold load
  simp only [step, hd, hk, he]
  simp [Action.asks] at h ⊢
  exact h

theorem asked_snoc (h : List Action) (a : Action) : asked (h ++ [a]) = asked h + if a.asks then 1 else 0 := by
  unfold asked
  rw [List.filter_append, List.length_append]
  congr 1
  cases ha : a.asks <;> simp [ha]

theorem tasks_le_load (s : State) : tasks s ≤ load s := by
  have := tasksOfOpen_le s
  unfold tasks load; omega

theorem load_run (ttl m : Nat) (h : List Action) : load (run ttl m h) ≤ asked h := by
  induction h using snoc_induction with
  | nil => exact Nat.le_refl 0
  | snoc h a ih =>
    rw [run_snoc, asked_snoc]
    have := load_step (wf_run ttl m h) a
    omega

theorem tasks_le (ttl m : Nat) (h : List Action) : tasks (run ttl m h) ≤ asked h :=
  Nat.le_trans (tasks_le_load _) (load_run ttl m h)

theorem tasks_since (ttl m : Nat) (h1 h2 : List Action) (hn : (run ttl m h1).server.notifies ≠ 0) :
    tasks (run ttl m (h1 ++ .server .notify :: h2)) ≤
      openRequests (run ttl m h1) + (run ttl m h1).fresh.length + asked h2 := by
  refine Nat.le_trans (tasks_le_load _) ?_
  induction h2 using snoc_induction with
  | nil =>
    rw [run_snoc]
    exact load_notify (wf_run ttl m h1) hn
  | snoc h a ih =>
    have : h1 ++ .server .notify :: (h ++ [a]) = (h1 ++ .server .notify :: h) ++ [a] := by simp
    rw [this, run_snoc, asked_snoc]
    have := load_step (wf_run ttl m (h1 ++ .server .notify :: h)) a
    omega

/-! ## Visits -/

theorem exec_append (s : State) (h1 h2 : List Action) : exec s (h1 ++ h2) = exec (exec s h1) h2 :=
  List.foldl_append ..

/-- The queue is empty; connection `c` is in state `k`, the others are as in `conns`; the tasks left behind. -/
structure At (s : State) (c : ConnId) (k : ConnState) (conns : Map ConnId ConnState) (parked : List Request) : Prop where
  db : s.server.db = DB.empty
  here : s.server.conns.get c = some k
  others : ∀ c', c' ≠ c → s.server.conns.get c' = conns.get c'
  fresh : s.fresh = []
  parked : s.parked = parked

theorem At.set {s : State} {c : ConnId} {k k' : ConnState} {conns : Map ConnId ConnState} {parked : List Request}
    (h : At s c k conns parked) {a : Server.Action} (hd : dies s.server a = false) (he : ending s.server a = none)
    (hk : wakes s.server a = false) (hs : Server.step s.server a = s.server.setConn c k') :
    At (step s (.server a)) c k' conns parked := by
  have : step s (.server a) = { s with server := s.server.setConn c k' } := by
    simp [step, hd, he, hk, hs]
  rw [this]
  refine ⟨h.db, ?_, ?_, h.fresh, h.parked⟩
  · rw [Server.get_setConn, if_pos rfl]
  · intro c' hc
    show (s.server.setConn c k').conns.get c' = _
    rw [Server.get_setConn, if_neg (Ne.symm hc)]
    exact h.others c' hc

theorem at_visit {s : State} {c : ConnId} (hdb : s.server.db = DB.empty) (hc : s.server.conns.get c = none)
    (hf : s.fresh = []) :
    At (exec s (visit c)) c { live := false } s.server.conns (s.parked ++ [⟨0, 1, .oldest⟩]) := by
  have h1 : At (step s (.server (.connect c))) c {} s.server.conns s.parked := by
    have hs : Server.step s.server (.connect c) = s.server.setConn c {} := by
      simp only [Server.step, hc]
    have : step s (.server (.connect c)) = { s with server := s.server.setConn c {} } := by
      simp [step, dies, ending, wakes, hs]
    rw [this]
    refine ⟨hdb, ?_, ?_, hf, rfl⟩
    · rw [Server.get_setConn, if_pos rfl]
    · intro c' hcc
      show (s.server.setConn c {}).conns.get c' = _
      rw [Server.get_setConn, if_neg (Ne.symm hcc)]
  have hv : exec s (visit c) = step (step (step (step (step s (.server (.connect c)))
      (.server (.request c ⟨0, 1, .oldest⟩ ⟨0, fun _ => false, fun _ => []⟩))) (.server (.row c)))
      (.server (.register c 0))) (.server (.disconnect c)) := rfl
  rw [hv]
  generalize step s (.server (.connect c)) = s1 at h1
  have h2 := h1.set (a := .request c ⟨0, 1, .oldest⟩ ⟨0, fun _ => false, fun _ => []⟩)
    (k' := { fetching := some { req := ⟨0, 1, .oldest⟩, rows := [] } }) rfl rfl rfl (by
      have hcn : s1.server.conn c = some {} := Server.conn_eq.2 ⟨h1.here, rfl⟩
      simp only [Server.step, Server.State.withIdle, Server.State.withConn, hcn, Server.begin, h1.db]
      rfl)
  generalize step s1 _ = s2 at h2
  have h3 := h2.set (a := .row c) (k' := { spawned := [⟨0, 1, .oldest⟩] }) rfl rfl rfl (by
      have hcn := Server.conn_eq.2 ⟨h2.here, rfl⟩
      simp only [Server.step, Server.State.withFetch, Server.State.withConn, hcn, Server.fetchRow]
      rfl)
  generalize step s2 _ = s3 at h3
  have h4 := h3.set (a := .register c 0) (k' := { waiting := [⟨0, 1, .oldest⟩] }) rfl rfl rfl (by
      have hcn := Server.conn_eq.2 ⟨h3.here, rfl⟩
      simp only [Server.step, Server.State.withConn, hcn]
      rfl)
  generalize step s3 _ = s4 at h4
  have hcn : s4.server.conn c = some { waiting := [⟨0, 1, .oldest⟩] } := Server.conn_eq.2 ⟨h4.here, rfl⟩
  have hs : Server.step s4.server (.disconnect c) = s4.server.setConn c { live := false } := by
    simp only [Server.step, Server.State.withConn, hcn, Server.dropConn]
    rfl
  have : step s4 (.server (.disconnect c)) = { s4 with
      server := s4.server.setConn c { live := false }, parked := s4.parked ++ [⟨0, 1, .oldest⟩] } := by
    simp [step, dies, ending, wakes, hs, hcn]
  rw [this]
  refine ⟨h4.db, ?_, ?_, h4.fresh, by rw [h4.parked]⟩
  · show (s4.server.setConn c { live := false }).conns.get c = _
    rw [Server.get_setConn, if_pos rfl]
  · intro c' hcc
    show (s4.server.setConn c { live := false }).conns.get c' = _
    rw [Server.get_setConn, if_neg (Ne.symm hcc)]
    exact h4.others c' hcc

theorem visits_state (ttl m n : Nat) :
    let s := run ttl m ((List.range n).flatMap visit)
    s.server.db = DB.empty ∧ s.fresh = [] ∧ s.parked.length = n ∧
      ∀ c, s.server.conns.get c = if c < n then some { live := false } else none := by
  induction n with
  | zero => exact ⟨rfl, rfl, rfl, fun c => by simp [run, exec, init, Server.init, Map.get_nil]⟩
  | succ n ih =>
    obtain ⟨h1, h2, h3, h4⟩ := ih
    have hr : run ttl m ((List.range (n + 1)).flatMap visit) = exec (run ttl m ((List.range n).flatMap visit)) (visit n) := by
      rw [List.range_succ, List.flatMap_append]
      unfold run
      rw [exec_append]
      simp
    have h := at_visit (c := n) h1 (by rw [h4]; simp) h2
    rw [hr]
    refine ⟨h.db, h.fresh, by rw [h.parked]; simp [h3], ?_⟩
    intro c
    by_cases hc : c = n
    · rw [hc, h.here]; simp
    · rw [h.others c hc, h4]
      have : c < n ↔ c < n + 1 := by
        have : (c : Nat) ≠ n := hc
        constructor
        · intro h; exact Nat.lt_succ_of_lt h
        · intro h; exact Nat.lt_of_le_of_ne (Nat.le_of_lt_succ h) this
      simp only [this]

theorem sum_zero (l : List Nat) (h : ∀ x ∈ l, x = 0) : l.sum = 0 := by
  induction l with
  | nil => rfl
  | cons x l ih =>
    rw [List.sum_cons, h x (List.mem_cons_self ..), ih fun y hy => h y (List.mem_cons_of_mem _ hy)]

theorem visits (ttl m n : Nat) :
    let h := (List.range n).flatMap visit
    NobodyConnected (run ttl m h) ∧ tasks (run ttl m h) = n ∧
      (∀ a ∈ h, a.produces = false) ∧ asked h = n := by
  obtain ⟨h1, h2, h3, h4⟩ := visits_state ttl m n
  have hz : tasksOfOpen (run ttl m ((List.range n).flatMap visit)) = 0 := by
    unfold tasksOfOpen
    refine sum_zero _ ?_
    intro x hx
    obtain ⟨p, hp, rfl⟩ := List.mem_map.1 hx
    have := Map.get_of_mem (wf_run ttl m _) (k := p.1) (v := p.2) hp
    rw [h4] at this
    split at this
    · rw [← Option.some.inj this]; rfl
    · cases this
  refine ⟨?_, ?_, ?_, ?_⟩
  · intro c
    unfold Server.State.conn
    rw [h4]
    split <;> rfl
  · unfold tasks
    rw [hz, h2, h3]; simp
  · intro a ha
    obtain ⟨c, _, h⟩ := List.mem_flatMap.1 ha
    simp only [visit, List.mem_cons, List.not_mem_nil, or_false] at h
    rcases h with rfl | rfl | rfl | rfl | rfl <;> rfl
  · show asked ((List.range n).flatMap visit) = n
    clear hz h1 h2 h3 h4
    induction n with
    | zero => rfl
    | succ n ih =>
      rw [List.range_succ, List.flatMap_append]
      unfold asked at ih ⊢
      rw [List.filter_append, List.length_append, ih]
      have : [n].flatMap visit = visit n := by simp
      rw [this]
      rfl

/-! ### The death of the process -/

/-- A step in which the process dies ends in a restart. -/
theorem dies_restart {s : Server.State} {a : Server.Action} (hd : dies s a = true) :
    ∃ (s0 : Server.State) (db : DB), Server.step s a = s0.restart db := by
  cases a with
  | producer call =>
    have hc : (Opsqueue.step s.db call.op).1.crashed = true := hd
    obtain ⟨h1, -, -, -, h5⟩ := Server.dbCall_spec s call.op
    obtain ⟨-, ⟨id, hi, h⟩ | ⟨hi, h⟩⟩ := Server.producer_cases s call
    · rw [h1] at hi
      rw [hi] at hc; cases hc
    · rw [h, h5 hc]
      exact ⟨_, _, rfl⟩
  | handle w n1 n2 n3 o =>
    cases w with
    | false => cases hd
    | true =>
      simp only [dies] at hd
      simp only [Server.step]
      cases hcomp : s.completing with
      | some x => rw [hcomp] at hd; cases hd
      | none =>
        rw [hcomp] at hd
        cases hq : s.queue with
        | nil => rw [hq] at hd; cases hd
        | cons x queue =>
          obtain ⟨c, r⟩ := x
          rw [hq] at hd
          dsimp only at hd
          obtain ⟨h1, -, -, -, h5⟩ := Server.dbCall_spec { s with queue := queue } (Server.reportOp s.maxRetries n1 n2 n3 o r)
          rcases Server.handle_cases s true n1 n2 n3 o with h | ⟨c', r', queue', _, hq', ⟨h, _⟩ | ⟨_, h2, _⟩⟩
          · exfalso
            have h7 : (Server.handle s true n1 n2 n3 o).queue = s.queue := by rw [h]
            rw [hq] at h7
            unfold Server.handle at h7
            simp only [hcomp, hq] at h7
            rw [hcomp] at h1 h5
            rw [if_pos trivial, if_pos (by rw [h1]; exact hd), h5 hd] at h7
            cases h7
          · cases h
          · rw [hq] at hq'
            cases hq'
            rw [h2 (by rw [h1]; exact hd), h5 hd]
            exact ⟨_, _, rfl⟩
  | _ => cases hd

theorem dies_dead {s : Server.State} {a : Server.Action} (hd : dies s a = true) :
    ∀ p ∈ (Server.step s a).conns, p.2.live = false := by
  obtain ⟨s0, db, h⟩ := dies_restart hd
  rw [h]
  intro p hp
  obtain ⟨q, _, rfl⟩ := List.mem_map.1 hp
  rfl

theorem tasks_dies (ttl m : Nat) (h : List Action) (a : Server.Action) (hd : dies (run ttl m h).server a = true) :
    tasks (run ttl m (h ++ [.server a])) = 0 := by
  rw [run_snoc]
  simp only [step, if_pos hd]
  unfold tasks tasksOfOpen
  have := sum_zero ((Server.step (run ttl m h).server a).conns.map fun p =>
      if p.2.live then p.2.spawned.length + p.2.waiting.length else 0) fun x hx => by
    obtain ⟨p, hp, rfl⟩ := List.mem_map.1 hx
    rw [dies_dead hd p hp]; rfl
  simp only [this]
  rfl

theorem tasksOfOpen_zero {ttl m : Nat} {h : List Action} (hn : NobodyConnected (run ttl m h)) :
    tasksOfOpen (run ttl m h) = 0 := by
  unfold tasksOfOpen
  refine sum_zero _ fun x hx => ?_
  obtain ⟨⟨c, k⟩, hp, rfl⟩ := List.mem_map.1 hx
  have hg := Map.get_of_mem (wf_run ttl m h) hp
  have hc := hn c
  unfold Server.State.conn at hc
  rw [hg] at hc
  cases hl : k.live with
  | false => simp [hl]
  | true => simp [hl] at hc

theorem left_step (s : State) (a : Action) (hd : ∀ b, a = .server b → dies s.server b = false) (hn : a ≠ .server .notify) :
    s.fresh.length + s.parked.length ≤ (step s a).fresh.length + (step s a).parked.length := by
  cases a with
  | server a =>
    have hw : wakes s.server a = false := by
      cases a with
      | notify => exact absurd rfl hn
      | _ => rfl
    simp only [step, hd a rfl, hw, Bool.false_eq_true, if_false, List.length_append]
    omega
  | register i =>
    simp only [step]
    cases hi : s.fresh[i]? with
    | none => exact Nat.le_refl _
    | some r =>
      have : i < s.fresh.length := (List.getElem?_eq_some_iff.1 hi).1
      simp only [List.length_append, List.length_eraseIdx, if_pos this, List.length_singleton]
      omega

theorem left_run (ttl m : Nat) (h1 h2 : List Action)
    (hd : ∀ p b q, h2 = p ++ .server b :: q → dies (run ttl m (h1 ++ p)).server b = false)
    (hn : .server .notify ∉ h2) :
    (run ttl m h1).fresh.length + (run ttl m h1).parked.length ≤
      (run ttl m (h1 ++ h2)).fresh.length + (run ttl m (h1 ++ h2)).parked.length := by
  induction h2 using snoc_induction with
  | nil => rw [List.append_nil]; exact Nat.le_refl _
  | snoc h2 a ih =>
    refine Nat.le_trans (ih (fun p b q e => hd p b (q ++ [a]) (by simp [e])) fun hm => hn (by simp [hm])) ?_
    rw [← List.append_assoc, run_snoc]
    refine left_step _ a (fun b hb => hd h2 b [] (by simp [hb])) fun e => hn (by simp [e])

theorem tasks_stay (ttl m : Nat) (h1 h2 : List Action) (hc : NobodyConnected (run ttl m h1))
    (hd : ∀ p b q, h2 = p ++ .server b :: q → dies (run ttl m (h1 ++ p)).server b = false)
    (hn : .server .notify ∉ h2) : tasks (run ttl m h1) ≤ tasks (run ttl m (h1 ++ h2)) := by
  have := left_run ttl m h1 h2 hd hn
  unfold tasks
  rw [tasksOfOpen_zero hc]
  omega

end Opsqueue.Leftover
