import Verif.Spec.ConsumerGauges
import Verif.Proofs.Leftover
import Verif.Proofs.Fairness
import Verif.Proofs.Counting

/-!
# Lemmas about the metrics of the consumer side
-/

namespace Opsqueue.ConsumerGauges
open Server (ConnId ConnState Fetching fetchOf)

theorem run_snoc (ttl m : Nat) (h : List Action) (a : Action) : run ttl m (h ++ [a]) = step (run ttl m h) a := by
  unfold run exec; rw [List.foldl_append]; rfl

theorem server_step (s : State) (a : Action) : (step s a).server = Server.step s.server a.base := by
  unfold step; split <;> rfl

theorem server_run (ttl m : Nat) (h : List Action) : (run ttl m h).server = Server.run ttl m (h.map Action.base) := by
  induction h using snoc_induction with
  | nil => rfl
  | snoc h a ih =>
    rw [run_snoc, server_step, ih, List.map_append]
    exact (Server.exec_snoc _ _ _).symm

theorem wf_run (ttl m : Nat) (h : List Action) : Map.WF (run ttl m h).server.conns := by
  rw [server_run]; exact Server.conns_wf_run ttl m _

/-! ### Open connections -/

/-- 1 for an open connection. -/
def weight (k : ConnState) : Nat := if k.live then 1 else 0

/-- The number of open connections. -/
def open_ (s : Server.State) : Nat := (s.conns.map fun p => weight p.2).sum

theorem not_open_of_dead {s : State} (h : ∀ p ∈ s.server.conns, p.2.live = false) (c : ConnId) : ¬ Open s c := by
  intro ho
  obtain ⟨k, hk⟩ := Option.isSome_iff_exists.1 ho
  obtain ⟨h1, h2⟩ := Server.conn_eq.1 hk
  rw [h _ (Map.mem_of_get h1)] at h2
  cases h2

theorem number_open (s : State) (hw : Map.WF s.server.conns) : CountIs (Open s) (open_ s.server) := by
  refine ⟨(s.server.conns.filter (·.2.live)).map (·.1), ?_, ?_, ?_⟩
  · exact List.Nodup.sublist (List.filter_sublist.map _) hw
  rotate_left
  · unfold open_
    rw [List.length_map]
    induction s.server.conns with
    | nil => rfl
    | cons p l ih =>
      rw [List.map_cons, List.sum_cons, ← ih, List.filter_cons]
      unfold weight
      split <;> simp <;> omega
  · intro c
    unfold Open
    constructor
    · intro hc
      obtain ⟨p, hp, rfl⟩ := List.mem_map.1 hc
      obtain ⟨h1, h2⟩ := List.mem_filter.1 hp
      rw [Server.conn_eq.2 ⟨Map.get_of_mem hw h1, h2⟩]; rfl
    · intro hc
      obtain ⟨k, hk⟩ := Option.isSome_iff_exists.1 hc
      obtain ⟨h1, h2⟩ := Server.conn_eq.1 hk
      exact List.mem_map.2 ⟨(c, k), List.mem_filter.2 ⟨Map.mem_of_get h1, h2⟩, rfl⟩

theorem open_set {s s' : Server.State} {c : ConnId} {k k' : ConnState} (hw : Map.WF s.conns)
    (hk : s.conns.get c = some k) (h : s'.conns = s.conns.set c k') : open_ s' + weight k = open_ s + weight k' := by
  unfold open_
  rw [h]
  exact Map.sum_set_some weight k' hw hk

theorem open_live {s s' : Server.State} {c : ConnId} {k k' : ConnState} (hw : Map.WF s.conns)
    (hk : s.conns.get c = some k) (hl : k'.live = k.live) (h : s'.conns = s.conns.set c k') : open_ s' = open_ s := by
  have := open_set hw hk h
  have h2 : weight k' = weight k := by unfold weight; rw [hl]
  omega

theorem open_same {s s' : Server.State} (h : s'.conns = s.conns) : open_ s' = open_ s := by
  unfold open_; rw [h]

theorem open_map {s s' : Server.State} {f : ConnState → ConnState} {g : ConnState → Nat} (hf : ∀ k, weight (f k) = g k)
    (h : s'.conns = s.conns.map fun p => (p.1, f p.2)) : open_ s' = (s.conns.map fun p => g p.2).sum := by
  unfold open_
  rw [h, List.map_map]
  congr 1
  apply List.map_congr_left
  intro p _
  exact hf p.2

theorem open_restart (s : Server.State) (db : DB) : open_ (s.restart db) = 0 := by
  rw [open_map (s := s) (s' := s.restart db) (f := fun k => { live := false, answers := k.answers }) (g := fun _ => 0)
    (fun k => rfl) rfl]
  exact Leftover.sum_zero _ fun x hx => by
    obtain ⟨p, _, rfl⟩ := List.mem_map.1 hx
    rfl

theorem open_drop {s : Server.State} {c : ConnId} {k : ConnState} (hw : Map.WF s.conns) (hk : s.conns.get c = some k)
    (hl : k.live = true) : open_ (Server.dropConn s c k) + 1 = open_ s := by
  have := open_set (s' := Server.dropConn s c k) (k' := { live := false, answers := k.answers }) hw hk rfl
  have h1 : weight k = 1 := by unfold weight; rw [hl]; rfl
  have h2 : weight { live := false, answers := k.answers } = 0 := rfl
  omega

theorem live_finishFetch (k : ConnState) (f : Fetching) : (Server.finishFetch k f).live = k.live := by
  unfold Server.finishFetch; cases f.got <;> rfl

theorem open_begin {s : Server.State} {c : ConnId} {k k0 : ConnState} {r : Conn.Request} {v : Server.View}
    (hw : Map.WF s.conns) (hk : s.conns.get c = some k0) (hl : k.live = k0.live) :
    open_ (Server.begin s c k r v) = open_ s := by
  unfold Server.begin
  dsimp only
  split
  · exact open_live (k' := k.answer r none) hw hk hl rfl
  · exact open_live (k' := { k with fetching := some _ }) hw hk hl rfl

/-- What a step does to the number of open connections. -/
def change (s : Server.State) : Server.Action → Int
  | .connect c => match s.conns.get c with | none => 1 | some _ => 0
  | .disconnect c => match s.conn c with | some _ => -1 | none => 0
  | .join c => if (s.conn c).isSome && ((Server.step s (.join c)).conn c).isNone then -1 else 0
  | _ => 0

theorem open_dies {s : Server.State} {a : Server.Action} (hd : Leftover.dies s a = true) :
    open_ (Server.step s a) = 0 := by
  refine Leftover.sum_zero _ fun x hx => ?_
  obtain ⟨p, hp, rfl⟩ := List.mem_map.1 hx
  show weight p.2 = 0
  unfold weight
  rw [Leftover.dies_dead hd p hp]; rfl

theorem open_step {s : Server.State} (hw : Map.WF s.conns) (a : Server.Action) (hd : Leftover.dies s a = false) :
    (open_ (Server.step s a) : Int) = open_ s + change s a := by
  have same : ∀ {s' : Server.State}, open_ s' = open_ s → (open_ s' : Int) = open_ s + 0 := by
    intro s' h; rw [h]; omega
  cases a with
  | connect c =>
    simp only [Server.step, change]
    cases hc : s.conns.get c with
    | some k => exact same rfl
    | none =>
      have : open_ (s.setConn c {}) = open_ s + weight {} := Map.sum_set_none weight {} hc
      have h0 : weight {} = 1 := rfl
      dsimp only
      omega
  | request c r v =>
    refine same ?_
    simp only [Server.step, Server.State.withIdle, Server.State.withConn]
    cases hc : s.conn c with
    | none => rfl
    | some k =>
      obtain ⟨hk, hl⟩ := Server.conn_eq.1 hc
      dsimp only
      split
      · rfl
      · exact open_begin hw hk rfl
  | retry c v =>
    refine same ?_
    simp only [Server.step, Server.State.withIdle, Server.State.withConn]
    cases hc : s.conn c with
    | none => rfl
    | some k =>
      obtain ⟨hk, hl⟩ := Server.conn_eq.1 hc
      dsimp only
      split
      · rfl
      · cases hr : k.retry with
        | nil => rfl
        | cons r rest => exact open_begin hw hk rfl
  | row c =>
    refine same ?_
    cases hc : s.conn c with
    | none => simp only [Server.step, Server.State.withFetch, Server.State.withConn, hc]
    | some k =>
      obtain ⟨hk, hl⟩ := Server.conn_eq.1 hc
      cases hf : k.fetching with
      | none => simp only [Server.step, Server.State.withFetch, Server.State.withConn, hc, hf]
      | some f =>
        rcases Server.row_cases hc hf with ⟨_, hs⟩ | ⟨_, _, hs⟩ | ⟨row, rest, _, _, ⟨_, hs⟩ | ⟨_, hs⟩⟩
        · rw [hs]
        · rw [hs]; exact open_live hw hk (live_finishFetch k f) rfl
        · rw [hs]; exact open_live (k' := { k with fetching := some { f with rows := rest } }) hw hk rfl rfl
        · rw [hs]
          exact open_live (k' := { k with fetching := some { f with rows := rest, joining := some row.key } }) hw hk rfl rfl
  | join c =>
    simp only [change]
    cases hc : s.conn c with
    | none =>
      have : Server.step s (.join c) = s := by
        simp only [Server.step, Server.State.withFetch, Server.State.withConn, hc]
      rw [this]; exact same rfl
    | some k =>
      obtain ⟨hk, hl⟩ := Server.conn_eq.1 hc
      have stays : ∀ k', k'.live = true → (Server.step s (.join c)).conns = s.conns.set c k' →
          (open_ (Server.step s (.join c)) : Int) = open_ s +
            if (some k).isSome && ((Server.step s (.join c)).conn c).isNone then -1 else 0 := by
        intro k' hl' h
        have : (Server.step s (.join c)).conn c = some k' :=
          Server.conn_eq.2 ⟨by rw [h, Map.get_set, if_pos rfl], hl'⟩
        rw [this]
        exact same (open_live hw hk (hl'.trans hl.symm) h)
      cases hf : k.fetching with
      | none =>
        have : Server.step s (.join c) = s := by
          simp only [Server.step, Server.State.withFetch, Server.State.withConn, hc, hf]
        rw [this, hc]; exact same rfl
      | some f =>
        rcases Server.join_cases hc hf with ⟨_, hs⟩ | ⟨id, _, ⟨sub, _, hs⟩ | ⟨_, hs⟩⟩
        · rw [hs, hc]; exact same rfl
        · refine stays _ ?_ (by rw [hs]; rfl)
          split
          · rw [live_finishFetch]; exact hl
          · exact hl
        · rw [hs, Leftover.conn_drop]
          have := open_drop hw hk hl
          simp only [Option.isSome_some, Option.isNone_none, Bool.and_self, if_true]
          omega
  | fetchFails c =>
    refine same ?_
    simp only [Server.step, Server.State.withFetch, Server.State.withConn]
    cases hc : s.conn c with
    | none => rfl
    | some k =>
      obtain ⟨hk, hl⟩ := Server.conn_eq.1 hc
      dsimp only
      cases hf : k.fetching with
      | none => rfl
      | some f => exact open_live (k' := k.answer f.req (some [])) hw hk rfl rfl
  | register c i =>
    refine same ?_
    simp only [Server.step, Server.State.withConn]
    cases hc : s.conn c with
    | none => rfl
    | some k =>
      obtain ⟨hk, hl⟩ := Server.conn_eq.1 hc
      dsimp only
      cases hi : k.spawned[i]? with
      | none => rfl
      | some r =>
        exact open_live (k' := { k with spawned := k.spawned.eraseIdx i, waiting := k.waiting ++ [r] }) hw hk rfl rfl
  | report c r =>
    refine same ?_
    simp only [Server.step, Server.State.withIdle, Server.State.withConn]
    cases s.conn c with
    | none => rfl
    | some k =>
      dsimp only
      split <;> rfl
  | handle w n1 n2 n3 o =>
    refine same ?_
    simp only [Server.step]
    rcases Server.handle_cases s w n1 n2 n3 o with h | ⟨c', r, queue, hcomp, hq, ⟨_, h⟩ | ⟨hw', _, h⟩⟩
    · rw [h]
    · rw [h]; rfl
    · subst hw'
      simp only [Leftover.dies, hcomp, hq] at hd
      obtain ⟨h1, -, -, h4, -⟩ := Server.dbCall_spec { s with queue := queue } (Server.reportOp s.maxRetries n1 n2 n3 o r)
      rw [h (by rw [h1]; exact hd), h4 hd]
      rfl
  | release b =>
    refine same ?_
    simp only [Server.step]
    unfold Server.release
    split
    · rfl
    · rename_i c id delayed _
      cases hc : s.conns.get c with
      | none => rfl
      | some k => exact open_live (k' := { k with held := k.held.filter (· ≠ id) }) hw hc rfl rfl
  | disconnect c =>
    simp only [change]
    cases hc : s.conn c with
    | none =>
      simp only [Server.step, Server.State.withConn, hc]
      exact same rfl
    | some k =>
      obtain ⟨hk, hl⟩ := Server.conn_eq.1 hc
      simp only [Server.step, Server.State.withConn, hc]
      have := open_drop hw hk hl
      omega
  | producer call =>
    refine same ?_
    have hc : (Opsqueue.step s.db call.op).1.crashed = false := hd
    obtain ⟨-, -, -, h4, -⟩ := Server.dbCall_spec s call.op
    obtain ⟨-, ⟨id, hi, h⟩ | ⟨hi, h⟩⟩ := Server.producer_cases s call
    · rw [h, h4 hc]; rfl
    · rw [h, h4 hc]; rfl
  | notify =>
    refine same ?_
    simp only [Server.step]
    split
    · rfl
    · exact open_map (f := ConnState.wake) (g := weight) (fun k => rfl) rfl
  | tick t => exact same rfl

/-! ### The gauge of consumers -/

theorem consumers_metrics (s : State) (a : Action) :
    (metrics s a).consumers = s.consumers + change s.server a.base + if panics s a then 1 else 0 := by
  cases a with
  | panic c =>
    show s.consumers = s.consumers + change s.server (.disconnect c) + if (s.server.conn c).isSome then 1 else 0
    rw [change]
    split <;> rename_i hc <;> rw [hc] <;> simp
    omega
  | server a =>
    simp only [Action.base]
    cases a with
    | connect c =>
      simp only [metrics, panics, change]
      cases s.server.conns.get c <;> simp
    | disconnect c =>
      simp only [metrics, panics, change]
      cases s.server.conn c <;> simp
      omega
    | join c =>
      show s.consumers = s.consumers + change s.server (.join c) +
        if (s.server.conn c).isSome && ((step s (.server (.join c))).server.conn c).isNone then 1 else 0
      rw [server_step]
      show _ = _ + (if (s.server.conn c).isSome && ((Server.step s.server (.join c)).conn c).isNone then (-1 : Int) else 0) +
        if (s.server.conn c).isSome && ((Server.step s.server (.join c)).conn c).isNone then 1 else 0
      split <;> omega
    | row c =>
      simp only [metrics, panics, change]
      repeat' split
      all_goals simp
    | tick t => cases t <;> simp [metrics, panics, change]
    | _ => simp [metrics, panics, change]

theorem panicked_snoc (ttl m : Nat) (h : List Action) (a : Action) :
    panicked ttl m (h ++ [a]) =
      if Dies (run ttl m h) a then 0 else if panics (run ttl m h) a then panicked ttl m h + 1 else panicked ttl m h := by
  have key : ∀ (h : List Action) (p : State × Nat), (h.foldl (fun (p : State × Nat) a =>
      (step p.1 a, if Dies p.1 a then 0 else if panics p.1 a then p.2 + 1 else p.2)) p).1 = exec p.1 h := by
    intro h
    induction h with
    | nil => intro p; rfl
    | cons a h ih => intro p; exact ih _
  unfold panicked
  rw [List.foldl_append]
  simp only [List.foldl_cons, List.foldl_nil]
  rw [key h (init ttl m, 0)]
  rfl

theorem consumers_eq (ttl m : Nat) (h : List Action) :
    (run ttl m h).consumers = open_ (run ttl m h).server + panicked ttl m h := by
  induction h using snoc_induction with
  | nil => rfl
  | snoc h a ih =>
    rw [panicked_snoc, run_snoc, server_step]
    by_cases hd : Leftover.dies (run ttl m h).server a.base = true
    · rw [if_pos (show Dies (run ttl m h) a from hd), open_dies hd]
      unfold step
      rw [if_pos hd]; rfl
    · rw [if_neg (show ¬ Dies (run ttl m h) a from hd)]
      unfold step
      rw [if_neg hd]
      have h1 := open_step (wf_run ttl m h) a.base (by simpa using hd)
      have h2 := consumers_metrics (run ttl m h) a
      show (metrics (run ttl m h) a).consumers = _
      rw [h1, h2, ih]
      split <;> simp <;> omega

theorem consumers_run (ttl m : Nat) (h : List Action) :
    ∃ n, CountIs (Open (run ttl m h)) n ∧ (run ttl m h).consumers = n + panicked ttl m h :=
  ⟨_, number_open _ (wf_run ttl m h), consumers_eq ttl m h⟩

/-! ### The cache of reservations -/

theorem cache_wf (ttl m : Nat) (h : List Action) : Map.WF (run ttl m h).server.reserver.cache := by
  rw [server_run]
  generalize h.map Action.base = h
  induction h using snoc_induction with
  | nil => exact Map.wf_nil
  | snoc h a ih =>
    rw [show Server.run ttl m (h ++ [a]) = Server.step (Server.run ttl m h) a from Server.exec_snoc _ _ _]
    rcases Server.reserver_step (Server.run ttl m h) a with hr | hr
    · rw [hr]
      generalize Server.resOps (Server.run ttl m h) a = ops
      generalize (Server.run ttl m h).reserver = r at ih
      induction ops generalizing r with
      | nil => exact ih
      | cons op ops ih2 => exact ih2 _ (Reserver.wf_step ih op)
    · rw [hr.1]; exact Map.wf_nil

/-- The number of reserved chunks, from the cache. -/
theorem number_reserved (s : State) (hw : Map.WF s.server.reserver.cache) :
    CountIs (Reserved s) ((s.server.reserver.cache.filter fun p => s.server.reserver.alive p.2).length) := by
  refine ⟨(s.server.reserver.cache.filter fun p => s.server.reserver.alive p.2).map (·.1), ?_, ?_, ?_⟩
  · exact List.Nodup.sublist (List.filter_sublist.map _) hw
  rotate_left
  · rw [List.length_map]
  · intro id
    unfold Reserved Reserver.isReserved Reserver.lookup
    constructor
    · intro hm
      obtain ⟨p, hp, rfl⟩ := List.mem_map.1 hm
      obtain ⟨h1, h2⟩ := List.mem_filter.1 hp
      rw [Map.get_of_mem hw h1, Option.filter_some, if_pos h2]; rfl
    · intro hs
      obtain ⟨e, he⟩ := Option.isSome_iff_exists.1 hs
      rw [Option.filter_eq_some_iff] at he
      exact List.mem_map.2 ⟨(id, e), List.mem_filter.2 ⟨Map.mem_of_get he.1, he.2⟩, rfl⟩

/-! ### The maintenance -/

theorem evict_spec {r : Reserver ChunkId ChunkId ConnId} (hw : Map.WF r.cache) (k : ChunkId) :
    (∀ e, (r.evict k).alive e = r.alive e) ∧ ∀ p ∈ (r.evict k).cache, p ∈ r.cache ∧ (p.1 = k → r.alive p.2 = true) := by
  have key : ∀ p ∈ (r.evict k).cache, (r.evict k).cache.get p.1 = some p.2 → p ∈ r.cache ∧ (p.1 = k → r.alive p.2 = true) := by
    intro p _ hg
    unfold Reserver.evict at hg
    cases hc : r.cache.get k with
    | none =>
      rw [hc] at hg
      exact ⟨Map.mem_of_get hg, fun e => by rw [e, hc] at hg; cases hg⟩
    | some e =>
      rw [hc] at hg
      dsimp only at hg
      split at hg
      · rename_i ha
        exact ⟨Map.mem_of_get hg, fun e => by rw [e, hc] at hg; cases hg; exact ha⟩
      · rw [Reserver.drop_get] at hg
        split at hg
        · cases hg
        · rename_i hne
          exact ⟨Map.mem_of_get hg, fun e => by first | exact absurd e hne | exact absurd e.symm hne⟩
  refine ⟨?_, fun p hp => key p hp (Map.get_of_mem (Reserver.wf_step hw (.evict k)) hp)⟩
  intro e
  unfold Reserver.evict
  split
  · split
    · rfl
    · exact Reserver.drop_alive _ _ _
  · rfl

theorem alive_after_pass {r : Reserver ChunkId ChunkId ConnId} (hw : Map.WF r.cache) :
    ∀ p ∈ r.runPendingTasks.cache, r.runPendingTasks.alive p.2 = true := by
  have key : ∀ (ks : List ChunkId) (r : Reserver ChunkId ChunkId ConnId), Map.WF r.cache →
      (∀ e, (ks.foldl Reserver.evict r).alive e = r.alive e) ∧
      ∀ p ∈ (ks.foldl Reserver.evict r).cache, p ∈ r.cache ∧ (p.1 ∈ ks → r.alive p.2 = true) := by
    intro ks
    induction ks with
    | nil => intro r _; exact ⟨fun _ => rfl, fun p hp => ⟨hp, fun h => by cases h⟩⟩
    | cons k ks ih =>
      intro r hw
      obtain ⟨h1, h2⟩ := evict_spec hw k
      obtain ⟨h3, h4⟩ := ih (r.evict k) (Reserver.wf_step hw (.evict k))
      refine ⟨fun e => (h3 e).trans (h1 e), fun p hp => ?_⟩
      obtain ⟨h5, h6⟩ := h4 p hp
      obtain ⟨h7, h8⟩ := h2 p h5
      refine ⟨h7, fun hm => ?_⟩
      rcases List.mem_cons.1 hm with e | hm
      · exact h8 e
      · rw [← h1]; exact h6 hm
  have hwp : Map.WF r.purge.cache := by
    unfold Reserver.purge
    generalize r.pending.filter _ = l
    induction l generalizing r with
    | nil => exact hw
    | cons x l ih => exact ih (Reserver.wf_step hw .purgeNext)
  intro p hp
  unfold Reserver.runPendingTasks at hp ⊢
  obtain ⟨h1, h2⟩ := key (r.purge.cache.map (·.1)) r.purge hwp
  obtain ⟨h3, h4⟩ := h2 p hp
  dsimp only
  rw [h1]
  exact h4 (List.mem_map_of_mem h3)

theorem reserved_pass (ttl m : Nat) (h : List Action) :
    ∃ n, CountIs (Reserved (run ttl m (h ++ [pass]))) n ∧ (run ttl m (h ++ [pass])).reserved = some n := by
  refine ⟨_, number_reserved _ (cache_wf ttl m _), ?_⟩
  have hw := cache_wf ttl m h
  rw [run_snoc]
  have e1 : (step (run ttl m h) pass).server.reserver = (run ttl m h).server.reserver.runPendingTasks := rfl
  rw [e1, List.filter_eq_self.2 (alive_after_pass hw)]
  rfl

theorem reserved_dies (s : State) (a : Action) (hd : Dies s a) : (step s a).reserved = none := by
  unfold step
  rw [if_pos (show Leftover.dies s.server a.base = true from hd)]

theorem reserved_keep (s : State) (a : Action) (ha : a ≠ pass) (hd : ¬ Dies s a) :
    (step s a).reserved = s.reserved := by
  unfold step
  rw [if_neg (show ¬ Leftover.dies s.server a.base = true from hd)]
  show (metrics s a).reserved = s.reserved
  cases a with
  | panic c => rfl
  | server a =>
    cases a with
    | connect c => simp only [metrics]; split <;> rfl
    | disconnect c => simp only [metrics]; split <;> rfl
    | row c => simp only [metrics]; repeat' split
               all_goals rfl
    | tick t =>
      cases t with
      | runPendingTasks => exact absurd rfl ha
      | _ => rfl
    | _ => rfl

theorem reserved_run (ttl m : Nat) (h h2 : List Action) (hp : ∀ a ∈ h2, a ≠ pass)
    (hd : ∀ p a q, h2 = p ++ a :: q → ¬ Dies (run ttl m (h ++ pass :: p)) a) :
    ∃ n, CountIs (Reserved (run ttl m (h ++ [pass]))) n ∧ (run ttl m (h ++ pass :: h2)).reserved = some n := by
  induction h2 using snoc_induction with
  | nil => exact reserved_pass ttl m h
  | snoc h2 a ih =>
    rw [show h ++ pass :: (h2 ++ [a]) = (h ++ pass :: h2) ++ [a] by simp, run_snoc ttl m (h ++ pass :: h2),
      reserved_keep _ a (hp a (by simp)) (hd h2 a [] rfl)]
    exact ih (fun b hb => hp b (by simp [hb])) fun p b q e => hd p b (q ++ [a]) (by simp [e])

theorem reserved_run_dead (ttl m : Nat) (h : List Action) (a : Action) (h2 : List Action) (hd : Dies (run ttl m h) a)
    (hp : ∀ b ∈ h2, b ≠ pass) : (run ttl m (h ++ a :: h2)).reserved = none := by
  induction h2 using snoc_induction with
  | nil => rw [run_snoc]; exact reserved_dies _ _ hd
  | snoc h2 b ih =>
    rw [show h ++ a :: (h2 ++ [b]) = (h ++ a :: h2) ++ [b] by simp, run_snoc]
    by_cases hb : Dies (run ttl m (h ++ a :: h2)) b
    · exact reserved_dies _ _ hb
    · rw [reserved_keep _ b (hp b (by simp)) hb]; exact ih fun b hb => hp b (by simp [hb])

/-! ### The counters -/

/-- The two counters after a step, by what the step is. -/
theorem counters_metrics (s : State) (a : Action) :
    (∃ c f row rest, a = .server (.row c) ∧ fetchOf s.server c = some f ∧ f.joining = none ∧ f.rows = row :: rest ∧
      ((Reserved s row.key ∧ (metrics s a).succeeded = s.succeeded ∧ (metrics s a).failed = s.failed + 1) ∨
       (¬ Reserved s row.key ∧ (metrics s a).succeeded = s.succeeded + 1 ∧ (metrics s a).failed = s.failed))) ∨
    ((∀ c f, a = .server (.row c) → fetchOf s.server c = some f → f.joining = none → f.rows = []) ∧
      (metrics s a).succeeded = s.succeeded ∧ (metrics s a).failed = s.failed) := by
  cases a with
  | panic c => exact .inr ⟨fun _ _ e => (by cases e), rfl, rfl⟩
  | server a =>
    cases a with
    | connect c => refine .inr ⟨fun _ _ e => (by cases e), ?_⟩; simp only [metrics]; split <;> exact ⟨rfl, rfl⟩
    | disconnect c => refine .inr ⟨fun _ _ e => (by cases e), ?_⟩; simp only [metrics]; split <;> exact ⟨rfl, rfl⟩
    | tick t => refine .inr ⟨fun _ _ e => (by cases e), ?_⟩; cases t <;> exact ⟨rfl, rfl⟩
    | row c =>
      have hm : metrics s (.server (.row c)) = (match fetchOf s.server c with
        | some { rows := row :: _, joining := none, .. } =>
          match (s.server.reserver.tryReserve row.key row.key c).1 with
          | some _ => { s with succeeded := s.succeeded + 1 }
          | none => { s with failed := s.failed + 1 }
        | _ => s) := rfl
      cases hf : fetchOf s.server c with
      | none =>
        rw [hf] at hm
        refine .inr ⟨fun c' f e hf' => ?_, by rw [hm], by rw [hm]⟩
        cases e; rw [hf] at hf'; cases hf'
      | some f =>
        rw [hf] at hm
        obtain ⟨req, rows, joining, got⟩ := f
        cases joining with
        | some id =>
          have hm' : metrics s (.server (.row c)) = s := by rw [hm]; cases rows <;> rfl
          refine .inr ⟨fun c' f e hf' hj => ?_, by rw [hm'], by rw [hm']⟩
          cases e; rw [hf] at hf'; cases hf'; cases hj
        | none =>
          cases rows with
          | nil =>
            refine .inr ⟨fun c' f e hf' hj => ?_, by rw [hm], by rw [hm]⟩
            cases e; rw [hf] at hf'; cases hf'; rfl
          | cons row rest =>
            refine .inl ⟨c, _, row, rest, rfl, hf, rfl, rfl, ?_⟩
            dsimp only at hm
            cases hl : s.server.reserver.lookup row.key with
            | some e =>
              left
              rw [Reserver.tryReserve_none (by rw [hl]; rfl)] at hm
              exact ⟨by unfold Reserved Reserver.isReserved; rw [hl]; rfl, by rw [hm], by rw [hm]⟩
            | none =>
              right
              rw [Reserver.tryReserve_some hl] at hm
              exact ⟨by unfold Reserved Reserver.isReserved; rw [hl]; simp, by rw [hm], by rw [hm]⟩
    | _ => exact .inr ⟨fun _ _ e => (by cases e), rfl, rfl⟩

theorem step_alive {s : State} {a : Action} (hd : ¬ Dies s a) :
    step s a = { metrics s a with server := Server.step s.server a.base } := by
  unfold step
  exact if_neg hd

theorem succeeded_step (ttl m : Nat) (ht : 0 < ttl) (h : List Action) (a : Action) (hd : ¬ Dies (run ttl m h) a) :
    let s := run ttl m h
    let s' := run ttl m (h ++ [a])
    (s'.succeeded = s.succeeded + 1 ∧
      ∃ id, ¬ Reserved s id ∧ Reserved s' id ∧ ∀ id', id' ≠ id → Reserved s' id' → Reserved s id') ∨
    (s'.succeeded = s.succeeded ∧ ∀ id, Reserved s' id → Reserved s id) := by
  intro s s'
  have hs' : s' = { metrics s a with server := Server.step s.server a.base } := by
    show run ttl m (h ++ [a]) = _
    rw [run_snoc, step_alive hd]
  have hsucc : s'.succeeded = (metrics s a).succeeded := by rw [hs']
  have hserver : s'.server = Server.step s.server a.base := by rw [hs']
  have httl : 0 < s.server.reserver.ttl := by
    show 0 < (run ttl m h).server.reserver.ttl
    rw [server_run, show Server.run ttl m (h.map Action.base) = Server.exec (Server.init ttl m) (h.map Action.base) from rfl,
      Server.ttl_exec]
    exact ht
  rcases counters_metrics s a with ⟨c, f, row, rest, rfl, hf, hj, hrows, ⟨hr, h1, -⟩ | ⟨hr, h1, -⟩⟩ | ⟨hn, h1, -⟩
  · right
    refine ⟨hsucc.trans h1, fun id hid => ?_⟩
    obtain ⟨k, hk, hkf⟩ := Option.bind_eq_some_iff.1 hf
    rcases Server.row_cases hk hkf with ⟨hj', _⟩ | ⟨_, hr', _⟩ | ⟨row', rest', _, hr', ⟨_, hs⟩ | ⟨hno, _⟩⟩
    · rw [hj] at hj'; cases hj'
    · rw [hrows] at hr'; cases hr'
    · unfold Reserved at hid ⊢
      rw [hserver] at hid
      simp only [Action.base] at hid
      rw [hs] at hid
      exact hid
    · rw [hrows] at hr'; cases hr'
      unfold Reserved at hr; rw [hno] at hr; cases hr
  · left
    refine ⟨hsucc.trans h1, row.key, hr, ?_⟩
    obtain ⟨k, hk, hkf⟩ := Option.bind_eq_some_iff.1 hf
    rcases Server.row_cases hk hkf with ⟨hj', _⟩ | ⟨_, hr', _⟩ | ⟨row', rest', _, hr', ⟨hyes, _⟩ | ⟨hno, hs⟩⟩
    · rw [hj] at hj'; cases hj'
    · rw [hrows] at hr'; cases hr'
    · rw [hrows] at hr'; cases hr'
      exact absurd hyes hr
    · rw [hrows] at hr'; cases hr'
      have hall : ∀ id, s'.server.reserver.isReserved id = (s.server.reserver.isReserved id || decide (id = row.key)) := by
        intro id
        rw [hserver]
        simp only [Action.base]
        rw [hs]
        exact Server.isReserved_tryReserve httl hno id
      refine ⟨by unfold Reserved; rw [hall]; simp, fun id' hne hid => ?_⟩
      unfold Reserved at hid ⊢
      rw [hall] at hid
      simpa [hne] using hid
  · right
    refine ⟨hsucc.trans h1, fun id hid => ?_⟩
    unfold Reserved at hid ⊢
    rw [hserver] at hid
    cases hb : s.server.reserver.isReserved id with
    | true => rfl
    | false =>
      obtain ⟨c, f, row, rest, ha, hf, hj, hrows, _⟩ := Server.newly_reserved hb hid
      have ha' : a = .server (.row c) := by
        cases a with
        | panic c' => cases ha
        | server a => exact congrArg Action.server ha
      rw [hn c f ha' hf hj] at hrows
      cases hrows

theorem failed_step (ttl m : Nat) (h : List Action) (a : Action) (hd : ¬ Dies (run ttl m h) a) :
    let s := run ttl m h
    let s' := run ttl m (h ++ [a])
    s'.failed = s.failed ∨ (s'.failed = s.failed + 1 ∧ s'.server.reserver = s.server.reserver ∧
      ∃ c f row rest, a = .server (.row c) ∧ fetchOf s.server c = some f ∧ f.rows = row :: rest ∧ Reserved s row.key ∧
        fetchOf s'.server c = some { f with rows := rest }) := by
  intro s s'
  have hs' : s' = { metrics s a with server := Server.step s.server a.base } := by
    show run ttl m (h ++ [a]) = _
    rw [run_snoc, step_alive hd]
  have hfail : s'.failed = (metrics s a).failed := by rw [hs']
  have hserver : s'.server = Server.step s.server a.base := by rw [hs']
  rcases counters_metrics s a with ⟨c, f, row, rest, rfl, hf, hj, hrows, ⟨hr, -, h1⟩ | ⟨hr, -, h1⟩⟩ | ⟨hn, -, h1⟩
  · right
    obtain ⟨k, hk, hkf⟩ := Option.bind_eq_some_iff.1 hf
    rcases Server.row_cases hk hkf with ⟨hj', _⟩ | ⟨_, hr', _⟩ | ⟨row', rest', _, hr', ⟨_, hs⟩ | ⟨hno, _⟩⟩
    · rw [hj] at hj'; cases hj'
    · rw [hrows] at hr'; cases hr'
    · rw [hrows] at hr'; cases hr'
      refine ⟨hfail.trans h1, ?_, c, f, row, rest, rfl, hf, hrows, hr, ?_⟩
      · rw [hserver]; simp only [Action.base]; rw [hs]; rfl
      · rw [hserver]; simp only [Action.base]; rw [hs]
        obtain ⟨_, hl⟩ := Server.conn_eq.1 hk
        unfold fetchOf
        rw [Server.conn_eq.2 ⟨show ((s.server.setConn c { k with fetching := some { f with rows := rest } }).conns.get c = some { k with fetching := some { f with rows := rest } }) by
          simp only [Server.State.setConn]; rw [Map.get_set, if_pos rfl], hl⟩]
        rfl
    · rw [hrows] at hr'; cases hr'
      unfold Reserved at hr; rw [hno] at hr; cases hr
  · exact .inl (hfail.trans h1)
  · exact .inl (hfail.trans h1)

theorem length_drop (r : Reserver ChunkId ChunkId ConnId) (k : ChunkId) : (r.drop k).cache.length ≤ r.cache.length := by
  unfold Reserver.drop
  split
  · exact Nat.le_refl _
  · exact List.length_filter_le _ _

theorem length_set {κ ν : Type} [DecidableEq κ] (m : Map κ ν) (k : κ) (v : ν) : (m.set k v).length ≤ m.length + 1 := by
  have := congrArg List.length (Map.keys_set m k v)
  rw [List.length_map] at this
  rw [this]
  split <;> simp

theorem length_exec {n : Nat} (ops : List (Reserver.Op ChunkId ChunkId ConnId)) (ho : ∀ k v s, .tryReserve k v s ∉ ops)
    {r : Reserver ChunkId ChunkId ConnId} (h : r.cache.length ≤ n) : (r.exec ops).cache.length ≤ n := by
  induction ops generalizing r with
  | nil => exact h
  | cons op ops ih =>
    refine ih (fun k v s hm => ho k v s (List.mem_cons_of_mem _ hm)) ?_
    exact Reserver.step_pres (P := fun r => r.cache.length ≤ n) (ok := fun _ _ _ => False)
      (fun r k h => Nat.le_trans (length_drop r k) h) (fun _ _ _ _ _ h _ => h.elim) (fun _ _ h => h) h op (fun _ _ => h)
      (fun k v s e _ => ho k v s (by rw [e]; exact List.mem_cons_self))

theorem cache_le (ttl m : Nat) (h : List Action) : (run ttl m h).server.reserver.cache.length ≤ (run ttl m h).succeeded := by
  induction h using snoc_induction with
  | nil => exact Nat.le_refl _
  | snoc h a ih =>
    rw [run_snoc]
    by_cases hd : Dies (run ttl m h) a
    · obtain ⟨s0, db, hr⟩ := Leftover.dies_restart hd
      rw [server_step, hr]
      exact Nat.zero_le _
    · rw [step_alive hd]
      show (Server.step (run ttl m h).server a.base).reserver.cache.length ≤ (metrics (run ttl m h) a).succeeded
      rcases Server.reserver_step (run ttl m h).server a.base with hr | hr
      · rw [hr]
        rcases counters_metrics (run ttl m h) a with ⟨c, f, row, rest, rfl, hf, hj, hrows, ⟨hres, h1, -⟩ | ⟨hres, h1, -⟩⟩ | ⟨hn, h1, -⟩
        · rw [h1]
          simp only [Action.base, Server.resOps, hf, hj, hrows]
          show ((run ttl m h).server.reserver.tryReserve row.key row.key c).2.cache.length ≤ _
          rw [Reserver.tryReserve_none hres]
          exact ih
        · rw [h1]
          simp only [Action.base, Server.resOps, hf, hj, hrows]
          show ((run ttl m h).server.reserver.tryReserve row.key row.key c).2.cache.length ≤ _
          rw [Reserver.tryReserve_some (by
            unfold Reserved Reserver.isReserved at hres
            cases hl : (run ttl m h).server.reserver.lookup row.key with
            | none => rfl
            | some e => rw [hl] at hres; exact absurd rfl hres)]
          have h2 := length_drop (run ttl m h).server.reserver row.key
          exact Nat.le_trans (length_set _ _ _) (Nat.succ_le_succ (Nat.le_trans h2 ih))
        · rw [h1]
          refine length_exec _ ?_ ih
          intro k v c' hm
          unfold Server.resOps at hm
          split at hm
          · rename_i c hb
            have ha' : a = .server (.row c) := by
              cases a with
              | panic c' => cases hb
              | server a => exact congrArg Action.server hb
            split at hm
            · rename_i f hf
              split at hm
              · rename_i row rest hj hrows
                rw [hn c f ha' hf hj] at hrows
                cases hrows
              · cases hm
            · cases hm
          · repeat' split at hm
            all_goals simp at hm
          · repeat' split at hm
            all_goals simp at hm
          · repeat' split at hm
            all_goals simp at hm
          · rename_i t _
            cases t <;> simp [Server.Tick.op] at hm
          · cases hm
      · rw [hr.1]; exact Nat.zero_le _

theorem reserved_le (ttl m : Nat) (h : List Action) (n : Nat) (hn : CountIs (Reserved (run ttl m h)) n) :
    n ≤ (run ttl m h).succeeded := by
  rw [CountIs.unique hn (number_reserved _ (cache_wf ttl m h))]
  exact Nat.le_trans (List.length_filter_le _ _) (cache_le ttl m h)

end Opsqueue.ConsumerGauges
