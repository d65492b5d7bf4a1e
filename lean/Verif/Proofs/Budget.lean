import Verif.Spec.Budget
import Verif.Proofs.Reports
import Verif.Proofs.Calls
import Verif.Proofs.Work
import Verif.Proofs.Fetch

/-! # Lemmas about tries of a chunk -/

namespace Opsqueue
open SubmissionDb

/-- A permanent failure takes `max 1 m` failure calls. -/
theorem failed_calls {m : Nat} {ops : List Op} (hf : FreshIds ops) (hb : Budget m ops) :
    (∀ c ∈ (run ops).chunks, c.retries ≤ (ops.filter (Op.fails c.key)).length) ∧
    ∀ r ∈ (run ops).submissionsFailed,
      max 1 m ≤ (ops.filter (Op.fails ⟨r.id, r.failedChunkId⟩)).length := by
  induction ops using snoc_induction with
  | nil => constructor <;> · intro x hx; cases hx
  | snoc ops op ih =>
    obtain ⟨h1, h2⟩ := ih hf.snoc.1 (fun cid f m' t1 t2 t3 o h => hb cid f m' t1 t2 t3 o (List.mem_append_left _ h))
    have hmono : ∀ id, (ops.filter (Op.fails id)).length ≤ ((ops ++ [op]).filter (Op.fails id)).length := by
      intro id; simp
    have hI := inv_run hf.snoc.1
    have he := effect_run hf
    constructor
    · intro c hc
      rcases he.chunk_back hI hc with h | ⟨c0, hc0, f, m', t1, t2, t3, o, rfl, _, rfl⟩ | ⟨a, now, o, rfl, hm⟩
      · exact Nat.le_trans (h1 c h) (hmono _)
      · have := h1 c0 hc0
        have hk : ({ c0 with retries := c0.retries + 1 } : ChunkRow).key = c0.key := rfl
        rw [hk, List.filter_append]
        simpa [Op.fails] using this
      · rw [(mem_mkChunks.1 hm).2.1]; exact Nat.zero_le _
    · have same : (run (ops ++ [op])).submissionsFailed = (run ops).submissionsFailed →
          ∀ r ∈ (run (ops ++ [op])).submissionsFailed,
            max 1 m ≤ ((ops ++ [op]).filter (Op.fails ⟨r.id, r.failedChunkId⟩)).length := by
        intro e r hr; rw [e] at hr; exact Nat.le_trans (h2 r hr) (hmono _)
      generalize hdb' : run (ops ++ [op]) = db' at *
      generalize hdb : run ops = db at *
      cases he with
      | none => exact same rfl
      | insert => exact same rfl
      | insertEmpty => exact same rfl
      | complete => exact same rfl
      | completeLast => exact same rfl
      | retry => exact same rfl
      | cancel => exact same rfl
      | cleanup t o =>
        intro r hr
        have : r ∈ db.submissionsFailed := by
          simp only [Eff.cleanup] at hr
          exact (List.mem_filter.1 hr).1
        exact Nat.le_trans (h2 r this) (hmono _)
      | fail c s failure m' t1 t2 t3 o hc hs hid hr =>
        intro r hr'
        simp only [Eff.fail, List.mem_append, List.mem_singleton] at hr'
        rcases hr' with hr' | rfl
        · exact Nat.le_trans (h2 r hr') (hmono _)
        · have hm : m' = m := hb c.key failure m' t1 t2 t3 o (by simp)
          have := h1 c hc
          have hr2 : (⟨s.id, c.chunkIndex⟩ : ChunkId) = c.key := by rw [hid]; rfl
          show max 1 m ≤ (List.filter (Op.fails ⟨s.id, c.chunkIndex⟩) _).length
          rw [hr2, List.filter_append, List.length_append]
          have : (List.filter (Op.fails c.key) [Op.fail c.key failure m' t1 t2 t3 o]).length = 1 := by simp [Op.fails]
          omega

end Opsqueue

namespace Opsqueue.Server
open Conn (Request Response Report)

/-! ## Notices -/

theorem noticesFrom_snoc (s : State) (h : List Action) (a : Action) :
    noticesFrom s (h ++ [a]) = noticesFrom s h ++ newNotices (exec s h) a := by
  induction h generalizing s with
  | nil => simp [noticesFrom, exec]
  | cons b h ih => simp only [List.cons_append, noticesFrom, ih, List.append_assoc]; rfl

/-- The reservations in the cache are of the chunks under whose keys they are. -/
def Named (r : Reserver ChunkId ChunkId ConnId) : Prop := ∀ k e, r.cache.get k = some e → e.val = k

/-- The notices about the chunk, and its reservation. -/
def load (r : Reserver ChunkId ChunkId ConnId) (id : ChunkId) : Nat :=
  (r.notices.map (·.2)).count id + if (r.cache.get id).isSome then 1 else 0

theorem named_drop {r : Reserver ChunkId ChunkId ConnId} (h : Named r) (k : ChunkId) : Named (r.drop k) := by
  intro k' e he
  rw [Reserver.drop_get] at he
  split at he
  · cases he
  · exact h k' e he

theorem load_drop {r : Reserver ChunkId ChunkId ConnId} (h : Named r) (k id : ChunkId) :
    load (r.drop k) id ≤ load r id := by
  unfold load
  rw [Reserver.drop_get, Reserver.drop_notices]
  cases hg : r.cache.get k with
  | none =>
    dsimp only
    by_cases hk : k = id
    · subst hk; simp
    · simp [hk]
  | some e =>
    dsimp only
    have hv := h k e hg
    by_cases hk : k = id
    · subst hk
      rw [hg]
      split <;> simp [hv]
    · rw [if_neg hk]
      split
      · exact Nat.le_refl _
      · simp [hv, List.count_singleton, hk]

theorem load_set {r : Reserver ChunkId ChunkId ConnId} {k id : ChunkId} (e : Reservation ChunkId ConnId)
    (hg : r.cache.get k = none) :
    load { r with cache := r.cache.set k e } id = load r id + if k = id then 1 else 0 := by
  unfold load
  dsimp only
  rw [Map.get_set]
  by_cases hk : k = id
  · subst hk; simp [hg]
  · simp [hk]

/-- The operation reserves the chunk. -/
def tries (r : Reserver ChunkId ChunkId ConnId) (id : ChunkId) : Reserver.Op ChunkId ChunkId ConnId → Nat
  | .tryReserve k _ _ => if k = id ∧ r.isReserved k = false then 1 else 0
  | _ => 0

/-- The operation reserves chunks under their own names. -/
def Names : Reserver.Op ChunkId ChunkId ConnId → Prop
  | .tryReserve k v _ => v = k
  | _ => True

theorem load_step {r : Reserver ChunkId ChunkId ConnId} (h : Named r) (op : Reserver.Op ChunkId ChunkId ConnId)
    (hn : Names op) (id : ChunkId) :
    Named (r.step op) ∧ load (r.step op) id ≤ load r id + tries r id op := by
  by_cases hx : ∃ v s, op = .tryReserve id v s ∧ r.isReserved id = false
  · obtain ⟨v, s, rfl, hr⟩ := hx
    have hv : v = id := hn
    have hl : r.lookup id = none := isReserved_eq_false.1 hr
    have e : r.step (.tryReserve id v s) = { r.drop id with cache := (r.drop id).cache.set id ⟨v, s, r.now⟩ } := by
      show (r.tryReserve id v s).2 = _
      rw [Reserver.tryReserve_some hl]
    rw [e]
    constructor
    · intro k' e' he
      rw [Map.get_set] at he
      split at he
      · cases he; rename_i hk; rw [hv, hk]
      · exact named_drop h id k' e' he
    · rw [load_set _ (by rw [Reserver.drop_get, if_pos rfl]), if_pos rfl]
      have : tries r id (.tryReserve id v s) = 1 := by simp [tries, hr]
      rw [this]
      have := load_drop h id id
      omega
  · have : (Named (r.step op) ∧ load (r.step op) id ≤ load r id) := by
      refine Reserver.step_pres (P := fun r' => Named r' ∧ load r' id ≤ load r id)
        (ok := fun k v s => v = k ∧ k ≠ id) ?_ ?_ ?_ ⟨h, Nat.le_refl _⟩ op ?_ ?_
      · rintro r' k ⟨h1, h2⟩
        exact ⟨named_drop h1 k, Nat.le_trans (load_drop h1 k id) h2⟩
      · rintro r' k v s hg ⟨rfl, hne⟩ ⟨h1, h2⟩
        constructor
        · intro k' e' he
          rw [Map.get_set] at he
          split at he
          · cases he; assumption
          · exact h1 k' e' he
        · rw [load_set _ hg, if_neg hne]; exact h2
      · rintro r' p h'; exact h'
      · intro d _; exact ⟨h, Nat.le_refl _⟩
      · rintro k v s rfl hr
        refine ⟨hn, ?_⟩
        rintro rfl
        exact hx ⟨v, s, rfl, hr⟩
    exact ⟨this.1, Nat.le_trans this.2 (Nat.le_add_right _ _)⟩

theorem notices_step (r : Reserver ChunkId ChunkId ConnId) (op : Reserver.Op ChunkId ChunkId ConnId) :
    ∃ new, (r.step op).notices = r.notices ++ new := by
  refine Reserver.step_pres (P := fun r' => ∃ new, r'.notices = r.notices ++ new) (ok := fun _ _ _ => True)
    ?_ ?_ ?_ ⟨[], by simp⟩ op ?_ (fun _ _ _ _ _ => trivial)
  · rintro r' k ⟨new, h⟩
    rw [Reserver.drop_notices]
    cases r'.cache.get k with
    | none => exact ⟨new, h⟩
    | some e =>
      dsimp only
      split
      · exact ⟨new, h⟩
      · exact ⟨new ++ [(e.sender, e.val)], by rw [h, List.append_assoc]⟩
  · rintro r' k v s _ _ h; exact h
  · rintro r' p h; exact h
  · intro d _; exact ⟨[], by simp⟩

theorem notices_exec (r : Reserver ChunkId ChunkId ConnId) (ops : List (Reserver.Op ChunkId ChunkId ConnId)) :
    ∃ new, (r.exec ops).notices = r.notices ++ new := by
  induction ops generalizing r with
  | nil => exact ⟨[], by simp [Reserver.exec]⟩
  | cons op ops ih =>
    obtain ⟨n1, h1⟩ := notices_step r op
    obtain ⟨n2, h2⟩ := ih (r.step op)
    refine ⟨n1 ++ n2, ?_⟩
    show ((r.step op).exec ops).notices = _
    rw [h2, h1, List.append_assoc]

/-- The action reserves the chunk. -/
def reserves (s : State) (a : Action) (id : ChunkId) : Nat :=
  match a with
  | .row c => match fetchOf s c with
    | some f => match f.joining, f.rows with
      | none, row :: _ => if row.key = id ∧ s.reserver.isReserved row.key = false then 1 else 0
      | _, _ => 0
    | none => 0
  | _ => 0

theorem load_syncs {r : Reserver ChunkId ChunkId ConnId} (h : Named r) (ids : List ChunkId) (id : ChunkId) :
    Named (r.exec (ids.map .finishSync)) ∧ load (r.exec (ids.map .finishSync)) id ≤ load r id := by
  induction ids generalizing r with
  | nil => exact ⟨h, Nat.le_refl _⟩
  | cons i ids ih =>
    have h1 := load_step h (.finishSync i) trivial id
    have h2 := ih h1.1
    exact ⟨h2.1, Nat.le_trans h2.2 h1.2⟩

theorem load_action {s : State} (h : Named s.reserver) (a : Action) (id : ChunkId) :
    Named (s.reserver.exec (resOps s a)) ∧
      load (s.reserver.exec (resOps s a)) id ≤ load s.reserver id + reserves s a id := by
  have nothing : resOps s a = [] → Named (s.reserver.exec (resOps s a)) ∧
      load (s.reserver.exec (resOps s a)) id ≤ load s.reserver id + reserves s a id := by
    intro e; rw [e]; exact ⟨h, Nat.le_add_right _ _⟩
  have syncs : ∀ ids : List ChunkId, resOps s a = ids.map .finishSync → Named (s.reserver.exec (resOps s a)) ∧
      load (s.reserver.exec (resOps s a)) id ≤ load s.reserver id + reserves s a id := by
    intro ids e; rw [e]
    have := load_syncs h ids id
    exact ⟨this.1, Nat.le_trans this.2 (Nat.le_add_right _ _)⟩
  have one : ∀ op, resOps s a = [op] → Names op → tries s.reserver id op ≤ reserves s a id →
      Named (s.reserver.exec (resOps s a)) ∧
      load (s.reserver.exec (resOps s a)) id ≤ load s.reserver id + reserves s a id := by
    intro op e hn ht; rw [e]
    have := load_step h op hn id
    exact ⟨this.1, Nat.le_trans this.2 (Nat.add_le_add_left ht _)⟩
  cases a with
  | row c =>
    cases hf : fetchOf s c with
    | none => exact nothing (by simp [resOps, hf])
    | some f =>
      cases hj : f.joining with
      | some _ => exact nothing (by simp [resOps, hf, hj])
      | none =>
        cases hr : f.rows with
        | nil => exact nothing (by simp [resOps, hf, hj, hr])
        | cons row rest =>
          refine one (.tryReserve row.key row.key c) (by simp [resOps, hf, hj, hr]) rfl ?_
          simp [tries, reserves, hf, hj, hr]
  | join c =>
    have : ∃ ids : List ChunkId, resOps s (.join c) = ids.map .finishSync := by
      simp only [resOps]
      split
      · split
        · split
          · split
            · exact ⟨[], rfl⟩
            · exact ⟨_, rfl⟩
          · exact ⟨[], rfl⟩
        · exact ⟨[], rfl⟩
      · exact ⟨[], rfl⟩
    exact syncs _ this.choose_spec
  | disconnect c =>
    cases hk : s.conn c with
    | none => exact nothing (by simp [resOps, hk])
    | some k => exact syncs k.held (by simp [resOps, hk])
  | release b =>
    cases hc : s.completing with
    | none => exact nothing (by simp [resOps, hc])
    | some x =>
      obtain ⟨c, i, d⟩ := x
      exact one (.finish i d) (by simp [resOps, hc]) trivial (Nat.zero_le _)
  | tick t => exact one t.op rfl (by cases t <;> trivial) (by cases t <;> exact Nat.zero_le _)
  | _ => exact nothing rfl

/-- What a step adds to the notices and to the cache is paid for by the reservations it makes. -/
theorem notices_action {s : State} (h : Named s.reserver) (a : Action) (id : ChunkId) :
    Named (step s a).reserver ∧
    ((newNotices s a).map (·.2)).count id + (if ((step s a).reserver.cache.get id).isSome then 1 else 0) ≤
      (if (s.reserver.cache.get id).isSome then 1 else 0) + reserves s a id := by
  rcases reserver_step s a with hr | ⟨hr, -⟩
  · obtain ⟨h1, h2⟩ := load_action h a id
    obtain ⟨new, hnew⟩ := notices_exec s.reserver (resOps s a)
    have hN : newNotices s a = new := by
      unfold newNotices; rw [hr, hnew]; simp
    rw [hN, hr]
    refine ⟨h1, ?_⟩
    unfold load at h2
    rw [hnew, List.map_append, List.count_append] at h2
    omega
  · have hN : newNotices s a = [] := by
      unfold newNotices; rw [hr]; simp [Reserver.new]
    rw [hN, hr]
    constructor
    · intro k e he; cases he
    · simp [Reserver.new, Map.get_nil]

/-! ## Chunks handed out -/

theorem _root_.Opsqueue.Map.sum_set_none {κ ν : Type} [DecidableEq κ] {m : Map κ ν} {k : κ} (f : ν → Nat) (v : ν)
    (hg : Map.get m k = none) : ((Map.set m k v).map fun p => f p.2).sum = (m.map fun p => f p.2).sum + f v := by
  have : ¬ (m.any fun e => decide (e.1 = k)) = true := by
    rw [Map.any_iff]; exact Map.get_eq_none.1 hg
  unfold Map.set
  rw [if_neg this]
  simp

theorem _root_.Opsqueue.Map.sum_set_some {κ ν : Type} [DecidableEq κ] {m : Map κ ν} {k : κ} (f : ν → Nat) (v : ν)
    {old : ν} (hw : Map.WF m) (hg : Map.get m k = some old) :
    ((Map.set m k v).map fun p => f p.2).sum + f old = (m.map fun p => f p.2).sum + f v := by
  have hin : k ∈ m.map (·.1) := List.mem_map.2 ⟨_, Map.mem_of_get hg, rfl⟩
  unfold Map.set
  rw [if_pos (Map.any_iff.2 hin)]
  clear hin
  induction m with
  | nil => cases hg
  | cons e m ih =>
    have ⟨h1, h2⟩ := List.nodup_cons.1 hw
    rw [Map.get_cons] at hg
    simp only [List.map_cons, List.sum_cons]
    by_cases hk : e.1 = k
    · rw [if_pos hk] at hg ⊢
      cases hg
      have : m.map (fun e => if e.1 = k then (k, v) else e) = m := by
        conv => rhs; rw [← List.map_id m]
        refine List.map_congr_left fun x hx => ?_
        rw [if_neg]; · rfl
        rintro rfl
        exact h1 (List.mem_map.2 ⟨x, hx, hk.symm⟩)
      rw [this]
      dsimp only
      omega
    · rw [if_neg hk] at hg ⊢
      have := ih h2 hg
      omega

/-- How often the chunk was handed out over a connection. -/
def handedIn (k : ConnState) (id : ChunkId) : Nat := (k.answers.flatMap (·.2.getD [])).count id

/-- How often a running reserve request of a connection has reserved the chunk. -/
def taking (k : ConnState) (id : ChunkId) : Nat :=
  if k.live then
    match k.fetching with
    | none => 0
    | some f => f.got.count id + if f.joining = some id then 1 else 0
  else 0

/-- Both, over all connections. -/
def total (s : State) (id : ChunkId) : Nat := (s.conns.map fun p => handedIn p.2 id + taking p.2 id).sum

theorem conns_step (s : State) (a : Action) :
    (step s a).conns = s.conns ∨ (∃ c k, (step s a).conns = s.conns.set c k) ∨
    ∃ f : ConnState → ConnState, (step s a).conns = s.conns.map fun p => (p.1, f p.2) := by
  have db : ∀ (s : State) op, (dbCall s op).2.conns = s.conns ∨
      ∃ f : ConnState → ConnState, (dbCall s op).2.conns = s.conns.map fun p => (p.1, f p.2) := by
    intro s op
    cases hc : (dbCall s op).1.crashed with
    | false => rw [dbCall_ok hc]; exact .inl rfl
    | true =>
      obtain ⟨h1, -, -, -, h5⟩ := dbCall_spec s op
      rw [h1] at hc
      rw [h5 hc]; exact .inr ⟨fun k => { live := false, answers := k.answers }, rfl⟩
  have beg : ∀ c k r v, ∃ k', (begin s c k r v).conns = s.conns.set c k' := by
    intro c k r v; unfold begin; split <;> exact ⟨_, rfl⟩
  cases a with
  | connect c =>
    simp only [step]
    cases s.conns.get c with
    | none => exact .inr (.inl ⟨c, _, rfl⟩)
    | some _ => exact .inl rfl
  | request c r v =>
    simp only [step, State.withIdle, State.withConn]
    cases s.conn c with
    | none => exact .inl rfl
    | some k =>
      dsimp only
      split
      · exact .inl rfl
      · exact .inr (.inl ⟨c, beg c k r v⟩)
  | retry c v =>
    simp only [step, State.withIdle, State.withConn]
    cases s.conn c with
    | none => exact .inl rfl
    | some k =>
      dsimp only
      split
      · exact .inl rfl
      · cases k.retry with
        | nil => exact .inl rfl
        | cons r rest => exact .inr (.inl ⟨c, beg c _ r v⟩)
  | row c =>
    simp only [step, State.withFetch, State.withConn]
    cases s.conn c with
    | none => exact .inl rfl
    | some k =>
      dsimp only
      cases k.fetching with
      | none => exact .inl rfl
      | some f =>
        dsimp only
        cases f.joining with
        | some _ => exact .inl rfl
        | none =>
          dsimp only
          unfold fetchRow
          split
          · exact .inr (.inl ⟨_, _, rfl⟩)
          · split <;> exact .inr (.inl ⟨_, _, rfl⟩)
  | join c =>
    simp only [step, State.withFetch, State.withConn]
    cases s.conn c with
    | none => exact .inl rfl
    | some k =>
      dsimp only
      cases k.fetching with
      | none => exact .inl rfl
      | some f =>
        dsimp only
        cases f.joining with
        | none => exact .inl rfl
        | some _ =>
          dsimp only
          unfold fetchJoin
          split
          · exact .inr (.inl ⟨_, _, rfl⟩)
          · exact .inr (.inl ⟨_, _, rfl⟩)
  | fetchFails c =>
    simp only [step, State.withFetch, State.withConn]
    cases s.conn c with
    | none => exact .inl rfl
    | some k =>
      dsimp only
      cases k.fetching with
      | none => exact .inl rfl
      | some f => exact .inr (.inl ⟨_, _, rfl⟩)
  | register c i =>
    simp only [step, State.withConn]
    cases s.conn c with
    | none => exact .inl rfl
    | some k =>
      dsimp only
      cases k.spawned[i]? with
      | none => exact .inl rfl
      | some f => exact .inr (.inl ⟨_, _, rfl⟩)
  | report c r =>
    left
    simp only [step, State.withIdle, State.withConn]
    cases s.conn c with
    | none => rfl
    | some k => dsimp only; split <;> rfl
  | handle w n1 n2 n3 o =>
    simp only [step]
    rcases handle_cases s w n1 n2 n3 o with h | ⟨c', r, queue, hcomp, hq, h⟩
    · left; rw [h]
    · rcases h with ⟨_, h⟩ | ⟨_, h1, h2⟩
      · left; rw [h]
      · cases hc : (dbCall { s with queue := queue } (reportOp s.maxRetries n1 n2 n3 o r)).1.crashed with
        | true => rw [h1 hc]; exact (db { s with queue := queue } _).imp id .inr
        | false => rw [h2 hc]; exact (db { s with queue := queue } _).imp id .inr
  | release b =>
    simp only [step, release]
    cases s.completing with
    | none => exact .inl rfl
    | some x =>
      obtain ⟨c, i, d⟩ := x
      dsimp only
      cases s.conns.get c with
      | none => exact .inl rfl
      | some k => exact .inr (.inl ⟨_, _, rfl⟩)
  | disconnect c =>
    simp only [step, State.withConn]
    cases s.conn c with
    | none => exact .inl rfl
    | some k => exact .inr (.inl ⟨_, _, rfl⟩)
  | producer call =>
    obtain ⟨h1, ⟨i, hi, h⟩ | ⟨hi, h⟩⟩ := producer_cases s call
    · rw [h]; exact (db s _).imp id .inr
    · rw [h]; exact (db s _).imp id .inr
  | notify =>
    simp only [step]
    cases s.notifies with
    | zero => exact .inl rfl
    | succ n => exact .inr (.inr ⟨_, rfl⟩)
  | tick t => exact .inl rfl

theorem conns_wf_step {s : State} (h : Map.WF s.conns) (a : Action) : Map.WF (step s a).conns := by
  rcases conns_step s a with h1 | ⟨c, k, h1⟩ | ⟨f, h1⟩
  · rw [h1]; exact h
  · rw [h1]; exact Map.wf_set h _ _
  · rw [h1]; unfold Map.WF; rw [List.map_map]; exact h

theorem conns_wf_run (ttl m : Nat) (h : List Action) : Map.WF (run ttl m h).conns := by
  induction h using snoc_induction with
  | nil => exact Map.wf_nil
  | snoc h a ih =>
    have : run ttl m (h ++ [a]) = step (run ttl m h) a := exec_snoc _ _ _
    rw [this]; exact conns_wf_step ih a

theorem total_set {s s' : State} {c : ConnId} {k k' : ConnState} {id : ChunkId} {x : Nat} (hw : Map.WF s.conns)
    (hk : s.conns.get c = some k) (hs : s'.conns = s.conns.set c k')
    (h : handedIn k id + taking k id + x ≤ handedIn k' id + taking k' id) : total s id + x ≤ total s' id := by
  unfold total
  rw [hs]
  have := Map.sum_set_some (fun k => handedIn k id + taking k id) k' hw hk
  omega

theorem taking_zero {s s' : State} {c : ConnId} {k : ConnState} {id : ChunkId} (hk : s.conn c = some k)
    (hcut : ¬ ∃ c f, fetchOf s c = some f ∧ (id ∈ f.got ∨ f.joining = some id) ∧ fetchOf s' c = none ∧
      timesHandedTo s' c id = timesHandedTo s c id)
    (h1 : fetchOf s' c = none) (h2 : timesHandedTo s' c id = timesHandedTo s c id) : taking k id = 0 := by
  unfold taking
  rw [if_pos (conn_eq.1 hk).2]
  cases hf : k.fetching with
  | none => rfl
  | some f =>
    have hfo : fetchOf s c = some f := by unfold fetchOf; rw [hk]; exact hf
    have hn : ¬ (id ∈ f.got ∨ f.joining = some id) := fun h => hcut ⟨c, f, hfo, h, h1, h2⟩
    have : id ∉ f.got := fun h => hn (.inl h)
    have h3 : ¬ f.joining = some id := fun h => hn (.inr h)
    simp [List.count_eq_zero.2 this, h3]

theorem timesHandedTo_eq {s : State} {c : ConnId} {k : ConnState} (hk : s.conns.get c = some k) (id : ChunkId) :
    timesHandedTo s c id = handedIn k id := by
  unfold timesHandedTo handedIn answersTo
  rw [hk]; rfl

theorem taking_finish (k : ConnState) (f : Fetching) (id : ChunkId) :
    handedIn (finishFetch k f) id + taking (finishFetch k f) id = handedIn k id + f.got.count id := by
  have : taking (finishFetch k f) id = 0 := by
    unfold taking; rw [finishFetch_fetching]; split <;> rfl
  rw [this]
  unfold finishFetch handedIn
  cases hg : f.got with
  | nil => simp
  | cons i is => simp [ConnState.answer, List.flatMap_append]

theorem total_step {s : State} {a : Action} {id : ChunkId} (hw : Map.WF s.conns) (hcut : ¬ CutShort s a id) :
    total s id + reserves s a id ≤ total (step s a) id := by
  have same : (step s a).conns = s.conns → reserves s a id = 0 → total s id + reserves s a id ≤ total (step s a) id := by
    intro h1 h2; unfold total; rw [h1, h2]; exact Nat.le_refl _
  have beg : ∀ c k r v, k.fetching = none → s.conns.get c = some k → ∀ k0, k0.answers = k.answers → k0.fetching = none →
      total s id ≤ total (begin s c k0 r v) id := by
    intro c k r v hf hk k0 h1 h2
    unfold begin
    have ht : taking k id = 0 := by unfold taking; rw [hf]; split <;> rfl
    split
    · refine total_set (x := 0) hw hk rfl ?_
      rw [ht]
      simp [handedIn, ConnState.answer, h1, List.flatMap_append]
    · refine total_set (x := 0) hw hk rfl ?_
      rw [ht]
      simp [handedIn, h1]
  have lost : ∀ s' : State, (∀ c, s'.conns.get c = (s.conns.get c).map fun k => { live := false, answers := k.answers }) →
      s'.conns = s.conns.map (fun p => (p.1, { live := false, answers := p.2.answers })) →
      (¬ ∃ c f, fetchOf s c = some f ∧ (id ∈ f.got ∨ f.joining = some id) ∧ fetchOf s' c = none ∧
        timesHandedTo s' c id = timesHandedTo s c id) → total s id ≤ total s' id := by
    intro s' hg hm hc
    unfold total
    rw [hm, List.map_map]
    have : ∀ p ∈ s.conns, handedIn p.2 id + taking p.2 id ≤
        handedIn { live := false, answers := p.2.answers } id + taking { live := false, answers := p.2.answers } id := by
      intro p hp
      have hk := Map.get_of_mem hw (show (p.1, p.2) ∈ s.conns from hp)
      have ht : taking p.2 id = 0 := by
        cases hl : p.2.live with
        | false => unfold taking; rw [hl]; rfl
        | true =>
          have hg' := hg p.1
          rw [hk] at hg'
          refine taking_zero (conn_eq.2 ⟨hk, hl⟩) hc ?_ ?_
          · unfold fetchOf State.conn; rw [hg']; rfl
          · rw [timesHandedTo_eq hk, timesHandedTo_eq hg']; rfl
      rw [ht]; exact Nat.le_add_right _ _
    revert this
    generalize s.conns = l
    intro this
    induction l with
    | nil => exact Nat.le_refl _
    | cons p l ih =>
      simp only [List.map_cons, List.sum_cons]
      have h1 := this p (by simp)
      have h2 := ih fun q hq => this q (by simp [hq])
      simp only [Function.comp] at h2 ⊢
      omega
  have db : ∀ (q : List (ConnId × Report)) op (s' : State), s'.conns = (dbCall { s with queue := q } op).2.conns →
      s'.conns = (step s a).conns → total s id ≤ total (step s a) id := by
    intro q op s' h1 h2
    have e : (step s a).conns = (dbCall { s with queue := q } op).2.conns := by rw [← h2, h1]
    cases hc : (dbCall { s with queue := q } op).1.crashed with
    | false => rw [dbCall_ok hc] at e; unfold total; rw [e]; exact Nat.le_refl _
    | true =>
      obtain ⟨g1, -, -, -, g5⟩ := dbCall_spec { s with queue := q } op
      rw [g1] at hc
      rw [g5 hc] at e
      refine lost (step s a) ?_ e hcut
      intro c
      rw [e]
      exact get_mapValues s.conns (fun k => { live := false, answers := k.answers }) c
  have dropped : ∀ c k, s.conn c = some k → step s a = dropConn s c k → total s id ≤ total (step s a) id := by
    intro c k hk e
    have hk' := (conn_eq.1 hk).1
    have hg : (step s a).conns.get c = some { live := false, answers := k.answers } := by
      rw [e]; show Map.get (Map.set _ _ _) _ = _; rw [Map.get_set, if_pos rfl]
    have ht : taking k id = 0 := by
      refine taking_zero hk hcut ?_ ?_
      · unfold fetchOf State.conn; rw [hg]; rfl
      · rw [timesHandedTo_eq hk', timesHandedTo_eq hg]; rfl
    refine total_set (x := 0) hw hk' (by rw [e]; rfl) ?_
    rw [ht]; exact Nat.le_add_right _ _
  cases a with
  | connect c =>
    cases hg : s.conns.get c with
    | none =>
      have : (step s (.connect c)).conns = s.conns.set c {} := by simp only [step, hg]; rfl
      unfold total
      rw [this, Map.sum_set_none (fun k => handedIn k id + taking k id) _ hg]
      show _ + 0 ≤ _
      exact Nat.le_add_right _ _
    | some k => exact same (by simp only [step, hg]) rfl
  | request c r v =>
    cases hk : s.conn c with
    | none => exact same (by simp only [step, State.withIdle, State.withConn, hk]) rfl
    | some k =>
      cases hf : k.fetching with
      | some f => exact same (by simp [step, State.withIdle, State.withConn, hk, hf]) rfl
      | none =>
        rw [request_cases hk hf]
        exact beg c k r v hf (conn_eq.1 hk).1 k rfl hf
  | retry c v =>
    cases hk : s.conn c with
    | none => exact same (by simp only [step, State.withIdle, State.withConn, hk]) rfl
    | some k =>
      cases hf : k.fetching with
      | some f => exact same (by simp [step, State.withIdle, State.withConn, hk, hf]) rfl
      | none =>
        cases hr : k.retry with
        | nil => exact same (by simp [step, State.withIdle, State.withConn, hk, hf, hr]) rfl
        | cons r rest =>
          have : step s (.retry c v) = begin s c { k with retry := rest } r v := by
            simp [step, State.withIdle, State.withConn, hk, hf, hr]
          rw [this]
          exact beg c k r v hf (conn_eq.1 hk).1 _ rfl hf
  | row c =>
    cases hk : s.conn c with
    | none => exact same (by simp [step, State.withFetch, State.withConn, hk]) (by simp [reserves, fetchOf, hk])
    | some k =>
      cases hf : k.fetching with
      | none => exact same (by simp [step, State.withFetch, State.withConn, hk, hf]) (by simp [reserves, fetchOf, hk, hf])
      | some f =>
        have hfo : fetchOf s c = some f := by unfold fetchOf; rw [hk]; exact hf
        have hl := (conn_eq.1 hk).2
        have hk' := (conn_eq.1 hk).1
        have htk : taking k id = f.got.count id + if f.joining = some id then 1 else 0 := by
          unfold taking; rw [if_pos hl, hf]
        rcases row_cases hk hf with ⟨hj, h⟩ | ⟨hj, hr, h⟩ | ⟨row, rest, hj, hr, ⟨hres, h⟩ | ⟨hres, h⟩⟩
        · refine same (by rw [h]) ?_
          cases hj' : f.joining with
          | none => rw [hj'] at hj; cases hj
          | some _ => simp [reserves, hfo, hj']
        · have hz : reserves s (.row c) id = 0 := by simp [reserves, hfo, hj, hr]
          rw [hz]
          refine total_set hw hk' (by rw [h]; rfl) ?_
          rw [taking_finish, htk, hj]; simp
        · have hz : reserves s (.row c) id = 0 := by simp [reserves, hfo, hj, hr, hres]
          rw [hz]
          refine total_set hw hk' (by rw [h]; rfl) ?_
          rw [htk]
          simp [taking, hl, handedIn]
        · have hz : reserves s (.row c) id = if row.key = id then 1 else 0 := by simp [reserves, hfo, hj, hr, hres]
          rw [hz]
          refine total_set hw hk' (by rw [h]; rfl) ?_
          rw [htk, hj]
          simp only [taking, hl, handedIn, if_true, reduceCtorEq, if_false, Option.some.injEq]
          omega
  | join c =>
    cases hk : s.conn c with
    | none => exact same (by simp [step, State.withFetch, State.withConn, hk]) rfl
    | some k =>
      cases hf : k.fetching with
      | none => exact same (by simp [step, State.withFetch, State.withConn, hk, hf]) rfl
      | some f =>
        have hl := (conn_eq.1 hk).2
        have hk' := (conn_eq.1 hk).1
        have htk : taking k id = f.got.count id + if f.joining = some id then 1 else 0 := by
          unfold taking; rw [if_pos hl, hf]
        rcases join_cases hk hf with ⟨hj, h⟩ | ⟨i, hj, ⟨sub, hsub, h⟩ | ⟨hsub, h⟩⟩
        · exact same (by rw [h]) rfl
        · refine total_set (x := 0) hw hk' (by rw [h]; rfl) ?_
          rw [htk, hj]
          have hcnt : (f.joined i).got.count id = f.got.count id + if some i = some id then 1 else 0 := by
            simp [Fetching.joined, List.count_append, List.count_singleton]
          by_cases hm : (f.joined i).got.length = f.req.max
          · rw [if_pos hm, taking_finish, hcnt]; omega
          · rw [if_neg hm]
            have : taking { k with fetching := some (f.joined i) } id = (f.joined i).got.count id := by
              unfold taking; rw [if_pos hl]; simp [Fetching.joined]
            rw [this, hcnt]
            show _ ≤ handedIn k id + _
            omega
        · exact dropped c k hk h
  | fetchFails c =>
    cases hk : s.conn c with
    | none => exact same (by simp [step, State.withFetch, State.withConn, hk]) rfl
    | some k =>
      cases hf : k.fetching with
      | none => exact same (by simp [step, State.withFetch, State.withConn, hk, hf]) rfl
      | some f =>
        have hl := (conn_eq.1 hk).2
        have hk' := (conn_eq.1 hk).1
        have h : step s (.fetchFails c) = s.setConn c (k.answer f.req (some [])) := by
          simp [step, State.withFetch, State.withConn, hk, hf]
        have hg : (step s (.fetchFails c)).conns.get c = some (k.answer f.req (some [])) := by
          rw [h, get_setConn, if_pos rfl]
        have hh : handedIn (k.answer f.req (some [])) id = handedIn k id := by
          simp [handedIn, ConnState.answer, List.flatMap_append]
        have ht : taking k id = 0 := by
          refine taking_zero hk hcut ?_ ?_
          · unfold fetchOf State.conn; rw [hg]; simp [ConnState.answer, hl]
          · rw [timesHandedTo_eq hk', timesHandedTo_eq hg, hh]
        refine total_set (x := 0) hw hk' (by rw [h]; rfl) ?_
        rw [ht, hh]; exact Nat.le_add_right _ _
  | register c i =>
    cases hk : s.conn c with
    | none => exact same (by simp [step, State.withConn, hk]) rfl
    | some k =>
      cases hi : k.spawned[i]? with
      | none => exact same (by simp [step, State.withConn, hk, hi]) rfl
      | some r =>
        refine total_set (x := 0) hw (conn_eq.1 hk).1
          (k' := { k with spawned := k.spawned.eraseIdx i, waiting := k.waiting ++ [r] })
          (by simp [step, State.withConn, hk, hi, State.setConn]) ?_
        exact Nat.le_refl _
  | report c r =>
    refine same ?_ rfl
    simp only [step, State.withIdle, State.withConn]
    cases s.conn c with
    | none => rfl
    | some k => dsimp only; split <;> rfl
  | handle w n1 n2 n3 o =>
    show total s id ≤ _
    rcases handle_cases s w n1 n2 n3 o with h | ⟨c', r, queue, hcomp, hq, h⟩
    · exact same (by simp only [step]; rw [h]) rfl
    · rcases h with ⟨_, h⟩ | ⟨_, h1, h2⟩
      · exact same (by simp only [step]; rw [h]) rfl
      · cases hc : (dbCall { s with queue := queue } (reportOp s.maxRetries n1 n2 n3 o r)).1.crashed with
        | true => exact db queue _ _ rfl (by simp only [step]; rw [h1 hc])
        | false => exact db queue _ _ rfl (by simp only [step]; rw [h2 hc])
  | release b =>
    cases hc : s.completing with
    | none => exact same (by simp [step, release, hc]) rfl
    | some x =>
      obtain ⟨c, i, d⟩ := x
      cases hg : s.conns.get c with
      | none => exact same (by simp [step, release, hc, hg]) rfl
      | some k =>
        refine total_set (x := 0) hw hg (k' := { k with held := k.held.filter (· ≠ i) })
          (by simp [step, release, hc, hg]) ?_
        exact Nat.le_refl _
  | disconnect c =>
    cases hk : s.conn c with
    | none => exact same (by simp [step, State.withConn, hk]) rfl
    | some k => exact dropped c k hk (by simp [step, State.withConn, hk])
  | producer call =>
    show total s id ≤ _
    obtain ⟨h1, ⟨i, hi, h⟩ | ⟨hi, h⟩⟩ := producer_cases s call
    · exact db s.queue call.op _ rfl (by rw [h])
    · exact db s.queue call.op _ rfl (by rw [h])
  | notify =>
    cases hn : s.notifies with
    | zero => exact same (by simp [step, hn]) rfl
    | succ n =>
      have : (step s .notify).conns = s.conns.map fun p => (p.1, p.2.wake) := by simp [step, hn]
      show total s id ≤ _
      unfold total
      rw [this, List.map_map]
      exact Nat.le_refl _
  | tick t => exact same rfl rfl

theorem run_snoc_server (ttl m : Nat) (h : List Action) (a : Action) : run ttl m (h ++ [a]) = step (run ttl m h) a :=
  exec_snoc _ _ _

/-- As long as no reserve request is cut short, there are at most as many notices about a chunk as times it was handed out or
is being taken. -/
theorem notices_run {ttl m : Nat} {h : List Action} {id : ChunkId}
    (hcut : ∀ p a q, h = p ++ a :: q → ¬ CutShort (run ttl m p) a id) :
    Named (run ttl m h).reserver ∧
    ((noticesFrom (init ttl m) h).map (·.2)).count id +
      (if ((run ttl m h).reserver.cache.get id).isSome then 1 else 0) ≤ total (run ttl m h) id := by
  induction h using snoc_induction with
  | nil =>
    constructor
    · intro k e he; cases he
    · exact Nat.zero_le _
  | snoc h a ih =>
    have hc := hcut h a [] rfl
    obtain ⟨h1, h2⟩ := ih fun p b q e => hcut p b (q ++ [a]) (by rw [e]; simp)
    obtain ⟨h3, h4⟩ := notices_action h1 a id
    have h5 := total_step (conns_wf_run ttl m h) hc
    rw [run_snoc_server]
    refine ⟨h3, ?_⟩
    rw [noticesFrom_snoc, List.map_append, List.count_append]
    have e : exec (init ttl m) h = run ttl m h := rfl
    rw [e]
    omega

theorem timesHandedOut_eq (s : State) (id : ChunkId) : timesHandedOut s id = (s.conns.map fun p => handedIn p.2 id).sum := by
  unfold timesHandedOut handedIn
  rw [List.flatMap_assoc, List.count_flatMap]
  rfl

theorem total_eq (s : State) (id : ChunkId) : total s id = timesHandedOut s id + (s.conns.map fun p => taking p.2 id).sum := by
  rw [timesHandedOut_eq]
  unfold total
  generalize s.conns = l
  induction l with
  | nil => rfl
  | cons p l ih => simp only [List.map_cons, List.sum_cons, ih]; omega

theorem taking_none {s : State} {id : ChunkId} (hw : Map.WF s.conns)
    (h : ∀ c f, fetchOf s c = some f → id ∉ f.got ∧ f.joining ≠ some id) :
    (s.conns.map fun p => taking p.2 id).sum = 0 := by
  have : ∀ p ∈ s.conns, taking p.2 id = 0 := by
    intro p hp
    have hk := Map.get_of_mem hw (show (p.1, p.2) ∈ s.conns from hp)
    unfold taking
    split
    · rename_i hl
      cases hf : p.2.fetching with
      | none => rfl
      | some f =>
        obtain ⟨h1, h2⟩ := h p.1 f (fetchOf_eq.2 ⟨p.2, hk, hl, hf⟩)
        simp [List.count_eq_zero.2 h1, h2]
    · rfl
  revert this
  generalize s.conns = l
  intro this
  induction l with
  | nil => rfl
  | cons p l ih =>
    rw [List.map_cons, List.sum_cons, this p (by simp), ih fun q hq => this q (by simp [hq])]

theorem keys_mono (s : State) (a : Action) : ∀ c ∈ s.conns.map (·.1), c ∈ (step s a).conns.map (·.1) := by
  intro c hc
  rcases conns_step s a with h1 | ⟨c', k, h1⟩ | ⟨f, h1⟩
  · rw [h1]; exact hc
  · rw [h1, Map.keys_set]; split
    · exact hc
    · exact List.mem_append_left _ hc
  · rw [h1, List.map_map]; exact hc

theorem accepted_known (s : State) (h : List Action) :
    (∀ c ∈ s.conns.map (·.1), c ∈ (exec s h).conns.map (·.1)) ∧
    ∀ x ∈ acceptedFrom s h, x.1 ∈ (exec s h).conns.map (·.1) := by
  induction h generalizing s with
  | nil => exact ⟨fun c hc => hc, fun x hx => by cases hx⟩
  | cons a h ih =>
    obtain ⟨h1, h2⟩ := ih (step s a)
    refine ⟨fun c hc => h1 c (keys_mono s a c hc), ?_⟩
    intro x hx
    rw [acceptedFrom_cons] at hx
    rcases List.mem_append.1 hx with hx | hx
    · have : x.1 ∈ s.conns.map (·.1) := by
        cases a <;> simp only [accepts, List.not_mem_nil] at hx
        split at hx
        · rename_i hi
          simp only [List.mem_singleton] at hx
          subst hx
          have := hi.1
          unfold State.conn at this
          cases hg : s.conns.get _ with
          | none => rw [hg] at this; cases this
          | some k => exact List.mem_map.2 ⟨_, Map.mem_of_get hg, rfl⟩
        · cases hx
      exact h1 _ (keys_mono s a _ this)
    · exact h2 x hx

theorem sum_filter_ge {α κ : Type} [DecidableEq κ] (key : α → κ) (q : α → Bool) (keys : List κ) (l : List α)
    (h : ∀ x ∈ l, key x ∈ keys) :
    (l.filter q).length ≤ (keys.map fun c => (l.filter fun x => key x == c && q x).length).sum := by
  induction l with
  | nil => exact Nat.zero_le _
  | cons x l ih =>
    have h1 := ih fun y hy => h y (by simp [hy])
    have h2 : (keys.map fun c => (l.filter fun x => key x == c && q x).length).sum +
        (if q x then 1 else 0) ≤
        (keys.map fun c => ((x :: l).filter fun x => key x == c && q x).length).sum := by
      have hx := h x (by simp)
      clear h h1 ih
      induction keys with
      | nil => cases hx
      | cons c cs ih =>
        simp only [List.map_cons, List.sum_cons]
        have hmono : ∀ c, (l.filter fun x => key x == c && q x).length ≤
            ((x :: l).filter fun x => key x == c && q x).length := by
          intro c
          rw [List.filter_cons]; split <;> simp
        by_cases hc : key x = c
        · have hs : (cs.map fun c => (l.filter fun x => key x == c && q x).length).sum ≤
              (cs.map fun c => ((x :: l).filter fun x => key x == c && q x).length).sum := by
            clear hx ih hc
            induction cs with
            | nil => exact Nat.le_refl _
            | cons d ds ih2 =>
              simp only [List.map_cons, List.sum_cons]
              have := hmono d
              omega
          have h1 : (l.filter fun x => key x == c && q x).length + (if q x then 1 else 0) ≤
              ((x :: l).filter fun x => key x == c && q x).length := by
            rw [List.filter_cons]
            cases hq : q x <;> simp [hc]
          omega
        · have := ih ((List.mem_cons.1 hx).resolve_left hc)
          have := hmono c
          omega
    rw [List.filter_cons]
    split
    · rename_i hq
      rw [if_pos hq] at h2
      simp only [List.length_cons]
      omega
    · rename_i hq
      omega

theorem sum_count_le (keys : List ConnId) (hk : keys.Nodup) (l : List (ConnId × ChunkId)) (id : ChunkId) :
    (keys.map fun c => l.count (c, id)).sum ≤ (l.map (·.2)).count id := by
  induction l with
  | nil =>
    have : ∀ ks : List ConnId, (ks.map fun c => ([] : List (ConnId × ChunkId)).count (c, id)).sum = 0 := by
      intro ks; induction ks with
      | nil => rfl
      | cons k ks ih => simpa using ih
    rw [this]; exact Nat.zero_le _
  | cons x l ih =>
    have h1 : (keys.map fun c => (x :: l).count (c, id)).sum ≤
        (keys.map fun c => l.count (c, id)).sum + if x.2 = id then 1 else 0 := by
      clear ih
      have none : ∀ ks : List ConnId, (x.1 ∉ ks ∨ x.2 ≠ id) →
          (ks.map fun c => (x :: l).count (c, id)).sum = (ks.map fun c => l.count (c, id)).sum := by
        intro ks
        induction ks with
        | nil => intro _; rfl
        | cons c cs ih2 =>
          intro h
          simp only [List.map_cons, List.sum_cons]
          rw [ih2 (h.imp (fun h hm => h (by simp [hm])) (fun h => h))]
          have hx : x ≠ (c, id) := by
            rintro rfl
            rcases h with h | h
            · exact h (by simp)
            · exact h rfl
          rw [List.count_cons_of_ne hx]
      induction keys with
      | nil => exact Nat.zero_le _
      | cons c cs ih2 =>
        obtain ⟨hc, hcs⟩ := List.nodup_cons.1 hk
        by_cases hxc : x.1 = c
        · simp only [List.map_cons, List.sum_cons]
          rw [none cs (.inl (by rw [hxc]; exact hc))]
          have : (x :: l).count (c, id) ≤ l.count (c, id) + if x.2 = id then 1 else 0 := by
            rw [List.count_cons]
            by_cases hx : x.2 = id
            · simp [hx]; split <;> omega
            · have : x ≠ (c, id) := by rintro rfl; exact hx rfl
              simp [this]
          omega
        · simp only [List.map_cons, List.sum_cons]
          have := ih2 hcs
          have hx : x ≠ (c, id) := by rintro rfl; exact hxc rfl
          rw [List.count_cons_of_ne hx]
          omega
    rw [List.map_cons, List.count_cons]
    have : (x.2 == id) = decide (x.2 = id) := rfl
    rw [this]
    simp only [decide_eq_true_eq]
    omega

end Opsqueue.Server
