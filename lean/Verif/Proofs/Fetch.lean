import Verif.Proofs.Server

/-!
# The course of one reserve request
-/

namespace Opsqueue.Server
open Conn (Request Response Report)

/-- In the history the connection took the chunk: just before it was not reserved, just after it is
reserved for the connection. -/
def Took (s : State) (c : ConnId) (es : List Action) (id : ChunkId) : Prop :=
  ∃ p q, es = p ++ .row c :: q ∧ (exec s p).reserver.isReserved id = false ∧
    holder (exec s (p ++ [.row c])) id = some c

theorem Took.mono {s : State} {c : ConnId} {es : List Action} {id : ChunkId} (h : Took s c es id)
    (fs : List Action) : Took s c (es ++ fs) id := by
  obtain ⟨p, q, h1, h2, h3⟩ := h
  exact ⟨p, q ++ fs, by rw [h1]; simp, h2, h3⟩

/-- The chunks taken so far by a fetch. -/
def Fetching.taken (f : Fetching) : List ChunkId := f.got ++ f.joining.toList

/-- The fetch of connection `c` after the actions `pre`. -/
structure Progress (rows0 : List ChunkRow) (r : Request) (c : ConnId) (s1 : State) (pre : List Action)
    (f : Fetching) : Prop where
  req : f.req = r
  seen : ∃ seen, rows0 = seen ++ f.rows ∧ f.taken.Sublist (seen.map ChunkRow.key)
  lt : f.got.length < r.max
  taken : ∀ id ∈ f.taken, Took s1 c pre id
  only : ∀ p q a id, pre = p ++ a :: q → a.FetchStep c →
    (exec s1 p).reserver.isReserved id = false → (exec s1 (p ++ [a])).reserver.isReserved id = true →
    id ∈ f.taken
  answers : answersTo (exec s1 pre) c = answersTo s1 c

theorem fetchOf_passive {s : State} {a : Action} {c : ConnId} {f : Fetching}
    (hf : fetchOf s c = some f) (ha : a.actor ≠ some c) :
    (fetchOf (step s a) c = some f ∨ fetchOf (step s a) c = none) ∧
      answersTo (step s a) c = answersTo s c := by
  obtain ⟨k, hk, hl, hkf⟩ := fetchOf_eq.1 hf
  obtain ⟨k', hk', hp⟩ := passive_step hk ha
  unfold fetchOf State.conn answersTo
  rw [hk', hk]
  cases hp with
  | same => simp [Option.filter_some, hl, hkf]
  | wake _ => simp [Option.filter_some, ConnState.wake, hl, hkf]
  | unhold => simp [Option.filter_some, hl, hkf]
  | crashed => simp [Option.filter_some]

theorem snoc_split {α : Type} {pre p q : List α} {a b : α} (h : pre ++ [a] = p ++ b :: q) :
    (pre = p ∧ a = b ∧ q = []) ∨ ∃ q', q = q' ++ [a] ∧ pre = p ++ b :: q' := by
  rcases List.eq_nil_or_concat q with rfl | ⟨q', x, rfl⟩
  · left
    have := List.append_inj' h rfl
    exact ⟨this.1, by cases this.2; rfl, rfl⟩
  · right
    have h' : pre ++ [a] = (p ++ b :: q') ++ [x] := by rw [h]; simp
    have := List.append_inj' h' rfl
    exact ⟨q', by cases this.2; simp, this.1⟩

theorem holder_tryReserve {s : State} {id : ChunkId} {c : ConnId} (ht : 0 < s.reserver.ttl)
    (h : s.reserver.isReserved id = false) :
    ((s.reserver.tryReserve id id c).2.lookup id).map (·.sender) = some c := by
  have h1 := Reserver.tryReserve_some (isReserved_eq_false.1 h) id c
  have := (Reserver.tryReserve_here (r := s.reserver) (key := id) (v := id) (s := c) ht (by rw [h1])).1
  rw [this.lookup]; rfl

theorem lookup_tryReserve_ne {r : Reserver ChunkId ChunkId ConnId} {k id : ChunkId} {c : ConnId}
    (hne : k ≠ id) : (r.tryReserve k k c).2.lookup id = r.lookup id := by
  cases hl : r.lookup k with
  | some e => rw [Reserver.tryReserve_none (by rw [hl]; rfl)]
  | none =>
    rw [Reserver.tryReserve_some hl]
    unfold Reserver.lookup
    show Option.filter _ (Map.get (Map.set _ _ _) _) = _
    rw [Map.get_set, if_neg hne, Reserver.drop_get, if_neg hne]
    congr 1
    funext e
    exact Reserver.drop_alive r k e

/-- An action that leaves the fetch alone. -/
theorem Progress.idle {rows0 : List ChunkRow} {r : Request} {c : ConnId} {s1 : State}
    {pre : List Action} {f : Fetching} (h : Progress rows0 r c s1 pre f) {a : Action}
    (hres : a.FetchStep c → (step (exec s1 pre) a).reserver = (exec s1 pre).reserver)
    (hans : answersTo (step (exec s1 pre) a) c = answersTo (exec s1 pre) c) :
    Progress rows0 r c s1 (pre ++ [a]) f where
  req := h.req
  seen := h.seen
  lt := h.lt
  taken id hid := (h.taken id hid).mono _
  only p q b id hpq hb h1 h2 := by
    rcases snoc_split hpq with ⟨rfl, rfl, rfl⟩ | ⟨q', rfl, hp⟩
    · rw [exec_snoc, hres hb, h1] at h2; cases h2
    · exact h.only p q' b id hp hb h1 h2
  answers := by rw [exec_snoc, hans, h.answers]

theorem fetchOf_setConn (s : State) (c : ConnId) (k : ConnState) (hl : k.live = true) :
    fetchOf (s.setConn c k) c = k.fetching := by
  unfold fetchOf State.conn
  rw [get_setConn, if_pos rfl, Option.filter_some, if_pos hl]
  rfl

theorem answersTo_setConn (s : State) (c : ConnId) (k : ConnState) :
    answersTo (s.setConn c k) c = k.answers := by
  unfold answersTo
  rw [get_setConn, if_pos rfl]; rfl

theorem progress_step {rows0 : List ChunkRow} {r : Request} {c : ConnId} {s1 : State}
    (ht : 0 < s1.reserver.ttl) {pre : List Action} {f : Fetching}
    (hf : fetchOf (exec s1 pre) c = some f) (h : Progress rows0 r c s1 pre f) (a : Action)
    (hb : Busy (exec s1 (pre ++ [a])) c) :
    ∃ f', fetchOf (exec s1 (pre ++ [a])) c = some f' ∧ Progress rows0 r c s1 (pre ++ [a]) f' := by
  rw [exec_snoc] at hb ⊢
  have noFetch : ¬ Busy (step (exec s1 pre) a) c → False := fun h => h hb
  have hts : 0 < (exec s1 pre).reserver.ttl := by rw [ttl_exec]; exact ht
  by_cases hact : a.actor = some c
  · obtain ⟨k, hkc, hkl, hkf⟩ := fetchOf_eq.1 hf
    have hk := conn_eq.2 ⟨hkc, hkl⟩
    have hans : answersTo (exec s1 pre) c = k.answers := by unfold answersTo; rw [hkc]; rfl
    have same : step (exec s1 pre) a = exec s1 pre →
        ∃ f', fetchOf (step (exec s1 pre) a) c = some f' ∧ Progress rows0 r c s1 (pre ++ [a]) f' :=
      fun h' => ⟨f, by rw [h', hf], h.idle (fun _ => by rw [h']) (by rw [h'])⟩
    cases a with
    | connect c' =>
      cases hact
      refine same ?_
      simp only [step]; rw [hkc]
    | request c' q v => cases hact; exact same (idle_noop hk hkf _)
    | retry c' v => cases hact; exact same (idle_noop hk hkf _)
    | report c' q => cases hact; exact same (idle_noop hk hkf _)
    | disconnect c' =>
      cases hact
      refine (noFetch ?_).elim
      intro hb'
      obtain ⟨f', hf'⟩ := Option.isSome_iff_exists.1 hb'
      obtain ⟨k', hk', hl', _⟩ := fetchOf_eq.1 hf'
      simp only [step, State.withConn, hk] at hk'
      unfold dropConn at hk'
      rw [Map.get_set, if_pos rfl] at hk'
      cases hk'; cases hl'
    | register c' i =>
      cases hact
      simp only [step, State.withConn, hk]
      cases hg : k.spawned[i]? with
      | none => exact ⟨f, hf, h.idle (fun hs => by cases hs) (by simp only [step, State.withConn, hk, hg])⟩
      | some q =>
        refine ⟨f, ?_, h.idle (fun hs => by cases hs) ?_⟩
        · dsimp only
          rw [fetchOf_setConn]
          · exact hkf
          · exact hkl
        · simp only [step, State.withConn, hk, hg]
          rw [answersTo_setConn, hans]
    | fetchFails c' =>
      cases hact
      exfalso
      apply noFetch
      simp only [step]
      rw [withFetch_eq hk hkf]
      unfold Busy
      rw [fetchOf_setConn]
      · simp [ConnState.answer]
      · exact hkl
    | row c' =>
      cases hact
      rcases row_cases hk hkf with ⟨hj, hs⟩ | ⟨hj, hr, hs⟩ | ⟨row, rest, hj, hr, ⟨hres, hs⟩ | ⟨hres, hs⟩⟩
      · exact same hs
      · exfalso
        apply noFetch
        rw [hs]
        unfold Busy
        rw [fetchOf_setConn, finishFetch_fetching]
        · simp
        · unfold finishFetch; cases f.got <;> exact hkl
      · -- the row is reserved by someone
        refine ⟨{ f with rows := rest }, ?_, ?_⟩
        · rw [hs, fetchOf_setConn]; exact hkl
        · have h' := h.idle (a := .row c) (fun _ => by rw [hs]; rfl)
            (by rw [hs, answersTo_setConn, hans])
          obtain ⟨seen, h1, h2⟩ := h.seen
          exact { h' with
            seen := ⟨seen ++ [row], by rw [h1, hr]; simp,
              by rw [List.map_append]; exact h2.trans (List.sublist_append_left _ _)⟩
            only := h'.only }
      · -- the row is taken
        refine ⟨{ f with rows := rest, joining := some row.key }, ?_, ?_⟩
        · rw [hs, fetchOf_setConn]; exact hkl
        · have htk : ({ f with rows := rest, joining := some row.key } : Fetching).taken =
              f.taken ++ [row.key] := by simp [Fetching.taken, hj]
          have htook : Took s1 c (pre ++ [.row c]) row.key := by
            refine ⟨pre, [], rfl, hres, ?_⟩
            rw [exec_snoc, hs]
            exact holder_tryReserve hts hres
          obtain ⟨seen, h1, h2⟩ := h.seen
          refine ⟨h.req, ⟨seen ++ [row], by rw [h1, hr]; simp, ?_⟩, h.lt, ?_, ?_, ?_⟩
          · rw [htk, List.map_append]; exact h2.append (List.Sublist.refl _)
          · intro id hid
            rw [htk, List.mem_append] at hid
            rcases hid with hid | hid
            · exact (h.taken id hid).mono _
            · rw [List.mem_singleton.1 hid]; exact htook
          · intro p q b id hpq hb h3 h4
            rw [htk, List.mem_append]
            rcases snoc_split hpq with ⟨rfl, rfl, rfl⟩ | ⟨q', rfl, hp⟩
            · right
              by_cases hk2 : row.key = id
              · simp [hk2]
              · rw [exec_snoc, hs] at h4
                have : ((exec s1 pre).reserver.tryReserve row.key row.key c).2.lookup id = _ :=
                  lookup_tryReserve_ne hk2
                have h5 : ((exec s1 pre).reserver.tryReserve row.key row.key c).2.isReserved id = true := h4
                unfold Reserver.isReserved at h5 h3
                rw [this, h3] at h5; cases h5
            · left; exact h.only p q' b id hp hb h3 h4
          · rw [exec_snoc, hs, answersTo_setConn, ← h.answers, hans]
    | join c' =>
      cases hact
      rcases join_cases hk hkf with ⟨hj, hs⟩ | ⟨id, hj, ⟨sub, hsub, hs⟩ | ⟨hsub, hs⟩⟩
      · exact same hs
      · by_cases hlen : (f.joined id).got.length = f.req.max
        · exfalso
          apply noFetch
          rw [hs, if_pos hlen]
          unfold Busy
          rw [fetchOf_setConn, finishFetch_fetching]
          · simp
          · unfold finishFetch; cases (f.joined id).got <;> exact hkl
        · rw [if_neg hlen] at hs
          refine ⟨f.joined id, ?_, ?_⟩
          · rw [hs, fetchOf_setConn]; exact hkl
          · have h' := h.idle (a := .join c) (fun _ => by rw [hs]; rfl)
              (by rw [hs, answersTo_setConn, hans])
            have htk : (f.joined id).taken = f.taken := by simp [Fetching.taken, Fetching.joined, hj]
            refine ⟨h.req, ?_, ?_, ?_, ?_, h'.answers⟩
            · rw [htk]; exact h.seen
            · have hl := h.lt
              rw [h.req] at hlen
              have : (f.joined id).got.length = f.got.length + 1 := by simp [Fetching.joined]
              omega
            · rw [htk]; exact h'.taken
            · rw [htk]; exact h'.only
      · exfalso
        apply noFetch
        rw [hs]
        unfold Busy fetchOf State.conn dropConn
        simp [Map.get_set, Option.filter_some]
    | _ => cases hact
  · obtain ⟨h1, h2⟩ := fetchOf_passive hf hact
    refine ⟨f, ?_, h.idle (fun hs => ?_) h2⟩
    · rcases h1 with h1 | h1
      · exact h1
      · unfold Busy at hb; rw [h1] at hb; cases hb
    · cases hs <;> exact absurd rfl hact

theorem progress_exec {rows0 : List ChunkRow} {r : Request} {c : ConnId} {s1 : State}
    (ht : 0 < s1.reserver.ttl) {f : Fetching} (hf : fetchOf s1 c = some f)
    (h : Progress rows0 r c s1 [] f) (es : List Action)
    (hb : ∀ p q, es = p ++ q → Busy (exec s1 p) c) :
    ∃ f', fetchOf (exec s1 es) c = some f' ∧ Progress rows0 r c s1 es f' := by
  induction es using snoc_induction with
  | nil => exact ⟨f, hf, h⟩
  | snoc pre a ih =>
    obtain ⟨f', h1, h2⟩ := ih fun p q hp => hb p (q ++ [a]) (by rw [hp]; simp)
    exact progress_step ht h1 h2 a (hb _ [] (by simp))

/-- The start of a request. -/
theorem request_cases {s : State} {c : ConnId} {k : ConnState} (hk : s.conn c = some k)
    (hf : k.fetching = none) (r : Request) (v : View) :
    step s (.request c r v) = begin s c k r v := by
  simp only [step, State.withIdle, State.withConn, hk, hf]
  rfl

/-- The step that answers a request with chunks. -/
theorem answer_step {s : State} {a : Action} {c : ConnId} {f : Fetching} (hf : fetchOf s c = some f)
    {n : Nat} {ids : List ChunkId} (hne : ids ≠ [])
    (hans : answersTo (step s a) c = answersTo s c ++ [(n, some ids)]) :
    n = f.req.nonce ∧ (step s a).reserver = s.reserver ∧ a.FetchStep c ∧
    ((f.joining = none ∧ ids = f.got) ∨ ∃ id, f.joining = some id ∧ ids = f.got ++ [id]) := by
  have hno : answersTo (step s a) c ≠ answersTo s c := by
    rw [hans]; intro h
    have := congrArg List.length h
    simp at this
  by_cases hact : a.actor = some c
  · obtain ⟨k, hkc, hkl, hkf⟩ := fetchOf_eq.1 hf
    have hk := conn_eq.2 ⟨hkc, hkl⟩
    have hk0 : answersTo s c = k.answers := by unfold answersTo; rw [hkc]; rfl
    have same : step s a = s → False := fun h' => hno (by rw [h'])
    have fin : ∀ (s' : State) (g : Fetching), g.req = f.req →
        answersTo (s'.setConn c (finishFetch k g)) c = answersTo s c ++ [(n, some ids)] →
        n = f.req.nonce ∧ ids = g.got := by
      intro s' g hg h
      rw [answersTo_setConn, hk0] at h
      unfold finishFetch at h
      cases hgg : g.got with
      | nil =>
        rw [hgg] at h
        have := congrArg List.length h
        simp at this
      | cons x xs =>
        rw [hgg] at h
        have := List.append_cancel_left (as := k.answers) h
        simp only [List.cons.injEq, Prod.mk.injEq, Option.some.injEq, and_true] at this
        exact ⟨by rw [← hg]; exact this.1.symm, this.2.symm⟩
    cases a with
    | connect c' =>
      cases hact
      exfalso; apply same
      simp only [step]; rw [hkc]
    | request c' q v => cases hact; exact (same (idle_noop hk hkf _)).elim
    | retry c' v => cases hact; exact (same (idle_noop hk hkf _)).elim
    | report c' q => cases hact; exact (same (idle_noop hk hkf _)).elim
    | disconnect c' =>
      cases hact
      refine (hno ?_).elim
      rw [hk0]
      simp only [step, State.withConn, hk]
      unfold answersTo dropConn
      rw [Map.get_set, if_pos rfl]; rfl
    | register c' i =>
      cases hact
      exfalso; apply hno
      simp only [step, State.withConn, hk]
      cases hg : k.spawned[i]? with
      | none => rfl
      | some q => dsimp only; rw [answersTo_setConn, hk0]
    | fetchFails c' =>
      cases hact
      exfalso
      simp only [step] at hans
      rw [withFetch_eq hk hkf, answersTo_setConn, hk0] at hans
      have := List.append_cancel_left (as := k.answers) hans
      simp only [List.cons.injEq, Prod.mk.injEq, Option.some.injEq, and_true] at this
      exact hne this.2.symm
    | row c' =>
      cases hact
      rcases row_cases hk hkf with ⟨hj, hs⟩ | ⟨hj, hr, hs⟩ | ⟨row, rest, hj, hr, ⟨hres, hs⟩ | ⟨hres, hs⟩⟩
      · exact (same hs).elim
      · rw [hs] at hans
        obtain ⟨h1, h2⟩ := fin s f rfl hans
        exact ⟨h1, by rw [hs]; rfl, .row, .inl ⟨hj, h2⟩⟩
      · exact (hno (by rw [hs, answersTo_setConn, hk0])).elim
      · exact (hno (by rw [hs, answersTo_setConn, hk0])).elim
    | join c' =>
      cases hact
      rcases join_cases hk hkf with ⟨hj, hs⟩ | ⟨id, hj, ⟨sub, hsub, hs⟩ | ⟨hsub, hs⟩⟩
      · exact (same hs).elim
      · by_cases hlen : (f.joined id).got.length = f.req.max
        · rw [if_pos hlen] at hs
          rw [hs] at hans
          obtain ⟨h1, h2⟩ := fin _ (f.joined id) rfl hans
          exact ⟨h1, by rw [hs]; rfl, .join, .inr ⟨id, hj, h2⟩⟩
        · rw [if_neg hlen] at hs
          exact (hno (by rw [hs, answersTo_setConn, hk0])).elim
      · refine (hno ?_).elim
        rw [hs, hk0]
        unfold answersTo dropConn
        simp [Map.get_set]
    | _ => cases hact
  · exact (hno (fetchOf_passive hf hact).2).elim

/-! ### The in-flight counters are well formed -/

theorem fieldsWF_increment {m : MetaState} (h : MetaConc.FieldsWF m) (k : String) (v : Int) :
    MetaConc.FieldsWF (m.increment k v) := by
  unfold MetaState.increment
  split
  · rename_i f hf
    exact MetaConc.fieldsWF_set h k (MetaConc.field_wf_increment (h k f hf) v)
  · exact MetaConc.fieldsWF_set h k (MetaConc.field_wf_increment Map.wf_nil v)

theorem fieldsWF_decrement {m : MetaState} (h : MetaConc.FieldsWF m) (k : String) (v : Int) :
    MetaConc.FieldsWF ((m.decrement k v).getD m) := by
  unfold MetaState.decrement
  cases hg : m.get k with
  | none => exact h
  | some f =>
    dsimp only
    cases hd : f.decrement v with
    | none => exact h
    | some f' =>
      dsimp only
      split
      · intro k' g hg'
        replace hg' : Map.get (Map.erase m k) k' = some g := hg'
        rw [Map.get_erase] at hg'
        split at hg'
        · cases hg'
        · exact h k' g hg'
      · exact MetaConc.fieldsWF_set h k (MetaConc.field_wf_decrement (h k f hg) hd)

theorem fieldsWF_insert {m : MetaState} (h : MetaConc.FieldsWF m) (md : StrategicMetadata) :
    MetaConc.FieldsWF (insertMetadata m md) := by
  unfold insertMetadata
  induction md generalizing m with
  | nil => exact h
  | cons kv md ih => exact ih (fieldsWF_increment h kv.1 kv.2)

theorem fieldsWF_remove {m : MetaState} (h : MetaConc.FieldsWF m) (md : StrategicMetadata) :
    MetaConc.FieldsWF (removeMetadata m md) := by
  unfold removeMetadata
  induction md generalizing m with
  | nil => exact h
  | cons kv md ih => exact ih (fieldsWF_decrement h kv.1 kv.2)

/-- The changes an action makes to the counters. -/
theorem counters_step (s : State) (a : Action) :
    (step s a).counters = s.counters ∨
    (∃ c f id, a = .join c ∧ fetchOf s c = some f ∧ f.joining = some id ∧
      (step s a).counters = insertMetadata s.counters (Stmt.strategicOf id.submissionId s.db)) ∨
    (∃ c id d, a = .release true ∧ s.completing = some (c, id, d) ∧
      (step s a).counters = removeMetadata s.counters (Stmt.strategicOf id.submissionId s.db)) ∨
    Wiped s (step s a) := by
  cases a with
  | join c =>
    cases hk : s.conn c with
    | none => left; simp [step, State.withFetch, State.withConn, hk]
    | some k =>
      cases hf : k.fetching with
      | none => left; simp [step, State.withFetch, State.withConn, hk, hf]
      | some f =>
        rcases join_cases hk hf with ⟨hj, h⟩ | ⟨id, hj, ⟨sub, hsub, h⟩ | ⟨hsub, h⟩⟩
        · left; rw [h]
        · right; left
          refine ⟨c, f, id, rfl, ?_, hj, by rw [h]; rfl⟩
          unfold fetchOf; rw [hk]; exact hf
        · left; rw [h]; rfl
  | release b =>
    simp only [step, release]
    cases hc : s.completing with
    | none => left; rfl
    | some p =>
      obtain ⟨c, id, d⟩ := p
      cases b with
      | false => left; rfl
      | true => right; right; left; exact ⟨c, id, d, rfl, rfl, rfl⟩
  | handle w n1 n2 n3 o =>
    simp only [step]
    rcases handle_cases s w n1 n2 n3 o with h | ⟨c', r, queue, hcomp, hq, h⟩
    · left; rw [h]
    · rcases h with ⟨_, h⟩ | ⟨_, h1, h2⟩
      · left; rw [h]
      · cases hc : (dbCall { s with queue := queue } (reportOp s.maxRetries n1 n2 n3 o r)).1.crashed with
        | true => right; right; right; rw [h1 hc]; exact wiped_dbCall hc
        | false => left; rw [h2 hc]; dsimp only; rw [dbCall_ok hc]
  | producer call =>
    obtain ⟨h1, ⟨id, hi, h⟩ | ⟨hi, h⟩⟩ := producer_cases s call
    · left; rw [h]
      have : (dbCall s call.op).1.crashed = false := by rw [hi]; rfl
      dsimp only
      rw [dbCall_ok this]
    · cases hc : (dbCall s call.op).1.crashed with
      | true => right; right; right; rw [h]; exact wiped_dbCall hc
      | false => left; rw [h, dbCall_ok hc]
  | _ =>
    left
    simp only [step, State.withIdle, State.withFetch, State.withConn, begin, fetchRow]
    repeat' split
    all_goals first | rfl | simp

theorem fieldsWF_step {s : State} (h : MetaConc.FieldsWF s.counters) (a : Action) :
    MetaConc.FieldsWF (step s a).counters := by
  rcases counters_step s a with h1 | ⟨_, _, _, _, _, _, h1⟩ | ⟨_, _, _, _, _, h1⟩ | h1
  · rw [h1]; exact h
  · rw [h1]; exact fieldsWF_insert h _
  · rw [h1]; exact fieldsWF_remove h _
  · rw [h1.2.1]; intro k f hf; cases hf

theorem fieldsWF_run (ttl m : Nat) (h : List Action) : MetaConc.FieldsWF (run ttl m h).counters := by
  unfold run
  have h0 : MetaConc.FieldsWF (init ttl m).counters := fun k f hf => by cases hf
  generalize init ttl m = s at *
  induction h generalizing s with
  | nil => exact h0
  | cons a h ih => exact ih _ (fieldsWF_step h0 a)

/-! ### A fetch without interference -/

theorem getSubmission_ok {db : DB} (hI : Inv db) {sub : SubmissionRow} (hs : sub ∈ db.submissions) :
    ∃ x, (SubmissionDb.getSubmission sub.id ⟨[], db⟩).1 = .ok x := by
  have hf := find?_key_of_mem hI.subIds hs
  simp [SubmissionDb.getSubmission, Sql.bind_run, Sql.mapErr_run, Sql.query_nil, Stmt.selectSubmission,
    hf, Sql.pure_run]

theorem exec_undisturbed_idle {s : State} {c : ConnId} (hf : fetchOf s c = none) (n : Nat) :
    exec s (undisturbed c n) = s := by
  have h1 : ∀ g, s.withFetch c g = s := by
    intro g
    unfold State.withFetch State.withConn
    cases hk : s.conn c with
    | none => rfl
    | some k =>
      have : k.fetching = none := by unfold fetchOf at hf; rw [hk] at hf; exact hf
      dsimp only; rw [this]
  induction n with
  | zero => rfl
  | succ n ih =>
    show exec (step (step s (.row c)) (.join c)) (undisturbed c n) = s
    have e1 : step s (.row c) = s := h1 _
    have e2 : step s (.join c) = s := h1 _
    rw [e1, e2, ih]

/-- The result of a fetch without interference. -/
structure FetchResult (s : State) (c : ConnId) (k : ConnState) (f : Fetching) (ids : List ChunkId)
    (s' : State) : Prop where
  conn : ∃ f', s'.conns.get c = some (finishFetch k f') ∧ f'.req = f.req ∧ f'.got = f.got ++ ids
  res : ∀ id, s'.reserver.isReserved id = (s.reserver.isReserved id || decide (id ∈ ids))
  mine : ∀ id ∈ ids, holder s' id = some c
  keeps : ∀ id, s.reserver.isReserved id = true → s'.reserver.lookup id = s.reserver.lookup id
  db : s'.db = s.db
  others : ∀ c', c' ≠ c → s'.conns.get c' = s.conns.get c'

theorem isReserved_tryReserve {s : State} {k : ChunkId} {c : ConnId} (ht : 0 < s.reserver.ttl)
    (h : s.reserver.isReserved k = false) (id : ChunkId) :
    (s.reserver.tryReserve k k c).2.isReserved id = (s.reserver.isReserved id || decide (id = k)) := by
  by_cases hk : k = id
  · subst hk
    have := holder_tryReserve (c := c) ht h
    unfold Reserver.isReserved
    cases hl : (s.reserver.tryReserve k k c).2.lookup k with
    | none => rw [hl] at this; cases this
    | some e => simp
  · unfold Reserver.isReserved
    rw [lookup_tryReserve_ne hk]
    have : ¬ id = k := fun h => hk h.symm
    simp [this]

theorem finishFetch_with (k : ConnState) (g : Option Fetching) (f : Fetching) :
    finishFetch { k with fetching := g } f = finishFetch k f := by
  unfold finishFetch; cases f.got <;> rfl

theorem fetch_loop (c : ConnId) (rows : List ChunkRow) :
    ∀ (s : State) (k : ConnState) (f : Fetching), s.conns.get c = some k → k.live = true →
      k.fetching = some f → f.rows = rows → f.joining = none → f.got.length < f.req.max →
      (∀ row ∈ rows, s.reserver.isReserved row.key = false) → (rows.map ChunkRow.key).Nodup →
      (∀ row ∈ rows, ∃ sub, (SubmissionDb.getSubmission row.submissionId ⟨[], s.db⟩).1 = .ok sub) →
      0 < s.reserver.ttl → ∀ n, rows.length < n →
      FetchResult s c k f ((rows.map ChunkRow.key).take (f.req.max - f.got.length))
        (exec s (undisturbed c n)) := by
  induction rows with
  | nil =>
    intro s k f hk hl hf hr hj hlt hfree hnd hsub ht n hn
    have hkc := conn_eq.2 ⟨hk, hl⟩
    obtain ⟨n, rfl⟩ : ∃ m, n = m + 1 := ⟨n - 1, by omega⟩
    have e1 : step s (.row c) = s.setConn c (finishFetch k f) := by
      rcases row_cases hkc hf with ⟨hj', h⟩ | ⟨_, _, h⟩ | ⟨row, rest, _, hr', _⟩
      · rw [hj] at hj'; cases hj'
      · exact h
      · rw [hr] at hr'; cases hr'
    have hlive : (finishFetch k f).live = true := by
      unfold finishFetch; cases f.got <;> exact hl
    have hidle : fetchOf (s.setConn c (finishFetch k f)) c = none := by
      rw [fetchOf_setConn _ _ _ hlive, finishFetch_fetching]
    have e2 : exec s (undisturbed c (n + 1)) = s.setConn c (finishFetch k f) := by
      show exec (step (step s (.row c)) (.join c)) (undisturbed c n) = _
      rw [e1]
      have e3 : step (s.setConn c (finishFetch k f)) (.join c) = s.setConn c (finishFetch k f) := by
        simp only [step, State.withFetch, State.withConn]
        cases hk2 : (s.setConn c (finishFetch k f)).conn c with
        | none => rfl
        | some k2 =>
          have : k2.fetching = none := by unfold fetchOf at hidle; rw [hk2] at hidle; exact hidle
          dsimp only; rw [this]
      rw [e3]
      exact exec_undisturbed_idle hidle n
    rw [e2]
    refine ⟨⟨f, by rw [get_setConn, if_pos rfl], rfl, by simp⟩, ?_, ?_, fun _ _ => rfl, rfl, ?_⟩
    · intro id; simp [State.setConn]
    · intro id hid; simp at hid
    · intro c' hc'; rw [get_setConn, if_neg (Ne.symm hc')]
  | cons row rows ih =>
    intro s k f hk hl hf hr hj hlt hfree hnd hsub ht n hn
    have hkc := conn_eq.2 ⟨hk, hl⟩
    obtain ⟨n, rfl⟩ : ∃ m, n = m + 1 := ⟨n - 1, by simp at hn; omega⟩
    have hfr : s.reserver.isReserved row.key = false := hfree row List.mem_cons_self
    obtain ⟨s1, hs1⟩ : ∃ s1, s1 = step s (.row c) := ⟨_, rfl⟩
    obtain ⟨k1, hk1⟩ : ∃ k1 : ConnState, k1 = { k with fetching := some { f with rows := rows, joining := some row.key } } :=
      ⟨_, rfl⟩
    have e1 : s1 = { s with reserver := (s.reserver.tryReserve row.key row.key c).2 }.setConn c k1 := by
      rcases row_cases hkc hf with ⟨hj', h⟩ | ⟨_, hr', h⟩ | ⟨row', rest, _, hr', ⟨hres, h⟩ | ⟨hres, h⟩⟩
      · rw [hj] at hj'; cases hj'
      · rw [hr] at hr'; cases hr'
      · rw [hr] at hr'; cases hr'; rw [hfr] at hres; cases hres
      · rw [hr] at hr'; cases hr'; rw [hs1, h, hk1]
    have hs1db : s1.db = s.db := by rw [e1]; rfl
    have hs1ttl : s1.reserver.ttl = s.reserver.ttl := by rw [hs1, ttl_step]
    have hs1res : ∀ id, s1.reserver.isReserved id = (s.reserver.isReserved id || decide (id = row.key)) := by
      intro id; rw [e1]; exact isReserved_tryReserve ht hfr id
    have hs1keep : ∀ id, s.reserver.isReserved id = true →
        s1.reserver.lookup id = s.reserver.lookup id := by
      intro id hid
      have hne : row.key ≠ id := by rintro rfl; rw [hfr] at hid; cases hid
      rw [e1]; exact lookup_tryReserve_ne hne
    have hs1mine : holder s1 row.key = some c := by rw [e1]; exact holder_tryReserve ht hfr
    have hs1c : s1.conns.get c = some k1 := by rw [e1, get_setConn, if_pos rfl]
    have hs1o : ∀ c', c' ≠ c → s1.conns.get c' = s.conns.get c' := by
      intro c' hc'; rw [e1, get_setConn, if_neg (Ne.symm hc')]
    have hk1l : k1.live = true := by rw [hk1]; exact hl
    have hk1f : k1.fetching = some { f with rows := rows, joining := some row.key } := by rw [hk1]
    -- the join
    obtain ⟨g, hg⟩ : ∃ g : Fetching, g = ({ f with rows := rows, joining := some row.key } : Fetching).joined row.key :=
      ⟨_, rfl⟩
    have hggot : g.got = f.got ++ [row.key] := by rw [hg]; rfl
    have hgreq : g.req = f.req := by rw [hg]; rfl
    have hgrows : g.rows = rows := by rw [hg]; rfl
    have hgj : g.joining = none := by rw [hg]; rfl
    obtain ⟨sub, hsub1⟩ := hsub row List.mem_cons_self
    obtain ⟨s2, hs2⟩ : ∃ s2, s2 = step s1 (.join c) := ⟨_, rfl⟩
    have e2 : ∃ cs, s2 = { s1 with counters := cs }.setConn c
        (if g.got.length = f.req.max then finishFetch k g else { k with fetching := some g }) := by
      rcases join_cases (conn_eq.2 ⟨hs1c, hk1l⟩) hk1f with ⟨hj', _⟩ | ⟨id, hj', ⟨sub', hsub', h⟩ | ⟨hsub', h⟩⟩
      · cases hj'
      · cases hj'
        refine ⟨insertMetadata s1.counters (Stmt.strategicOf row.key.submissionId s1.db), ?_⟩
        rw [hs2, h]
        rw [← hg, hk1, finishFetch_with]
      · cases hj'
        rw [hs1db] at hsub'
        exact absurd hsub1 (hsub' sub)
    obtain ⟨cs, e2⟩ := e2
    have eexec : exec s (undisturbed c (n + 1)) = exec s2 (undisturbed c n) := by rw [hs2, hs1]; rfl
    rw [eexec]
    have hs2db : s2.db = s.db := by rw [e2]; exact hs1db
    have hs2r : s2.reserver = s1.reserver := by rw [e2]; rfl
    have hs2o : ∀ c', c' ≠ c → s2.conns.get c' = s.conns.get c' := by
      intro c' hc'; rw [e2, get_setConn, if_neg (Ne.symm hc')]; exact hs1o c' hc'
    have hlen : g.got.length = f.got.length + 1 := by rw [hggot]; simp
    by_cases hfull : g.got.length = f.req.max
    · rw [if_pos hfull] at e2
      have hlive : (finishFetch k g).live = true := by
        unfold finishFetch; cases g.got <;> exact hl
      rw [exec_undisturbed_idle (by rw [e2, fetchOf_setConn _ _ _ hlive, finishFetch_fetching])]
      have htake : ((row :: rows).map ChunkRow.key).take (f.req.max - f.got.length) = [row.key] := by
        have : f.req.max - f.got.length = 1 := by omega
        rw [this]; rfl
      rw [htake]
      refine ⟨⟨g, by rw [e2, get_setConn, if_pos rfl], hgreq, hggot⟩, ?_, ?_,
        fun id hid => by rw [hs2r]; exact hs1keep id hid, hs2db, hs2o⟩
      · intro id; rw [hs2r, hs1res]; simp
      · intro id hid
        rw [List.mem_singleton.1 hid]
        unfold holder; rw [hs2r]; exact hs1mine
    · rw [if_neg hfull] at e2
      have hnd' := List.nodup_cons.1 (show (row.key :: rows.map ChunkRow.key).Nodup from hnd)
      have hk2 : s2.conns.get c = some { k with fetching := some g } := by rw [e2, get_setConn, if_pos rfl]
      have hfree2 : ∀ r ∈ rows, s2.reserver.isReserved r.key = false := by
        intro r hrm
        rw [hs2r, hs1res, hfree r (List.mem_cons_of_mem _ hrm)]
        have : r.key ≠ row.key := fun h => hnd'.1 (h ▸ List.mem_map_of_mem hrm)
        simp [this]
      have hlt2 : g.got.length < g.req.max := by rw [hgreq]; omega
      have := ih s2 { k with fetching := some g } g hk2 hl rfl hgrows hgj hlt2 hfree2 hnd'.2
        (by rw [hs2db]; exact fun r hrm => hsub r (List.mem_cons_of_mem _ hrm))
        (by rw [hs2r, hs1ttl]; exact ht) n (by simp at hn; omega)
      obtain ⟨⟨f', h1, h2, h3⟩, h4, h5, h8, h6, h7⟩ := this
      have htake : ((row :: rows).map ChunkRow.key).take (f.req.max - f.got.length) =
          row.key :: (rows.map ChunkRow.key).take (g.req.max - g.got.length) := by
        have : f.req.max - f.got.length = (g.req.max - g.got.length) + 1 := by rw [hgreq]; omega
        rw [this]; rfl
      rw [htake]
      generalize (rows.map ChunkRow.key).take (g.req.max - g.got.length) = ids at *
      refine ⟨⟨f', by rw [h1, finishFetch_with], by rw [h2, hgreq], by rw [h3, hggot]; simp⟩, ?_, ?_, ?_,
        by rw [h6, hs2db], fun c' hc' => by rw [h7 c' hc', hs2o c' hc']⟩
      · intro id
        rw [h4, hs2r, hs1res]
        by_cases h1 : id = row.key <;> by_cases h2 : id ∈ ids <;> simp [h1, h2]
      · intro id hid
        rcases List.mem_cons.1 hid with rfl | hid
        · -- the reservation of the first chunk is still there
          have := h8 row.key (by rw [hs2r, hs1res]; simp)
          unfold holder at hs1mine ⊢
          rw [this, hs2r, hs1mine]
        · exact h5 id hid
      · intro id hid
        rw [h8 id (by rw [hs2r, hs1res, hid]; rfl), hs2r, hs1keep id hid]

/-- A request that is served undisturbed. -/
theorem begin_served {s : State} {c : ConnId} {k : ConnState} (hI : Inv s.db)
    (hwf : ∀ key, Map.WF (s.counters.countsOf key)) (ht : 0 < s.reserver.ttl) (hkl : k.live = true)
    (r : Request) (offset : Nat) {n : Nat} (hmax : r.max ≠ 0) (hn : s.db.chunks.length < n) :
    let rows := r.strategy.chunkRows offset s.reserver.isReserved s.counters.countsOf s.db
    let ids := (rows.map ChunkRow.key).take r.max
    let s' := exec (begin s c k r (s.view offset)) (undisturbed c n)
    (ids ≠ [] → s'.conns.get c = some { k.answer r (some ids) with held := k.held ++ ids }) ∧
    (ids = [] → s'.conns.get c = some { k with fetching := none, spawned := k.spawned ++ [r] }) ∧
    (∀ id ∈ ids, holder s' id = some c) ∧
    (∀ id, s'.reserver.isReserved id = true ↔ s.reserver.isReserved id = true ∨ id ∈ ids) ∧
    (ids.length < r.max → ∀ id, ¬ Free s' id) ∧
    (ids = [] ↔ ∀ id, ¬ Free s id) := by
  intro rows ids s'
  have hperm : rows.Perm (s.db.chunks.filter fun c => !s.reserver.isReserved c.key) :=
    chunkRows_perm hI r.strategy offset s.reserver.isReserved hwf
  have hmem : ∀ row, row ∈ rows ↔ row ∈ s.db.chunks ∧ s.reserver.isReserved row.key = false := by
    intro row; rw [hperm.mem_iff, List.mem_filter]; simp
  have hfree : ∀ id, Free s id ↔ id ∈ rows.map ChunkRow.key := by
    intro id
    constructor
    · rintro ⟨⟨row, hrow⟩, hres⟩
      obtain ⟨h1, rfl⟩ := (chunkAt_ok_iff hI.chunkKeys).1 hrow
      exact List.mem_map_of_mem ((hmem row).2 ⟨h1, hres⟩)
    · intro hid
      obtain ⟨row, hrow, rfl⟩ := List.mem_map.1 hid
      obtain ⟨h1, h2⟩ := (hmem row).1 hrow
      exact ⟨⟨row, (chunkAt_ok_iff hI.chunkKeys).2 ⟨h1, rfl⟩⟩, h2⟩
  obtain ⟨s1, hs1⟩ : ∃ s1, s1 = begin s c k r (s.view offset) := ⟨_, rfl⟩
  obtain ⟨k1, hk1⟩ : ∃ k1 : ConnState, k1 = { k with fetching := some { req := r, rows := rows } } := ⟨_, rfl⟩
  have e1 : s1 = s.setConn c k1 := by
    rw [hs1, hk1]; unfold begin; rw [if_neg hmax]; rfl
  have hs1c : s1.conns.get c = some k1 := by rw [e1, get_setConn, if_pos rfl]
  have hkeys : (rows.map ChunkRow.key).Nodup := by
    have : (s.db.chunks.filter fun c => !s.reserver.isReserved c.key).map ChunkRow.key |>.Nodup :=
      hI.chunkKeys.sublist (List.filter_sublist.map _)
    exact (hperm.map _).nodup_iff.2 this
  have hlen : rows.length < n := by
    have h1 := hperm.length_eq
    have h2 := List.length_filter_le (fun c : ChunkRow => !s.reserver.isReserved c.key) s.db.chunks
    omega
  have hF := fetch_loop c rows s1 k1 { req := r, rows := rows } hs1c (by rw [hk1]; exact hkl)
    (by rw [hk1]) rfl rfl (Nat.pos_of_ne_zero hmax)
    (by intro row hrow; rw [e1]; exact ((hmem row).1 hrow).2) hkeys
    (by
      intro row hrow
      obtain ⟨sub, hsub, he, _⟩ := hI.owner row ((hmem row).1 hrow).1
      rw [e1]
      show ∃ sub, (SubmissionDb.getSubmission row.submissionId ⟨[], s.db⟩).1 = .ok sub
      rw [← he]
      exact getSubmission_ok hI hsub)
    (by rw [e1]; exact ht) n hlen
  have es' : s' = exec s1 (undisturbed c n) := by rw [hs1]
  rw [← es'] at hF
  have hids : (rows.map ChunkRow.key).take (r.max - 0) = ids := by rw [Nat.sub_zero]
  replace hF : FetchResult s1 c k1 { req := r, rows := rows } ids s' := by
    rw [← hids]; exact hF
  clear_value s'
  obtain ⟨⟨f', h1, h2, h3⟩, h4, h5, h8, h6, h7⟩ := hF
  have hres : ∀ id, s'.reserver.isReserved id = true ↔ s.reserver.isReserved id = true ∨ id ∈ ids := by
    intro id
    rw [h4, e1]
    simp [State.setConn]
  have hgot : f'.got = ids := by rw [h3]; rfl
  have hreq : f'.req = r := h2
  refine ⟨?_, ?_, h5, hres, ?_, ?_⟩
  · intro hne
    rw [h1]
    unfold finishFetch
    rw [hgot, hreq]
    cases hi : ids with
    | nil => exact absurd hi hne
    | cons x xs => rw [hk1]; rfl
  · intro he
    rw [h1]
    unfold finishFetch
    rw [hgot, he, hreq, hk1]
  · intro hlt id hfr
    have htake : ids = rows.map ChunkRow.key := by
      refine List.take_of_length_le ?_
      have : ids.length = min r.max (rows.map ChunkRow.key).length := List.length_take
      omega
    have hdb' : s'.db = s.db := by rw [h6, e1]; rfl
    have hfs : Free s id := by
      refine ⟨by rw [← hdb']; exact hfr.1, ?_⟩
      cases hr : s.reserver.isReserved id with
      | false => rfl
      | true => have := (hres id).2 (.inl hr); rw [hfr.2] at this; cases this
    have := (hres id).2 (.inr (by rw [htake]; exact (hfree id).1 hfs))
    rw [hfr.2] at this; cases this
  · constructor
    · intro he id hfr
      have := (hfree id).1 hfr
      rcases List.take_eq_nil_iff.1 he with h0 | h0
      · exact hmax h0
      · rw [h0] at this; cases this
    · intro hno
      have : rows.map ChunkRow.key = [] := by
        rw [List.eq_nil_iff_forall_not_mem]
        intro id hid
        exact hno id ((hfree id).2 hid)
      show List.take _ (rows.map ChunkRow.key) = []
      rw [this, List.take_nil]

end Opsqueue.Server
