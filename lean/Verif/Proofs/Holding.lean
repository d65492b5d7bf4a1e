import Verif.Proofs.Fetch

/-!
# Lemmas about the chunks a connection holds
-/

namespace Opsqueue.Server
open Conn (Request Response Report)

theorem get_setConn_self (s : State) (c : ConnId) (k : ConnState) :
    (s.setConn c k).conns.get c = some k := (get_setConn s c c k).trans (if_pos rfl)

/-- The chunks taken by the running fetch. -/
def ConnState.taken (k : ConnState) : List ChunkId := (k.fetching.map Fetching.taken).getD []

/-- What an action on a connection that stays up does to it. -/
structure OwnLive (s : State) (a : Action) (c : ConnId) (k k' : ConnState) : Prop where
  live : k'.live = true
  held : ∃ new, k'.held = k.held ++ new ∧ ∀ id ∈ new, id ∈ k.taken
  answers : k'.answers = k.answers ∨ ∃ n r, k'.answers = k.answers ++ [(n, r)] ∧
    ∀ ids, r = some ids → ∀ id ∈ ids, id ∈ k'.held
  taken : ∀ id ∈ k'.taken, id ∈ k.taken ∨ (a = .row c ∧ s.reserver.isReserved id = false ∧
    (0 < s.reserver.ttl → holder (step s a) id = some c))

theorem taken_finishFetch (k : ConnState) (f : Fetching) : (finishFetch k f).taken = [] := by
  unfold ConnState.taken; rw [finishFetch_fetching]; rfl

theorem ownLive_finish {s : State} {a : Action} {c : ConnId} {k : ConnState} {f : Fetching}
    (hl : k.live = true) (hg : ∀ id ∈ f.got, id ∈ k.taken) : OwnLive s a c k (finishFetch k f) := by
  have ht := taken_finishFetch k f
  refine ⟨?_, ?_, ?_, by rw [ht]; intro id h; cases h⟩
  · unfold finishFetch; cases f.got <;> exact hl
  · unfold finishFetch
    cases hgg : f.got with
    | nil => exact ⟨[], (List.append_nil _).symm, fun id h => by cases h⟩
    | cons x xs => exact ⟨x :: xs, rfl, fun id h => hg id (by rw [hgg]; exact h)⟩
  · unfold finishFetch
    cases hgg : f.got with
    | nil => exact .inl rfl
    | cons x xs =>
      refine .inr ⟨f.req.nonce, some (x :: xs), rfl, ?_⟩
      intro ids hi id hid
      cases hi
      exact List.mem_append_right _ hid

theorem ownLive_keep {s : State} {a : Action} {c : ConnId} {k k' : ConnState}
    (hl : k'.live = true) (hh : k'.held = k.held) (ha : k'.answers = k.answers)
    (ht : ∀ id ∈ k'.taken, id ∈ k.taken ∨ (a = .row c ∧ s.reserver.isReserved id = false ∧
    (0 < s.reserver.ttl → holder (step s a) id = some c))) :
    OwnLive s a c k k' :=
  ⟨hl, ⟨[], by rw [hh, List.append_nil], fun id h => by cases h⟩, .inl ha, ht⟩

theorem ownLive_same {s : State} {a : Action} {c : ConnId} {k : ConnState} (hl : k.live = true) :
    OwnLive s a c k k := ownLive_keep hl rfl rfl fun _ h => .inl h

theorem taken_of {k : ConnState} {f : Fetching} (h : k.fetching = some f) : k.taken = f.taken := by
  unfold ConnState.taken; rw [h]; rfl

theorem ownLive_begin {s : State} {a : Action} {c : ConnId} {k k0 : ConnState} {r : Request} {v : View}
    (hl : k.live = true) (h0 : k0.live = k.live ∧ k0.held = k.held ∧ k0.answers = k.answers) :
    ∃ k', (begin s c k0 r v).conns.get c = some k' ∧ OwnLive s a c k k' := by
  unfold begin
  split
  · refine ⟨_, get_setConn_self _ _ _, ?_⟩
    refine ⟨h0.1.trans hl, ⟨[], ?_, fun id h => by cases h⟩, .inr ⟨r.nonce, none, ?_, fun ids h => by cases h⟩, ?_⟩
    · rw [List.append_nil]; exact h0.2.1
    · rw [← h0.2.2]; rfl
    · intro id h; cases h
  · refine ⟨_, get_setConn_self _ _ _, ?_⟩
    refine ownLive_keep (h0.1.trans hl) h0.2.1 h0.2.2 ?_
    intro id h; cases h

/-- What an action on a connection does to it. -/
theorem own_step' {s : State} {a : Action} {c : ConnId} {k : ConnState} (hk : s.conn c = some k)
    (ha : a.actor = some c) :
    (step s a = dropConn s c k ∧ (a = .disconnect c ∨ ∃ f id, a = .join c ∧ k.fetching = some f ∧
      f.joining = some id ∧ ∀ sub, (SubmissionDb.getSubmission id.submissionId ⟨[], s.db⟩).1 ≠ .ok sub)) ∨
    ∃ k', (step s a).conns.get c = some k' ∧ OwnLive s a c k k' := by
  obtain ⟨hkc, hkl⟩ := conn_eq.1 hk
  have same : step s a = s → ∃ k', (step s a).conns.get c = some k' ∧ OwnLive s a c k k' :=
    fun h => ⟨k, by rw [h]; exact hkc, ownLive_same hkl⟩
  cases a with
  | connect c' =>
    cases ha; right; apply same
    simp only [step]; rw [hkc]
  | request c' r v =>
    cases ha; right
    cases hf : k.fetching with
    | some f => exact same (idle_noop hk hf _)
    | none => rw [request_cases hk hf]; exact ownLive_begin hkl ⟨rfl, rfl, rfl⟩
  | retry c' v =>
    cases ha; right
    cases hf : k.fetching with
    | some f => exact same (idle_noop hk hf _)
    | none =>
      cases hr : k.retry with
      | nil => apply same; simp [step, State.withIdle, State.withConn, hk, hf, hr]
      | cons r rest =>
        have : step s (.retry c v) = begin s c { k with retry := rest } r v := by
          simp [step, State.withIdle, State.withConn, hk, hf, hr]
        rw [this]
        exact ownLive_begin hkl ⟨rfl, rfl, rfl⟩
  | row c' =>
    cases ha; right
    cases hf : k.fetching with
    | none => apply same; simp [step, State.withFetch, State.withConn, hk, hf]
    | some f =>
      have hkt := taken_of hf
      rcases row_cases hk hf with ⟨hj, hs⟩ | ⟨hj, hr, hs⟩ | ⟨row, rest, hj, hr, ⟨hres, hs⟩ | ⟨hres, hs⟩⟩
      · exact same hs
      · rw [hs]
        refine ⟨_, get_setConn_self _ _ _, ownLive_finish hkl ?_⟩
        intro id hid; rw [hkt]; exact List.mem_append_left _ hid
      · rw [hs]
        refine ⟨_, get_setConn_self _ _ _, ownLive_keep hkl rfl rfl ?_⟩
        intro id hid; rw [hkt]; left; exact hid
      · rw [hs]
        refine ⟨_, get_setConn_self _ _ _, ownLive_keep hkl rfl rfl ?_⟩
        intro id hid
        replace hid : id ∈ f.got ++ [row.key] := hid
        rcases List.mem_append.1 hid with h | h
        · left; rw [hkt]; exact List.mem_append_left _ h
        · right; rw [List.mem_singleton.1 h]
          refine ⟨rfl, hres, fun ht => ?_⟩
          rw [hs]; exact holder_tryReserve ht hres
  | join c' =>
    cases ha
    cases hf : k.fetching with
    | none => right; apply same; simp [step, State.withFetch, State.withConn, hk, hf]
    | some f =>
      have hkt := taken_of hf
      rcases join_cases hk hf with ⟨hj, hs⟩ | ⟨id, hj, ⟨sub, hsub, hs⟩ | ⟨hsub, hs⟩⟩
      · right; exact same hs
      · right
        have hgot : ∀ i ∈ (f.joined id).got, i ∈ k.taken := by
          intro i hi; rw [hkt]; unfold Fetching.taken; rw [hj]; exact hi
        rw [hs]
        refine ⟨_, get_setConn_self _ _ _, ?_⟩
        split
        · exact ownLive_finish hkl hgot
        · refine ownLive_keep hkl rfl rfl ?_
          intro i hi; left
          refine hgot i ?_
          replace hi : i ∈ (f.joined id).got ++ [] := hi
          rwa [List.append_nil] at hi
      · left; exact ⟨hs, .inr ⟨f, id, rfl, rfl, hj, hsub⟩⟩
  | fetchFails c' =>
    cases ha; right
    cases hf : k.fetching with
    | none => apply same; simp [step, State.withFetch, State.withConn, hk, hf]
    | some f =>
      simp only [step]
      rw [withFetch_eq hk hf]
      refine ⟨_, get_setConn_self _ _ _, hkl, ⟨[], (List.append_nil _).symm, fun id h => by cases h⟩,
        .inr ⟨f.req.nonce, some [], rfl, ?_⟩, fun id h => by cases h⟩
      intro ids hi id hid; cases hi; cases hid
  | register c' i =>
    cases ha; right
    cases hr : k.spawned[i]? with
    | none => apply same; simp [step, State.withConn, hk, hr]
    | some r =>
      simp only [step, State.withConn, hk, hr]
      exact ⟨_, get_setConn_self _ _ _, ownLive_keep hkl rfl rfl fun _ h => .inl h⟩
  | report c' r =>
    right
    refine ⟨k, ?_, ownLive_same hkl⟩
    simp only [step, State.withIdle, State.withConn]
    repeat' split
    all_goals exact hkc
  | disconnect c' =>
    cases ha
    left; exact ⟨by simp [step, State.withConn, hk], .inl rfl⟩
  | _ => cases ha

theorem own_step {s : State} {a : Action} {c : ConnId} {k : ConnState} (hk : s.conn c = some k)
    (ha : a.actor = some c) :
    step s a = dropConn s c k ∨ ∃ k', (step s a).conns.get c = some k' ∧ OwnLive s a c k k' :=
  (own_step' hk ha).imp And.left id

theorem lookup_finishSync {r : Reserver ChunkId ChunkId ConnId} {ids : List ChunkId} {id : ChunkId}
    (h : id ∈ ids ∨ r.cache.get id = none) :
    (finishReservationsSync r ids).lookup id = none := by
  unfold finishReservationsSync
  induction ids generalizing r with
  | nil =>
    rcases h with h | h
    · cases h
    · simp [Reserver.lookup, h]
  | cons i ids ih =>
    refine ih ?_
    unfold Reserver.finishSync
    rw [Reserver.drop_get]
    by_cases hi : i = id
    · right; rw [if_pos hi]
    · rcases h with h | h
      · rcases List.mem_cons.1 h with h | h
        · exact absurd h.symm hi
        · exact .inl h
      · right; rw [if_neg hi]; exact h

/-- A connection that ends gives back what it holds. -/
theorem ends_step {s : State} {a : Action} {c : ConnId} {k : ConnState} (hk : s.conn c = some k)
    (hend : (step s a).conn c = none) :
    ∀ id ∈ k.held, (step s a).reserver.lookup id = none := by
  intro id hid
  obtain ⟨hkc, hkl⟩ := conn_eq.1 hk
  have dead : ∀ k', (step s a).conns.get c = some k' → k'.live = true → False := fun k' h1 h2 => by
    have := conn_eq.2 ⟨h1, h2⟩; rw [hend] at this; cases this
  by_cases ha : a.actor = some c
  · rcases own_step hk ha with h | ⟨k', h1, h2⟩
    · rw [h]; exact lookup_finishSync (.inl hid)
    · exact (dead k' h1 h2.live).elim
  · obtain ⟨k', h1, h2⟩ := passive_step hkc ha
    cases h2 with
    | same => exact (dead _ h1 hkl).elim
    | wake => exact (dead _ h1 hkl).elim
    | unhold => exact (dead _ h1 hkl).elim
    | crashed h => rw [h]; rfl

/-- A connection that stays up keeps what it holds unless its report on it is dealt with. -/
theorem held_step {s : State} {a : Action} {c : ConnId} {k k' : ConnState} (hk : s.conn c = some k)
    (hk' : (step s a).conn c = some k') {id : ChunkId} (hid : id ∈ k.held)
    (hp : ∀ d, s.completing ≠ some (c, id, d)) : id ∈ k'.held := by
  obtain ⟨hkc, hkl⟩ := conn_eq.1 hk
  obtain ⟨hkc', hkl'⟩ := conn_eq.1 hk'
  by_cases ha : a.actor = some c
  · rcases own_step hk ha with h | ⟨k2, h1, h2⟩
    · rw [h] at hkc'
      unfold dropConn at hkc'
      replace hkc' : Map.get (Map.set _ _ _) _ = _ := hkc'
      rw [Map.get_set, if_pos rfl] at hkc'
      cases hkc'; cases hkl'
    · rw [hkc'] at h1; cases h1
      obtain ⟨new, h3, _⟩ := h2.held
      rw [h3]; exact List.mem_append_left _ hid
  · obtain ⟨k2, h1, h2⟩ := passive_step hkc ha
    rw [hkc'] at h1; cases h1
    cases h2 with
    | same => exact hid
    | wake => exact hid
    | unhold id' d b _ hc =>
      refine List.mem_filter.2 ⟨hid, ?_⟩
      have : id ≠ id' := fun h => hp d (by rw [h]; exact hc)
      simpa using this
    | crashed h => cases hkl'

/-- A connection that is down stays down. -/
theorem dead_step {s : State} {a : Action} {c : ConnId} {k : ConnState}
    (hk : s.conns.get c = some k) (hl : k.live = false) :
    ∃ k', (step s a).conns.get c = some k' ∧ k'.live = false := by
  by_cases ha : a.actor = some c
  · have hn : s.conn c = none := by unfold State.conn; rw [hk]; simp [hl]
    refine ⟨k, ?_, hl⟩
    rw [← hk]
    cases a with
    | connect c' => cases ha; simp only [step]; rw [hk]; exact hk
    | _ => first
      | (cases ha; simp [step, State.withIdle, State.withConn, State.withFetch, hn])
      | (cases ha)
  · obtain ⟨k2, h1, h2⟩ := passive_step hk ha
    refine ⟨k2, h1, ?_⟩
    cases h2 <;> first | exact hl | rfl

theorem conns_none_dbCall {s : State} {op : Op} {c : ConnId} (hk : s.conns.get c = none) :
    (dbCall s op).2.conns.get c = none := by
  obtain ⟨h1, h2, h3, h4, h5⟩ := dbCall_spec s op
  cases hc : (Opsqueue.step s.db op).1.crashed with
  | false => rw [h4 hc]; exact hk
  | true => rw [h5 hc, get_restart]; show Option.map _ (s.conns.get c) = none; rw [hk]; rfl

theorem conns_none {s : State} {a : Action} {c : ConnId} (hk : s.conns.get c = none)
    (ha : a.actor ≠ some c) : (step s a).conns.get c = none := by
  cases a with
  | handle w n1 n2 n3 o =>
    simp only [step]
    rcases handle_cases s w n1 n2 n3 o with h | ⟨c', r, queue, hcomp, hq, h⟩
    · rw [h]; exact hk
    · rcases h with ⟨_, h⟩ | ⟨_, h1, h2⟩
      · rw [h]; exact hk
      · have hk' : Map.get ({ s with queue := queue } : State).conns c = none := hk
        have := conns_none_dbCall (op := reportOp s.maxRetries n1 n2 n3 o r) hk'
        cases hc : (dbCall { s with queue := queue } (reportOp s.maxRetries n1 n2 n3 o r)).1.crashed with
        | true => rw [h1 hc]; exact this
        | false => rw [h2 hc]; exact this
  | producer call =>
    have := conns_none_dbCall (op := call.op) hk
    obtain ⟨-, ⟨id, hi, h⟩ | ⟨hi, h⟩⟩ := producer_cases s call
    · rw [h]; exact this
    · rw [h]; exact this
  | release b =>
    simp only [step, release]
    cases hcomp : s.completing with
    | none => exact hk
    | some p =>
      obtain ⟨c', id, d⟩ := p
      dsimp only
      cases hg : s.conns.get c' with
      | none => exact hk
      | some k' =>
        dsimp only
        have : c' ≠ c := by rintro rfl; rw [hk] at hg; cases hg
        rw [Map.get_set, if_neg this]; exact hk
  | notify =>
    simp only [step]
    cases s.notifies with
    | zero => exact hk
    | succ n => dsimp only; rw [get_mapValues s.conns ConnState.wake, hk]; rfl
  | tick t => exact hk
  | _ c' =>
    have hne : c' ≠ c := fun h => ha (by rw [h]; rfl)
    simp only [step, State.withIdle, State.withFetch, State.withConn, begin, fetchRow, fetchJoin,
      dropConn]
    repeat' split
    all_goals first
      | exact hk
      | (rw [get_setConn, if_neg hne]; exact hk)
      | (show Map.get (Map.set _ _ _) _ = _; rw [Map.get_set, if_neg hne]; exact hk)

/-- Reports arrive only as such. -/
theorem queue_step (s : State) (a : Action) :
    ((step s a).queue = s.queue ∧ (step s a).completing = s.completing) ∨
    ((step s a).queue = [] ∧ (step s a).completing = none) ∨
    (∃ c r, a = .report c r ∧ (step s a).queue = s.queue ++ [(c, r)] ∧
      (step s a).completing = s.completing) ∨
    (∃ b, a = .release b ∧ (step s a).queue = s.queue ∧ (step s a).completing = none) ∨
    (∃ w n1 n2 n3 o c r queue, a = .handle w n1 n2 n3 o ∧ s.completing = none ∧
      s.queue = (c, r) :: queue ∧ (step s a).queue = queue ∧
      ((w = false ∧ (step s a).completing = none ∧ (step s a).calls = s.calls) ∨
       (w = true ∧ (step s a).calls = s.calls ++ [reportOp s.maxRetries n1 n2 n3 o r] ∧
         ∃ d, (step s a).completing = some (c, r.id, d)))) := by
  cases a with
  | report c r =>
    simp only [step, State.withIdle, State.withConn]
    repeat' split
    · exact .inl ⟨rfl, rfl⟩
    · exact .inl ⟨rfl, rfl⟩
    · exact .inr (.inr (.inl ⟨c, r, rfl, rfl, rfl⟩))
  | release b =>
    simp only [step, release]
    cases hc : s.completing with
    | none => exact .inl ⟨rfl, hc⟩
    | some p => exact .inr (.inr (.inr (.inl ⟨b, rfl, rfl, rfl⟩)))
  | handle w n1 n2 n3 o =>
    simp only [step]
    rcases handle_cases s w n1 n2 n3 o with h | ⟨c', r, queue, hcomp, hq, h⟩
    · left; rw [h]; exact ⟨rfl, rfl⟩
    · rcases h with ⟨hw, h⟩ | ⟨hw, h1, h2⟩
      · right; right; right; right
        rw [h]
        exact ⟨w, n1, n2, n3, o, c', r, queue, rfl, hcomp, hq, rfl, .inl ⟨hw, hcomp, rfl⟩⟩
      · cases hc : (dbCall { s with queue := queue } (reportOp s.maxRetries n1 n2 n3 o r)).1.crashed with
        | true =>
          right; left; rw [h1 hc]
          have := wiped_dbCall hc
          exact ⟨this.2.2.1, this.2.2.2.1⟩
        | false =>
          right; right; right; right
          rw [h2 hc]; dsimp only; rw [dbCall_ok hc]
          exact ⟨w, n1, n2, n3, o, c', r, queue, rfl, hcomp, hq, rfl, .inr ⟨hw, rfl, _, rfl⟩⟩
  | producer call =>
    obtain ⟨h1, ⟨id, hi, h⟩ | ⟨hi, h⟩⟩ := producer_cases s call
    · left; rw [h]
      have : (dbCall s call.op).1.crashed = false := by rw [hi]; rfl
      dsimp only
      rw [dbCall_ok this]; exact ⟨rfl, rfl⟩
    · cases hc : (dbCall s call.op).1.crashed with
      | true =>
        right; left; rw [h]
        have := wiped_dbCall hc
        exact ⟨this.2.2.1, this.2.2.2.1⟩
      | false => left; rw [h, dbCall_ok hc]; exact ⟨rfl, rfl⟩
  | _ =>
    left
    simp only [step, State.withIdle, State.withFetch, State.withConn, begin, fetchRow, fetchJoin]
    repeat' split
    all_goals first | exact ⟨rfl, rfl⟩ | simp

theorem reportPending_step {s : State} {a : Action} {c : ConnId} {id : ChunkId}
    (h : ReportPending (step s a) c id) (ha : a.reportsOnBy c id = false) : ReportPending s c id := by
  rcases queue_step s a with ⟨h1, h2⟩ | ⟨h1, h2⟩ | ⟨c', r, rfl, h1, h2⟩ | ⟨b, rfl, h1, h2⟩ |
    ⟨w, n1, n2, n3, o, c', r, queue, rfl, hc, hq, h1, h2⟩
  · unfold ReportPending at *; rwa [h1, h2] at h
  · unfold ReportPending at h; rw [h1, h2] at h
    rcases h with ⟨_, h, _⟩ | ⟨_, h⟩ <;> cases h
  · unfold ReportPending at *; rw [h1, h2] at h
    rcases h with ⟨r', h, hr⟩ | h
    · rcases List.mem_append.1 h with h | h
      · exact .inl ⟨r', h, hr⟩
      · exfalso
        simp only [List.mem_singleton, Prod.mk.injEq] at h
        obtain ⟨rfl, rfl⟩ := h
        simp [Action.reportsOnBy, hr] at ha
    · exact .inr h
  · unfold ReportPending at *; rw [h1, h2] at h
    rcases h with h | ⟨_, h⟩
    · exact .inl h
    · cases h
  · unfold ReportPending at *; rw [h1] at h
    left
    rcases h with ⟨r', h, hr⟩ | ⟨d, h⟩
    · exact ⟨r', by rw [hq]; exact List.mem_cons_of_mem _ h, hr⟩
    · rcases h2 with ⟨_, h2, _⟩ | ⟨_, _, d', h2⟩
      · rw [h2] at h; cases h
      · rw [h2] at h; cases h
        exact ⟨r, by rw [hq]; exact List.mem_cons_self, rfl⟩

theorem conn_isSome_back {s : State} {a : Action} {c : ConnId} {k : ConnState}
    (hk : s.conns.get c = some k) (h : ((step s a).conn c).isSome) : s.conn c = some k := by
  cases hl : k.live with
  | true => exact conn_eq.2 ⟨hk, hl⟩
  | false =>
    obtain ⟨k', h1, h2⟩ := dead_step (a := a) hk hl
    exfalso
    unfold State.conn at h; rw [h1] at h; simp [h2] at h

theorem get_isSome_step {s : State} {a : Action} {c : ConnId} {k : ConnState}
    (hk : s.conns.get c = some k) : ∃ k', (step s a).conns.get c = some k' := by
  cases hl : k.live with
  | false => obtain ⟨k', h, _⟩ := dead_step (a := a) hk hl; exact ⟨k', h⟩
  | true =>
    by_cases ha : a.actor = some c
    · rcases own_step (conn_eq.2 ⟨hk, hl⟩) ha with h | ⟨k', h, _⟩
      · rw [h]; unfold dropConn
        exact ⟨_, by show Map.get (Map.set _ _ _) _ = _; rw [Map.get_set, if_pos rfl]⟩
      · exact ⟨k', h⟩
    · obtain ⟨k', h, _⟩ := passive_step hk ha; exact ⟨k', h⟩

theorem live_back {s : State} {c : ConnId} {k : ConnState} (hk : s.conns.get c = some k)
    (es : List Action) (h : ((exec s es).conn c).isSome) : s.conn c = some k := by
  induction es generalizing s k with
  | nil =>
    replace h : (s.conn c).isSome := h
    obtain ⟨k', h'⟩ := Option.isSome_iff_exists.1 h
    have := (conn_eq.1 h').1; rw [hk] at this; cases this; exact h'
  | cons a es ih =>
    obtain ⟨k', h1⟩ := get_isSome_step (a := a) hk
    exact conn_isSome_back hk (by rw [ih h1 h]; rfl)

/-- A consumer that has not reported on a chunk it holds still holds it. -/
theorem held_exec {s : State} {c : ConnId} {k : ConnState} {id : ChunkId} (hk : s.conn c = some k)
    (hid : id ∈ k.held) (hp : ¬ ReportPending s c id) (es : List Action)
    (hes : ∀ a ∈ es, a.reportsOnBy c id = false) (hl : ((exec s es).conn c).isSome) :
    ∃ k', (exec s es).conn c = some k' ∧ id ∈ k'.held := by
  induction es generalizing s k with
  | nil => exact ⟨k, hk, hid⟩
  | cons a es ih =>
    obtain ⟨k1, h1⟩ := get_isSome_step (a := a) (conn_eq.1 hk).1
    have hk1 := live_back h1 es hl
    exact ih hk1 (held_step hk hk1 hid fun d h => hp (.inr ⟨d, h⟩))
      (fun h => hp (reportPending_step h (hes a List.mem_cons_self)))
      (fun b hb => hes b (List.mem_cons_of_mem _ hb)) hl

/-- A consumer that was answered holds the chunks. -/
theorem answered_held {s : State} {a : Action} {c : ConnId} {n : Nat} {ids : List ChunkId}
    (hans : answersTo (step s a) c = answersTo s c ++ [(n, some ids)]) :
    ∃ k, (step s a).conn c = some k ∧ ∀ id ∈ ids, id ∈ k.held := by
  have hno : answersTo (step s a) c ≠ answersTo s c := by
    rw [hans]; intro h
    have := congrArg List.length h
    simp at this
  cases hk : s.conns.get c with
  | none =>
    exfalso
    by_cases ha : a.actor = some c
    · have hn : s.conn c = none := by unfold State.conn; rw [hk]; rfl
      apply hno
      unfold answersTo
      cases a with
      | connect c' => cases ha; simp only [step]; rw [hk]; dsimp only; rw [get_setConn, if_pos rfl]; rfl
      | _ => first
        | (cases ha; simp [step, State.withIdle, State.withConn, State.withFetch, hn])
        | (cases ha)
    · apply hno
      unfold answersTo
      rw [hk]
      rw [conns_none hk ha]
  | some k =>
    have h0 : answersTo s c = k.answers := by unfold answersTo; rw [hk]; rfl
    by_cases ha : a.actor = some c
    · cases hl : k.live with
      | false =>
        exfalso; apply hno
        have hn : s.conn c = none := by unfold State.conn; rw [hk]; simp [hl]
        cases a with
        | connect c' => cases ha; simp only [step]; rw [hk]
        | _ => first
          | (cases ha; simp [step, State.withIdle, State.withConn, State.withFetch, hn])
          | (cases ha)
      | true =>
        rcases own_step (conn_eq.2 ⟨hk, hl⟩) ha with h | ⟨k', h1, h2⟩
        · exfalso; apply hno
          rw [h, h0]; unfold answersTo dropConn; simp [Map.get_set]
        · have h3 : answersTo (step s a) c = k'.answers := by unfold answersTo; rw [h1]; rfl
          rw [h3, h0] at hans
          refine ⟨k', conn_eq.2 ⟨h1, h2.live⟩, ?_⟩
          rcases h2.answers with h | ⟨n', r, h, hr⟩
          · rw [h] at hans
            have := congrArg List.length hans
            simp at this
          · rw [h] at hans
            have := List.append_cancel_left hans
            simp only [List.cons.injEq, Prod.mk.injEq, and_true] at this
            exact hr ids this.2
    · exfalso; apply hno
      obtain ⟨k', h1, h2⟩ := passive_step hk ha
      rw [h0]; unfold answersTo; rw [h1]
      cases h2 <;> rfl

/-! ### The other consumers -/

/-- The chunks a connection holds or is being given. -/
def ConnState.claims (k : ConnState) : List ChunkId := k.held ++ k.taken

/-- Connections get chunks only by taking those that are not reserved. -/
theorem claims_step {s : State} {a : Action} {c : ConnId} {k' : ConnState} {id : ChunkId}
    (hk' : (step s a).conns.get c = some k') (hid : id ∈ k'.claims) :
    (∃ k, s.conns.get c = some k ∧ id ∈ k.claims) ∨
    (a = .row c ∧ s.reserver.isReserved id = false ∧
      (0 < s.reserver.ttl → holder (step s a) id = some c)) := by
  cases hk : s.conns.get c with
  | none =>
    exfalso
    by_cases ha : a.actor = some c
    · have hn : s.conn c = none := by unfold State.conn; rw [hk]; rfl
      cases a with
      | connect c' =>
        cases ha; simp only [step] at hk'; rw [hk] at hk'; dsimp only at hk'
        rw [get_setConn_self] at hk'
        cases hk'; cases hid
      | _ => first
        | (cases ha; simp [step, State.withIdle, State.withConn, State.withFetch, hn, hk] at hk'; done)
        | (cases ha)
    · rw [conns_none hk ha] at hk'; cases hk'
  | some k =>
    cases hl : k.live with
    | false =>
      by_cases ha : a.actor = some c
      · left
        refine ⟨k, rfl, ?_⟩
        have hn : s.conn c = none := by unfold State.conn; rw [hk]; simp [hl]
        have : (step s a).conns.get c = some k := by
          cases a with
          | connect c' => cases ha; simp only [step]; rw [hk]; exact hk
          | _ => first
            | (cases ha; simp [step, State.withIdle, State.withConn, State.withFetch, hn, hk]; done)
            | (cases ha)
        rw [hk'] at this; cases this; exact hid
      · left
        refine ⟨k, rfl, ?_⟩
        obtain ⟨k2, h1, h2⟩ := passive_step hk ha
        rw [hk'] at h1; cases h1
        cases h2 with
        | same => exact hid
        | wake => exact hid
        | unhold id' d b _ hc =>
          rcases List.mem_append.1 hid with h | h
          · exact List.mem_append_left _ (List.mem_filter.1 h).1
          · exact List.mem_append_right _ h
        | crashed h => cases hid
    | true =>
      by_cases ha : a.actor = some c
      · rcases own_step (conn_eq.2 ⟨hk, hl⟩) ha with h | ⟨k2, h1, h2⟩
        · exfalso
          rw [h] at hk'
          unfold dropConn at hk'
          replace hk' : Map.get (Map.set _ _ _) _ = _ := hk'
          rw [Map.get_set, if_pos rfl] at hk'
          cases hk'; cases hid
        · rw [hk'] at h1; cases h1
          rcases List.mem_append.1 hid with h | h
          · obtain ⟨new, h3, h4⟩ := h2.held
            rw [h3] at h
            left; refine ⟨k, rfl, ?_⟩
            rcases List.mem_append.1 h with h | h
            · exact List.mem_append_left _ h
            · exact List.mem_append_right _ (h4 id h)
          · rcases h2.taken id h with h | ⟨h, h'⟩
            · left; exact ⟨k, rfl, List.mem_append_right _ h⟩
            · right; exact ⟨h, h'⟩
      · left
        refine ⟨k, rfl, ?_⟩
        obtain ⟨k2, h1, h2⟩ := passive_step hk ha
        rw [hk'] at h1; cases h1
        cases h2 with
        | same => exact hid
        | wake => exact hid
        | unhold id' d b _ hc =>
          rcases List.mem_append.1 hid with h | h
          · exact List.mem_append_left _ (List.mem_filter.1 h).1
          · exact List.mem_append_right _ h
        | crashed h => cases hid

theorem pending_step {r : Reserver ChunkId ChunkId ConnId} {op : Reserver.Op ChunkId ChunkId ConnId}
    {p : ChunkId × Nat} (h : p ∈ (r.step op).pending) :
    p ∈ r.pending ∨ op = .finish p.1 true ∨ op = .schedule p.1 := by
  cases op with
  | finish k d =>
    simp only [Reserver.step, Reserver.finish] at h
    split at h
    · exact .inl h
    · cases d with
      | false => simp at h; exact .inl h
      | true =>
        simp only [Reserver.schedule, if_true, List.mem_append, List.mem_singleton] at h
        rcases h with h | h
        · exact .inl h
        · right; left; rw [h]
  | schedule k =>
    simp only [Reserver.step, Reserver.schedule, List.mem_append, List.mem_singleton] at h
    rcases h with h | h
    · exact .inl h
    · right; right; rw [h]
  | advance d => exact .inl h
  | tryReserve k v s =>
    left
    simp only [Reserver.step, Reserver.tryReserve] at h
    split at h
    · exact h
    · simpa using h
  | finishSync k => left; simpa [Reserver.step, Reserver.finishSync] using h
  | purgeNext =>
    left
    simp only [Reserver.step] at h
    cases hd : r.due with
    | nil => rwa [Reserver.purgeNext_nil hd] at h
    | cons q qs =>
      rw [(Reserver.purgeNext_cons hd).1, Reserver.drop_with_pending] at h
      exact List.mem_of_mem_eraseP h
  | runPendingTasks =>
    left
    simp only [Reserver.step, Reserver.runPendingTasks] at h
    rw [Reserver.purge_eq] at h
    have h0 : ∀ q, q ∈ ({ r with pending := r.pending.filter fun p => !decide (p.2 ≤ r.now) } :
        Reserver ChunkId ChunkId ConnId).pending → q ∈ r.pending := fun q hq => (List.mem_filter.1 hq).1
    generalize ({ r with pending := r.pending.filter fun p => !decide (p.2 ≤ r.now) } :
        Reserver ChunkId ChunkId ConnId) = r0 at *
    have h1 : ∀ (ds : List (ChunkId × Nat)) (r0 : Reserver ChunkId ChunkId ConnId),
        (ds.foldl (fun r p => r.drop p.1) r0).pending = r0.pending := by
      intro ds
      induction ds with
      | nil => intro r0; rfl
      | cons d ds ih => intro r0; simp only [List.foldl_cons]; rw [ih]; simp
    have h2 : ∀ (ks : List ChunkId) (r0 : Reserver ChunkId ChunkId ConnId),
        (ks.foldl Reserver.evict r0).pending = r0.pending := by
      intro ks
      induction ks with
      | nil => intro r0; rfl
      | cons d ds ih =>
        intro r0; simp only [List.foldl_cons]; rw [ih]
        unfold Reserver.evict; repeat' split
        all_goals simp
    rw [h2, h1] at h
    exact h0 p h
  | evict k =>
    left
    simp only [Reserver.step, Reserver.evict] at h
    repeat' split at h
    all_goals simpa using h

theorem pending_finishSync {r : Reserver ChunkId ChunkId ConnId} (ids : List ChunkId) :
    (r.exec (ids.map .finishSync)).pending = r.pending := by
  induction ids generalizing r with
  | nil => rfl
  | cons i ids ih =>
    show ((r.finishSync i).exec (ids.map .finishSync)).pending = _
    rw [ih]; simp [Reserver.finishSync]

theorem neverReleased_finishSync {r : Reserver ChunkId ChunkId ConnId} {ids : List ChunkId}
    {id : ChunkId} (h : id ∉ ids) : Reserver.NeverReleased id r (ids.map .finishSync) := by
  induction ids generalizing r with
  | nil => trivial
  | cons i ids ih =>
    refine ⟨?_, ih fun h' => h (List.mem_cons_of_mem _ h')⟩
    intro (hi : i = id)
    exact h (by rw [hi]; exact List.mem_cons_self)

theorem elapsed_finishSync (ids : List ChunkId) :
    Reserver.elapsed (ids.map (.finishSync : ChunkId → Reserver.Op ChunkId ChunkId ConnId)) = 0 := by
  induction ids with
  | nil => rfl
  | cons i ids ih => rw [List.map_cons, Reserver.elapsed_cons, ih]; rfl

theorem not_stale_held {s : State} {c c' : ConnId} {k : ConnState} {id : ChunkId}
    (h : ¬ StaleClaim s c id) (hne : c' ≠ c) (hk : s.conns.get c' = some k) : id ∉ k.claims := by
  intro hid
  rcases List.mem_append.1 hid with h' | h'
  · exact h (.held c' k hne hk h')
  · unfold ConnState.taken at h'
    cases hf : k.fetching with
    | none => rw [hf] at h'; cases h'
    | some f =>
      rw [hf] at h'
      replace h' : id ∈ f.got ++ f.joining.toList := h'
      refine h (.taken c' k f hne hk hf ?_)
      rcases List.mem_append.1 h' with h' | h'
      · exact .inl h'
      · right; simpa using h'

theorem reportPending_step' {s : State} {a : Action} {c : ConnId} {id : ChunkId}
    (h : ReportPending (step s a) c id) (ha : a.reportsOn id = false) : ReportPending s c id := by
  refine reportPending_step h ?_
  cases a <;> first | rfl | skip
  rename_i c' r
  simp only [Action.reportsOn] at ha
  simp [Action.reportsOnBy, ha]

/-- The operations of an action do not release a chunk to which there is no stale claim. -/
theorem resOps_safe {s : State} {a : Action} {c : ConnId} {id : ChunkId} (hs : ¬ StaleClaim s c id)
    (hl : ((step s a).conn c).isSome) :
    Reserver.NeverReleased id s.reserver (resOps s a) ∧
    ∀ p ∈ (s.reserver.exec (resOps s a)).pending, p.1 = id → p ∈ s.reserver.pending := by
  have nil : Reserver.NeverReleased id s.reserver [] ∧
    ∀ p ∈ (s.reserver.exec []).pending, p.1 = id → p ∈ s.reserver.pending :=
    ⟨trivial, fun p hp _ => hp⟩
  have fin : ∀ ids : List ChunkId, id ∉ ids → Reserver.NeverReleased id s.reserver (ids.map .finishSync) ∧
      ∀ p ∈ (s.reserver.exec (ids.map .finishSync)).pending, p.1 = id → p ∈ s.reserver.pending :=
    fun ids h => ⟨neverReleased_finishSync h, fun p hp _ => by rwa [pending_finishSync] at hp⟩
  have heldOk : ∀ c' k, s.conn c' = some k → step s a = dropConn s c' k → id ∉ k.held := by
    intro c' k hk hd hid
    have hne : c' ≠ c := by
      rintro rfl
      rw [hd] at hl
      have : (dropConn s c' k).conn c' = none := by
        unfold State.conn dropConn; simp [Map.get_set]
      rw [this] at hl; cases hl
    exact not_stale_held hs hne (conn_eq.1 hk).1 (List.mem_append_left _ hid)
  cases a with
  | row c' =>
    simp only [resOps]
    repeat' split
    · rename_i row _ _ _
      refine ⟨⟨fun h => h, trivial⟩, fun p hp _ => ?_⟩
      rcases pending_step (r := s.reserver) (op := .tryReserve row.key row.key c') hp with h | h | h
      · exact h
      · cases h
      · cases h
    all_goals exact nil
  | join c' =>
    simp only [resOps]
    cases hk : s.conn c' with
    | none => exact nil
    | some k =>
      dsimp only
      cases hf : k.fetching with
      | none => exact nil
      | some f =>
        dsimp only
        rcases join_cases hk hf with ⟨hj, h⟩ | ⟨id', hj, ⟨sub, hsub, h⟩ | ⟨hsub, h⟩⟩
        · rw [hj]; exact nil
        · rw [hj]; dsimp only; rw [hsub]; exact nil
        · rw [hj]; dsimp only
          have := fin k.held (heldOk c' k hk h)
          cases hs : (SubmissionDb.getSubmission id'.submissionId ⟨[], s.db⟩).1 with
          | ok sub => exact absurd hs (hsub sub)
          | err e => exact this
          | crash => exact this
  | disconnect c' =>
    simp only [resOps]
    cases hk : s.conn c' with
    | none => exact nil
    | some k =>
      exact fin k.held (heldOk c' k hk (by simp [step, State.withConn, hk]))
  | release b =>
    simp only [resOps]
    cases hc : s.completing with
    | none => exact nil
    | some q =>
      obtain ⟨c', id', d⟩ := q
      have hne : id' ≠ id := by rintro rfl; exact hs (.reported c' (.inr ⟨d, hc⟩))
      refine ⟨⟨fun h => hne h.1, trivial⟩, fun p hp hpi => ?_⟩
      rcases pending_step (r := s.reserver) (op := .finish id' d) hp with h | h | h
      · exact h
      · cases h; exact absurd hpi hne
      · cases h
  | tick t =>
    simp only [resOps]
    have hdue : id ∉ s.reserver.due.map (·.1) := by
      intro h
      obtain ⟨p, hp, hpi⟩ := List.mem_map.1 h
      exact hs (.scheduled (List.mem_map.2 ⟨p, (List.mem_filter.1 hp).1, hpi⟩))
    refine ⟨⟨?_, trivial⟩, fun p hp _ => ?_⟩
    · cases t with
      | advance d => exact fun h => h
      | evict k => exact fun h => h
      | runPendingTasks => exact hdue
      | purgeNext =>
        intro (h : s.reserver.due.head?.map (·.1) = some id)
        cases hd : s.reserver.due with
        | nil => rw [hd] at h; cases h
        | cons q qs => rw [hd] at h hdue; simp at h hdue; exact hdue.1 h.symm
    · rcases pending_step (r := s.reserver) (op := t.op) hp with h | h | h
      · exact h
      · cases t <;> cases h
      · cases t <;> cases h
  | _ => exact nil

theorem wiped_dead {s s' : State} (h : Wiped s s') (c : ConnId) : s'.conn c = none := by
  unfold State.conn
  rw [h.2.2.2.2.2 c]
  cases s.conns.get c <;> simp

/-- A reservation to which there is no stale claim stays, and there will be no stale claim. -/
theorem safe_step {s : State} {a : Action} {c : ConnId} {id : ChunkId} {e : Reservation ChunkId ConnId}
    (hh : Reserver.Here id e s.reserver) (hs : ¬ StaleClaim s c id)
    (hl : ((step s a).conn c).isSome) (ha : a.reportsOn id = false)
    (ht : (step s a).reserver.now < e.reservedAt + s.reserver.ttl) :
    Reserver.Here id e (step s a).reserver ∧ ¬ StaleClaim (step s a) c id := by
  have hr : (step s a).reserver = s.reserver.exec (resOps s a) := by
    rcases reserver_step s a with h | h
    · exact h
    · rw [wiped_dead h] at hl; cases hl
  obtain ⟨h1, h2⟩ := resOps_safe hs hl
  constructor
  · rw [hr]
    refine Reserver.here_exec hh _ h1 ?_
    rw [hr, Reserver.now_exec] at ht
    exact ht
  · have hclaim : ∀ c' k, c' ≠ c → (step s a).conns.get c' = some k → id ∉ k.claims := by
      intro c' k hne hk hid
      rcases claims_step hk hid with ⟨k0, h3, h4⟩ | ⟨_, h3, _⟩
      · exact not_stale_held hs hne h3 h4
      · have : s.reserver.isReserved id = true := by
          unfold Reserver.isReserved; rw [hh.lookup]; rfl
        rw [this] at h3; cases h3
    intro hst
    cases hst with
    | held c' k hne hk hid => exact hclaim c' k hne hk (List.mem_append_left _ hid)
    | taken c' k f hne hk hf hid =>
      refine hclaim c' k hne hk (List.mem_append_right _ ?_)
      rw [taken_of hf]
      unfold Fetching.taken
      rcases hid with h | h
      · exact List.mem_append_left _ h
      · rw [h]; exact List.mem_append_right _ (by simp)
    | reported c' hp => exact hs (.reported c' (reportPending_step' hp ha))
    | scheduled hp =>
      obtain ⟨p, hp, hpi⟩ := List.mem_map.1 hp
      rw [hr] at hp
      exact hs (.scheduled (List.mem_map.2 ⟨p, h2 p hp hpi, hpi⟩))

theorem pending_server {s : State} {a : Action} {p : ChunkId × Nat}
    (h : p ∈ (step s a).reserver.pending) :
    p ∈ s.reserver.pending ∨ ∃ c d, s.completing = some (c, p.1, d) := by
  rcases reserver_step s a with hr | hr
  · rw [hr] at h
    have nil : p ∈ (s.reserver.exec []).pending → p ∈ s.reserver.pending ∨
      ∃ c d, s.completing = some (c, p.1, d) := .inl
    have fin : ∀ ids : List ChunkId, p ∈ (s.reserver.exec (ids.map .finishSync)).pending →
        p ∈ s.reserver.pending ∨ ∃ c d, s.completing = some (c, p.1, d) :=
      fun ids h => .inl (by rwa [pending_finishSync] at h)
    have one : ∀ op, p ∈ (s.reserver.exec [op]).pending → (∀ d, op ≠ .finish p.1 d) →
        (op ≠ .schedule p.1) → p ∈ s.reserver.pending := by
      intro op h h1 h2
      rcases pending_step (r := s.reserver) (op := op) h with h | h | h
      · exact h
      · exact absurd h (h1 _)
      · exact absurd h h2
    cases a with
    | row c' =>
      simp only [resOps] at h
      repeat' split at h
      · exact .inl (one _ h (fun d h => by cases h) (fun h => by cases h))
      all_goals exact nil h
    | join c' =>
      simp only [resOps] at h
      repeat' split at h
      all_goals first | exact nil h | exact fin _ h
    | disconnect c' =>
      simp only [resOps] at h
      repeat' split at h
      all_goals first | exact nil h | exact fin _ h
    | release b =>
      simp only [resOps] at h
      cases hc : s.completing with
      | none => rw [hc] at h; exact .inl h
      | some q =>
        obtain ⟨c', id', d⟩ := q
        rw [hc] at h
        rcases pending_step (r := s.reserver) (op := .finish id' d) h with h | h | h
        · exact .inl h
        · cases h; exact .inr ⟨c', true, rfl⟩
        · cases h
    | tick t =>
      exact .inl (one t.op h (fun d h => by cases t <;> cases h) (fun h => by cases t <;> cases h))
    | _ => exact nil h
  · rw [hr.1] at h; cases h

/-- If a chunk was reserved for nobody else and nobody reported on it, there are no stale claims. -/
theorem no_stale {ttl m : Nat} {h : List Action} {c : ConnId} {id : ChunkId} (ht : 0 < ttl)
    (honly : ∀ p q, h = p ++ q → holder (run ttl m p) id = none ∨ holder (run ttl m p) id = some c)
    (hrep : ∀ a ∈ h, a.reportsOn id = false) : ¬ StaleClaim (run ttl m h) c id := by
  suffices H : (∀ c' k, c' ≠ c → (run ttl m h).conns.get c' = some k → id ∉ k.claims) ∧
      (∀ c', ¬ ReportPending (run ttl m h) c' id) ∧ id ∉ (run ttl m h).reserver.pending.map (·.1) by
    intro hst
    cases hst with
    | held c' k hne hk hid => exact H.1 c' k hne hk (List.mem_append_left _ hid)
    | taken c' k f hne hk hf hid =>
      refine H.1 c' k hne hk (List.mem_append_right _ ?_)
      rw [taken_of hf]
      unfold Fetching.taken
      rcases hid with h | h
      · exact List.mem_append_left _ h
      · rw [h]; exact List.mem_append_right _ (by simp)
    | reported c' hp => exact H.2.1 c' hp
    | scheduled hp => exact H.2.2 hp
  obtain ⟨n, hn⟩ : ∃ n, n = h.length := ⟨_, rfl⟩
  induction n generalizing h with
  | zero =>
    cases h with
    | cons _ _ => cases hn
    | nil =>
      refine ⟨(fun c' k _ hk => by cases hk), ?_, by simp [run, exec, init, Reserver.new]⟩
      intro c' hp
      rcases hp with ⟨_, h, _⟩ | ⟨_, h⟩ <;> cases h
  | succ n ih =>
    rcases List.eq_nil_or_concat h with rfl | ⟨p, a, rfl⟩
    · cases hn
    · rw [List.concat_eq_append] at *
      obtain ⟨h1, h2, h3⟩ := ih (h := p) (fun p' q hq => honly p' (q ++ [a]) (by rw [hq]; simp))
        (fun b hb => hrep b (List.mem_append_left _ hb)) (by simp at hn; omega)
      have hs : run ttl m (p ++ [a]) = step (run ttl m p) a := exec_snoc _ _ _
      rw [hs]
      refine ⟨?_, ?_, ?_⟩
      · intro c' k hne hk hid
        rcases claims_step hk hid with ⟨k0, h4, h5⟩ | ⟨_, _, h4⟩
        · exact h1 c' k0 hne h4 h5
        · have htt : (run ttl m p).reserver.ttl = ttl := ttl_exec _ _
          have h6 := h4 (by omega)
          have := honly (p ++ [a]) [] (by simp)
          rw [hs, h6] at this
          rcases this with h | h
          · cases h
          · cases h; exact hne rfl
      · intro c' hp
        exact h2 c' (reportPending_step' hp (hrep a (by simp)))
      · intro hp
        obtain ⟨q, hq, hqi⟩ := List.mem_map.1 hp
        rcases pending_server hq with h | ⟨c', d, h⟩
        · exact h3 (List.mem_map.2 ⟨q, h, hqi⟩)
        · exact h2 c' (.inr ⟨d, by rw [← hqi]; exact h⟩)

theorem now_step_le (s : State) (a : Action) : s.reserver.now ≤ (step s a).reserver.now := by
  rcases reserver_step s a with h | h
  · rw [h, Reserver.now_exec]; omega
  · rw [h.1]; exact Nat.le_refl _

theorem now_exec_le (s : State) (es : List Action) : s.reserver.now ≤ (exec s es).reserver.now := by
  induction es generalizing s with
  | nil => exact Nat.le_refl _
  | cons a es ih => exact Nat.le_trans (now_step_le s a) (ih _)

theorem safe_exec {s : State} {c : ConnId} {k : ConnState} {id : ChunkId}
    {e : Reservation ChunkId ConnId} (hk : s.conns.get c = some k)
    (hh : Reserver.Here id e s.reserver) (hs : ¬ StaleClaim s c id) (es : List Action)
    (hl : ((exec s es).conn c).isSome) (ha : ∀ a ∈ es, a.reportsOn id = false)
    (ht : (exec s es).reserver.now < e.reservedAt + s.reserver.ttl) :
    Reserver.Here id e (exec s es).reserver := by
  induction es generalizing s k with
  | nil => exact hh
  | cons a es ih =>
    obtain ⟨k1, hk1⟩ := get_isSome_step (a := a) hk
    have hl1 := live_back hk1 es hl
    have := now_exec_le (step s a) es
    obtain ⟨h1, h2⟩ := safe_step hh hs (by rw [hl1]; rfl) (ha a List.mem_cons_self)
      (Nat.lt_of_le_of_lt this ht)
    exact ih hk1 h1 h2 hl (fun b hb => ha b (List.mem_cons_of_mem _ hb)) (by rw [ttl_step]; exact ht)

end Opsqueue.Server
