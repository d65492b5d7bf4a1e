import Verif.Proofs.Holding

/-!
# Lemmas about waiting requests
-/

namespace Opsqueue.Server
open Conn (Request Response Report)

/-- Only inserts cause wake-up calls. -/
theorem notifies_step (s : State) (a : Action) (ha : a.inserts = false) :
    (step s a).notifies ≤ s.notifies := by
  have hdb : ∀ (s : State) op, (dbCall s op).2.notifies ≤ s.notifies := by
    intro s op
    obtain ⟨h1, h2, h3, h4, h5⟩ := dbCall_spec s op
    cases hc : (Opsqueue.step s.db op).1.crashed with
    | false => rw [h4 hc]; exact Nat.le_refl _
    | true => rw [h5 hc]; exact Nat.zero_le _
  cases a with
  | handle w n1 n2 n3 o =>
    simp only [step]
    rcases handle_cases s w n1 n2 n3 o with h | ⟨c', r, queue, hcomp, hq, h⟩
    · rw [h]; exact Nat.le_refl _
    · rcases h with ⟨_, h⟩ | ⟨_, h1, h2⟩
      · rw [h]; exact Nat.le_refl _
      · have := hdb { s with queue := queue } (reportOp s.maxRetries n1 n2 n3 o r)
        cases hc : (dbCall { s with queue := queue } (reportOp s.maxRetries n1 n2 n3 o r)).1.crashed with
        | true => rw [h1 hc]; exact this
        | false => rw [h2 hc]; exact this
  | producer call =>
    obtain ⟨hout, ⟨id, hi, h⟩ | ⟨hi, h⟩⟩ := producer_cases s call
    · exfalso
      rw [hi] at hout
      cases call with
      | insert => cases ha
      | cancel => cases hout
      | cleanup => cases hout
    · rw [h]; exact hdb s call.op
  | notify =>
    simp only [step]
    cases hn : s.notifies with
    | zero => dsimp only; omega
    | succ n => exact Nat.le_succ n
  | release b =>
    simp only [step, release]
    split <;> exact Nat.le_refl _
  | tick t => exact Nat.le_refl _
  | _ =>
    simp only [step, State.withIdle, State.withFetch, State.withConn, begin, fetchRow, fetchJoin,
      dropConn, State.setConn]
    repeat' split
    all_goals exact Nat.le_refl _

/-- The connection does nothing until the next insert. -/
structure Stuck (s : State) (c : ConnId) (ans : List (Nat × Response)) : Prop where
  none : s.notifies = 0
  conn : ∃ k, s.conns.get c = some k ∧ k.fetching = .none ∧ k.retry = [] ∧ k.answers = ans

theorem stuck_step {s : State} {c : ConnId} {ans : List (Nat × Response)} (h : Stuck s c ans)
    (a : Action) (h1 : a.inserts = false) (h2 : a.requestsBy c = false) : Stuck (step s a) c ans := by
  obtain ⟨hn, k, hk, hf, hr, ha⟩ := h
  have hnot : (step s a).notifies = 0 := by have := notifies_step s a h1; omega
  refine ⟨hnot, ?_⟩
  have same : step s a = s → ∃ k, (step s a).conns.get c = some k ∧ k.fetching = .none ∧ k.retry = [] ∧
      k.answers = ans := fun h => ⟨k, by rw [h]; exact hk, hf, hr, ha⟩
  by_cases hact : a.actor = some c
  · cases hl : k.live with
    | false =>
      have hnone : s.conn c = .none := by unfold State.conn; rw [hk]; simp [hl]
      apply same
      cases a with
      | connect c' => cases hact; simp only [step]; rw [hk]
      | _ => first
        | (cases hact; simp [step, State.withIdle, State.withConn, State.withFetch, hnone])
        | (cases hact)
    | true =>
      have hc := conn_eq.2 ⟨hk, hl⟩
      cases a with
      | connect c' => cases hact; apply same; simp only [step]; rw [hk]
      | request c' r v => cases hact; simp [Action.requestsBy] at h2
      | retry c' v => cases hact; apply same; simp [step, State.withIdle, State.withConn, hc, hf, hr]
      | row c' => cases hact; apply same; simp [step, State.withFetch, State.withConn, hc, hf]
      | join c' => cases hact; apply same; simp [step, State.withFetch, State.withConn, hc, hf]
      | fetchFails c' => cases hact; apply same; simp [step, State.withFetch, State.withConn, hc, hf]
      | register c' i =>
        cases hact
        cases hs : k.spawned[i]? with
        | none => apply same; simp [step, State.withConn, hc, hs]
        | some r =>
          simp only [step, State.withConn, hc, hs]
          exact ⟨_, get_setConn_self _ _ _, hf, hr, ha⟩
      | report c' r =>
        refine ⟨k, ?_, hf, hr, ha⟩
        simp only [step, State.withIdle, State.withConn]
        repeat' split
        all_goals exact hk
      | disconnect c' =>
        cases hact
        have : step s (.disconnect c) = dropConn s c k := by
          simp [step, State.withConn, hc]
        rw [this]
        refine ⟨{ live := false, answers := k.answers }, ?_, rfl, rfl, ha⟩
        show Map.get (Map.set _ _ _) _ = _
        rw [Map.get_set, if_pos rfl]
      | _ => cases hact
  · obtain ⟨k', h3, h4⟩ := passive_step hk hact
    refine ⟨k', h3, ?_⟩
    cases h4 with
    | same => exact ⟨hf, hr, ha⟩
    | wake hw =>
      subst hw
      have : step s .notify = s := by simp only [step]; rw [hn]
      rw [this, hk] at h3
      exact Option.some.inj h3 ▸ ⟨hf, hr, ha⟩
    | unhold => exact ⟨hf, hr, ha⟩
    | crashed => exact ⟨rfl, rfl, ha⟩

theorem stuck_exec {s : State} {c : ConnId} {ans : List (Nat × Response)} (h : Stuck s c ans)
    (es : List Action) (h1 : ∀ a ∈ es, a.inserts = false) (h2 : ∀ a ∈ es, a.requestsBy c = false) :
    answersTo (exec s es) c = ans := by
  induction es generalizing s with
  | nil =>
    obtain ⟨hn, k, hk, hf, hr, ha⟩ := h
    show answersTo s c = ans
    unfold answersTo; rw [hk]; exact ha
  | cons a es ih =>
    exact ih (stuck_step h a (h1 a List.mem_cons_self) (h2 a List.mem_cons_self))
      (fun b hb => h1 b (List.mem_cons_of_mem _ hb)) (fun b hb => h2 b (List.mem_cons_of_mem _ hb))

/-- Decidable form. -/
theorem stuck_of {s : State} {c : ConnId} (h1 : s.notifies = 0)
    (h2 : (s.conns.get c).any (fun k => k.fetching.isNone && k.retry.isEmpty)) :
    Stuck s c (answersTo s c) := by
  refine ⟨h1, ?_⟩
  unfold answersTo
  cases hk : s.conns.get c with
  | none => rw [hk] at h2; cases h2
  | some k =>
    rw [hk] at h2
    simp only [Option.any_some, Bool.and_eq_true, Option.isNone_iff_eq_none, List.isEmpty_iff] at h2
    exact ⟨k, rfl, h2.1, h2.2, rfl⟩

/-- A waiting request keeps waiting until the next wake-up call. -/
theorem waiting_step {s : State} {c : ConnId} {k : ConnState} {r : Request} (hk : s.conn c = some k)
    (hw : r ∈ k.waiting) (hn : 0 < s.notifies) (a : Action) (ha : a.notifies = false)
    (hl : ((step s a).conn c).isSome) :
    (∃ k', (step s a).conn c = some k' ∧ r ∈ k'.waiting) ∧ 0 < (step s a).notifies := by
  obtain ⟨k', hk'⟩ := Option.isSome_iff_exists.1 hl
  obtain ⟨hkc, hkl⟩ := conn_eq.1 hk
  obtain ⟨hkc', hkl'⟩ := conn_eq.1 hk'
  constructor
  · refine ⟨k', hk', ?_⟩
    by_cases hact : a.actor = some c
    · have same : step s a = s → r ∈ k'.waiting := by
        intro h; rw [h, hkc] at hkc'; cases hkc'; exact hw
      have set : ∀ (s' : State) (k2 : ConnState), step s a = s'.setConn c k2 →
          k2.waiting = k.waiting → r ∈ k'.waiting := by
        intro s' k2 h h2
        rw [h, get_setConn_self] at hkc'; cases hkc'; rw [h2]; exact hw
      have fin : ∀ g, (finishFetch k g).waiting = k.waiting := by
        intro g; unfold finishFetch; cases g.got <;> rfl
      cases a with
      | connect c' => cases hact; apply same; simp only [step]; rw [hkc]
      | request c' q v =>
        cases hact
        cases hf : k.fetching with
        | some f => exact same (idle_noop hk hf _)
        | none =>
          have h := request_cases hk hf q v
          unfold begin at h
          split at h
          · exact set _ _ h rfl
          · exact set _ _ h rfl
      | retry c' v =>
        cases hact
        cases hf : k.fetching with
        | some f => exact same (idle_noop hk hf _)
        | none =>
          cases hr : k.retry with
          | nil => apply same; simp [step, State.withIdle, State.withConn, hk, hf, hr]
          | cons q rest =>
            have h : step s (.retry c v) = begin s c { k with retry := rest } q v := by
              simp [step, State.withIdle, State.withConn, hk, hf, hr]
            unfold begin at h
            split at h
            · exact set _ _ h rfl
            · exact set _ _ h rfl
      | row c' =>
        cases hact
        cases hf : k.fetching with
        | none => apply same; simp [step, State.withFetch, State.withConn, hk, hf]
        | some f =>
          rcases row_cases hk hf with ⟨hj, hs⟩ | ⟨hj, hr, hs⟩ | ⟨row, rest, hj, hr, ⟨hres, hs⟩ | ⟨hres, hs⟩⟩
          · exact same hs
          · exact set _ _ hs (fin f)
          · exact set _ _ hs rfl
          · exact set _ _ hs rfl
      | join c' =>
        cases hact
        cases hf : k.fetching with
        | none => apply same; simp [step, State.withFetch, State.withConn, hk, hf]
        | some f =>
          rcases join_cases hk hf with ⟨hj, hs⟩ | ⟨id, hj, ⟨sub, hsub, hs⟩ | ⟨hsub, hs⟩⟩
          · exact same hs
          · refine set _ _ hs ?_
            split
            · exact fin _
            · rfl
          · exfalso
            rw [hs] at hkc'
            unfold dropConn at hkc'
            replace hkc' : Map.get (Map.set _ _ _) _ = _ := hkc'
            rw [Map.get_set, if_pos rfl] at hkc'
            cases hkc'; cases hkl'
      | fetchFails c' =>
        cases hact
        cases hf : k.fetching with
        | none => apply same; simp [step, State.withFetch, State.withConn, hk, hf]
        | some f =>
          refine set s (k.answer f.req (some [])) ?_ rfl
          simp only [step]; rw [withFetch_eq hk hf]
      | register c' i =>
        cases hact
        cases hs : k.spawned[i]? with
        | none => apply same; simp [step, State.withConn, hk, hs]
        | some q =>
          simp only [step, State.withConn, hk, hs] at hkc'
          rw [get_setConn_self] at hkc'
          cases hkc'
          exact List.mem_append_left _ hw
      | report c' q =>
        cases hact
        have : (step s (.report c q)).conns = s.conns := by
          simp only [step, State.withIdle, State.withConn]
          repeat' split
          all_goals rfl
        rw [this, hkc] at hkc'; cases hkc'; exact hw
      | disconnect c' =>
        cases hact
        exfalso
        have hs : step s (.disconnect c) = dropConn s c k := by
          simp [step, State.withConn, hk]
        rw [hs] at hkc'
        unfold dropConn at hkc'
        replace hkc' : Map.get (Map.set _ _ _) _ = _ := hkc'
        rw [Map.get_set, if_pos rfl] at hkc'
        cases hkc'; cases hkl'
      | _ => cases hact
    · obtain ⟨k2, h1, h2⟩ := passive_step hkc hact
      rw [hkc'] at h1; cases h1
      cases h2 with
      | same => exact hw
      | wake h => rw [h] at ha; cases ha
      | unhold => exact hw
      | crashed => cases hkl'
  · have hdb : ∀ (s : State) op, (dbCall s op).1.crashed = false → (dbCall s op).2.notifies = s.notifies := by
      intro s op h; rw [dbCall_ok h]
    have nw : ¬ Wiped s (step s a) := fun h => by rw [wiped_dead h] at hk'; cases hk'
    cases a with
    | handle w n1 n2 n3 o =>
      simp only [step] at *
      rcases handle_cases s w n1 n2 n3 o with h | ⟨c', q, queue, hcomp, hq, h⟩
      · rw [h]; exact hn
      · rcases h with ⟨_, h⟩ | ⟨_, h1, h2⟩
        · rw [h]; exact hn
        · cases hc : (dbCall { s with queue := queue } (reportOp s.maxRetries n1 n2 n3 o q)).1.crashed with
          | true => exact absurd (by rw [h1 hc]; exact wiped_dbCall (s := { s with queue := queue }) hc) nw
          | false => rw [h2 hc]; show 0 < (dbCall _ _).2.notifies; rw [hdb _ _ hc]; exact hn
    | producer call =>
      obtain ⟨hout, ⟨id, hi, h⟩ | ⟨hi, h⟩⟩ := producer_cases s call
      · rw [h]; exact Nat.succ_pos _
      · cases hc : (dbCall s call.op).1.crashed with
        | true => exact absurd (by rw [h]; exact wiped_dbCall hc) nw
        | false => rw [h, hdb _ _ hc]; exact hn
    | notify => cases ha
    | release b =>
      simp only [step, release]
      split <;> exact hn
    | tick t => exact hn
    | _ =>
      simp only [step, State.withIdle, State.withFetch, State.withConn, begin, fetchRow, fetchJoin,
        dropConn, State.setConn]
      repeat' split
      all_goals exact hn

theorem waiting_exec {s : State} {c : ConnId} {k : ConnState} {r : Request} (hk : s.conn c = some k)
    (hw : r ∈ k.waiting) (hn : 0 < s.notifies) (es : List Action) (ha : ∀ a ∈ es, a.notifies = false)
    (hl : ((exec s es).conn c).isSome) :
    (∃ k', (exec s es).conn c = some k' ∧ r ∈ k'.waiting) ∧ 0 < (exec s es).notifies := by
  induction es generalizing s k with
  | nil => exact ⟨⟨k, hk, hw⟩, hn⟩
  | cons a es ih =>
    obtain ⟨k1, h1⟩ := get_isSome_step (a := a) (conn_eq.1 hk).1
    have hk1 := live_back h1 es hl
    obtain ⟨⟨k', h2, h3⟩, h4⟩ := waiting_step hk hw hn a (ha a List.mem_cons_self) (by rw [hk1]; rfl)
    exact ih h2 h3 h4 (fun b hb => ha b (List.mem_cons_of_mem _ hb)) hl

theorem notify_wakes {s : State} {c : ConnId} {k : ConnState} {r : Request} (hk : s.conn c = some k)
    (hw : r ∈ k.waiting) (hn : 0 < s.notifies) :
    ∃ k', (step s .notify).conn c = some k' ∧ r ∈ k'.retry := by
  refine ⟨k.wake, conn_eq.2 ⟨?_, (conn_eq.1 hk).2⟩, List.mem_append_right _ hw⟩
  simp only [step]
  cases hn' : s.notifies with
  | zero => omega
  | succ n =>
    dsimp only
    rw [get_mapValues s.conns ConnState.wake, (conn_eq.1 hk).1]; rfl

end Opsqueue.Server
