import Verif.Spec.Mailbox
import Verif.Proofs.Leftover
import Verif.Proofs.EndToEnd

/-! Lemmas for C98. -/

namespace Opsqueue.Mailbox
open Server (ConnId ConnState)
open Conn (Report)

theorem dies_of_Dies {s : Server.State} {a : Server.Action} (h : Server.Dies s a) : Leftover.dies s a = true := by
  obtain ⟨op, h1, h2⟩ := h
  rcases Server.calls_step s a with e | ⟨call, rfl, e⟩ | ⟨w, n1, n2, n3, o, c, r, queue, rfl, hq, e⟩
  · rw [e] at h1; simp at h1
  · rw [e] at h1
    simp only [List.append_cancel_left_eq, List.cons.injEq, and_true] at h1
    rw [← h1] at h2
    exact h2
  · have h3 := h1
    rw [e] at h1
    simp only [List.append_cancel_left_eq, List.cons.injEq, and_true] at h1
    rw [← h1] at h2
    simp only [Server.step] at h3
    rcases Server.handle_cases s w n1 n2 n3 o with h | ⟨c', r', queue', hcomp, hq', ⟨hw, h⟩ | ⟨hw, -, -⟩⟩
    · rw [h] at h3; simp at h3
    · rw [h] at h3; simp at h3
    · subst hw
      simp only [Leftover.dies, hcomp, hq]
      exact h2

/-- The queue after a step in which the process does not die. -/
theorem queue_live {s : Server.State} {a : Server.Action} (hd : Leftover.dies s a = false) (hr : ∀ c r, a ≠ .report c r) :
    (Server.step s a).queue = match takes s a with
      | some _ => s.queue.tail
      | none => s.queue := by
  cases a with
  | report c r => exact absurd rfl (hr c r)
  | handle w n1 n2 n3 o =>
    simp only [Server.step, takes]
    unfold Server.handle
    cases hcomp : s.completing with
    | some x => rfl
    | none =>
      cases hq : s.queue with
      | nil => exact hq
      | cons x queue =>
        obtain ⟨c, r⟩ := x
        dsimp only
        cases w with
        | false => rfl
        | true =>
          simp only [Leftover.dies, hcomp, hq] at hd
          obtain ⟨h1, -, -, h4, -⟩ := Server.dbCall_spec { s with queue := queue } (Server.reportOp s.maxRetries n1 n2 n3 o r)
          dsimp only at h1 h4
          simp only [hcomp] at h1 h4
          rw [if_pos rfl, if_neg (by rw [h1, hd]; decide), h4 hd]
          rfl
  | producer call =>
    obtain ⟨h1, -, -, h4, -⟩ := Server.dbCall_spec s call.op
    have hc : (Opsqueue.step s.db call.op).1.crashed = false := hd
    have h5 := h4 hc
    simp only [takes]
    obtain ⟨-, ⟨id, hi, h⟩ | ⟨hi, h⟩⟩ := Server.producer_cases s call
    · rw [h]
      show (Server.dbCall s call.op).2.queue = _
      rw [h5]
    · rw [h, h5]
  | release b =>
    simp only [Server.step, Server.release, takes]
    cases hc : s.completing <;> rfl
  | notify =>
    simp only [Server.step, takes]
    cases s.notifies <;> rfl
  | tick t => rfl
  | connect c =>
    simp only [Server.step, takes]
    cases s.conns.get c <;> rfl
  | register c i =>
    simp only [Server.step, Server.State.withConn, takes]
    repeat' split
    all_goals first | rfl | contradiction
  | disconnect c =>
    simp only [Server.step, Server.State.withConn, takes]
    repeat' split
    all_goals first | rfl | contradiction
  | _ =>
    simp only [Server.step, Server.State.withIdle, Server.State.withFetch, Server.State.withConn, Server.begin, Server.fetchRow,
      Server.fetchJoin, Server.dropConn, takes]
    repeat' split
    all_goals first | rfl | contradiction

/-- A connection that is not fetching goes on like that, unless its task does something else. -/
theorem idle_live {s : Server.State} {a : Server.Action} {c : ConnId} {k : ConnState} (hk : s.conn c = some k)
    (hi : k.fetching = none) (hd : Leftover.dies s a = false) (ha : doer a ≠ some c) :
    ∃ k', (Server.step s a).conn c = some k' ∧ k'.fetching = none := by
  obtain ⟨h1, h2⟩ := Server.conn_eq.1 hk
  by_cases hac : a.actor = some c
  · cases a with
    | connect c' =>
      have : c' = c := by simpa [Server.Action.actor] using hac
      subst this
      simp only [Server.step, h1]
      exact ⟨k, hk, hi⟩
    | register c' i =>
      have : c' = c := by simpa [Server.Action.actor] using hac
      subst this
      simp only [Server.step, Server.State.withConn, hk]
      split
      · exact ⟨k, hk, hi⟩
      · rename_i r _
        exact ⟨{ k with spawned := k.spawned.eraseIdx i, waiting := k.waiting ++ [r] },
          Server.conn_eq.2 ⟨by rw [Server.get_setConn, if_pos rfl], h2⟩, hi⟩
    | request c' r v => exact absurd hac ha
    | retry c' v => exact absurd hac ha
    | row c' => exact absurd hac ha
    | join c' => exact absurd hac ha
    | fetchFails c' => exact absurd hac ha
    | report c' r => exact absurd hac ha
    | disconnect c' => exact absurd hac ha
    | _ => cases hac
  · obtain ⟨k', h3, h4⟩ := Server.passive_step h1 hac
    cases h4 with
    | same => exact ⟨_, Server.conn_eq.2 ⟨h3, h2⟩, hi⟩
    | wake _ => exact ⟨_, Server.conn_eq.2 ⟨h3, h2⟩, hi⟩
    | unhold id d b _ _ => exact ⟨_, Server.conn_eq.2 ⟨h3, h2⟩, hi⟩
    | crashed _ hD => rw [dies_of_Dies hD] at hd; cases hd

theorem run_snoc (cap ttl m : Nat) (h : List Action) (a : Action) :
    run cap ttl m (h ++ [a]) = step cap (run cap ttl m h) a := by
  simp [run, exec]

theorem exec_append (cap : Nat) (s : State) (h1 h2 : List Action) : exec cap s (h1 ++ h2) = exec cap (exec cap s h1) h2 :=
  List.foldl_append

theorem exec_snoc (cap : Nat) (s : State) (h : List Action) (a : Action) :
    exec cap s (h ++ [a]) = step cap (exec cap s h) a := by rw [exec_append]; rfl

/-- What holds at each moment. -/
structure Good (cap : Nat) (s : State) : Prop where
  idle : ∀ p ∈ s.granted ++ s.waiting, ∃ k, s.server.conn p.1 = some k ∧ k.fetching = none
  nodup : ((s.granted ++ s.waiting).map (·.1)).Nodup
  room : s.server.queue.length + s.granted.length ≤ cap
  full : s.waiting ≠ [] → s.server.queue.length + s.granted.length = cap
  order : ∀ c, of c s.seen = of c s.taken ++ of c s.server.queue ++ of c (s.granted ++ s.waiting)

theorem of_append (c : ConnId) (l l' : List (ConnId × Report)) : of c (l ++ l') = of c l ++ of c l' := by simp [of]

theorem of_nil (c : ConnId) : of c [] = [] := rfl

theorem of_not {c : ConnId} {l : List (ConnId × Report)} (h : ∀ p ∈ l, p.1 ≠ c) : of c l = [] := by
  simp only [of, List.map_eq_nil_iff, List.filter_eq_nil_iff, decide_eq_true_eq]
  exact h

theorem busy_iff {s : State} {c : ConnId} : busy s c = true ↔ ∃ p ∈ s.granted ++ s.waiting, p.1 = c := by
  simp [busy, exists_or]

/-- The cases of a step. -/
theorem step_cases (cap : Nat) (s : State) (a : Action) :
    step cap s a = s ∨
    (∃ x k l1 l2, a = .enter x.1 ∧ s.granted = l1 ++ x :: l2 ∧ (∀ p ∈ l1, p.1 ≠ x.1) ∧ k = x.1 ∧
      step cap s a = { s with server := Server.step s.server (.report x.1 x.2), granted := l1 ++ l2 }) ∨
    (∃ c r k, a = .server (.report c r) ∧ busy s c = false ∧ s.server.conn c = some k ∧ k.fetching = none ∧
      step cap s a = send cap s (c, r)) ∨
    (∃ b, a = .server b ∧ (∀ c r, b ≠ .report c r) ∧ (∀ c, doer b = some c → busy s c = false) ∧
      ((Leftover.dies s.server b = true ∧ step cap s a = { server := Server.step s.server b }) ∨
       (Leftover.dies s.server b = false ∧ takes s.server b = none ∧
          step cap s a = { s with server := Server.step s.server b }) ∨
       (∃ x, Leftover.dies s.server b = false ∧ takes s.server b = some x ∧
          step cap s a = grant { s with server := Server.step s.server b, taken := s.taken ++ [x] }))) := by
  cases a with
  | enter c =>
    simp only [step]
    cases hf : s.granted.find? (fun p => p.1 == c) with
    | none => exact .inl rfl
    | some x =>
      right; left
      obtain ⟨h1, l1, l2, h2, h3⟩ := List.find?_eq_some_iff_append.1 hf
      have hx : x.1 = c := by simpa using h1
      refine ⟨x, x.1, l1, l2, by rw [hx], h2, fun p hp => ?_, rfl, ?_⟩
      · have := h3 p hp
        rw [hx]
        simpa using this
      · dsimp only
        congr 1
        rw [h2, List.eraseP_append_right]
        · rw [List.eraseP_cons_of_pos (by simpa using hx)]
        · intro b hb
          have := h3 b hb
          simpa using this
  | server b =>
    by_cases hr : ∃ c r, b = .report c r
    · obtain ⟨c, r, rfl⟩ := hr
      simp only [step]
      cases hb : busy s c with
      | true => exact .inl rfl
      | false =>
        cases hk : s.server.conn c with
        | none => exact .inl rfl
        | some k =>
          cases hf : k.fetching with
          | some f => left; simp [hf]
          | none =>
            right; right; left
            exact ⟨c, r, k, rfl, hb, hk, hf, by simp [hf]⟩
    · have hne : ∀ c r, b ≠ .report c r := fun c r h => hr ⟨c, r, h⟩
      have hs : step cap s (.server b) = if (doer b).any (busy s) then s
          else if Leftover.dies s.server b then { server := Server.step s.server b }
          else match takes s.server b with
            | none => { s with server := Server.step s.server b }
            | some x => grant { s with server := Server.step s.server b, taken := s.taken ++ [x] } := by
        cases b <;> first | rfl | exact absurd rfl (hne _ _)
      rw [hs]
      by_cases hb : (doer b).any (busy s) = true
      · rw [if_pos hb]; exact .inl rfl
      · rw [if_neg hb]
        right; right; right
        refine ⟨b, rfl, hne, ?_, ?_⟩
        · intro c hc
          rw [hc] at hb
          simpa using hb
        · cases hd : Leftover.dies s.server b with
          | true => left; exact ⟨rfl, by simp⟩
          | false =>
            right
            cases ht : takes s.server b with
            | none => left; exact ⟨rfl, rfl, by simp⟩
            | some x => right; exact ⟨x, rfl, rfl, by simp⟩

theorem takes_queue {s : Server.State} {a : Server.Action} {x : ConnId × Report} (h : takes s a = some x) :
    s.queue = x :: s.queue.tail := by
  cases a with
  | handle w n1 n2 n3 o =>
    simp only [takes] at h
    split at h
    · rename_i hq; cases h; rw [hq]; rfl
    · cases h
  | _ => cases h

theorem report_step {s : Server.State} {c : ConnId} {k : ConnState} {r : Report} (hk : s.conn c = some k)
    (hi : k.fetching = none) : Server.step s (.report c r) = { s with queue := s.queue ++ [(c, r)] } := by
  simp [Server.step, Server.State.withIdle, Server.State.withConn, hk, hi]

theorem good_step {cap : Nat} {s : State} (g : Good cap s) (a : Action) : Good cap (step cap s a) := by
  rcases step_cases cap s a with h | ⟨x, -, l1, l2, -, hg, hl, -, h⟩ | ⟨c, r, k, -, hb, hk, hi, h⟩ | ⟨b, -, hr, hb, h⟩
  · rw [h]; exact g
  · rw [h]
    obtain ⟨k, hk, hi⟩ := g.idle x (by rw [hg]; simp)
    rw [report_step hk hi]
    have hp : ((l1 ++ x :: l2) ++ s.waiting).Perm (x :: ((l1 ++ l2) ++ s.waiting)) := by
      simp only [List.append_assoc, List.cons_append]
      exact List.perm_middle
    have hnd := (hp.map (·.1)).nodup_iff.1 (by rw [← hg]; exact g.nodup)
    simp only [List.map_cons, List.nodup_cons] at hnd
    refine ⟨?_, hnd.2, ?_, ?_, ?_⟩
    · intro p hp'
      exact g.idle p (by rw [hg]; exact hp.mem_iff.2 (List.mem_cons_of_mem _ hp'))
    · have := g.room
      rw [hg] at this
      simp only [List.length_append, List.length_cons, List.length_nil] at this ⊢
      omega
    · intro hw
      have := g.full hw
      rw [hg] at this
      simp only [List.length_append, List.length_cons, List.length_nil] at this ⊢
      omega
    · intro c
      rw [g.order c, hg]
      dsimp only
      simp only [of_append, List.append_assoc]
      congr 1
      congr 1
      rw [show of c (x :: l2) = of c [x] ++ of c l2 from of_append c [x] l2]
      by_cases hc : x.1 = c
      · have : of c l1 = [] := of_not fun p hp => by rw [← hc]; exact hl p hp
        rw [this]; simp
      · have : of c [x] = [] := of_not fun p hp => by rw [List.mem_singleton.1 hp]; exact hc
        rw [show (x.1, x.2) = x from rfl, this]; simp
  · rw [h]
    have hnew : c ∉ (s.granted ++ s.waiting).map (·.1) := by
      intro hm
      obtain ⟨p, hp, e⟩ := List.mem_map.1 hm
      rw [busy_iff.2 ⟨p, hp, e⟩] at hb; cases hb
    have hofc : of c (s.granted ++ s.waiting) = [] := of_not fun p hp e => hnew (List.mem_map.2 ⟨p, hp, e⟩)
    unfold send
    split
    · rename_i hlt
      have hw : s.waiting = [] := by
        cases hw : s.waiting with
        | nil => rfl
        | cons w ws =>
          have := g.full (by rw [hw]; simp)
          omega
      have gi := g.idle
      have gn := g.nodup
      have go := g.order
      rw [hw] at gi gn go hnew hofc
      simp only [List.append_nil] at gi gn go hnew hofc
      refine ⟨?_, ?_, ?_, ?_, ?_⟩
      · intro p hp
        simp only [hw, List.append_nil, List.mem_append, List.mem_singleton] at hp
        rcases hp with hp | rfl
        · exact gi p hp
        · exact ⟨k, hk, hi⟩
      · simp only [hw, List.append_nil, List.map_append, List.map_cons, List.map_nil]
        rw [List.nodup_append]
        exact ⟨gn, by simp, fun x hx y hy e => hnew (by rw [← List.mem_singleton.1 hy, ← e]; exact hx)⟩
      · simp only [List.length_append, List.length_cons, List.length_nil]; omega
      · intro h; exact absurd hw h
      · intro c'
        simp only [hw, List.append_nil, of_append]
        rw [go c']; simp
    · rename_i hlt
      have gr := g.room
      refine ⟨?_, ?_, g.room, ?_, ?_⟩
      · intro p hp
        simp only [← List.append_assoc] at hp
        rcases List.mem_append.1 hp with hp | hp
        · exact g.idle p hp
        · rw [List.mem_singleton.1 hp]; exact ⟨k, hk, hi⟩
      · simp only [← List.append_assoc]
        rw [List.map_append, List.nodup_append]
        refine ⟨g.nodup, by simp, fun x hx y hy e => hnew ?_⟩
        have : y = c := by simpa using hy
        rw [← this, ← e]; exact hx
      · intro _; dsimp only; omega
      · intro c'
        simp only [of_append]
        have := g.order c'
        rw [of_append] at this
        rw [this]; simp
  · have keep : Leftover.dies s.server b = false → ∀ p ∈ s.granted ++ s.waiting,
        ∃ k, (Server.step s.server b).conn p.1 = some k ∧ k.fetching = none := by
      intro hd p hp
      obtain ⟨k, hk, hi⟩ := g.idle p hp
      refine idle_live hk hi hd fun e => ?_
      have := hb _ e
      rw [busy_iff.2 ⟨p, hp, rfl⟩] at this; cases this
    rcases h with ⟨hd, h⟩ | ⟨hd, ht, h⟩ | ⟨x, hd, ht, h⟩
    · rw [h]
      obtain ⟨s0, db, e⟩ := Leftover.dies_restart hd
      have hq : (Server.step s.server b).queue = [] := by rw [e]; rfl
      refine ⟨by simp, by simp, ?_, by simp, ?_⟩
      · simp [hq]
      · intro c; simp [hq, of_nil]
    · rw [h]
      have hq := queue_live hd hr
      rw [ht] at hq
      dsimp only at hq
      exact ⟨keep hd, g.nodup, by rw [hq]; exact g.room, by rw [hq]; exact g.full, by rw [hq]; exact g.order⟩
    · rw [h]
      have hq := queue_live hd hr
      rw [ht] at hq
      dsimp only at hq
      have hcons := takes_queue ht
      have hlen : s.server.queue.length = s.server.queue.tail.length + 1 := by rw [hcons]; rfl
      have gr := g.room
      have hord : ∀ c, of c s.seen = of c (s.taken ++ [x]) ++ of c s.server.queue.tail ++ of c (s.granted ++ s.waiting) := by
        intro c
        rw [g.order c, hcons, show of c (x :: s.server.queue.tail) = of c [x] ++ of c s.server.queue.tail from of_append c [x] _,
          of_append c s.taken]
        simp
      unfold grant
      split
      · rename_i hw
        dsimp only at hw
        refine ⟨keep hd, g.nodup, ?_, fun h => absurd hw h, ?_⟩
        · dsimp only; rw [hq]; omega
        · intro c; dsimp only; rw [hq]; exact hord c
      · rename_i w ws hw
        dsimp only at hw
        have hf := g.full (by rw [hw]; simp)
        have happ : (s.granted ++ [w]) ++ ws = s.granted ++ s.waiting := by rw [hw]; simp
        refine ⟨?_, ?_, ?_, ?_, ?_⟩
        · dsimp only; rw [happ]; exact keep hd
        · dsimp only; rw [happ]; exact g.nodup
        · dsimp only; rw [hq]; simp only [List.length_append, List.length_cons, List.length_nil]; omega
        · intro _; dsimp only; rw [hq]; simp only [List.length_append, List.length_cons, List.length_nil]; omega
        · intro c; dsimp only; rw [hq, happ]; exact hord c

theorem good_run (cap ttl m : Nat) (h : List Action) : Good cap (run cap ttl m h) := by
  induction h using snoc_induction with
  | nil => exact ⟨by simp [run, exec, init], by simp [run, exec, init], by simp [run, exec, init, Server.init],
      by simp [run, exec, init], by simp [run, exec, init, Server.init, of_nil]⟩
  | snoc h a ih => rw [run_snoc]; exact good_step ih a

theorem server_step (cap : Nat) (s : State) (a : Action) :
    ∃ h', (step cap s a).server = Server.exec s.server h' := by
  rcases step_cases cap s a with h | ⟨x, -, l1, l2, -, hg, hl, -, h⟩ | ⟨c, r, k, -, hb, hk, hi, h⟩ | ⟨b, -, hr, hb, h⟩
  · exact ⟨[], by rw [h]; rfl⟩
  · exact ⟨[.report x.1 x.2], by rw [h]; rfl⟩
  · refine ⟨[], ?_⟩
    rw [h]; unfold send; split <;> rfl
  · refine ⟨[b], ?_⟩
    rcases h with ⟨hd, h⟩ | ⟨hd, ht, h⟩ | ⟨x, hd, ht, h⟩ <;> rw [h]
    · rfl
    · rfl
    · unfold grant; split <;> rfl

theorem server_run (cap ttl m : Nat) (h : List Action) : ∃ h', (run cap ttl m h).server = Server.run ttl m h' := by
  induction h using snoc_induction with
  | nil => exact ⟨[], rfl⟩
  | snoc h a ih =>
    obtain ⟨h', e⟩ := ih
    rw [run_snoc]
    obtain ⟨h2, e2⟩ := server_step cap (run cap ttl m h) a
    refine ⟨h' ++ h2, ?_⟩
    rw [e2, e]
    exact (Server.exec_append _ _ _).symm

/-- What is taken out is what was in first; what waits first gets room first. -/
structure Onward (s s' : State) (new : List (ConnId × Report)) : Prop where
  taken : s'.taken = s.taken ++ new
  queue : ∃ entered, s.server.queue ++ entered = new ++ s'.server.queue
  waiting : ∃ later, s'.waiting = s.waiting.drop new.length ++ later
  kept : ∀ x ∈ s.granted ++ s.waiting.take new.length, x ∈ s'.granted ∨ x ∈ s'.server.queue ∨ x ∈ new

theorem lives_snoc {cap : Nat} {s : State} {h : List Action} {a : Action} (hl : Lives cap s (h ++ [a])) :
    Lives cap s h ∧ ∀ b, a = .server b → Leftover.dies (exec cap s h).server b = false := by
  refine ⟨fun p b q e => ?_, fun b e => hl h b [] (by rw [e])⟩
  exact hl p b (q ++ [a]) (by rw [e]; simp)

theorem onward {cap : Nat} {s : State} {h : List Action} (g : Good cap s) (hl : Lives cap s h) :
    ∃ new, Onward s (exec cap s h) new := by
  have hgood : ∀ h, Good cap (exec cap s h) := by
    intro h
    induction h using snoc_induction with
    | nil => exact g
    | snoc h a ih => rw [exec_snoc]; exact good_step ih a
  induction h using snoc_induction with
  | nil => exact ⟨[], by simp [exec], ⟨[], by simp [exec]⟩, ⟨[], by simp [exec]⟩, by simp [exec]; intro _ _ h; exact .inl h⟩
  | snoc h a ih =>
    obtain ⟨hl1, hl2⟩ := lives_snoc hl
    obtain ⟨new, o1, ⟨entered, o2⟩, ⟨later, o3⟩, o4⟩ := ih hl1
    have g' := hgood h
    rw [exec_snoc]
    rcases step_cases cap (exec cap s h) a with e | ⟨x, -, l1, l2, -, hg, -, -, e⟩ | ⟨c, r, k, -, -, -, -, e⟩ | ⟨b, rfl, hr, hb, e⟩
    · rw [e]; exact ⟨new, o1, ⟨entered, o2⟩, ⟨later, o3⟩, o4⟩
    · rw [e]
      obtain ⟨k, hk, hi⟩ := g'.idle x (by rw [hg]; simp)
      rw [report_step hk hi]
      refine ⟨new, o1, ⟨entered ++ [x], ?_⟩, ⟨later, o3⟩, ?_⟩
      · rw [← List.append_assoc, o2]; simp
      · intro y hy
        rcases o4 y hy with h | h | h
        · rw [hg] at h
          simp only [List.mem_append, List.mem_cons] at h ⊢
          rcases h with h | rfl | h
          · exact .inl (.inl h)
          · exact .inr (.inl (.inr (.inl rfl)))
          · exact .inl (.inr h)
        · exact .inr (.inl (List.mem_append_left _ h))
        · exact .inr (.inr h)
    · rw [e]
      unfold send
      split
      · refine ⟨new, o1, ⟨entered, o2⟩, ⟨later, o3⟩, ?_⟩
        intro y hy
        rcases o4 y hy with h | h | h
        · exact .inl (List.mem_append_left _ h)
        · exact .inr (.inl h)
        · exact .inr (.inr h)
      · refine ⟨new, o1, ⟨entered, o2⟩, ⟨later ++ [(c, r)], ?_⟩, o4⟩
        dsimp only; rw [o3]; simp
    · have hd := hl2 b rfl
      rcases e with ⟨hd', -⟩ | ⟨-, ht, e⟩ | ⟨x, -, ht, e⟩
      · rw [hd] at hd'; cases hd'
      · rw [e]
        have hq := queue_live hd hr
        rw [ht] at hq
        dsimp only at hq
        exact ⟨new, o1, ⟨entered, by dsimp only; rw [hq]; exact o2⟩, ⟨later, o3⟩, by dsimp only; rw [hq]; exact o4⟩
      · rw [e]
        have hq := queue_live hd hr
        rw [ht] at hq
        dsimp only at hq
        have hcons := takes_queue ht
        have hqueue : s.server.queue ++ entered = (new ++ [x]) ++ (Server.step (exec cap s h).server b).queue := by
          rw [o2, hq, List.append_assoc]
          congr 1
        have hkept : ∀ y, (y ∈ (exec cap s h).granted ∨ y ∈ (exec cap s h).server.queue ∨ y ∈ new) →
            y ∈ (exec cap s h).granted ∨ y ∈ (Server.step (exec cap s h).server b).queue ∨ y ∈ new ++ [x] := by
          intro y hy
          rw [hq]
          rcases hy with h1 | h1 | h1
          · exact .inl h1
          · rw [hcons] at h1
            rcases List.mem_cons.1 h1 with rfl | h1
            · exact .inr (.inr (by simp))
            · exact .inr (.inl h1)
          · exact .inr (.inr (List.mem_append_left _ h1))
        have hlen : (new ++ [x]).length = new.length + 1 := by simp
        refine ⟨new ++ [x], ?_⟩
        unfold grant
        split
        · rename_i hw
          dsimp only at hw
          have hnil : s.waiting.drop new.length = [] := by
            rw [hw] at o3; exact (List.append_eq_nil_iff.1 o3.symm).1
          have hle : s.waiting.length ≤ new.length := by
            have := congrArg List.length hnil
            rw [List.length_drop] at this
            simp at this
            omega
          refine ⟨by dsimp only; rw [o1, List.append_assoc], ⟨entered, hqueue⟩, ⟨[], ?_⟩, ?_⟩
          · dsimp only
            rw [hw, hlen, List.drop_of_length_le (by omega)]; rfl
          · intro y hy
            rw [hlen, List.take_of_length_le (by omega)] at hy
            rw [List.take_of_length_le hle] at o4
            exact hkept y (o4 y hy)
        · rename_i w ws hw
          dsimp only at hw
          refine ⟨by dsimp only; rw [o1, List.append_assoc], ⟨entered, hqueue⟩, ?_, ?_⟩
          · dsimp only
            rw [hlen]
            rw [hw] at o3
            cases hdrop : s.waiting.drop new.length with
            | nil =>
              refine ⟨ws, ?_⟩
              have := congrArg List.length hdrop
              rw [List.length_drop] at this
              simp at this
              rw [List.drop_of_length_le (by omega)]; rfl
            | cons y ys =>
              rw [hdrop] at o3
              simp only [List.cons_append, List.cons.injEq] at o3
              refine ⟨later, ?_⟩
              rw [o3.2, ← List.drop_drop, hdrop]
              rfl
          · intro y hy
            rw [hlen] at hy
            dsimp only
            have : y ∈ s.granted ++ s.waiting.take new.length ∨ y = w := by
              rcases List.mem_append.1 hy with hy | hy
              · exact .inl (List.mem_append_left _ hy)
              · rw [List.take_add_one] at hy
                rcases List.mem_append.1 hy with hy | hy
                · exact .inl (List.mem_append_right _ hy)
                · right
                  rw [hw] at o3
                  cases hdrop : s.waiting.drop new.length with
                  | nil =>
                    have := congrArg List.length hdrop
                    rw [List.length_drop] at this
                    simp at this
                    rw [List.getElem?_eq_none (by omega)] at hy
                    simp at hy
                  | cons z zs =>
                    rw [hdrop] at o3
                    simp only [List.cons_append, List.cons.injEq] at o3
                    have hz : s.waiting[new.length]? = some z := by
                      have := congrArg List.head? hdrop
                      rw [List.head?_drop] at this
                      exact this
                    rw [hz] at hy
                    simp at hy
                    rw [hy, o3.1]
            rcases this with hy | rfl
            · rcases hkept y (o4 y hy) with h1 | h1 | h1
              · exact .inl (List.mem_append_left _ h1)
              · exact .inr (.inl h1)
              · exact .inr (.inr h1)
            · exact .inl (by simp)

end Opsqueue.Mailbox
