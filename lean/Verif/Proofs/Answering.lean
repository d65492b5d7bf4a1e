import Verif.Proofs.Waiting

/-! # Every reserve request is answered at most once, in the whole server -/

namespace Opsqueue.Server
open Conn (Request Response Report)

/-- What one action adds to `askedFrom`. -/
def asks (s : State) (c : ConnId) : Action → List Nat
  | .request c' r _ => if c' = c ∧ Idle s c then [r.nonce] else []
  | _ => []

theorem askedFrom_cons (s : State) (c : ConnId) (a : Action) (es : List Action) :
    askedFrom s c (a :: es) = asks s c a ++ askedFrom (step s a) c es := by
  cases a <;> rfl

/-- The books of a connection: `L` are the requests that arrived. -/
structure Book (s : State) (c : ConnId) (L : List Nat) : Prop where
  absent : s.conns.get c = none → L = []
  atMost : ∀ k, s.conns.get c = some k → ∀ n, (k.answers.map (·.1)).count n ≤ L.count n
  exact : ∀ k, s.conn c = some k → ∀ n, L.count n = (k.answers.map (·.1)).count n + (unanswered k).count n

/-- What an action may do to the books. -/
def Kept (L : List Nat) (k : ConnState) : Prop :=
  (∀ n, (k.answers.map (·.1)).count n ≤ L.count n) ∧
  (k.live = true → ∀ n, L.count n = (k.answers.map (·.1)).count n + (unanswered k).count n)

theorem book_of {s : State} {c : ConnId} {L : List Nat} {k : ConnState} (hk : s.conns.get c = some k)
    (h : Kept L k) : Book s c L := by
  refine ⟨fun h' => (by rw [hk] at h'; cases h'), fun k' hk' => ?_, fun k' hk' => ?_⟩
  · rw [hk] at hk'; cases hk'; exact h.1
  · obtain ⟨h1, h2⟩ := conn_eq.1 hk'
    rw [hk] at h1; cases h1; exact h.2 h2

theorem kept_of {s : State} {c : ConnId} {L : List Nat} {k : ConnState} (h : Book s c L)
    (hk : s.conns.get c = some k) : Kept L k :=
  ⟨h.atMost k hk, fun hl => h.exact k (conn_eq.2 ⟨hk, hl⟩)⟩

/-- The nonces are the same, only differently distributed. -/
theorem kept_move {L L' : List Nat} {k k' : ConnState} (h : Kept L k) (hl : k.live = true)
    (hm : ∀ n, L'.count n + (k.answers.map (·.1)).count n + (unanswered k).count n =
      L.count n + (k'.answers.map (·.1)).count n + (unanswered k').count n) : Kept L' k' := by
  refine ⟨fun n => ?_, fun _ n => ?_⟩ <;>
  · have h1 := h.2 hl n
    have h2 := hm n
    omega

theorem kept_dead {L : List Nat} {k : ConnState} (h : Kept L k) : Kept L { live := false, answers := k.answers } :=
  ⟨h.1, fun h => by cases h⟩

theorem kept_finish {L : List Nat} {k : ConnState} {f : Fetching} {g : Fetching} (h : Kept L k) (hl : k.live = true)
    (hf : k.fetching = some f) (hg : g.req = f.req) : Kept L (finishFetch k g) := by
  refine kept_move h hl fun n => ?_
  unfold finishFetch
  split
  · simp only [unanswered, hf, hg, Option.map_some, Option.map_none, Option.toList_some, Option.toList_none,
      List.map_append, List.count_append, List.map_cons, List.map_nil, List.nil_append]
    omega
  · simp only [unanswered, ConnState.answer, hf, hg, Option.map_some, Option.map_none, Option.toList_some,
      Option.toList_none, List.map_append, List.count_append, List.map_cons, List.map_nil, List.nil_append]
    omega

theorem count_eraseIdx {l : List Request} {i : Nat} {r : Request} (h : l[i]? = some r) (n : Nat) :
    (l.map (·.nonce)).count n = ((l.eraseIdx i).map (·.nonce)).count n + [r.nonce].count n := by
  induction l generalizing i with
  | nil => cases h
  | cons x l ih =>
    cases i with
    | zero =>
      simp only [List.getElem?_cons_zero, Option.some.injEq] at h
      subst h
      simp only [List.eraseIdx_cons_zero, List.map_cons, List.count_cons, List.count_nil]
      omega
    | succ i =>
      have := ih (i := i) (by simpa using h)
      simp only [List.eraseIdx_cons_succ, List.map_cons, List.count_cons] at *
      omega

theorem kept_begin {s : State} {c : ConnId} {k0 k : ConnState} {L : List Nat} {r : Request} {v : View}
    (h : Kept L k0) (hl0 : k0.live = true) (hf : k.fetching = none) {L' : List Nat}
    (hm : ∀ n, L'.count n + (k0.answers.map (·.1)).count n + (unanswered k0).count n =
      L.count n + (k.answers.map (·.1)).count n + (unanswered k).count n + [r.nonce].count n) :
    Book (begin s c k r v) c L' := by
  unfold begin
  split
  · refine book_of (get_setConn_self _ _ _) (kept_move h hl0 fun n => ?_)
    have := hm n
    simp only [unanswered, hf, ConnState.answer, Option.map_none, Option.toList_none, List.map_append,
      List.count_append, List.map_cons, List.map_nil, List.nil_append] at *
    omega
  · refine book_of (get_setConn_self _ _ _) (kept_move h hl0 fun n => ?_)
    have := hm n
    simp only [unanswered, hf, Option.map_none, Option.map_some, Option.toList_some, Option.toList_none,
      List.map_append, List.count_append, List.nil_append] at *
    omega

theorem idle_iff {s : State} {c : ConnId} {k : ConnState} (hk : s.conn c = some k) :
    Idle s c ↔ k.fetching = none := by
  unfold Idle fetchOf
  rw [hk]
  simp

theorem absent_step {s : State} {a : Action} {c : ConnId} (hg : s.conns.get c = none) (hc : a ≠ .connect c) :
    (step s a).conns.get c = none := by
  by_cases hact : a.actor = some c
  · have hnone : s.conn c = .none := by unfold State.conn; rw [hg]; rfl
    have same : step s a = s := by
      cases a with
      | connect c' => cases hact; exact absurd rfl hc
      | _ => first
        | (cases hact; simp [step, State.withIdle, State.withConn, State.withFetch, hnone])
        | (cases hact)
    rw [same]; exact hg
  · exact conns_none hg hact

theorem book_step {s : State} {c : ConnId} {L : List Nat} (h : Book s c L) (a : Action) :
    Book (step s a) c (L ++ asks s c a) := by
  cases hg : s.conns.get c with
  | none =>
    have hno : s.conn c = none := by unfold State.conn; rw [hg]; rfl
    have hL := h.absent hg
    subst hL
    have hask : asks s c a = [] := by
      cases a with
      | request c' r v =>
        simp only [asks]
        rw [if_neg]
        rintro ⟨_, hi⟩
        unfold Idle at hi
        rw [hno] at hi
        cases hi.1
      | _ => rfl
    rw [hask, List.append_nil]
    by_cases hc : a = .connect c
    · subst hc
      simp only [step]
      rw [hg]
      exact book_of (get_setConn_self _ _ _) ⟨fun n => by simp, fun _ n => by simp [unanswered]⟩
    · have hget : (step s a).conns.get c = none := absent_step hg hc
      exact ⟨fun _ => rfl, fun k hk => (by rw [hget] at hk; cases hk), fun k hk => by
        have := (conn_eq.1 hk).1
        rw [hget] at this; cases this⟩
  | some k =>
    have hb := kept_of h hg
    by_cases hact : a.actor = some c
    · cases hl : k.live with
      | false =>
        have hnone : s.conn c = .none := by unfold State.conn; rw [hg]; simp [hl]
        have hask : asks s c a = [] := by
          cases a with
          | request c' r v =>
            simp only [asks]
            rw [if_neg]
            rintro ⟨_, hi⟩
            unfold Idle at hi
            rw [hnone] at hi
            cases hi.1
          | _ => rfl
        rw [hask, List.append_nil]
        have same : step s a = s := by
          cases a with
          | connect c' => cases hact; simp only [step]; rw [hg]
          | _ => first
            | (cases hact; simp [step, State.withIdle, State.withConn, State.withFetch, hnone])
            | (cases hact)
        rw [same]; exact h
      | true =>
        have hc := conn_eq.2 ⟨hg, hl⟩
        have quiet : asks s c a = [] → step s a = s → Book (step s a) c (L ++ asks s c a) := by
          intro h1 h2; rw [h1, h2, List.append_nil]; exact h
        cases a with
        | connect c' => cases hact; exact quiet rfl (by simp only [step]; rw [hg])
        | request c' r v =>
          cases hact
          cases hf : k.fetching with
          | some f =>
            refine quiet ?_ (idle_noop hc hf _)
            simp only [asks]
            rw [if_neg]
            rintro ⟨_, hi⟩
            rw [idle_iff hc, hf] at hi
            cases hi
          | none =>
            have hask : asks s c (.request c r v) = [r.nonce] := by
              simp only [asks]
              simp [(idle_iff hc).2 hf]
            rw [request_cases hc hf, hask]
            refine kept_begin hb hl hf fun n => ?_
            rw [List.count_append]
            omega
        | retry c' v =>
          cases hact
          cases hf : k.fetching with
          | some f => exact quiet rfl (idle_noop hc hf _)
          | none =>
            cases hr : k.retry with
            | nil => exact quiet rfl (by simp [step, State.withIdle, State.withConn, hc, hf, hr])
            | cons q rest =>
              have hs : step s (.retry c v) = begin s c { k with retry := rest } q v := by
                simp [step, State.withIdle, State.withConn, hc, hf, hr]
              rw [hs, show asks s c (.retry c v) = [] from rfl, List.append_nil]
              refine kept_begin (k := { k with retry := rest }) hb hl hf fun n => ?_
              simp only [unanswered, hr, List.map_append, List.count_append, List.map_cons, List.count_cons,
                List.count_nil]
              omega
        | row c' =>
          cases hact
          cases hf : k.fetching with
          | none => exact quiet rfl (by simp [step, State.withFetch, State.withConn, hc, hf])
          | some f =>
            rw [show asks s c (.row c) = [] from rfl, List.append_nil]
            rcases row_cases hc hf with ⟨hj, hs⟩ | ⟨hj, hr, hs⟩ | ⟨row, rest, hj, hr, ⟨hres, hs⟩ | ⟨hres, hs⟩⟩
            · rw [hs]; exact h
            · rw [hs]; exact book_of (get_setConn_self _ _ _) (kept_finish hb hl hf rfl)
            · rw [hs]; exact book_of (get_setConn_self _ _ _) (kept_move hb hl fun n => by
                simp only [unanswered, hf, Option.map_some])
            · rw [hs]; exact book_of (get_setConn_self _ _ _) (kept_move hb hl fun n => by
                simp only [unanswered, hf, Option.map_some])
        | join c' =>
          cases hact
          cases hf : k.fetching with
          | none => exact quiet rfl (by simp [step, State.withFetch, State.withConn, hc, hf])
          | some f =>
            rw [show asks s c (.join c) = [] from rfl, List.append_nil]
            rcases join_cases hc hf with ⟨hj, hs⟩ | ⟨id, hj, ⟨sub, hsub, hs⟩ | ⟨hsub, hs⟩⟩
            · rw [hs]; exact h
            · rw [hs]
              refine book_of (get_setConn_self _ _ _) ?_
              split
              · exact kept_finish hb hl hf rfl
              · exact kept_move hb hl fun n => by simp only [unanswered, hf, Option.map_some, Fetching.joined]
            · rw [hs]
              exact book_of (by unfold dropConn; show Map.get (Map.set _ _ _) _ = _; rw [Map.get_set, if_pos rfl])
                (kept_dead hb)
        | fetchFails c' =>
          cases hact
          cases hf : k.fetching with
          | none => exact quiet rfl (by simp [step, State.withFetch, State.withConn, hc, hf])
          | some f =>
            rw [show asks s c (.fetchFails c) = [] from rfl, List.append_nil]
            have hs : step s (.fetchFails c) = s.setConn c (k.answer f.req (some [])) := by
              simp only [step]; rw [withFetch_eq hc hf]
            rw [hs]
            refine book_of (get_setConn_self _ _ _) (kept_move hb hl fun n => ?_)
            simp only [unanswered, hf, ConnState.answer, Option.map_some, Option.map_none, Option.toList_some,
              Option.toList_none, List.map_append, List.count_append, List.map_cons, List.map_nil, List.nil_append]
            omega
        | register c' i =>
          cases hact
          cases hs : k.spawned[i]? with
          | none => exact quiet rfl (by simp [step, State.withConn, hc, hs])
          | some q =>
            rw [show asks s c (.register c i) = [] from rfl, List.append_nil]
            have he : step s (.register c i) =
                s.setConn c { k with spawned := k.spawned.eraseIdx i, waiting := k.waiting ++ [q] } := by
              simp only [step, State.withConn, hc, hs]
            rw [he]
            refine book_of (get_setConn_self _ _ _) (kept_move hb hl fun n => ?_)
            have := count_eraseIdx hs n
            simp only [unanswered, List.map_append, List.count_append, List.map_cons, List.map_nil]
            omega
        | report c' q =>
          cases hact
          have : (step s (.report c q)).conns = s.conns := by
            simp only [step, State.withIdle, State.withConn]
            repeat' split
            all_goals rfl
          rw [show asks s c (.report c q) = [] from rfl, List.append_nil]
          exact book_of (by rw [this]; exact hg) hb
        | disconnect c' =>
          cases hact
          rw [show asks s c (.disconnect c) = [] from rfl, List.append_nil]
          have hs : step s (.disconnect c) = dropConn s c k := by
            simp [step, State.withConn, hc]
          rw [hs]
          exact book_of (by unfold dropConn; show Map.get (Map.set _ _ _) _ = _; rw [Map.get_set, if_pos rfl])
            (kept_dead hb)
        | _ => cases hact
    · have hask : asks s c a = [] := by
        cases a with
        | request c' r v =>
          simp only [asks]
          rw [if_neg]
          rintro ⟨rfl, _⟩
          exact hact rfl
        | _ => rfl
      rw [hask, List.append_nil]
      obtain ⟨k', h3, h4⟩ := passive_step hg hact
      refine book_of h3 ?_
      cases h4 with
      | same => exact hb
      | wake hw =>
        refine ⟨hb.1, fun hl n => ?_⟩
        rw [hb.2 hl n]
        simp only [unanswered, ConnState.wake, List.map_append, List.count_append, List.append_nil]
        omega
      | unhold => exact hb
      | crashed => exact kept_dead hb

theorem book_exec {s : State} {c : ConnId} {L : List Nat} (h : Book s c L) (es : List Action) :
    Book (exec s es) c (L ++ askedFrom s c es) := by
  induction es generalizing s L with
  | nil => rw [askedFrom, List.append_nil]; exact h
  | cons a es ih =>
    rw [askedFrom_cons, ← List.append_assoc]
    exact ih (book_step h a)

theorem book_run (ttl m : Nat) (h : List Action) (c : ConnId) :
    Book (Server.run ttl m h) c (askedFrom (init ttl m) c h) := by
  have := book_exec (s := init ttl m) (c := c) (L := []) ⟨fun _ => rfl, fun k hk => (by cases hk), fun k hk => by
    cases (conn_eq.1 hk).1⟩ h
  rw [List.nil_append] at this
  exact this

end Opsqueue.Server
