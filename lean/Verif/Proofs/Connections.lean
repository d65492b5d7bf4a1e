import Verif.Proofs.Holding
import Verif.Proofs.EndToEnd
import Verif.Proofs.Fairness
import Verif.Proofs.Work

/-! Why connections end (`C81`). -/

namespace Opsqueue.Server
open Conn (Request)

/-- The ways in which a connection ends. -/
theorem ends_why {s : State} {a : Action} {c : ConnId} (hup : (s.conn c).isSome)
    (hend : (step s a).conn c = none) :
    a = .disconnect c ∨ Dies s a ∨ ∃ f id, a = .join c ∧ fetchOf s c = some f ∧ f.joining = some id ∧
      ∀ sub, (SubmissionDb.getSubmission id.submissionId ⟨[], s.db⟩).1 ≠ .ok sub := by
  obtain ⟨k, hk⟩ := Option.isSome_iff_exists.1 hup
  obtain ⟨hkc, hkl⟩ := conn_eq.1 hk
  have dead : ∀ k', (step s a).conns.get c = some k' → k'.live = true → False := fun k' h1 h2 => by
    have := conn_eq.2 ⟨h1, h2⟩; rw [hend] at this; cases this
  by_cases ha : a.actor = some c
  · rcases own_step' hk ha with ⟨_, h | ⟨f, id, h1, h2, h3, h4⟩⟩ | ⟨k', h1, h2⟩
    · exact .inl h
    · exact .inr (.inr ⟨f, id, h1, by unfold fetchOf; rw [hk]; exact h2, h3, h4⟩)
    · exact (dead k' h1 h2.live).elim
  · obtain ⟨k', h1, h2⟩ := passive_step hkc ha
    cases h2 with
    | same => exact (dead _ h1 hkl).elim
    | wake => exact (dead _ h1 hkl).elim
    | unhold => exact (dead _ h1 hkl).elim
    | crashed _ h => exact .inr (.inl h)

theorem getSubmission_inProgress {db : DB} (hI : Opsqueue.Inv db) {x : SubmissionId}
    (h : ∃ sub, InProgressAt db x sub) : ∃ y, (SubmissionDb.getSubmission x ⟨[], db⟩).1 = .ok y := by
  obtain ⟨r, hr, rfl⟩ := List.mem_map.1 ((inProgress_iff hI).1 h)
  exact getSubmission_ok hI hr

theorem inProgress_of_chunk {db : DB} (hI : Opsqueue.Inv db) {row : ChunkRow} (h : row ∈ db.chunks) :
    ∃ sub, InProgressAt db row.submissionId sub := by
  obtain ⟨s, hs, he, _⟩ := hI.owner row h
  rw [← he]
  exact (inProgress_iff hI).2 (List.mem_map_of_mem hs)

/-- What a fetch still deals with is of submissions in progress. -/
def Current (s : State) (c : ConnId) : Prop :=
  ∀ f, fetchOf s c = some f → (∀ row ∈ f.rows, InProgress s row.submissionId) ∧
    ∀ id, f.joining = some id → InProgress s id.submissionId

theorem current_step {s : State} {a : Action} {c : ConnId} (hI : Opsqueue.Inv s.db)
    (hcur : Current s c)
    (hstay : Busy s c → ∀ id, InProgress s id → InProgress (step s a) id)
    (hdb : ∀ r v, a = .request c r v ∨ a = .retry c v → (step s a).db = s.db) :
    Current (step s a) c := by
  intro f' hf'
  cases fetch_step hf' with
  | same h =>
    have hb : Busy s c := by unfold Busy; rw [h]; rfl
    obtain ⟨h1, h2⟩ := hcur f' h
    exact ⟨fun row hr => hstay hb _ (h1 row hr), fun id hi => hstay hb _ (h2 id hi)⟩
  | new k r v hk hkf ha hj hrows =>
    have hd : (step s a).db = s.db := hdb r v (ha.imp id And.left)
    refine ⟨fun row hr => ?_, fun id hi => by rw [hj] at hi; cases hi⟩
    rw [hrows] at hr
    unfold InProgress; rw [hd]
    exact inProgress_of_chunk hI (mem_chunkRows hr)
  | row k f row rest ha hk hkf hj hr hr' hj' =>
    have hf : fetchOf s c = some f := by unfold fetchOf; rw [hk]; exact hkf
    have hb : Busy s c := by unfold Busy; rw [hf]; rfl
    obtain ⟨h1, h2⟩ := hcur f hf
    rw [hr] at h1
    refine ⟨fun x hx => hstay hb _ (h1 x (List.mem_cons_of_mem _ (hr' ▸ hx))), fun id hi => ?_⟩
    rcases hj' with h | h
    · rw [h] at hi; cases hi
    · rw [h] at hi; cases hi
      exact hstay hb _ (h1 row List.mem_cons_self)
  | join f hf hr hj =>
    have hb : Busy s c := by unfold Busy; rw [hf]; rfl
    obtain ⟨h1, _⟩ := hcur f hf
    exact ⟨fun x hx => hstay hb _ (h1 x (hr ▸ hx)), fun id hi => by rw [hj] at hi; cases hi⟩

theorem db_of_request {s : State} {a : Action} {c : ConnId} (r : Request) (v : View)
    (h : a = .request c r v ∨ a = .retry c v) : (step s a).db = s.db := by
  rcases h with rfl | rfl <;> simp only [step, State.withIdle, State.withConn, begin] <;> (repeat' split) <;> rfl

theorem survives {ttl m : Nat} {h es : List Action} {c : ConnId}
    (hf : FreshIds (run ttl m (h ++ es)).calls) (hidle : Idle (run ttl m h) c)
    (hno : .disconnect c ∉ es)
    (hlive : ∀ p a q, es = p ++ a :: q → ¬ Dies (run ttl m (h ++ p)) a)
    (hstay : ∀ p a q, es = p ++ a :: q → Busy (run ttl m (h ++ p)) c →
      ∀ id, InProgress (run ttl m (h ++ p)) id → InProgress (run ttl m (h ++ p ++ [a])) id) :
    ((run ttl m (h ++ es)).conn c).isSome ∧ Current (run ttl m (h ++ es)) c := by
  induction es using snoc_induction with
  | nil =>
    rw [List.append_nil]
    refine ⟨hidle.1, fun f hf => ?_⟩
    rw [hidle.2] at hf; cases hf
  | snoc es a ih =>
    have hf' : FreshIds (run ttl m (h ++ es)).calls := by
      rw [← List.append_assoc] at hf; exact fresh_prefix hf
    obtain ⟨hup, hcur⟩ := ih hf' (fun hm => hno (List.mem_append_left _ hm))
      (fun p b q he => hlive p b (q ++ [a]) (by rw [he]; simp))
      (fun p b q he => hstay p b (q ++ [a]) (by rw [he]; simp))
    have hI : Opsqueue.Inv (run ttl m (h ++ es)).db := by rw [db_run]; exact inv_run hf'
    have hd := hlive es a [] rfl
    have hs := hstay es a [] rfl
    rw [run_snoc'] at hs
    rw [← List.append_assoc, run_snoc']
    generalize run ttl m (h ++ es) = s at *
    refine ⟨?_, current_step hI hcur hs (fun r v h => db_of_request r v h)⟩
    cases hc : (step s a).conn c with
    | some k => rfl
    | none =>
      exfalso
      rcases ends_why hup hc with rfl | h | ⟨f, id, _, h2, h3, h4⟩
      · exact hno (by simp)
      · exact hd h
      · obtain ⟨y, hy⟩ := getSubmission_inProgress hI ((hcur f h2).2 id h3)
        exact h4 y hy

/-- A test for `Dies`, used to show that it does not happen in concrete histories. -/
def diesTest (s : State) (a : Action) : Bool :=
  ((step s a).calls.drop s.calls.length).any fun op => (Opsqueue.step s.db op).1.crashed

theorem test_of_dies {s : State} {a : Action} (h : Dies s a) : diesTest s a = true := by
  obtain ⟨op, h1, h2⟩ := h
  unfold diesTest
  rw [h1, List.drop_left]
  simp [h2]

/-- A test for the absence of `Dies` along a history. -/
def livesTest (s : State) : List Action → Bool
  | [] => true
  | a :: es => !diesTest s a && livesTest (step s a) es

theorem lives_of_test {s : State} {es : List Action} (h : livesTest s es = true) {p q : List Action} {a : Action}
    (he : es = p ++ a :: q) : ¬ Dies (exec s p) a := by
  induction p generalizing s es with
  | nil =>
    subst he
    simp only [List.nil_append, livesTest, Bool.and_eq_true, Bool.not_eq_true'] at h
    intro hd
    rw [show exec s [] = s from rfl] at hd
    rw [test_of_dies hd] at h; cases h.1
  | cons b p ih =>
    subst he
    simp only [List.cons_append, livesTest, Bool.and_eq_true] at h
    exact ih h.2 rfl

/-- A test that no submission stops being in progress while the connection is being served. -/
def staysTest (c : ConnId) (s : State) : List Action → Bool
  | [] => true
  | a :: es => (!decide (Busy s c) || s.db.submissions.all fun r => (step s a).db.submissions.any (·.id == r.id)) &&
      staysTest c (step s a) es

theorem stays_of_test {ttl m : Nat} {h es : List Action} {c : ConnId} (hf : FreshIds (run ttl m (h ++ es)).calls)
    (ht : staysTest c (run ttl m h) es = true) {p q : List Action} {a : Action} (he : es = p ++ a :: q)
    (hb : Busy (run ttl m (h ++ p)) c) (id : SubmissionId) (hi : InProgress (run ttl m (h ++ p)) id) :
    InProgress (run ttl m (h ++ p ++ [a])) id := by
  induction p generalizing h es with
  | nil =>
    subst he
    rw [List.append_nil] at *
    simp only [List.nil_append, staysTest, Bool.and_eq_true, Bool.or_eq_true, Bool.not_eq_true',
      decide_eq_false_iff_not, List.all_eq_true, List.any_eq_true, beq_iff_eq] at ht
    have h1 : Opsqueue.Inv (run ttl m h).db := by rw [db_run]; exact inv_run (fresh_prefix hf)
    have h2 : Opsqueue.Inv (run ttl m (h ++ [a])).db := by
      rw [db_run]; refine inv_run (fresh_prefix (es := q) ?_); simpa using hf
    obtain ⟨r, hr, rfl⟩ := List.mem_map.1 ((inProgress_iff h1).1 hi)
    rcases ht.1 with h | h
    · exact (h hb).elim
    · obtain ⟨r', hr', e⟩ := h r hr
      refine (inProgress_iff h2).2 (List.mem_map.2 ⟨r', ?_, e⟩)
      rw [run_snoc']; exact hr'
  | cons b p ih =>
    subst he
    simp only [List.cons_append, staysTest, Bool.and_eq_true] at ht
    have := ih (h := h ++ [b]) (es := p ++ a :: q) (by simpa using hf) (by rw [run_snoc']; exact ht.2) rfl
      (by simpa using hb) (by simpa using hi)
    simpa using this

end Opsqueue.Server
