import Verif.Proofs.Holding

/-!
# Lemmas about the completer's mailbox
-/

namespace Opsqueue.Server
open Conn (Request Response Report)

/-- The reports carried out and those in the mailbox. -/
def State.reports (s : State) : List Report := s.calls.filterMap Op.report? ++ s.queue.map (·.2)

/-- What one action adds to `acceptedFrom`. -/
def accepts (s : State) : Action → List (ConnId × Report)
  | .report c r => if Idle s c then [(c, r)] else []
  | _ => []

theorem acceptedFrom_cons (s : State) (a : Action) (es : List Action) :
    acceptedFrom s (a :: es) = accepts s a ++ acceptedFrom (step s a) es := by
  cases a <;> rfl

theorem report?_reportOp (m : Nat) (n1 n2 n3 : Time) (o : List Fault) (r : Report) :
    (reportOp m n1 n2 n3 o r).report? = some r := by
  cases r <;> rfl

theorem report?_producer (call : ProducerCall) : call.op.report? = none := by
  cases call <;> rfl

theorem reports_step (s : State) (a : Action) :
    List.Sublist (step s a).reports (s.reports ++ (accepts s a).map (·.2)) ∧
    (a.noWriter = false →
      (∀ op, (step s a).calls = s.calls ++ [op] → (Opsqueue.step s.db op).1.crashed = false) →
      (step s a).reports = s.reports ++ (accepts s a).map (·.2)) := by
  have same : (step s a).calls = s.calls → (step s a).queue = s.queue → accepts s a = [] →
      (step s a).reports = s.reports ++ (accepts s a).map (·.2) := by
    intro h1 h2 h3; unfold State.reports; rw [h1, h2, h3]; simp
  have eq : (step s a).reports = s.reports ++ (accepts s a).map (·.2) →
    List.Sublist (step s a).reports (s.reports ++ (accepts s a).map (·.2)) ∧
    (a.noWriter = false →
      (∀ op, (step s a).calls = s.calls ++ [op] → (Opsqueue.step s.db op).1.crashed = false) →
      (step s a).reports = s.reports ++ (accepts s a).map (·.2)) :=
    fun h => ⟨by rw [h]; exact List.Sublist.refl _, fun _ _ => h⟩
  cases a with
  | report c r =>
    apply eq
    cases hk : s.conn c with
    | none =>
      have hni : ¬ Idle s c := fun h => by have := h.1; rw [hk] at this; cases this
      have : step s (.report c r) = s := by simp [step, State.withIdle, State.withConn, hk]
      rw [this]; simp [accepts, hni]
    | some k =>
      cases hf : k.fetching with
      | some f =>
        have hni : ¬ Idle s c := fun h => by
          have := h.2; unfold fetchOf at this; rw [hk] at this; simp [hf] at this
        have : step s (.report c r) = s := by simp [step, State.withIdle, State.withConn, hk, hf]
        rw [this]; simp [accepts, hni]
      | none =>
        have hi : Idle s c := ⟨by rw [hk]; rfl, by unfold fetchOf; rw [hk]; exact hf⟩
        have : step s (.report c r) = { s with queue := s.queue ++ [(c, r)] } := by
          simp [step, State.withIdle, State.withConn, hk, hf]
        rw [this]; simp [accepts, hi, State.reports]
  | handle w n1 n2 n3 o =>
    simp only [accepts, List.map_nil, List.append_nil] at *
    simp only [step] at *
    rcases handle_cases s w n1 n2 n3 o with h | ⟨c', r, queue, hcomp, hq, h⟩
    · rw [h]; exact ⟨List.Sublist.refl _, fun _ _ => rfl⟩
    · rcases h with ⟨hw, h⟩ | ⟨hw, h1, h2⟩
      · rw [h]
        unfold State.reports
        refine ⟨?_, fun hh => by rw [hw] at hh; cases hh⟩
        rw [hq]
        exact List.Sublist.append (List.Sublist.refl _) (List.sublist_cons_self _ _)
      · obtain ⟨g1, g2, g3, g4, g5⟩ := dbCall_spec { s with queue := queue } (reportOp s.maxRetries n1 n2 n3 o r)
        cases hc : (dbCall { s with queue := queue } (reportOp s.maxRetries n1 n2 n3 o r)).1.crashed with
        | true =>
          have hc' := hc
          rw [g1] at hc
          rw [h1 hc']
          have gw := wiped_dbCall hc'
          unfold State.reports
          constructor
          · rw [g3, gw.2.2.1, hq]
            simp only [List.filterMap_append, List.filterMap_cons, report?_reportOp, List.filterMap_nil,
              List.map_nil, List.append_nil, List.map_cons]
            exact List.Sublist.append (List.Sublist.refl _) (List.cons_sublist_cons.2 (List.nil_sublist _))
          · intro _ hcr
            have := hcr _ g3
            dsimp only at hc
            rw [this] at hc
            cases hc
        | false =>
          rw [h2 hc]
          rw [g1] at hc
          refine (fun e => ⟨by rw [e]; exact List.Sublist.refl _, fun _ _ => e⟩) ?_
          unfold State.reports
          dsimp only
          rw [g4 hc, hq]
          simp [report?_reportOp]
  | producer call =>
    simp only [accepts, List.map_nil, List.append_nil] at *
    obtain ⟨g1, g2, g3, g4, g5⟩ := dbCall_spec s call.op
    have key : ∀ n, (dbCall s call.op).1.crashed = false →
        ({ (dbCall s call.op).2 with notifies := n } : State).reports = s.reports := by
      intro n hc
      rw [g1] at hc
      unfold State.reports
      dsimp only
      rw [g4 hc]
      simp [report?_producer]
    obtain ⟨h1, ⟨id, hi, h⟩ | ⟨hi, h⟩⟩ := producer_cases s call
    · rw [h]
      have e := key ((dbCall s call.op).2.notifies + 1) (by rw [hi]; rfl)
      rw [e]; exact ⟨List.Sublist.refl _, fun _ _ => rfl⟩
    · cases hc : (dbCall s call.op).1.crashed with
      | true =>
        rw [h]
        have gw := wiped_dbCall hc
        rw [g1] at hc
        unfold State.reports
        constructor
        · rw [g3, gw.2.2.1]
          simp only [List.filterMap_append, List.filterMap_cons, report?_producer, List.filterMap_nil,
            List.map_nil, List.append_nil]
          exact List.sublist_append_left _ _
        · intro _ hcr
          have := hcr _ g3
          rw [this] at hc; cases hc
      | false =>
        rw [h]
        have e := key (dbCall s call.op).2.notifies hc
        have : ({ (dbCall s call.op).2 with notifies := (dbCall s call.op).2.notifies } : State) =
          (dbCall s call.op).2 := rfl
        rw [this] at e
        rw [e]; exact ⟨List.Sublist.refl _, fun _ _ => rfl⟩
  | release b =>
    apply eq; apply same
    · simp only [step, release]; split <;> rfl
    · simp only [step, release]; split <;> rfl
    · rfl
  | _ =>
    apply eq; apply same
    · simp only [step, State.withIdle, State.withFetch, State.withConn, begin, fetchRow, fetchJoin]
      repeat' split
      all_goals first | rfl | simp
    · simp only [step, State.withIdle, State.withFetch, State.withConn, begin, fetchRow, fetchJoin]
      repeat' split
      all_goals first | rfl | simp
    · rfl

theorem reports_exec (s : State) (es : List Action) :
    List.Sublist (exec s es).reports (s.reports ++ (acceptedFrom s es).map (·.2)) := by
  induction es generalizing s with
  | nil => simp [acceptedFrom]; exact List.Sublist.refl _
  | cons a es ih =>
    rw [acceptedFrom_cons, List.map_append, ← List.append_assoc]
    exact (ih (step s a)).trans (List.Sublist.append (reports_step s a).1 (List.Sublist.refl _))

theorem reports_exec_eq (s : State) (es : List Action) (hw : ∀ a ∈ es, a.noWriter = false)
    (hs : s.db = Opsqueue.run s.calls) (hc : NeverCrashed (exec s es).calls) :
    (exec s es).reports = s.reports ++ (acceptedFrom s es).map (·.2) := by
  induction es generalizing s with
  | nil => simp [acceptedFrom]; rfl
  | cons a es ih =>
    rw [acceptedFrom_cons, List.map_append, ← List.append_assoc]
    obtain ⟨ops, h2, h1⟩ := db_exec s [a]
    have h1 : (step s a).calls = s.calls ++ ops := h1
    have h2 : (step s a).db = runFrom s.db ops := h2
    have hs' : (step s a).db = Opsqueue.run (step s a).calls := by
      rw [h1, h2, hs, ← Opsqueue.run_append]
    have := ih (step s a) (fun b hb => hw b (List.mem_cons_of_mem _ hb)) hs' hc
    show (exec (step s a) es).reports = _
    rw [this, (reports_step s a).2 (hw a List.mem_cons_self)]
    intro op hop
    obtain ⟨ops2, _, h3⟩ := db_exec (step s a) es
    have := hc s.calls op ops2 (by show (exec (step s a) es).calls = _; rw [h3, hop]; simp)
    rw [← hs] at this
    exact this

end Opsqueue.Server
