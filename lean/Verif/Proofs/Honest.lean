import Verif.Proofs.Alive
import Verif.Proofs.Calls

/-! # What cancel says about a submission is true, whatever faults there are -/

namespace Opsqueue
open Sql SubmissionDb

/-- An error of the right kind (not a database error) is never caused by a fault, and the tables are those without faults. -/
def RFaithfulS {ε ε' α : Type} (x : Sql (E ε ε') α) : Prop :=
  ∀ w e w', x w = (.err (.R e), w') → x ⟨[], w.db⟩ = (.err (.R e), ⟨[], w'.db⟩)

theorem rFaithfulS_mapErr {ε ε' ε'' α : Type} {f : ε → ε''} (x : Sql ε α) :
    RFaithfulS (mapErr (fun e => (E.L (f e) : E ε'' ε')) x) := by
  intro w e w' h
  simp only [mapErr_run] at h
  split at h <;> simp at h

theorem rFaithfulS_throw {ε ε' α : Type} (e : E ε ε') : RFaithfulS (throw e : Sql (E ε ε') α) := by
  intro w e' w' h
  simp only [throw_run, Prod.mk.injEq] at h ⊢
  exact ⟨h.1, by rw [h.2]⟩

theorem rFaithfulS_pure {ε ε' α : Type} (a : α) : RFaithfulS (pure a : Sql (E ε ε') α) := by
  intro w e' w' h
  simp [pure_run] at h

theorem rFaithfulS_bind {ε ε' α β : Type} {x : Sql (E ε ε') α} {f : α → Sql (E ε ε') β}
    (fx : Faithful x) (hx : RFaithfulS x) (hf : ∀ a, RFaithfulS (f a)) : RFaithfulS (x >>= f) := by
  intro w e w' h
  rw [bind_run] at h ⊢
  rcases hw : x w with ⟨r, w1⟩
  rw [hw] at h
  cases r with
  | ok a =>
    simp only at h
    rw [fx _ _ _ hw]
    exact hf a _ _ _ h
  | err e' =>
    simp only [Prod.mk.injEq, Res.err.injEq] at h
    obtain ⟨rfl, rfl⟩ := h
    rw [hx _ _ _ hw]
  | crash => simp at h

theorem rFaithfulS_cancel (id : SubmissionId) (t1 t2 : Time) : RFaithfulS (cancelSubmissionNotx id t1 t2) := by
  refine rFaithfulS_bind ?_ ?_ fun _ => rFaithfulS_mapErr (f := fun e => e) _
  · refine faithful_bind (faithful_mapErr (faithful_stmt _)) fun _ => faithful_bind (faithful_mapErr (faithful_stmt _)) fun r => ?_
    cases r
    · exact faithful_throw _
    · exact faithful_pure _
  · refine rFaithfulS_bind (faithful_mapErr (faithful_stmt _)) (rFaithfulS_mapErr (f := fun e => e) _) fun _ =>
      rFaithfulS_bind (faithful_mapErr (faithful_stmt _)) (rFaithfulS_mapErr (f := fun e => e) _) fun r => ?_
    cases r
    · exact rFaithfulS_throw _
    · exact rFaithfulS_pure _

/-- Whatever faults there are, what cancel says about the submission is true of it. -/
theorem cancel_honest {db : DB} (hI : Inv db) {id : SubmissionId} {t1 t2 : Time} {o : List Fault}
    {x : E SubmissionNotFound SubmissionNotCancellable}
    (h : (step db (.cancel id t1 t2 o)).1 = .cancelled (.err (.err (.R x)))) :
    ∃ st, statusAt db id = .ok st ∧ cancelAnswer id (.ok st) = .err (.err (.R x)) := by
  have h : (transaction (fun e => .err (.L e)) (cancelBody id t1 t2) ⟨o, db⟩).1 = .err (.err (.R x)) := by
    simpa only [step, cancel_tx, Out.cancelled.injEq] using h
  unfold transaction at h
  split at h
  · cases h
  · cases h
  · rename_i w1 hb
    have hw1 : w1.db = db := by
      have := stmt_ok hb
      simp only [Except.ok.injEq, Prod.mk.injEq, true_and] at this
      exact this.symm
    split at h
    · rename_i e w2 he
      simp only [Res.err.injEq] at h
      subst h
      unfold cancelBody at he
      rw [matchRes_run] at he
      split at he
      · simp [pure_run] at he
      · rename_i e w3 hc
        cases e with
        | L e => simp [throw_run] at he
        | R nf =>
          dsimp only at he
          have hf := rFaithfulS_cancel id t1 t2 _ _ _ hc
          rw [hw1] at hf
          by_cases hm : id ∈ db.submissions.map SubmissionRow.id
          · obtain ⟨s, hs, rfl⟩ := List.mem_map.1 hm
            rw [cancelNotx_ok (s := s) (db := db) t1 t2 hI.subIds hs (hI.sub_canc hs) hI.chunkKeys
              (fun d hd => hI.cfNot d hd s hs)] at hf
            simp at hf
          · obtain ⟨db', hdb', hr⟩ := cancelNotx_missing t1 t2 hm
            have hself : db.submissions.filter (fun r => !(r.id == id)) = db.submissions := by
              rw [List.filter_eq_self]
              intro r hr
              have : r.id ≠ id := fun e => hm (e ▸ List.mem_map_of_mem hr)
              simpa using this
            rw [hself] at hdb'
            have hdb' : db' = db := hdb'
            subst hdb'
            rw [hr] at hf
            simp only [Prod.mk.injEq, Res.err.injEq, E.R.injEq, World.mk.injEq, true_and] at hf
            obtain ⟨rfl, hd⟩ := hf
            rw [matchRes_run] at he
            split at he
            · rename_i st w4 hst
              have hs := faithful_status id _ _ _ hst
              rw [← hd] at hs
              refine ⟨st, by simp [statusAt, hs], ?_⟩
              rcases st with _ | st
              · simp only [throw_run, Prod.mk.injEq, Res.err.injEq] at he
                simp only [Opsqueue.cancelAnswer, he.1]
              · cases st <;> simp only [throw_run, Prod.mk.injEq, Res.err.injEq] at he <;>
                  first
                    | (simp only [Opsqueue.cancelAnswer, he.1])
                    | (exact absurd he.1 (by simp))
            · simp [throw_run] at he
            · simp at he
      · simp at he
    · cases h
    · split at h <;> cases h

end Opsqueue
