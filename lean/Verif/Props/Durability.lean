import Verif.Model.Durability
import Verif.Props.Lifecycle
import Verif.Props.Cleanup

/-!
# C72: losing power loses at most the calls since the last checkpoint, from the end, and whole
-/

namespace Opsqueue.Durability

theorem clean_withFaults (o : List Fault) (op : Op) : (withFaults o op).clean = op.clean := by cases op <;> rfl

theorem insertId_clean (op : Op) : op.clean.insertId = op.insertId := by cases op <;> rfl

theorem isCleanup_clean (op : Op) : op.clean.isCleanup = op.isCleanup := by cases op <;> rfl

theorem fresh_of_sublist {xs ys : List Op} (h : (xs.map Op.clean).Sublist (ys.map Op.clean)) (hf : FreshIds ys) :
    FreshIds xs := by
  unfold FreshIds at *
  have e : ∀ zs : List Op, zs.filterMap Op.insertId = (zs.map Op.clean).filterMap Op.insertId := by
    intro zs
    rw [List.filterMap_map]
    congr 1
    funext op
    exact (insertId_clean op).symm
  rw [e] at hf ⊢
  exact hf.sublist (h.filterMap _)

theorem survivors_sublist (since : List Op) (n : Nat) (o : List Fault) :
    ((survivors since n o).map Op.clean).Sublist (since.map Op.clean) := by
  have h : since = since.take n ++ since.drop n := (List.take_append_drop n since).symm
  unfold survivors
  conv => rhs; rw [h]
  rw [List.map_append, List.map_append]
  refine List.Sublist.append (List.Sublist.refl _) ?_
  cases hd : since.drop n with
  | nil => exact List.Sublist.refl _
  | cons op rest =>
    simp only [List.head?_cons, Option.map_some, Option.toList_some, List.map_cons, List.map_nil, clean_withFaults]
    exact (List.nil_sublist _).cons₂ _

theorem runFrom_append (db : DB) (a b : List Op) : runFrom db (a ++ b) = runFrom (runFrom db a) b := by
  unfold runFrom; rw [List.foldl_append]

theorem run_append (a b : List Op) : Opsqueue.run (a ++ b) = runFrom (Opsqueue.run a) b := runFrom_append _ a b

theorem callsOf_append (a b : List Event) : callsOf (a ++ b) = callsOf a ++ callsOf b := List.filterMap_append

/-- From a state that is safe: what there is afterwards comes from calls made afterwards. -/
theorem after_safe (base : List Op) (es : List Event) : ∀ (d : Disk) (a b : List Op),
    d.safe = Opsqueue.run (base ++ a) → d.since = b → d.db = Opsqueue.run (base ++ a ++ b) →
    ∃ c, (es.foldl step d).db = Opsqueue.run (base ++ c) ∧
      (c.map Op.clean).Sublist ((a ++ b ++ callsOf es).map Op.clean) := by
  induction es with
  | nil =>
    intro d a b h1 h2 h3
    exact ⟨a ++ b, by rw [← List.append_assoc]; exact h3, by simp [callsOf]⟩
  | cons e es ih =>
    intro d a b h1 h2 h3
    rw [List.foldl_cons]
    cases e with
    | call op =>
      obtain ⟨c, hc, hs⟩ := ih (step d (.call op)) a (b ++ [op]) h1 (by simp [step, h2]) (by
        show (Opsqueue.step d.db op).2 = _
        rw [h3, ← List.append_assoc, run_append (base ++ a ++ b) [op]]
        rfl)
      refine ⟨c, hc, ?_⟩
      have : a ++ (b ++ [op]) ++ callsOf es = a ++ b ++ callsOf (.call op :: es) := by simp [callsOf]
      rw [this] at hs
      exact hs
    | checkpoint ok =>
      cases ok with
      | false => exact ih d a b h1 h2 h3
      | true =>
        obtain ⟨c, hc, hs⟩ := ih (step d (.checkpoint true)) (a ++ b) [] (by
          show d.db = _
          rw [h3, List.append_assoc]) rfl (by
          show d.db = _
          rw [h3]; simp)
        refine ⟨c, hc, ?_⟩
        rw [List.append_nil] at hs
        exact hs
    | powerLoss n o =>
      obtain ⟨c, hc, hs⟩ := ih (step d (.powerLoss n o)) (a ++ survivors b n o) [] (by
          show runFrom d.safe (survivors d.since n o) = _
          rw [h1, h2, ← List.append_assoc, run_append (base ++ a)]) rfl (by
          show runFrom d.safe (survivors d.since n o) = _
          rw [h1, h2, ← List.append_assoc, List.append_nil, run_append (base ++ a)])
      refine ⟨c, hc, hs.trans ?_⟩
      rw [show callsOf (.powerLoss n o :: es) = callsOf es from rfl]
      rw [List.append_nil, List.map_append, List.map_append, List.map_append, List.map_append]
      exact List.Sublist.append (List.Sublist.append (List.Sublist.refl _) (survivors_sublist b n o)) (List.Sublist.refl _)

/-- **C72.** After any history with power failures the database is one that a history without power failures leaves, made
of some of the same calls in the same order: all that is proved of such histories stays true (nothing is half-done). -/
theorem C72_power_loss_keeps_consistency (es : List Event) (hf : FreshIds (callsOf es)) :
    ∃ ops, (run es).db = Opsqueue.run ops ∧ (ops.map Op.clean).Sublist ((callsOf es).map Op.clean) ∧ FreshIds ops := by
  obtain ⟨c, hc, hs⟩ := after_safe [] es {} [] [] rfl rfl rfl
  exact ⟨c, hc, hs, fresh_of_sublist hs hf⟩

/-- **C72.** What is in the database at a successful checkpoint is never lost again: a finished submission stays as it is,
and one that exists goes on existing, until a cleanup removes it. -/
theorem C72_safe_after_checkpoint_partial (pre post : List Event) (hf : FreshIds (callsOf (pre ++ .checkpoint true :: post)))
    (id : SubmissionId) (st : SubmissionStatus) (h : statusAt (run pre).db id = .ok (some st))
    (hc : ∀ op ∈ callsOf post, op.isCleanup = false) :
    statusAt (run (pre ++ .checkpoint true :: post)).db id ≠ .ok none ∧
    (st.Terminal → statusAt (run (pre ++ .checkpoint true :: post)).db id = .ok (some st)) := by
  obtain ⟨base, hb, hbs⟩ := after_safe [] pre {} [] [] rfl rfl rfl
  rw [List.nil_append] at hb
  have hb : (run pre).db = Opsqueue.run base := hb
  obtain ⟨c, hcc, hcs⟩ := after_safe base post (step (run pre) (.checkpoint true)) [] []
    (by rw [List.append_nil]; exact hb) rfl (by rw [List.append_nil, List.append_nil]; exact hb)
  have hrun : (run (pre ++ .checkpoint true :: post)).db = Opsqueue.run (base ++ c) := by
    rw [← hcc]; unfold run; rw [List.foldl_append]; rfl
  have hfresh : FreshIds (base ++ c) := by
    refine fresh_of_sublist ?_ hf
    rw [callsOf_append, List.map_append, List.map_append]
    exact List.Sublist.append hbs hcs
  have hclean : ∀ op ∈ c, op.isCleanup = false := by
    intro op ho
    obtain ⟨op', ho', e⟩ := List.mem_map.1 (hcs.subset (List.mem_map_of_mem ho))
    rw [← isCleanup_clean, ← e, isCleanup_clean]
    exact hc op' (by simpa using ho')
  rw [hb] at h
  rw [hrun]
  refine ⟨fun hn => ?_, fun hT => ?_⟩
  · have hin : id ∈ allIds (Opsqueue.run base) := by
      refine Classical.byContradiction fun hni => ?_
      rw [statusAt_none hni] at h
      cases h
    rw [statusAt_eq_none] at hn
    clear hrun hcs hcc
    revert hn
    have : ∀ (c xs : List Op), FreshIds (xs ++ c) → (∀ op ∈ c, op.isCleanup = false) →
        id ∈ allIds (Opsqueue.run xs) → id ∈ allIds (Opsqueue.run (xs ++ c)) := by
      intro c
      induction c with
      | nil => intro xs _ _ h; simpa using h
      | cons op c ih =>
        intro xs hf hcl hx
        have e1 : xs ++ op :: c = (xs ++ [op]) ++ c := by simp
        rw [e1] at hf ⊢
        refine ih _ hf (fun o ho => hcl o (List.mem_cons_of_mem _ ho)) ?_
        rcases (effect_run hf.prefix).ids_keep (inv_run hf.prefix.prefix) hx with h' | h'
        · exact h'
        · rw [hcl op (List.mem_cons_self ..)] at h'; cases h'
    exact fun hn => hn (this c base hfresh hclean hin)
  · rcases C03_terminal_final base c hfresh id st hT h with h' | ⟨⟨op, ho, h'⟩, -⟩ | ⟨⟨op, ho, h'⟩, -⟩
    · exact h'
    · rw [hclean op ho] at h'; cases h'
    · rw [hclean op ho] at h'; cases h'

/-- Two submissions; the first is safe and completed, the second is inserted after the checkpoint and lost; a third comes
after the power failure. -/
def exampleLoss : List Event :=
  [.call (.insert { id := 1, contents := [some [1]] } 10 []), .call (.complete ⟨1, 0⟩ none 11 12 [])]

/-- What comes after the checkpoint. -/
def exampleLossAfter : List Event :=
  [.call (.insert { id := 2, contents := [none] } 20 []), .call (.complete ⟨2, 0⟩ none 21 22 []), .checkpoint false,
   .powerLoss 1 [.ok, .crash], .call (.insert { id := 3, contents := [none] } 30 [])]

example : FreshIds (callsOf (exampleLoss ++ .checkpoint true :: exampleLossAfter)) ∧
    statusAt (run exampleLoss).db 1 = .ok (some (.completed
      { id := 1, pfx := none, chunksTotal := 1, chunkSize := 1, metadata := none, strategic := [], completedAt := 12,
        otel := "{}" })) ∧
    (∀ op ∈ callsOf exampleLossAfter, op.isCleanup = false) ∧
    statusAt (run (exampleLoss ++ .checkpoint true :: exampleLossAfter)).db 2 ≠ .ok none ∧
    chunkCompletedAt (run (exampleLoss ++ .checkpoint true :: exampleLossAfter)).db ⟨2, 0⟩ = .err .rowNotFound ∧
    statusAt (run (exampleLoss ++ [.checkpoint true, .call (.insert { id := 2, contents := [none] } 20 []),
      .powerLoss 0 [.ok, .crash]])).db 2 = .ok none := by
  decide +kernel

/-- **C72, the full claim**: a submission whose insert was acknowledged exists from then on, whatever happens, until a
cleanup. -/
def C72_full : Prop :=
  ∀ (pre post : List Event) (a : SubmissionDb.InsertArgs) (now : Time) (o : List Fault),
    FreshIds (callsOf (pre ++ .call (.insert a now o) :: post)) →
    (Opsqueue.step (run pre).db (.insert a now o)).1 = .inserted (.ok a.id) →
    (∀ op ∈ callsOf post, op.isCleanup = false) →
    statusAt (run (pre ++ .call (.insert a now o) :: post)).db a.id ≠ .ok none

/-- It is false: commits are not synced, so a power failure before the next checkpoint takes an acknowledged submission
with it. -/
theorem C72_refuted_unsynced_commit : ¬ C72_full := by
  intro h
  exact h [] [.powerLoss 0 [.crash]] { id := 1, contents := [none] } 10 [] (by decide +kernel) (by decide +kernel)
    (by decide +kernel) (by decide +kernel)


end Opsqueue.Durability
