import Verif.Proofs.MachineRun

/-!
# C61: the life of each submission follows a small machine of its own
-/

namespace Opsqueue
open SubmissionDb

/-- **C61.** Take any history of calls (ids fresh, strategic metadata maps), with any faults. Then one can say of each
call how much of it happened — all of an undisturbed call and of one that returned successfully, not all of a
disturbed one that returned an error, and anything other than all or nothing only of the insert of an empty
submission — such that, at every point of the history and for every submission id, everything the database shows
about that id is what the machine of `Spec/Machine.lean` says, fed with the calls so far: its status, its backlog,
its outputs, failures and skip marks, its strategic metadata. The machine of one id ignores calls about other ids. -/
theorem C61_lives (ops : List Op) (hf : FreshIds ops) (hm : Machine.MapArgs ops) :
    ∃ h : List (Op × Machine.Extent), h.map (·.1) = ops ∧
      (∀ pre op e post, h = pre ++ (op, e) :: post → Machine.Happened (run (pre.map (·.1))) op e) ∧
      (∀ pre post, h = pre ++ post → ∀ me, Machine.Shows (run (pre.map (·.1))) me (Machine.replay me pre)) := by
  obtain ⟨h, h1, h2, h3⟩ := Machine.follow ops hf hm
  exact ⟨h, h1, h3, fun pre post hp me => Machine.shows_of (h2 me pre post hp)⟩

/-- **C61, undisturbed histories.** Without faults nothing is left to choose: after any history of calls the database
shows, about every submission id, what the machine says, and the answer of one more call is the one the record of the
submission it is about determines. -/
theorem C61_undisturbed (ops : List Op) (hf : FreshIds ops) (hm : Machine.MapArgs ops)
    (hclean : ∀ op ∈ ops, op.clean = op) (me : SubmissionId) :
    Machine.Shows (run ops) me (Machine.replay me (ops.map fun op => (op, .all))) ∧
    (∀ op : Op, op.clean = op → op.target = some me ∨ op.target = none → FreshIds (ops ++ [op]) →
      Machine.MapArgs [op] →
      (step (run ops) op).1 = (Machine.replay me (ops.map fun op => (op, .all))).answer op) := by
  obtain ⟨h, h1, h2, h3⟩ := Machine.follow ops hf hm
  have hall : h = ops.map fun op => (op, .all) := by
    rw [← h1, List.map_map]
    conv => lhs; rw [← List.map_id h]
    apply List.map_congr_left
    intro p hp
    obtain ⟨pre, post, hsplit⟩ := List.append_of_mem hp
    have := (h3 pre p.1 p.2 post hsplit).undisturbed (hclean p.1 (h1 ▸ List.mem_map_of_mem hp))
    simp [← this]
  have hsel := h2 me h [] (by simp)
  rw [h1, hall] at hsel
  refine ⟨Machine.shows_of hsel, fun op hc ht hfr hma => ?_⟩
  refine Machine.answer_all (inv_run hf) hsel op hc ht ?_
  rintro a now o rfl
  exact ⟨fresh_run hfr (x := a.id) rfl, hma a now o (by simp)⟩

/-- A history with all kinds of calls, one of them struck by a crash after its transaction had been committed and one
by a failing statement. -/
def exampleLives : List Op :=
  [ .insert { id := 1, contents := [some [1], some [2], some [3]], strategic := [("a", 1)] } 10 [],
    .insert { id := 2, contents := [some [4], none], metadata := some [9] } 11 [],
    .complete ⟨1, 1⟩ (some [7]) 12 12 [], .fail ⟨2, 0⟩ "bad" 2 13 13 13 [], .fail ⟨2, 0⟩ "worse" 2 14 14 14 [],
    .insert { id := 3, contents := [] } 15 [.ok, .ok, .ok, .crash],
    .complete ⟨1, 0⟩ none 16 16 [.ok, .fail], .cancel 1 17 18 [], .cleanup 14 [] ]

/-- C61 speaks about it: its hypotheses hold, and the extents are those one expects. -/
example : FreshIds exampleLives ∧ Machine.MapArgs exampleLives := by
  refine ⟨by decide +kernel, ?_⟩
  intro a now o h
  simp only [exampleLives, List.mem_cons, Op.insert.injEq, List.not_mem_nil, or_false, reduceCtorEq, false_or] at h
  rcases h with ⟨rfl, _⟩ | ⟨rfl, _⟩ | ⟨rfl, _⟩ <;> decide

/-- The machine's view of submission 1 at the end of the history: cancelled with one chunk done; its output, stored at
12, is gone. -/
example :
    let h : List (Op × Machine.Extent) := exampleLives.zip
      [.all, .all, .all, .all, .all, .created, .nothing, .all, .all]
    Machine.replay 1 h =
      { life := some (.cancelled ⟨none, 3, none, [("a", 1)]⟩ 1 17)
        outputs := []
        failures := [⟨0, some [1], "", 18, true⟩, ⟨2, some [3], "", 18, true⟩] } ∧
    Machine.replay 2 h =
      { life := some (.failed ⟨none, 2, some [9], []⟩ (some 0) 0 14 {})
        outputs := []
        failures := [⟨0, some [4], "worse", 14, false⟩, ⟨1, none, "", 14, true⟩] } ∧
    Machine.replay 3 h = { life := some (.running ⟨none, 0, none, []⟩ (some 1) "{}" []) } ∧
    statusAt (run exampleLives) 1 = (Machine.replay 1 h).status 1 ∧
    statusAt (run exampleLives) 3 = (Machine.replay 3 h).status 3 := by decide +kernel

end Opsqueue
