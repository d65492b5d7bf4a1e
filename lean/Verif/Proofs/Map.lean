import Verif.Model.Map

/-! Lemmas about finite maps. -/

namespace Opsqueue.Map
variable {κ ν : Type} [DecidableEq κ]

theorem get_cons (e : κ × ν) (m : Map κ ν) (k : κ) :
    get (e :: m) k = if e.1 = k then some e.2 else get m k := by
  unfold get
  by_cases h : e.1 = k <;> simp [h]

theorem get_nil (k : κ) : get ([] : Map κ ν) k = none := rfl

theorem get_eq_none {m : Map κ ν} {k : κ} : get m k = none ↔ k ∉ m.map (·.1) := by
  induction m with
  | nil => simp [get_nil]
  | cons e m ih =>
    rw [get_cons]
    by_cases h : e.1 = k
    · simp [h]
    · have h' : ¬ k = e.1 := fun h' => h h'.symm
      simp only [h, if_false, List.map_cons, List.mem_cons, not_or, h', not_false_eq_true, true_and]
      exact ih

theorem mem_of_get {m : Map κ ν} {k : κ} {v : ν} (h : get m k = some v) : (k, v) ∈ m := by
  induction m with
  | nil => cases h
  | cons e m ih =>
    rw [get_cons] at h
    split at h
    · rename_i he; cases h; subst he; exact List.mem_cons_self
    · exact List.mem_cons_of_mem _ (ih h)

theorem get_of_mem {m : Map κ ν} (hw : WF m) {k : κ} {v : ν} (h : (k, v) ∈ m) : get m k = some v := by
  induction m with
  | nil => cases h
  | cons e m ih =>
    have ⟨h1, h2⟩ := List.nodup_cons.1 hw
    rw [get_cons]
    rcases List.mem_cons.1 h with rfl | h
    · simp
    · rw [if_neg, ih h2 h]
      intro he; exact h1 (List.mem_map.2 ⟨_, h, he.symm⟩)

theorem any_iff {m : Map κ ν} {k : κ} : m.any (fun e => e.1 = k) = true ↔ k ∈ m.map (·.1) := by
  simp [List.any_eq_true]

theorem get_append (m n : Map κ ν) (k : κ) : get (m ++ n) k = (get m k).or (get n k) := by
  induction m with
  | nil => simp [get_nil]
  | cons e m ih =>
    rw [List.cons_append, get_cons, get_cons, ih]
    split <;> simp

theorem get_set (m : Map κ ν) (k k' : κ) (v : ν) :
    get (set m k v) k' = if k = k' then some v else get m k' := by
  unfold set
  split
  · rename_i h
    rw [any_iff] at h
    induction m with
    | nil => cases h
    | cons e m ih =>
      rw [List.map_cons, get_cons, get_cons]
      by_cases he : e.1 = k
      · simp only [he, if_true]
        by_cases hk : k = k'
        · simp [hk]
        · simp only [hk, if_false]
          by_cases hm : k ∈ m.map (·.1)
          · rw [ih hm]; simp [hk]
          · have : m.map (fun e => if e.1 = k then (k, v) else e) = m := by
              conv => rhs; rw [← List.map_id m]
              apply List.map_congr_left
              intro x hx
              rw [if_neg]; rfl
              intro hxk; exact hm (List.mem_map.2 ⟨x, hx, hxk⟩)
            rw [this]
      · simp only [he, if_false]
        have hm : k ∈ m.map (·.1) := by
          rcases List.mem_cons.1 h with h | h
          · exact absurd h.symm he
          · exact h
        rw [ih hm]
        by_cases h1 : e.1 = k'
        · have : ¬ k = k' := fun h2 => he (h1.trans h2.symm)
          simp [h1, this]
        · simp [h1]
  · rename_i h
    rw [any_iff] at h
    rw [get_append, get_cons, get_nil]
    by_cases hk : k = k'
    · subst hk
      rw [get_eq_none.2 h]; simp
    · simp [hk]

theorem get_erase (m : Map κ ν) (k k' : κ) :
    get (erase m k) k' = if k = k' then none else get m k' := by
  induction m with
  | nil => simp [erase, get_nil]
  | cons e m ih =>
    unfold erase at ih ⊢
    by_cases he : e.1 = k
    · rw [List.filter_cons_of_neg (by simp [he]), ih, get_cons]
      by_cases hk : k = k'
      · simp [hk]
      · simp [hk, he]
    · rw [List.filter_cons_of_pos (by simp [he]), get_cons, get_cons, ih]
      by_cases h1 : e.1 = k'
      · have : ¬ k = k' := fun h2 => he (h1.trans h2.symm)
        simp [h1, this]
      · simp [h1]

omit [DecidableEq κ] in
theorem wf_nil : WF ([] : Map κ ν) := List.nodup_nil

theorem keys_set (m : Map κ ν) (k : κ) (v : ν) :
    (set m k v).map (·.1) = if k ∈ m.map (·.1) then m.map (·.1) else m.map (·.1) ++ [k] := by
  unfold set
  by_cases h : k ∈ m.map (·.1)
  · rw [if_pos (any_iff.2 h), if_pos h, List.map_map]
    apply List.map_congr_left
    intro x _
    simp only [Function.comp]
    split
    · rename_i hx; exact hx.symm
    · rfl
  · rw [if_neg (fun h' => h (any_iff.1 h')), if_neg h]; simp

theorem wf_set {m : Map κ ν} (h : WF m) (k : κ) (v : ν) : WF (set m k v) := by
  unfold WF
  rw [keys_set]
  split
  · exact h
  · rename_i hk
    rw [List.nodup_append]
    refine ⟨h, by simp, ?_⟩
    intro a ha b hb
    rw [List.mem_singleton.1 hb]
    intro hab; rw [hab] at ha; exact hk ha

theorem wf_erase {m : Map κ ν} (h : WF m) (k : κ) : WF (erase m k) := by
  unfold WF erase
  exact List.Pairwise.sublist (List.Sublist.map _ List.filter_sublist) h

theorem eq_nil_of_get {m : Map κ ν} (h : ∀ k, get m k = none) : m = [] := by
  cases m with
  | nil => rfl
  | cons e m =>
    have := h e.1
    rw [get_cons] at this
    simp at this

end Opsqueue.Map
