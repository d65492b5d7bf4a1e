import Verif.Model.Migration

/-! Lemmas about the metadata migration. -/

namespace Opsqueue
open Migration

theorem insertAll_ok {κ : Type} [DecidableEq κ] (key : MetaRow → κ) (rows : List MetaRow) :
    ∀ table, (rows.map key).Nodup → (∀ r ∈ rows, key r ∉ table.map key) →
    insertAll key table rows = .ok (table ++ rows) := by
  induction rows with
  | nil => intro t _ _; simp [insertAll]
  | cons r rest ih =>
    intro t hn hd
    unfold insertAll
    rw [if_neg (hd r List.mem_cons_self), ih]
    · simp
    · exact (List.nodup_cons.1 hn).2
    · intro x hx
      simp only [List.map_append, List.map_cons, List.map_nil, List.mem_append, List.mem_singleton,
        not_or]
      refine ⟨hd x (List.mem_cons_of_mem _ hx), ?_⟩
      intro h
      exact (List.nodup_cons.1 hn).1 (List.mem_map.2 ⟨x, hx, h⟩)

theorem mem_groups (old : List MetaRow) (g : SubmissionId × String) :
    g ∈ groups old ↔ g ∈ old.map MetaRow.pk := by
  induction old with
  | nil => simp [groups]
  | cons m rest ih =>
    simp only [groups, List.map_cons, List.mem_cons]
    split
    · rename_i h
      rw [ih]
      constructor
      · exact Or.inr
      · rintro (h' | h')
        · subst h'; exact ih.1 h
        · exact h'
    · rw [List.mem_cons, ih]

theorem groups_nodup (old : List MetaRow) : (groups old).Nodup := by
  induction old with
  | nil => simp [groups]
  | cons m rest ih =>
    simp only [groups]
    split
    · exact ih
    · rename_i h; exact List.nodup_cons.2 ⟨h, ih⟩

theorem sqlMax_spec (l : List Int) : ∀ v, sqlMax l = some v ↔ (v ∈ l ∧ ∀ w ∈ l, w ≤ v) := by
  induction l with
  | nil => intro v; simp [sqlMax]
  | cons x rest ih =>
    intro v
    unfold sqlMax
    cases hr : sqlMax rest with
    | none =>
      have hempty : rest = [] := by
        cases rest with
        | nil => rfl
        | cons y ys =>
          simp only [sqlMax] at hr
          split at hr <;> cases hr
      subst hempty
      constructor
      · intro h
        cases h
        exact ⟨List.mem_cons_self, by simp⟩
      · rintro ⟨h, _⟩
        rw [List.mem_singleton.1 h]
    | some w =>
      have ⟨h1, h2⟩ := (ih w).1 hr
      dsimp only
      constructor
      · intro h
        cases h
        refine ⟨?_, ?_⟩
        · split
          · exact List.mem_cons_of_mem _ h1
          · exact List.mem_cons_self
        · intro y hy
          rcases List.mem_cons.1 hy with rfl | hy
          · split <;> omega
          · have := h2 y hy
            split <;> omega
      · rintro ⟨h3, h4⟩
        have hx := h4 x List.mem_cons_self
        have hw := h4 w (List.mem_cons_of_mem _ h1)
        rcases List.mem_cons.1 h3 with rfl | h3
        · split
          · congr 1; omega
          · rfl
        · have := h2 v h3
          split
          · congr 1; omega
          · congr 1; omega

theorem aggregated_pks (old : List MetaRow) : (aggregated old).map MetaRow.pk = groups old := by
  unfold aggregated
  have : ∀ gs : List (SubmissionId × String), (∀ g ∈ gs, g ∈ old.map MetaRow.pk) →
      (gs.filterMap fun g => (sqlMax ((old.filter (·.pk == g)).map (·.value))).map fun v =>
        (⟨g.1, g.2, v⟩ : MetaRow)).map MetaRow.pk = gs := by
    intro gs
    induction gs with
    | nil => intro _; rfl
    | cons g gs ih =>
      intro h
      have hg := h g List.mem_cons_self
      obtain ⟨m, hm, rfl⟩ := List.mem_map.1 hg
      cases hs : sqlMax ((old.filter (·.pk == m.pk)).map (·.value)) with
      | none =>
        exfalso
        have hmem : m.value ∈ (old.filter (·.pk == m.pk)).map (·.value) :=
          List.mem_map.2 ⟨m, List.mem_filter.2 ⟨hm, by simp⟩, rfl⟩
        revert hs hmem
        generalize (old.filter (·.pk == m.pk)).map (·.value) = l
        intro hs hmem
        cases l with
        | nil => cases hmem
        | cons y ys =>
          simp only [sqlMax] at hs
          split at hs <;> cases hs
      | some v =>
        rw [List.filterMap_cons, hs]
        simp only [Option.map_some, List.map_cons]
        rw [ih (fun g' hg' => h g' (List.mem_cons_of_mem _ hg'))]
        rfl
  exact this _ fun g hg => (mem_groups old g).1 hg

end Opsqueue
