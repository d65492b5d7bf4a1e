import Verif.Model.System

/-! Generic list lemmas: unique keys. -/

namespace Opsqueue

section
variable {ρ κ : Type} [DecidableEq κ] {key : ρ → κ}

theorem find?_key_of_mem {l : List ρ} (hn : (l.map key).Nodup) {s : ρ} (hs : s ∈ l) :
    l.find? (fun r => key r == key s) = some s := by
  induction l with
  | nil => simp at hs
  | cons x xs ih =>
    simp only [List.map_cons, List.nodup_cons] at hn
    rcases List.mem_cons.1 hs with rfl | h
    · simp
    · have : key x ≠ key s := fun e => hn.1 (e ▸ List.mem_map_of_mem h)
      simp [this, ih hn.2 h]

theorem filter_key_of_mem {l : List ρ} (hn : (l.map key).Nodup) {s : ρ} (hs : s ∈ l) :
    l.filter (fun r => key r == key s) = [s] := by
  induction l with
  | nil => simp at hs
  | cons x xs ih =>
    simp only [List.map_cons, List.nodup_cons] at hn
    rcases List.mem_cons.1 hs with rfl | h
    · simp only [List.filter_cons, beq_self_eq_true, if_true, List.cons.injEq, true_and]
      rw [List.filter_eq_nil_iff]
      intro a ha
      have : key a ≠ key s := fun e => hn.1 (e ▸ List.mem_map_of_mem ha)
      simpa using this
    · have : key x ≠ key s := fun e => hn.1 (e ▸ List.mem_map_of_mem h)
      simp [this, ih hn.2 h]

theorem find?_key_none {l : List ρ} {k : κ} :
    l.find? (fun r => key r == k) = none ↔ k ∉ l.map key := by
  simp [List.find?_eq_none, List.mem_map]

theorem filter_key_nil {l : List ρ} {k : κ} :
    l.filter (fun r => key r == k) = [] ↔ k ∉ l.map key := by
  simp [List.filter_eq_nil_iff, List.mem_map]

theorem mem_of_find?_key {l : List ρ} {k : κ} {s : ρ}
    (h : l.find? (fun r => key r == k) = some s) : s ∈ l ∧ key s = k := by
  refine ⟨List.mem_of_find?_eq_some h, ?_⟩
  simpa using List.find?_some h

theorem eq_of_key_eq {l : List ρ} (hn : (l.map key).Nodup) {s t : ρ} (hs : s ∈ l) (ht : t ∈ l)
    (h : key s = key t) : s = t := by
  have h1 := find?_key_of_mem hn hs
  have h2 := find?_key_of_mem hn ht
  rw [h, h2] at h1
  exact (Option.some.inj h1).symm

omit [DecidableEq κ] in
theorem nodup_map_filter {l : List ρ} (hn : (l.map key).Nodup) (p : ρ → Bool) :
    ((l.filter p).map key).Nodup :=
  hn.sublist (List.filter_sublist.map key)

omit [DecidableEq κ] in
theorem length_filter_add_not (l : List ρ) (p : ρ → Bool) :
    (l.filter p).length + (l.filter (fun r => !p r)).length = l.length := by
  induction l with
  | nil => rfl
  | cons x xs ih =>
    cases h : p x <;> simp [h] <;> omega

/-- Removing the row with a present key shortens the list by one. -/
theorem length_filter_ne_key {l : List ρ} (hn : (l.map key).Nodup) {s : ρ} (hs : s ∈ l) :
    (l.filter (fun r => !(key r == key s))).length + 1 = l.length := by
  have h := length_filter_add_not l (fun r => key r == key s)
  rw [filter_key_of_mem hn hs] at h
  simp at h
  omega

namespace Stmt

theorem insertRows_ok {rows tbl t : List ρ} (h : insertRows key rows tbl = .ok t) :
    t = tbl ++ rows ∧ (∀ r ∈ rows, key r ∉ tbl.map key) ∧ (rows.map key).Nodup := by
  unfold insertRows at h
  split at h
  · rename_i hc; simp at h; exact ⟨h.symm, hc⟩
  · simp at h

theorem insertRows_of {rows tbl : List ρ} (h1 : ∀ r ∈ rows, key r ∉ tbl.map key)
    (h2 : (rows.map key).Nodup) : insertRows key rows tbl = .ok (tbl ++ rows) := by
  unfold insertRows; rw [if_pos ⟨h1, h2⟩]

theorem insertRows_err {rows tbl : List ρ}
    (h : ¬((∀ r ∈ rows, key r ∉ tbl.map key) ∧ (rows.map key).Nodup)) :
    insertRows key rows tbl = .error .constraint := by
  unfold insertRows; rw [if_neg h]

theorem insertRows_nil {tbl : List ρ} : insertRows key [] tbl = .ok tbl := by
  simp [insertRows]

theorem insertRows_singleton {r : ρ} {tbl : List ρ} :
    insertRows key [r] tbl = if key r ∉ tbl.map key then .ok (tbl ++ [r]) else .error .constraint := by
  simp [insertRows]

omit [DecidableEq κ] in
theorem nodup_append_rows {rows tbl : List ρ} (ht : (tbl.map key).Nodup)
    (h1 : ∀ r ∈ rows, key r ∉ tbl.map key) (h2 : (rows.map key).Nodup) :
    ((tbl ++ rows).map key).Nodup := by
  rw [List.map_append, List.nodup_append]
  refine ⟨ht, h2, ?_⟩
  intro a ha b hb hab
  obtain ⟨r, hr, rfl⟩ := List.mem_map.1 hb
  exact h1 r hr (hab ▸ ha)

/-- Inserting two batches is inserting their concatenation. -/
theorem insertRows_append {xs ys tbl : List ρ} :
    insertRows key (xs ++ ys) tbl =
      match insertRows key xs tbl with
      | .ok t => insertRows key ys t
      | .error e => .error e := by
  by_cases hx : (∀ r ∈ xs, key r ∉ tbl.map key) ∧ (xs.map key).Nodup
  · rw [insertRows_of hx.1 hx.2]
    simp only
    by_cases hy : (∀ r ∈ ys, key r ∉ (tbl ++ xs).map key) ∧ (ys.map key).Nodup
    · rw [insertRows_of hy.1 hy.2, insertRows_of, List.append_assoc]
      · intro r hr
        rcases List.mem_append.1 hr with h | h
        · exact hx.1 r h
        · have := hy.1 r h
          simp only [List.map_append, List.mem_append, not_or] at this
          exact this.1
      · refine nodup_append_rows hx.2 ?_ hy.2
        intro r hr
        have := hy.1 r hr
        simp only [List.map_append, List.mem_append, not_or] at this
        exact this.2
    · rw [insertRows_err hy, insertRows_err]
      rintro ⟨h1, h2⟩
      apply hy
      rw [List.map_append, List.nodup_append] at h2
      refine ⟨?_, h2.2.1⟩
      intro r hr
      simp only [List.map_append, List.mem_append, not_or]
      exact ⟨h1 r (by simp [hr]), fun hm => h2.2.2 _ hm _ (List.mem_map_of_mem hr) rfl⟩
  · rw [insertRows_err hx, insertRows_err]
    rintro ⟨h1, h2⟩
    apply hx
    rw [List.map_append, List.nodup_append] at h2
    exact ⟨fun r hr => h1 r (by simp [hr]), h2.1⟩

end Stmt
end
end Opsqueue
