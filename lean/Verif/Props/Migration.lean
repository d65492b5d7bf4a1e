import Verif.Proofs.Migration
import Verif.Spec.Observe

/-!
# C52: the metadata migration keeps one value per key
-/

namespace Opsqueue
open Migration

/-- C52: for every content of the old table the migration succeeds, and the new table has a row
`(submission, key, value)` exactly if `value` is the largest of the old values of that submission
and key; no `(submission, key)` has two rows and each one that had a row still has one; a table that
had one value per key has the same rows as before; and migrating down again keeps all rows. -/
theorem C52_migration_keeps_largest (old : List MetaRow) :
    ∃ new, up old = .ok new ∧
      (∀ s k v, ⟨s, k, v⟩ ∈ new ↔ (⟨s, k, v⟩ ∈ old ∧ ∀ w, ⟨s, k, w⟩ ∈ old → w ≤ v)) ∧
      (new.map fun m => (m.submissionId, m.key)).Nodup ∧
      (∀ s k v, ⟨s, k, v⟩ ∈ old → ∃ w, ⟨s, k, w⟩ ∈ new) ∧
      ((old.map fun m => (m.submissionId, m.key)).Nodup → ∀ m, m ∈ new ↔ m ∈ old) ∧
      down new = .ok new := by
  have hnd : ((aggregated old).map MetaRow.pk).Nodup := by
    rw [aggregated_pks]; exact groups_nodup old
  have hup : up old = .ok (aggregated old) := by
    unfold up
    rw [insertAll_ok _ _ _ hnd (by simp)]; rfl
  have hmem : ∀ s k v, (⟨s, k, v⟩ : MetaRow) ∈ aggregated old ↔
      ((⟨s, k, v⟩ : MetaRow) ∈ old ∧ ∀ w, (⟨s, k, w⟩ : MetaRow) ∈ old → w ≤ v) := by
    intro s k v
    have hval : ∀ w, w ∈ (old.filter (·.pk == (s, k))).map (·.value) ↔ (⟨s, k, w⟩ : MetaRow) ∈ old := by
      intro w
      simp only [List.mem_map, List.mem_filter, beq_iff_eq]
      constructor
      · rintro ⟨m, ⟨hm, hpk⟩, rfl⟩
        cases m
        simp only [MetaRow.pk, Prod.mk.injEq] at hpk
        obtain ⟨rfl, rfl⟩ := hpk
        exact hm
      · intro h
        exact ⟨_, ⟨h, rfl⟩, rfl⟩
    unfold aggregated
    rw [List.mem_filterMap]
    constructor
    · rintro ⟨g, hg, h⟩
      cases hs : sqlMax ((old.filter (·.pk == g)).map (·.value)) with
      | none => rw [hs] at h; cases h
      | some w =>
        rw [hs] at h
        simp only [Option.map_some, Option.some.injEq, MetaRow.mk.injEq] at h
        obtain ⟨h1, h2, rfl⟩ := h
        have : g = (s, k) := Prod.ext h1 h2
        subst this
        have ⟨g1, g2⟩ := (sqlMax_spec _ _).1 hs
        exact ⟨(hval _).1 g1, fun w hw => g2 w ((hval _).2 hw)⟩
    · rintro ⟨h1, h2⟩
      refine ⟨(s, k), (mem_groups _ _).2 (List.mem_map.2 ⟨_, h1, rfl⟩), ?_⟩
      rw [(sqlMax_spec _ v).2 ⟨(hval _).2 h1, fun w hw => h2 w ((hval _).1 hw)⟩]
      rfl
  refine ⟨aggregated old, hup, hmem, hnd, ?_, ?_, ?_⟩
  · intro s k v h
    have : (s, k) ∈ (aggregated old).map MetaRow.pk := by
      rw [aggregated_pks]; exact (mem_groups _ _).2 (List.mem_map.2 ⟨_, h, rfl⟩)
    obtain ⟨m, hm, hpk⟩ := List.mem_map.1 this
    cases m
    simp only [MetaRow.pk, Prod.mk.injEq] at hpk
    obtain ⟨rfl, rfl⟩ := hpk
    exact ⟨_, hm⟩
  · intro hn m
    obtain ⟨s, k, v⟩ := m
    rw [hmem]
    refine ⟨And.left, fun h => ⟨h, fun w hw => ?_⟩⟩
    have : ∀ l : List MetaRow, (l.map fun m => (m.submissionId, m.key)).Nodup →
        (⟨s, k, v⟩ : MetaRow) ∈ l → (⟨s, k, w⟩ : MetaRow) ∈ l → w = v := by
      intro l
      induction l with
      | nil => intro _ h; cases h
      | cons a l ih =>
        intro hn h1 h2
        have ⟨hn1, hn2⟩ := List.nodup_cons.1 hn
        rcases List.mem_cons.1 h1 with h1 | h1' <;> rcases List.mem_cons.1 h2 with h2 | h2'
        · rw [← h1] at h2; injection h2
        · subst h1; exact (hn1 (List.mem_map.2 ⟨_, h2', rfl⟩)).elim
        · subst h2; exact (hn1 (List.mem_map.2 ⟨_, h1', rfl⟩)).elim
        · exact ih hn2 h1' h2'
    rw [this old hn h hw]; exact Int.le_refl _
  · unfold down
    rw [insertAll_ok]
    · rfl
    · have : ∀ l : List MetaRow, (l.map MetaRow.pk).Nodup →
          (l.map fun m => (m.submissionId, m.key, m.value)).Nodup := by
        intro l
        induction l with
        | nil => intro _; exact List.nodup_nil
        | cons a l ih =>
          intro h
          have ⟨h1, h2⟩ := List.nodup_cons.1 h
          refine List.nodup_cons.2 ⟨?_, ih h2⟩
          intro hm
          obtain ⟨b, hb, he⟩ := List.mem_map.1 hm
          simp only [Prod.mk.injEq] at he
          exact h1 (List.mem_map.2 ⟨b, hb, Prod.ext he.1 he.2.1⟩)
      exact this _ hnd
    · simp

example : up [⟨1, "a", 3⟩, ⟨1, "a", 7⟩, ⟨1, "b", -1⟩, ⟨2, "a", 3⟩, ⟨1, "a", 5⟩] =
    .ok [⟨1, "b", -1⟩, ⟨2, "a", 3⟩, ⟨1, "a", 7⟩] := by
  decide +kernel

end Opsqueue
