import Verif.Proofs.Timeline

/-! Counting lemmas. -/

namespace Opsqueue

theorem perm_of_nodup_mem {α : Type} [DecidableEq α] : ∀ {l m : List α}, l.Nodup → m.Nodup →
    (∀ x, x ∈ l ↔ x ∈ m) → l.Perm m
  | [], m, _, _, h => by
    have : m = [] := List.eq_nil_iff_forall_not_mem.2 fun x hx => by simpa using (h x).2 hx
    rw [this]
  | x :: xs, m, hl, hm, h => by
    have hx : x ∈ m := (h x).1 (by simp)
    have hp := List.perm_cons_erase hx
    refine (List.Perm.cons x ?_).trans hp.symm
    rw [List.nodup_cons] at hl
    refine perm_of_nodup_mem hl.2 (hm.erase x) fun y => ?_
    rw [hm.mem_erase_iff]
    constructor
    · intro hy
      refine ⟨fun e => hl.1 (e ▸ hy), (h y).1 (List.mem_cons_of_mem _ hy)⟩
    · rintro ⟨hne, hy⟩
      rcases List.mem_cons.1 ((h y).2 hy) with e | hy
      · exact absurd e hne
      · exact hy

theorem CountIs.unique {α : Type} [DecidableEq α] {P : α → Prop} {n m : Nat} (h1 : CountIs P n)
    (h2 : CountIs P m) : n = m := by
  obtain ⟨l, hl, hlP, rfl⟩ := h1
  obtain ⟨k, hk, hkP, rfl⟩ := h2
  exact (perm_of_nodup_mem hl hk fun x => (hlP x).trans (hkP x).symm).length_eq

theorem CountIs.congr {α : Type} {P Q : α → Prop} {n : Nat} (h : CountIs P n)
    (hPQ : ∀ x, P x ↔ Q x) : CountIs Q n := by
  obtain ⟨l, hl, hlP, e⟩ := h
  exact ⟨l, hl, fun x => (hlP x).trans (hPQ x), e⟩

/-- The indexes below a bound and outside a duplicate-free list of indexes below it. -/
theorem countIs_compl {n : Nat} {l : List Nat} (hn : l.Nodup) (hb : ∀ i ∈ l, i < n) :
    CountIs (fun i => i < n ∧ i ∉ l) (n - l.length) := by
  refine ⟨(List.range n).filter (fun i => decide (i ∉ l)), (List.nodup_range).filter _, ?_, ?_⟩
  · intro x
    simp [List.mem_filter]
  · have h := length_filter_add_not (List.range n) (fun i => decide (i ∉ l))
    have hp : ((List.range n).filter (fun i => !decide (i ∉ l))).Perm l := by
      refine perm_of_nodup_mem ((List.nodup_range).filter _) hn fun x => ?_
      simp only [List.mem_filter, List.mem_range]
      constructor
      · rintro ⟨_, h⟩; simpa using h
      · intro h; exact ⟨hb x h, by simpa using h⟩
    rw [hp.length_eq, List.length_range] at h
    omega

end Opsqueue
