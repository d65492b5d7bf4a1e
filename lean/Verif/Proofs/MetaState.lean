import Verif.Proofs.Map
import Verif.Model.MetaState

/-! Lemmas about the in-flight counters. -/

namespace Opsqueue
open Map

namespace MetaStateField

theorem get_increment (f : MetaStateField) (v v' : Int) :
    Map.get (f.increment v) v' = if v = v' then some ((f.get v).getD 0 + 1) else f.get v' := by
  unfold increment
  split <;> rename_i h <;> rw [get_set, h] <;> rfl

theorem decrement_absent {f : MetaStateField} {v : Int} (h : f.get v = none) :
    f.decrement v = some f := by
  unfold decrement; rw [h]

theorem decrement_present {f : MetaStateField} {v : Int} {n : Nat} (h : f.get v = some (n + 1)) :
    ∃ f', f.decrement v = some f' ∧
      ∀ v', f'.get v' = if v = v' then (if n = 0 then none else some n) else f.get v' := by
  unfold decrement
  rw [h]
  dsimp only
  by_cases hn : n = 0
  · rw [if_pos hn]
    refine ⟨_, rfl, fun v' => ?_⟩
    rw [get_erase]; simp [hn]
  · rw [if_neg hn]
    refine ⟨_, rfl, fun v' => ?_⟩
    rw [get_set]; simp [hn]

theorem isEmpty_iff (f : MetaStateField) : f.isEmpty = true ↔ ∀ v, f.get v = none := by
  constructor
  · intro h v
    rw [List.isEmpty_iff.1 h]; rfl
  · intro h
    rw [eq_nil_of_get h]; rfl

theorem increment_ne_nil (f : MetaStateField) (v : Int) : f.increment v ≠ [] := by
  intro h
  have := get_increment f v v
  rw [h] at this
  simp [get_nil] at this

end MetaStateField

namespace MetaState

/-- The count, zero if absent. -/
def cnt (m : MetaState) (k : String) (v : Int) : Nat := (m.count k v).getD 0

theorem count_set (m : MetaState) (k : String) (f : MetaStateField) (k' : String) (v : Int) :
    count (Map.set m k f) k' v = if k = k' then f.get v else m.count k' v := by
  unfold count
  rw [get_set]
  split <;> rfl

theorem count_erase (m : MetaState) (k k' : String) (v : Int) :
    count (Map.erase m k) k' v = if k = k' then none else m.count k' v := by
  unfold count
  rw [get_erase]
  split <;> rfl

theorem count_getD (m : MetaState) (k : String) (v : Int) :
    ((m.get k).getD [] : MetaStateField).get v = m.count k v := by
  unfold count
  cases m.get k <;> rfl

end MetaState

namespace MetaConc
open MetaState

theorem perm_eraseIdx {α : Type} (l : List α) (i : Nat) (t : α) (h : l[i]? = some t) :
    (t :: l.eraseIdx i).Perm l := by
  induction l generalizing i with
  | nil => simp at h
  | cons a l ih =>
    cases i with
    | zero => simp at h; subst h; exact .refl _
    | succ i =>
      rw [List.eraseIdx_cons_succ]
      exact (List.Perm.swap _ _ _).trans ((ih i (by simpa using h)).cons a)

/-- Increments started. -/
def incs (as : List Action) (k : String) (v : Int) : Nat := as.count (.startInc k v)
/-- Decrements started. -/
def decs (as : List Action) (k : String) (v : Int) : Nat := as.count (.startDec k v)
/-- Increments started and not yet effective. -/
def pend (s : State) (k : String) (v : Int) : Nat := s.tasks.count (.incSlow k v)

structure Good (as : List Action) (s : State) : Prop where
  noPanic : s.panicked = false
  bal : ∀ k v, cnt s.map k v + decs as k v + pend s k v = incs as k v
  pos : ∀ k v n, s.map.count k v = some n → 0 < n
  janitor : ∀ k, s.map.get k = some [] → Task.check k ∈ s.tasks ∨ Task.remove k ∈ s.tasks

theorem run_snoc (as : List Action) (a : Action) : run (as ++ [a]) = step (run as) a := by
  simp [run]

theorem incs_snoc (as : List Action) (a : Action) (k : String) (v : Int) :
    incs (as ++ [a]) k v = incs as k v + if a = .startInc k v then 1 else 0 := by
  simp [incs, List.count_append, List.count_cons]

theorem decs_snoc (as : List Action) (a : Action) (k : String) (v : Int) :
    decs (as ++ [a]) k v = decs as k v + if a = .startDec k v then 1 else 0 := by
  simp [decs, List.count_append, List.count_cons]

theorem cnt_set_inc (m : MetaState) (k : String) (v : Int) (k' : String) (v' : Int) :
    cnt (Map.set m k (MetaStateField.increment ((m.get k).getD []) v)) k' v' =
      cnt m k' v' + if k = k' ∧ v = v' then 1 else 0 := by
  unfold cnt
  rw [count_set]
  by_cases hk : k = k'
  · subst hk
    rw [if_pos rfl, MetaStateField.get_increment, count_getD, count_getD]
    by_cases hv : v = v'
    · subst hv; simp
    · simp [hv]
  · simp [hk]

theorem good_inc {as : List Action} {s : State} (k : String) (v : Int) (tasks : List Task)
    (h : Good as s)
    (hp : ∀ k' v', tasks.count (.incSlow k' v') + (if k = k' ∧ v = v' then 1 else 0) =
      pend s k' v' + (incs as' k' v' - incs as k' v'))
    (hi : ∀ k' v', incs as k' v' ≤ incs as' k' v')
    (hd : ∀ k' v', decs as' k' v' = decs as k' v')
    (hj : ∀ k', (Task.check k' ∈ s.tasks → Task.check k' ∈ tasks) ∧
      (Task.remove k' ∈ s.tasks → Task.remove k' ∈ tasks)) :
    Good as' { s with
      map := s.map.set k (MetaStateField.increment ((s.map.get k).getD []) v), tasks := tasks } := by
  refine ⟨h.noPanic, ?_, ?_, ?_⟩
  · intro k' v'
    have h1 := h.bal k' v'
    have h2 := hp k' v'
    have h3 := hi k' v'
    rw [hd]
    show cnt (Map.set s.map k _) k' v' + _ + tasks.count _ = _
    rw [cnt_set_inc]
    omega
  · intro k' v' n hn
    have hn' : MetaState.count (Map.set s.map k _) k' v' = some n := hn
    rw [count_set] at hn'
    split at hn'
    · rw [MetaStateField.get_increment] at hn'
      split at hn'
      · cases hn'; omega
      · rename_i hk _
        subst hk
        rw [count_getD] at hn'
        exact h.pos _ _ _ hn'
    · exact h.pos _ _ _ hn'
  · intro k' hk'
    have hk' : Map.get (Map.set s.map k _) k' = some [] := hk'
    rw [get_set] at hk'
    split at hk'
    · exact absurd (Option.some.inj hk') (MetaStateField.increment_ne_nil _ _)
    · rcases h.janitor k' hk' with h' | h'
      · exact Or.inl ((hj k').1 h')
      · exact Or.inr ((hj k').2 h')

theorem good_step {as : List Action} {s : State} (h : Good as s) (a : Action)
    (ha : ∀ k v, a = .startDec k v → decs as k v + pend s k v < incs as k v) :
    Good (as ++ [a]) (step s a) := by
  cases a with
  | startInc k v =>
    have hd : ∀ k' v', decs (as ++ [.startInc k v]) k' v' = decs as k' v' := by
      intro k' v'; rw [decs_snoc]; simp
    have hi : ∀ k' v', incs (as ++ [.startInc k v]) k' v' =
        incs as k' v' + if k = k' ∧ v = v' then 1 else 0 := by
      intro k' v'; rw [incs_snoc]; simp
    simp only [step]
    cases hg : s.map.get k with
    | some f =>
      have := good_inc (as' := as ++ [.startInc k v]) k v s.tasks h
        (by intro k' v'; rw [hi]; unfold pend; omega)
        (by intro k' v'; rw [hi]; omega) hd (fun _ => ⟨id, id⟩)
      rw [hg] at this
      exact this
    | none =>
      refine ⟨h.noPanic, ?_, h.pos, ?_⟩
      · intro k' v'
        have h1 := h.bal k' v'
        rw [hd, hi]
        simp only [pend, List.count_append, List.count_cons, List.count_nil] at h1 ⊢
        by_cases hkv : k = k' ∧ v = v'
        · obtain ⟨rfl, rfl⟩ := hkv
          simp; omega
        · have : ((Task.incSlow k v == Task.incSlow k' v') = false) := by
            simp only [beq_eq_false_iff_ne, ne_eq, Task.incSlow.injEq]; exact hkv
          rw [this, if_neg hkv]
          simp only [Bool.false_eq_true, if_false]
          omega
      · intro k' hk'
        rcases h.janitor k' hk' with h' | h'
        · exact Or.inl (List.mem_append_left _ h')
        · exact Or.inr (List.mem_append_left _ h')
  | startDec k v =>
    have hlt := ha k v rfl
    have hb := h.bal k v
    have hcnt : 0 < cnt s.map k v := by omega
    have hi : ∀ k' v', incs (as ++ [.startDec k v]) k' v' = incs as k' v' := by
      intro k' v'; rw [incs_snoc]; simp
    have hd : ∀ k' v', decs (as ++ [.startDec k v]) k' v' =
        decs as k' v' + if k = k' ∧ v = v' then 1 else 0 := by
      intro k' v'; rw [decs_snoc]; simp
    simp only [step]
    cases hg : s.map.get k with
    | none => exfalso; simp [cnt, count, hg] at hcnt
    | some f =>
      have hfv : f.get v = some ((cnt s.map k v - 1) + 1) := by
        have e : (f.get v).getD 0 = cnt s.map k v := by simp [cnt, count, hg]
        cases hf : f.get v with
        | none => rw [hf] at e; simp at e; omega
        | some n => rw [hf] at e; simp at e; rw [e]; congr 1; omega
      obtain ⟨f', hf', hget⟩ := MetaStateField.decrement_present hfv
      simp only [hf']
      refine ⟨h.noPanic, ?_, ?_, ?_⟩
      · intro k' v'
        have h1 := h.bal k' v'
        rw [hd, hi]
        have hpend : pend { s with map := s.map.set k f', tasks := s.tasks ++ [.check k] } k' v' =
            pend s k' v' := by
          simp [pend, List.count_append]
        rw [hpend]
        have hc : cnt (Map.set s.map k f') k' v' + (if k = k' ∧ v = v' then 1 else 0) =
            cnt s.map k' v' := by
          unfold cnt
          rw [count_set]
          by_cases hk : k = k'
          · subst hk
            rw [if_pos rfl, hget]
            by_cases hv : v = v'
            · subst hv
              simp only [if_true, and_self]
              have e : (s.map.count k v).getD 0 = cnt s.map k v := rfl
              rw [e]
              split
              · simp only [Option.getD_none]; omega
              · simp only [Option.getD_some]; omega
            · simp [hv, count, hg]
          · simp [hk]
        show cnt (Map.set s.map k f') k' v' + _ + _ = _
        omega
      · intro k' v' n hn
        replace hn : MetaState.count (Map.set s.map k f') k' v' = some n := hn
        rw [count_set] at hn
        split at hn
        · rename_i hk
          subst hk
          rw [hget] at hn
          split at hn
          · split at hn
            · cases hn
            · cases hn; omega
          · exact h.pos k v' n (by simp [count, hg, hn])
        · exact h.pos _ _ _ hn
      · intro k' hk'
        have hk' : Map.get (Map.set s.map k f') k' = some [] := hk'
        rw [get_set] at hk'
        split at hk'
        · rename_i hkk; subst hkk
          exact Or.inl (List.mem_append_right _ (List.mem_singleton.2 rfl))
        · rcases h.janitor k' hk' with h' | h'
          · exact Or.inl (List.mem_append_left _ h')
          · exact Or.inr (List.mem_append_left _ h')
  | advance i =>
    have hi : ∀ k' v', incs (as ++ [.advance i]) k' v' = incs as k' v' := by
      intro k' v'; rw [incs_snoc]; simp
    have hd : ∀ k' v', decs (as ++ [.advance i]) k' v' = decs as k' v' := by
      intro k' v'; rw [decs_snoc]; simp
    simp only [step]
    cases ht : s.tasks[i]? with
    | none =>
      refine ⟨h.noPanic, ?_, h.pos, h.janitor⟩
      intro k' v'; rw [hi, hd]; exact h.bal k' v'
    | some t =>
      have hperm := perm_eraseIdx s.tasks i t ht
      have hcount : ∀ x, s.tasks.count x = (s.tasks.eraseIdx i).count x + if t = x then 1 else 0 := by
        intro x
        rw [← hperm.count_eq, List.count_cons]
        simp
      have hmem : ∀ x, x ∈ s.tasks ↔ x = t ∨ x ∈ s.tasks.eraseIdx i := by
        intro x; rw [← hperm.mem_iff, List.mem_cons]
      have hpe : ∀ k' v', (s.tasks.eraseIdx i).count (.incSlow k' v') +
          (if t = .incSlow k' v' then 1 else 0) = pend s k' v' := by
        intro k' v'; unfold pend; rw [hcount]
      dsimp only
      cases t with
      | incSlow k v =>
        refine good_inc (s := s) k v (s.tasks.eraseIdx i) h ?_ (fun k' v' => Nat.le_of_eq (hi k' v').symm) hd ?_
        · intro k' v'
          have := hpe k' v'
          rw [hi]
          simp only [Task.incSlow.injEq] at this
          omega
        · intro k'
          constructor <;> intro hm <;> rcases (hmem _).1 hm with h' | h'
          · cases h'
          · exact h'
          · cases h'
          · exact h'
      | check k =>
        have hpe' : ∀ k' v', (s.tasks.eraseIdx i).count (.incSlow k' v') = pend s k' v' := by
          intro k' v'; have := hpe k' v'; simpa using this
        simp only [runTask]
        split
        · refine ⟨h.noPanic, ?_, h.pos, ?_⟩
          · intro k' v'
            rw [hi, hd]
            have h1 := h.bal k' v'
            rw [← hpe' k' v'] at h1
            simpa [pend, List.count_append, List.count_cons] using h1
          · intro k' hk'
            rcases h.janitor k' hk' with h' | h' <;> rcases (hmem _).1 h' with h' | h'
            · cases h'
              exact Or.inr (List.mem_append_right _ (List.mem_singleton.2 rfl))
            · exact Or.inl (List.mem_append_left _ h')
            · cases h'
            · exact Or.inr (List.mem_append_left _ h')
        · rename_i hne
          refine ⟨h.noPanic, ?_, h.pos, ?_⟩
          · intro k' v'
            rw [hi, hd]
            have h1 := h.bal k' v'
            rw [← hpe' k' v'] at h1
            exact h1
          · intro k' hk'
            have hk' : s.map.get k' = some [] := hk'
            rcases h.janitor k' hk' with h' | h' <;> rcases (hmem _).1 h' with h' | h'
            · cases h'
              rw [hk'] at hne
              simp at hne
            · exact Or.inl h'
            · cases h'
            · exact Or.inr h'
      | remove k =>
        have hpe' : ∀ k' v', (s.tasks.eraseIdx i).count (.incSlow k' v') = pend s k' v' := by
          intro k' v'; have := hpe k' v'; simpa using this
        have hmt : ∀ k', Task.check k' ∈ s.tasks ∨ Task.remove k' ∈ s.tasks → k' ≠ k →
            Task.check k' ∈ s.tasks.eraseIdx i ∨ Task.remove k' ∈ s.tasks.eraseIdx i := by
          intro k' h' hne
          rcases h' with h' | h' <;> rcases (hmem _).1 h' with h' | h'
          · cases h'
          · exact Or.inl h'
          · cases h'; exact absurd rfl hne
          · exact Or.inr h'
        simp only [runTask]
        cases hg : s.map.get k with
        | none =>
          refine ⟨h.noPanic, ?_, h.pos, ?_⟩
          · intro k' v'
            rw [hi, hd]
            have h1 := h.bal k' v'
            rw [← hpe' k' v'] at h1
            exact h1
          · intro k' hk'
            have hk' : s.map.get k' = some [] := hk'
            refine hmt k' (h.janitor k' hk') ?_
            intro he; rw [he, hg] at hk'; cases hk'
        | some f =>
          dsimp only
          split
          · rename_i hf
            have hf0 : f = [] := List.isEmpty_iff.1 hf
            subst hf0
            have hce : ∀ k' v', MetaState.count (Map.erase s.map k) k' v' = s.map.count k' v' := by
              intro k' v'
              rw [count_erase]
              split
              · rename_i hk; subst hk
                simp [count, hg, get_nil]
              · rfl
            refine ⟨h.noPanic, ?_, ?_, ?_⟩
            · intro k' v'
              rw [hi, hd]
              have h1 := h.bal k' v'
              rw [← hpe' k' v'] at h1
              have e : cnt (Map.erase s.map k) k' v' = cnt s.map k' v' := by
                unfold cnt; rw [hce]
              show cnt (Map.erase s.map k) k' v' + _ + (s.tasks.eraseIdx i).count _ = _
              rw [e]; exact h1
            · intro k' v' n hn
              have hn : MetaState.count (Map.erase s.map k) k' v' = some n := hn
              rw [hce] at hn
              exact h.pos _ _ _ hn
            · intro k' hk'
              have hk' : Map.get (Map.erase s.map k) k' = some [] := hk'
              rw [get_erase] at hk'
              split at hk'
              · cases hk'
              · rename_i hne
                exact hmt k' (h.janitor k' hk') (fun he => hne he.symm)
          · rename_i hf
            refine ⟨h.noPanic, ?_, h.pos, ?_⟩
            · intro k' v'
              rw [hi, hd]
              have h1 := h.bal k' v'
              rw [← hpe' k' v'] at h1
              exact h1
            · intro k' hk'
              have hk' : s.map.get k' = some [] := hk'
              refine hmt k' (h.janitor k' hk') ?_
              intro he; rw [he, hg] at hk'; cases hk'
              exact hf rfl

/-- Without any assumption on the schedule: stored counts are positive and nothing panics. -/
structure Safe (s : State) : Prop where
  noPanic : s.panicked = false
  pos : ∀ k v n, s.map.count k v = some n → 0 < n

theorem safe_set {s : State} (h : Safe s) (k : String) (f : MetaStateField) (tasks : List Task)
    (hf : ∀ v n, f.get v = some n → 0 < n) :
    Safe { s with map := s.map.set k f, tasks := tasks } := by
  refine ⟨h.noPanic, ?_⟩
  intro k' v n hn
  replace hn : MetaState.count (Map.set s.map k f) k' v = some n := hn
  rw [count_set] at hn
  split at hn
  · exact hf _ _ hn
  · exact h.pos _ _ _ hn

theorem pos_increment {f : MetaStateField} (hf : ∀ v n, f.get v = some n → 0 < n) (v : Int) :
    ∀ v' n, (f.increment v).get v' = some n → 0 < n := by
  intro v' n h
  rw [MetaStateField.get_increment] at h
  split at h
  · cases h; omega
  · exact hf _ _ h

theorem safe_step {s : State} (h : Safe s) (a : Action) : Safe (step s a) := by
  have hfield : ∀ k f, s.map.get k = some f → ∀ v n, f.get v = some n → 0 < n := by
    intro k f hg v n hn
    exact h.pos k v n (by simp [count, hg, hn])
  have hfieldD : ∀ k v n, Map.get ((s.map.get k).getD [] : MetaStateField) v = some n → 0 < n := by
    intro k v n hn
    rw [count_getD] at hn
    exact h.pos k v n hn
  cases a with
  | startInc k v =>
    simp only [step]
    cases hg : s.map.get k with
    | some f => exact safe_set h k _ s.tasks (pos_increment (hfield k f hg) v)
    | none => exact ⟨h.noPanic, h.pos⟩
  | startDec k v =>
    simp only [step]
    cases hg : s.map.get k with
    | none => exact h
    | some f =>
      have hpos := hfield k f hg
      cases hf : f.get v with
      | none =>
        simp only [MetaStateField.decrement_absent hf]
        exact safe_set h k _ _ hpos
      | some n =>
        obtain ⟨n, rfl⟩ : ∃ m, n = m + 1 := ⟨n - 1, by have := hpos v n hf; omega⟩
        obtain ⟨f', hf', hget⟩ := MetaStateField.decrement_present hf
        simp only [hf']
        refine safe_set h k _ _ ?_
        intro v' n' hn'
        rw [hget] at hn'
        split at hn'
        · split at hn'
          · cases hn'
          · cases hn'; omega
        · exact hpos _ _ hn'
  | advance i =>
    simp only [step]
    cases ht : s.tasks[i]? with
    | none => exact h
    | some t =>
      cases t with
      | incSlow k v => exact safe_set h k _ _ (pos_increment (hfieldD k) v)
      | check k =>
        simp only [runTask]
        split <;> exact ⟨h.noPanic, h.pos⟩
      | remove k =>
        simp only [runTask]
        split
        · split
          · refine ⟨h.noPanic, ?_⟩
            intro k' v n hn
            replace hn : MetaState.count (Map.erase s.map k) k' v = some n := hn
            rw [count_erase] at hn
            split at hn
            · cases hn
            · exact h.pos _ _ _ hn
          · exact ⟨h.noPanic, h.pos⟩
        · exact ⟨h.noPanic, h.pos⟩

theorem safe_run (as : List Action) : Safe (run as) := by
  unfold run
  have : ∀ s, Safe s → Safe (as.foldl step s) := by
    induction as with
    | nil => intro s h; exact h
    | cons a as ih => intro s h; exact ih _ (safe_step h a)
  refine this _ ⟨rfl, ?_⟩
  intro k v n h; cases h

theorem field_wf_increment {f : MetaStateField} (h : Map.WF f) (v : Int) : Map.WF (f.increment v) := by
  unfold MetaStateField.increment
  split <;> exact wf_set h _ _

theorem field_wf_decrement {f f' : MetaStateField} (h : Map.WF f) {v : Int}
    (he : f.decrement v = some f') : Map.WF f' := by
  unfold MetaStateField.decrement at he
  split at he
  · cases he; exact h
  · cases he
  · split at he <;> cases he
    · exact wf_erase h _
    · exact wf_set h _ _

/-- The inner maps never hold a value twice. -/
def FieldsWF (m : MetaState) : Prop := ∀ k f, m.get k = some f → Map.WF f

theorem fieldsWF_set {m : MetaState} (h : FieldsWF m) (k : String) {f : MetaStateField}
    (hf : Map.WF f) : FieldsWF (Map.set m k f) := by
  intro k' f' hk
  rw [get_set] at hk
  split at hk
  · cases hk; exact hf
  · exact h _ _ hk

theorem fieldsWF_getD {m : MetaState} (h : FieldsWF m) (k : String) :
    Map.WF ((m.get k).getD [] : MetaStateField) := by
  cases hg : m.get k with
  | none => exact wf_nil
  | some f => exact h k f hg

theorem fieldsWF_step {s : State} (h : FieldsWF s.map) (a : Action) : FieldsWF (step s a).map := by
  cases a with
  | startInc k v =>
    simp only [step]
    cases hg : s.map.get k with
    | some f => exact fieldsWF_set h k (field_wf_increment (h k f hg) v)
    | none => exact h
  | startDec k v =>
    simp only [step]
    cases hg : s.map.get k with
    | none => exact h
    | some f =>
      dsimp only
      cases hd : f.decrement v with
      | none => exact h
      | some f' => exact fieldsWF_set h k (field_wf_decrement (h k f hg) hd)
  | advance i =>
    simp only [step]
    cases ht : s.tasks[i]? with
    | none => exact h
    | some t =>
      cases t with
      | incSlow k v => exact fieldsWF_set h k (field_wf_increment (fieldsWF_getD h k) v)
      | check k =>
        simp only [runTask]
        split <;> exact h
      | remove k =>
        simp only [runTask]
        split
        · split
          · intro k' f' hk
            replace hk : Map.get (Map.erase s.map k) k' = some f' := hk
            rw [get_erase] at hk
            split at hk
            · cases hk
            · exact h _ _ hk
          · exact h
        · exact h

theorem fieldsWF_run (as : List Action) : FieldsWF (run as).map := by
  unfold run
  have : ∀ s : State, FieldsWF s.map → FieldsWF (as.foldl step s).map := by
    induction as with
    | nil => intro s h; exact h
    | cons a as ih => intro s h; exact ih _ (fieldsWF_step h a)
  refine this _ ?_
  intro k f h; cases h

theorem good_empty : Good [] (run []) := by
  refine ⟨rfl, ?_, ?_, ?_⟩
  · intro k v; rfl
  · intro k v n h; cases h
  · intro k h; cases h

end MetaConc

namespace MetaState

/-- Invariant of calls executed one at a time. -/
structure SeqGood (calls : List Call) (m : MetaState) : Prop where
  bal : ∀ k v, cnt m k v + calls.count (.dec k v) = calls.count (.inc k v)
  pos : ∀ k v n, m.count k v = some n → 0 < n
  full : ∀ k, m.get k ≠ some []

theorem seqGood_inc {calls : List Call} {m : MetaState} (h : SeqGood calls m) (k : String) (v : Int) :
    SeqGood (calls ++ [.inc k v]) (m.increment k v) := by
  have e : m.increment k v = Map.set m k (MetaStateField.increment ((m.get k).getD []) v) := by
    unfold increment; cases m.get k <;> rfl
  rw [e]
  refine ⟨?_, ?_, ?_⟩
  · intro k' v'
    have h1 := h.bal k' v'
    rw [MetaConc.cnt_set_inc]
    have h2 : (calls ++ [Call.inc k v]).count (.dec k' v') = calls.count (.dec k' v') := by
      simp [List.count_append]
    have h3 : (calls ++ [Call.inc k v]).count (.inc k' v') =
        calls.count (.inc k' v') + if k = k' ∧ v = v' then 1 else 0 := by
      simp [List.count_append, List.count_cons]
    omega
  · intro k' v' n hn
    rw [count_set] at hn
    split at hn
    · rw [MetaStateField.get_increment] at hn
      split at hn
      · cases hn; omega
      · rename_i hk _; subst hk; rw [count_getD] at hn; exact h.pos _ _ _ hn
    · exact h.pos _ _ _ hn
  · intro k' hk'
    rw [get_set] at hk'
    split at hk'
    · exact MetaStateField.increment_ne_nil _ _ (Option.some.inj hk')
    · exact h.full _ hk'

theorem seqGood_dec {calls : List Call} {m : MetaState} (h : SeqGood calls m) (k : String) (v : Int)
    (hlt : calls.count (.dec k v) < calls.count (.inc k v)) :
    ∃ m', m.decrement k v = some m' ∧ SeqGood (calls ++ [.dec k v]) m' := by
  have hb := h.bal k v
  have hcnt : 0 < cnt m k v := by omega
  cases hg : m.get k with
  | none => exfalso; simp [cnt, count, hg] at hcnt
  | some f =>
    have hfv : f.get v = some ((cnt m k v - 1) + 1) := by
      have e : (f.get v).getD 0 = cnt m k v := by simp [cnt, count, hg]
      cases hf : f.get v with
      | none => rw [hf] at e; simp at e; omega
      | some n => rw [hf] at e; simp at e; rw [e]; congr 1; omega
    obtain ⟨f', hf', hget⟩ := MetaStateField.decrement_present hfv
    refine ⟨if f'.isEmpty then Map.erase m k else Map.set m k f', ?_, ?_⟩
    · unfold decrement; rw [hg]; simp only [hf']
    · have hcount : ∀ k' v', count (if f'.isEmpty then Map.erase m k else Map.set m k f') k' v' =
          if k = k' then f'.get v' else m.count k' v' := by
        intro k' v'
        split
        · rename_i he
          rw [count_erase]
          split
          · exact ((MetaStateField.isEmpty_iff f').1 he v').symm
          · rfl
        · rw [count_set]
      refine ⟨?_, ?_, ?_⟩
      · intro k' v'
        have h1 := h.bal k' v'
        have h2 : (calls ++ [Call.dec k v]).count (.inc k' v') = calls.count (.inc k' v') := by
          simp [List.count_append]
        have h3 : (calls ++ [Call.dec k v]).count (.dec k' v') =
            calls.count (.dec k' v') + if k = k' ∧ v = v' then 1 else 0 := by
          simp [List.count_append, List.count_cons]
        rw [h2, h3]
        have hc : cnt (if f'.isEmpty then Map.erase m k else Map.set m k f') k' v' +
            (if k = k' ∧ v = v' then 1 else 0) = cnt m k' v' := by
          unfold cnt
          rw [hcount]
          by_cases hk : k = k'
          · subst hk
            rw [if_pos rfl, hget]
            by_cases hv : v = v'
            · subst hv
              simp only [if_true, and_self]
              have e : (m.count k v).getD 0 = cnt m k v := rfl
              rw [e]
              split
              · simp only [Option.getD_none]; omega
              · simp only [Option.getD_some]; omega
            · simp [hv, count, hg]
          · simp [hk]
        omega
      · intro k' v' n hn
        rw [hcount] at hn
        split at hn
        · rename_i hk
          subst hk
          rw [hget] at hn
          split at hn
          · split at hn
            · cases hn
            · cases hn; omega
          · exact h.pos k v' n (by simp [count, hg, hn])
        · exact h.pos _ _ _ hn
      · intro k' hk'
        split at hk'
        · rw [get_erase] at hk'
          split at hk'
          · cases hk'
          · exact h.full _ hk'
        · rename_i he
          rw [get_set] at hk'
          split at hk'
          · rw [Option.some.inj hk'] at he; exact he rfl
          · exact h.full _ hk'

theorem exec_append (xs ys : List Call) : ∀ m, exec m (xs ++ ys) = (exec m xs).bind (exec · ys) := by
  induction xs with
  | nil => intro m; rfl
  | cons x xs ih =>
    intro m
    cases x with
    | inc k v => exact ih _
    | dec k v =>
      simp only [List.cons_append, exec]
      cases m.decrement k v with
      | none => rfl
      | some m' => exact ih m'

end MetaState
end Opsqueue
