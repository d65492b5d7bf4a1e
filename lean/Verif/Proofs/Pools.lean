import Verif.Spec.Pools
import Verif.Proofs.Lists
import Verif.Proofs.Fairness

/-! Invariants of the pools of connections. -/

namespace Opsqueue.Pools

/-- With `r` and `w` connections of the two pools in hand, the task can do this, asks for the writer's only with empty hands, and
for a reader's with empty hands or (a fetch) with one of them, and has none left at the end. -/
def Ok (f : Bool) : List Act → Nat → Nat → Prop
  | [], r, w => r = 0 ∧ w = 0
  | .statement :: a, r, w => Ok f a r w
  | .acquire .reader :: a, r, w => w = 0 ∧ (r = 0 ∨ f = true ∧ r = 1) ∧ Ok f a (r + 1) w
  | .acquire .writer :: a, r, w => w = 0 ∧ r = 0 ∧ Ok f a r (w + 1)
  | .release .reader :: a, r, w => 0 < r ∧ Ok f a (r - 1) w
  | .release .writer :: a, r, w => 0 < w ∧ Ok f a r (w - 1)

theorem ok_statements (f : Bool) (k : Nat) (a : List Act) (r w : Nat) :
    Ok f (List.replicate k .statement ++ a) r w ↔ Ok f a r w := by
  induction k with
  | zero => simp
  | succ k ih => simp [List.replicate_succ, Ok, ih]

theorem ok_rows (rows : List (Nat × Bool)) (a : List Act) (h : Ok true a 1 0) : Ok true (rows.flatMap row ++ a) 1 0 := by
  induction rows with
  | nil => simpa using h
  | cons x rows ih =>
    obtain ⟨k, b⟩ := x
    rw [List.flatMap_cons, List.append_assoc, row, List.append_assoc, ok_statements]
    cases b with
    | false => simpa using ih
    | true => simp [join, useConn, List.replicate, Ok, ih]

theorem ok_acts (c : Call) : Ok c.isFetch c.acts 0 0 := by
  cases c with
  | fetch rows rest =>
    simp only [Call.isFetch, Call.acts, Ok]
    refine ⟨trivial, .inl trivial, ok_rows rows _ ?_⟩
    rw [ok_statements]
    simp [Ok]
  | _ => simp [Call.isFetch, Call.acts, useConn, Ok, ok_statements]

/-- Holds in every state of a server. -/
structure Inv (max : Nat) (s : State) : Prop where
  nodup : (s.tasks.map (·.id)).Nodup
  ok : ∀ t ∈ s.tasks, Ok t.call.isFetch t.todo (s.taken.count (t.id, .reader)) (s.taken.count (t.id, .writer))
  owner : ∀ x ∈ s.taken, x.1 ∈ s.tasks.map (·.id)
  asks : ∀ p, ∀ i ∈ s.waiting p, ∃ t ∈ s.tasks, t.id = i ∧ ∃ a, t.todo = .acquire p :: a
  once : ∀ p, (s.waiting p).Nodup
  used : ∀ p, s.used p ≤ p.size max

theorem inv_init (max : Nat) : Inv max {} where
  nodup := by simp
  ok := by simp
  owner := by simp
  asks := by simp
  once := by simp
  used := by simp [State.used]

theorem find_task {s : State} {i : Nat} {t : Task} (h : s.tasks.find? (·.id = i) = some t) : t ∈ s.tasks ∧ t.id = i := by
  refine ⟨List.mem_of_find?_eq_some h, ?_⟩
  simpa using List.find?_some h

/-- Two tasks with the same number are the same. -/
theorem Inv.same {max : Nat} {s : State} (h : Inv max s) {t u : Task} (ht : t ∈ s.tasks) (hu : u ∈ s.tasks)
    (e : t.id = u.id) : t = u := eq_of_key_eq (key := Task.id) h.nodup ht hu e

@[simp] theorem advance_ids (s : State) (i : Nat) : (s.advance i).tasks.map (·.id) = s.tasks.map (·.id) := by
  simp only [State.advance, List.map_map]
  apply List.map_congr_left
  intro t _
  simp only [Function.comp]
  split <;> rfl

theorem mem_advance {s : State} {i : Nat} {t : Task} (h : t ∈ (s.advance i).tasks) :
    ∃ u ∈ s.tasks, u.id = t.id ∧ u.call = t.call ∧ t.todo = if u.id = i then u.todo.tail else u.todo := by
  simp only [State.advance, List.mem_map] at h
  obtain ⟨u, hu, rfl⟩ := h
  refine ⟨u, hu, ?_⟩
  split <;> simp

theorem mem_advance_of_ne {s : State} {i : Nat} {t : Task} (h : t ∈ s.tasks) (hi : t.id ≠ i) : t ∈ (s.advance i).tasks := by
  simp only [State.advance, List.mem_map]
  exact ⟨t, h, by simp [hi]⟩

theorem inv_call {max : Nat} {s : State} (h : Inv max s) {i : Nat} (c : Call) (hi : i ∉ s.tasks.map (·.id)) :
    Inv max { s with tasks := s.tasks ++ [⟨i, c, c.acts⟩] } where
  nodup := by
    simp only [List.map_append, List.map_cons, List.map_nil]
    rw [List.nodup_append]
    refine ⟨h.nodup, by simp, ?_⟩
    intro a ha b hb
    simp only [List.mem_singleton] at hb
    subst hb
    rintro rfl
    exact hi ha
  ok := by
    intro t ht
    simp only [List.mem_append, List.mem_singleton] at ht
    rcases ht with ht | rfl
    · exact h.ok t ht
    · have hz : ∀ p, s.taken.count (i, p) = 0 := by
        intro p
        rw [List.count_eq_zero]
        intro hm
        exact hi (h.owner _ hm)
      simp only [hz]
      exact ok_acts c
  owner := by
    intro x hx
    have := h.owner x hx
    simp only [List.map_append, List.mem_append]
    exact .inl this
  asks := by
    intro p j hj
    obtain ⟨t, ht, e, a⟩ := h.asks p j hj
    exact ⟨t, List.mem_append_left _ ht, e, a⟩
  once := h.once
  used := h.used

theorem not_waiting {max : Nat} {s : State} (h : Inv max s) {t : Task} (ht : t ∈ s.tasks) {p : Pool}
    (hn : ∀ a, t.todo ≠ .acquire p :: a) : t.id ∉ s.waiting p := by
  intro hw
  obtain ⟨u, hu, e, a, ha⟩ := h.asks p _ hw
  rw [h.same hu ht e] at ha
  exact hn a ha

theorem inv_end {max : Nat} {s : State} (h : Inv max s) {t : Task} (ht : t ∈ s.tasks) (hd : t.todo = []) :
    Inv max { s with tasks := s.tasks.filter (·.id ≠ t.id) } where
  nodup := nodup_map_filter h.nodup _
  ok := fun u hu => h.ok u (List.mem_filter.mp hu).1
  owner := by
    intro x hx
    obtain ⟨u, hu, e⟩ := List.mem_map.mp (h.owner x hx)
    refine List.mem_map.mpr ⟨u, List.mem_filter.mpr ⟨hu, ?_⟩, e⟩
    simp only [ne_eq, decide_not, Bool.not_eq_true', decide_eq_false_iff_not]
    intro e'
    have := h.same hu ht e'
    subst this
    have ho := h.ok u ht
    rw [hd] at ho
    obtain ⟨i, p⟩ := x
    simp only at e
    subst e
    cases p with
    | reader => exact absurd hx (List.count_eq_zero.mp ho.1)
    | writer => exact absurd hx (List.count_eq_zero.mp ho.2)
  asks := by
    intro p i hi
    obtain ⟨u, hu, e, a, ha⟩ := h.asks p i hi
    refine ⟨u, List.mem_filter.mpr ⟨hu, ?_⟩, e, a, ha⟩
    simp only [ne_eq, decide_not, Bool.not_eq_true', decide_eq_false_iff_not]
    intro e'
    rw [h.same hu ht e', hd] at ha
    cases ha
  once := h.once
  used := h.used

theorem inv_statement {max : Nat} {s : State} (h : Inv max s) {t : Task} (ht : t ∈ s.tasks) {a : List Act}
    (hd : t.todo = .statement :: a) : Inv max (s.advance t.id) where
  nodup := by rw [advance_ids]; exact h.nodup
  ok := by
    intro u hu
    obtain ⟨v, hv, e, ec, et⟩ := mem_advance hu
    have ho := h.ok v hv
    rw [et, ← e, ← ec]
    split
    · rename_i e'
      rw [h.same hv ht e'] at ho ⊢
      rw [hd] at ho ⊢
      exact ho
    · exact ho
  owner := by rw [advance_ids]; exact h.owner
  asks := by
    intro p i hi
    obtain ⟨u, hu, e, b, hb⟩ := h.asks p i hi
    refine ⟨u, mem_advance_of_ne hu ?_, e, b, hb⟩
    intro e'
    rw [h.same hu ht e', hd] at hb
    cases hb
  once := h.once
  used := h.used

theorem inv_release {max : Nat} {s : State} (h : Inv max s) {t : Task} (ht : t ∈ s.tasks) {p : Pool} {a : List Act}
    (hd : t.todo = .release p :: a) : Inv max { s.advance t.id with taken := s.taken.erase (t.id, p) } where
  nodup := by simp only [advance_ids]; exact h.nodup
  ok := by
    intro u hu
    obtain ⟨v, hv, e, ec, et⟩ := mem_advance hu
    have ho := h.ok v hv
    simp only [et, ← e, ← ec, List.count_erase]
    split
    · rename_i e'
      rw [h.same hv ht e'] at ho ⊢
      rw [hd] at ho ⊢
      cases p with
      | reader => simpa using ho.2
      | writer => simpa using ho.2
    · rename_i e'
      have : ∀ q, ((t.id, p) == (v.id, q)) = false := by
        intro q
        simp only [beq_eq_false_iff_ne, ne_eq, Prod.mk.injEq, not_and]
        intro e''
        exact absurd e''.symm e'
      simpa [this] using ho
  owner := by
    intro x hx
    simp only [advance_ids]
    exact h.owner x (List.mem_of_mem_erase hx)
  asks := by
    intro q i hi
    obtain ⟨u, hu, e, b, hb⟩ := h.asks q i hi
    refine ⟨u, mem_advance_of_ne hu ?_, e, b, hb⟩
    intro e'
    rw [h.same hu ht e', hd] at hb
    cases hb
  once := h.once
  used := by
    intro q
    refine Nat.le_trans ?_ (h.used q)
    exact List.Sublist.countP_le (List.erase_sublist)

theorem inv_ask {max : Nat} {s : State} (h : Inv max s) {t : Task} (ht : t ∈ s.tasks) {p : Pool} {a : List Act}
    (hd : t.todo = .acquire p :: a) (hn : t.id ∉ s.waiting p) : Inv max (s.setWaiting p (s.waiting p ++ [t.id])) where
  nodup := h.nodup
  ok := h.ok
  owner := h.owner
  asks := by
    intro q i hi
    simp only [State.setWaiting] at hi
    split at hi
    · rename_i e
      subst e
      rcases List.mem_append.mp hi with hi | hi
      · exact h.asks q i hi
      · simp only [List.mem_singleton] at hi
        exact ⟨t, ht, hi.symm, a, hd⟩
    · exact h.asks q i hi
  once := by
    intro q
    simp only [State.setWaiting]
    split
    · rw [List.nodup_append]
      refine ⟨h.once p, by simp, ?_⟩
      intro x hx y hy
      simp only [List.mem_singleton] at hy
      subst hy
      rintro rfl
      exact hn hx
    · exact h.once q
  used := h.used

theorem inv_grant {max : Nat} {s : State} (h : Inv max s) {p : Pool} {i : Nat} {q : List Nat} (hw : s.waiting p = i :: q)
    (hu : s.used p < p.size max) : Inv max { (s.advance i).setWaiting p q with taken := (i, p) :: s.taken } := by
  obtain ⟨t, ht, e, a, hd⟩ := h.asks p i (by rw [hw]; exact List.mem_cons_self)
  subst e
  have hnd := h.once p
  rw [hw, List.nodup_cons] at hnd
  refine ⟨?_, ?_, ?_, ?_, ?_, ?_⟩
  · simp only [State.setWaiting, advance_ids]; exact h.nodup
  · intro u hu
    obtain ⟨v, hv, e, ec, et⟩ := mem_advance hu
    have ho := h.ok v hv
    simp only [et, ← e, ← ec, List.count_cons]
    split
    · rename_i e'
      rw [h.same hv ht e'] at ho ⊢
      rw [hd] at ho ⊢
      cases p with
      | reader => simpa using ho.2.2
      | writer => simpa using ho.2.2
    · rename_i e'
      have : ∀ q, ((t.id, p) == (v.id, q)) = false := by
        intro q
        simp only [beq_eq_false_iff_ne, ne_eq, Prod.mk.injEq, not_and]
        intro e''
        exact absurd e''.symm e'
      simpa [this] using ho
  · intro x hx
    simp only [State.setWaiting, advance_ids]
    rcases List.mem_cons.mp hx with rfl | hx
    · exact List.mem_map_of_mem ht
    · exact h.owner x hx
  · intro r j hj
    simp only [State.setWaiting] at hj
    have hj' : j ∈ s.waiting r ∧ (r = p → j ∈ q) := by
      split at hj
      · rename_i e; subst e; rw [hw]; exact ⟨List.mem_cons_of_mem _ hj, fun _ => hj⟩
      · rename_i e; exact ⟨hj, fun e' => absurd e' e⟩
    obtain ⟨u, hu, e, b, hb⟩ := h.asks r j hj'.1
    refine ⟨u, mem_advance_of_ne hu ?_, e, b, hb⟩
    intro e'
    have := h.same hu ht e'
    subst this
    rw [hd] at hb
    have : r = p := by cases hb; rfl
    exact hnd.1 (e ▸ hj'.2 this)
  · intro r
    simp only [State.setWaiting]
    split
    · exact hnd.2
    · exact h.once r
  · intro r
    simp only [State.used, List.countP_cons]
    split
    · rename_i e
      simp only [decide_eq_true_eq] at e
      subst e
      exact hu
    · exact h.used r

theorem inv_leave {max : Nat} {s : State} (h : Inv max s) (i : Nat) :
    Inv max { tasks := s.tasks.filter (·.id ≠ i), taken := s.taken.filter (·.1 ≠ i),
              waiting := fun p => (s.waiting p).filter (· ≠ i) } where
  nodup := nodup_map_filter h.nodup _
  ok := by
    intro u hu
    obtain ⟨hm, hne⟩ := List.mem_filter.mp hu
    have hne : u.id ≠ i := by simpa using hne
    have ho := h.ok u hm
    rw [List.count_filter (by simpa using hne), List.count_filter (by simpa using hne)]
    exact ho
  owner := by
    intro x hx
    obtain ⟨hm, hne⟩ := List.mem_filter.mp hx
    obtain ⟨u, hu, e⟩ := List.mem_map.mp (h.owner x hm)
    exact List.mem_map.mpr ⟨u, List.mem_filter.mpr ⟨hu, by rw [← e] at hne; simpa using hne⟩, e⟩
  asks := by
    intro p j hj
    obtain ⟨hm, hne⟩ := List.mem_filter.mp hj
    obtain ⟨u, hu, e, a⟩ := h.asks p j hm
    exact ⟨u, List.mem_filter.mpr ⟨hu, by rw [← e] at hne; simpa using hne⟩, e, a⟩
  once := fun p => (h.once p).filter _
  used := fun p => Nat.le_trans (List.Sublist.countP_le List.filter_sublist) (h.used p)

theorem inv_step {max : Nat} {s s' : State} {e : Event} (h : Inv max s) (hs : step max s e = some s') : Inv max s' := by
  cases e with
  | call i c =>
    simp only [step] at hs
    split at hs
    · cases hs
    · cases hs; exact inv_call h c (by assumption)
  | run i =>
    simp only [step] at hs
    split at hs
    · cases hs
    · rename_i t hf
      obtain ⟨ht, rfl⟩ := find_task hf
      split at hs
      · cases hs; exact inv_end h ht (by assumption)
      · cases hs; exact inv_statement h ht (by assumption)
      · cases hs; exact inv_release h ht (by assumption)
      · split at hs
        · cases hs
        · cases hs; exact inv_ask h ht (by assumption) (by assumption)
  | grant p =>
    simp only [step] at hs
    split at hs
    · cases hs
    · split at hs
      · cases hs; exact inv_grant h (by assumption) (by assumption)
      · cases hs
  | leave i => cases hs; exact inv_leave h i

theorem inv_run {max : Nat} {es : List Event} {s s' : State} (h : Inv max s) (hs : run max s es = some s') : Inv max s' := by
  induction es generalizing s with
  | nil => cases hs; exact h
  | cons e es ih =>
    simp only [run, Option.bind_eq_some_iff] at hs
    obtain ⟨s1, h1, h2⟩ := hs
    exact ih (inv_step h h1) h2

theorem Reachable.inv {max : Nat} {s : State} (h : Reachable max s) : Inv max s := by
  obtain ⟨es, h⟩ := h
  exact inv_run (inv_init max) h

/-! ## How many steps are left -/

theorem sum_le {l : List Task} {f g : Task → Nat} (h : ∀ t ∈ l, f t ≤ g t) : (l.map f).sum ≤ (l.map g).sum := by
  induction l with
  | nil => simp
  | cons x l ih =>
    simp only [List.map_cons, List.sum_cons]
    have := h x List.mem_cons_self
    have := ih fun t ht => h t (List.mem_cons_of_mem _ ht)
    omega

theorem sum_lt {l : List Task} {f g : Task → Nat} (h : ∀ t ∈ l, f t ≤ g t) {u : Task} (hu : u ∈ l) (hlt : f u < g u) :
    (l.map f).sum < (l.map g).sum := by
  induction l with
  | nil => cases hu
  | cons x l ih =>
    simp only [List.map_cons, List.sum_cons]
    have h1 := h x List.mem_cons_self
    have h2 := sum_le fun t ht => h t (List.mem_cons_of_mem _ ht)
    rcases List.mem_cons.mp hu with rfl | hu
    · omega
    · have := ih (fun t ht => h t (List.mem_cons_of_mem _ ht)) hu
      omega

theorem sum_filter (l : List Task) (p : Task → Bool) (f : Task → Nat) :
    ((l.filter p).map f).sum = (l.map fun t => if p t then f t else 0).sum := by
  induction l with
  | nil => simp
  | cons x l ih =>
    simp only [List.filter_cons]
    split <;> simp_all

/-- The steps left, counted for the tasks for which `b` says so. -/
def left (s : State) (b : Nat → Bool) : Nat := (s.tasks.map fun t => if b t.id then s.steps t else 0).sum

theorem steps_pos {max : Nat} {s : State} (h : Inv max s) {t : Task} (ht : t ∈ s.tasks) : 0 < s.steps t := by
  simp only [State.steps]
  split
  · rename_i hw
    rcases hw with hw | hw
    all_goals
      obtain ⟨u, hu, e, a, ha⟩ := h.asks _ _ hw
      rw [h.same hu ht e] at ha
      simp only [ha, List.map_cons, List.sum_cons, Act.steps]
      omega
  · omega

theorem mem_ahead_append {q : List Nat} {i j : Nat} (hi : i ∈ q) : (q ++ [j]).takeWhile (· ≠ i) = q.takeWhile (· ≠ i) := by
  induction q with
  | nil => cases hi
  | cons x q ih =>
    simp only [List.cons_append, List.takeWhile_cons]
    split
    · rename_i hx
      rw [ih]
      simp only [ne_eq, decide_not, Bool.not_eq_true', decide_eq_false_iff_not] at hx
      rcases List.mem_cons.mp hi with h | h
      · exact absurd h.symm hx
      · exact h
    · rfl

theorem ahead_filter {q : List Nat} {i j x : Nat} (hx : x ∈ (q.filter (· ≠ j)).takeWhile (· ≠ i)) (hij : i ≠ j) :
    x ∈ q.takeWhile (· ≠ i) := by
  induction q with
  | nil => cases hx
  | cons y q ih =>
    simp only [List.filter_cons] at hx
    simp only [List.takeWhile_cons]
    by_cases hy : y = i
    · subst hy
      simp [hij] at hx
    · by_cases hj : y = j
      · simp only [hj, ne_eq, not_true, decide_false, Bool.false_eq_true, if_false] at hx
        simp only [ne_eq, hy, not_false_eq_true, decide_true, if_true]
        exact List.mem_cons_of_mem _ (ih hx)
      · simp only [ne_eq, hj, not_false_eq_true, decide_true, if_true, List.takeWhile_cons, hy] at hx ⊢
        rcases List.mem_cons.mp hx with rfl | hx
        · exact List.mem_cons_self
        · exact List.mem_cons_of_mem _ (ih hx)

/-- The task that takes a step in an event. -/
def actor (s : State) : Event → Option Nat
  | .run i => some i
  | .grant p => (s.waiting p).head?
  | _ => none

/-- One if the task that takes the step is one of those that count. -/
def taken (b : Nat → Bool) : Option Nat → Nat
  | some j => if b j then 1 else 0
  | none => 0

/-- The tasks go on as tasks, `j` with fewer steps left. -/
theorem left_map {max : Nat} {s s' : State} {b b' : Nat → Bool} (h : Inv max s) {j : Nat} {g : Task → Task}
    (ht : s'.tasks = s.tasks.map g) (hid : ∀ t, (g t).id = t.id) (hb : ∀ i ∈ s.tasks.map (·.id), b' i = true → b i = true)
    (hj : j ∈ s.tasks.map (·.id)) (hle : ∀ t ∈ s.tasks, s'.steps (g t) ≤ s.steps t)
    (hlt : ∀ t ∈ s.tasks, t.id = j → s'.steps (g t) < s.steps t) : left s' b' + taken b (some j) ≤ left s b := by
  have pw : ∀ t ∈ s.tasks, (if b' t.id then s'.steps (g t) else 0) ≤ (if b t.id then s.steps t else 0) := by
    intro t hm
    have := hb t.id (List.mem_map_of_mem hm)
    have := hle t hm
    split
    · rename_i h1
      rw [hb t.id (List.mem_map_of_mem hm) h1]
      simpa using this
    · exact Nat.zero_le _
  have e : left s' b' = (s.tasks.map fun t => if b' t.id then s'.steps (g t) else 0).sum := by
    rw [left, ht, List.map_map]
    congr 1
    apply List.map_congr_left
    intro t _
    simp only [Function.comp, hid]
  rw [e, left, taken]
  split
  · rename_i hbj
    obtain ⟨u, hu, rfl⟩ := List.mem_map.mp hj
    refine sum_lt pw hu ?_
    rw [if_pos hbj]
    split
    · exact hlt u hu rfl
    · exact steps_pos h hu
  · exact sum_le pw

theorem left_filter {max : Nat} {s s' : State} {b b' : Nat → Bool} (h : Inv max s) {j : Nat}
    (ht : s'.tasks = s.tasks.filter (·.id ≠ j)) (hb : ∀ i ∈ s.tasks.map (·.id), b' i = true → b i = true)
    (hle : ∀ t ∈ s.tasks, t.id ≠ j → s'.steps t ≤ s.steps t) :
    left s' b' + (if j ∈ s.tasks.map (·.id) then taken b (some j) else 0) ≤ left s b := by
  have pw : ∀ t ∈ s.tasks, (if decide (t.id ≠ j) = true then if b' t.id then s'.steps t else 0 else 0) ≤
      (if b t.id then s.steps t else 0) := by
    intro t hm
    split
    · rename_i hne
      split
      · rename_i h1
        rw [hb t.id (List.mem_map_of_mem hm) h1]
        simpa using hle t hm (by simpa using hne)
      · exact Nat.zero_le _
    · exact Nat.zero_le _
  have e : left s' b' = (s.tasks.map fun t => if decide (t.id ≠ j) = true then if b' t.id then s'.steps t else 0 else 0).sum := by
    rw [left, ht, sum_filter]
  rw [e, left]
  split
  · rename_i hj
    rw [taken]
    split
    · rename_i hbj
      obtain ⟨u, hu, rfl⟩ := List.mem_map.mp hj
      refine sum_lt pw hu ?_
      rw [if_pos hbj]
      simpa using steps_pos h hu
    · exact sum_le pw
  · exact sum_le pw

theorem steps_eq {s s' : State} {t : Task} (hw : ∀ p, t.id ∈ s'.waiting p ↔ t.id ∈ s.waiting p) : s'.steps t = s.steps t := by
  simp only [State.steps, hw]

/-- In an event no task gets more steps to do, and the one that takes a step gets less. -/
theorem left_step {max : Nat} {s s' : State} {e : Event} {b b' : Nat → Bool} (h : Inv max s) (hs : step max s e = some s')
    (hb : ∀ i ∈ s.tasks.map (·.id), b' i = true → b i = true) (hnew : ∀ i c, e = .call i c → b' i = false) :
    left s' b' + taken b (actor s e) ≤ left s b := by
  cases e with
  | call i c =>
    simp only [step] at hs
    split at hs
    · cases hs
    · cases hs
      simp only [left, List.map_append, List.sum_append, List.map_cons, List.map_nil, hnew i c rfl, actor, taken]
      simp only [Bool.false_eq_true, if_false, List.sum_cons, List.sum_nil, Nat.add_zero]
      apply sum_le
      intro t ht
      split
      · rename_i h1
        rw [hb t.id (List.mem_map_of_mem ht) h1]
        exact Nat.le_refl _
      · exact Nat.zero_le _
  | run i =>
    simp only [step] at hs
    split at hs
    · cases hs
    · rename_i t hf
      obtain ⟨ht, rfl⟩ := find_task hf
      have hj : t.id ∈ s.tasks.map (·.id) := List.mem_map_of_mem ht
      split at hs
      · cases hs
        have := left_filter (s' := { s with tasks := s.tasks.filter (·.id ≠ t.id) }) (b := b) (b' := b') h (j := t.id) rfl hb
          (fun u _ _ => Nat.le_refl _)
        rwa [if_pos hj] at this
      · rename_i a hd
        cases hs
        have hnw : ∀ p, t.id ∉ s.waiting p := fun p => not_waiting h ht (by rw [hd]; intro a h; cases h)
        refine left_map h (g := fun u => if u.id = t.id then { u with todo := u.todo.tail } else u) rfl ?_ hb hj ?_ ?_
        · intro u; split <;> rfl
        · intro u hu
          split
          · rename_i e
            rw [h.same hu ht e]
            simp [State.steps, State.advance, hnw, hd, Act.steps]
          · exact Nat.le_refl _
        · intro u hu e
          rw [h.same hu ht e]
          simp [State.steps, State.advance, hnw, hd, Act.steps]
      · rename_i p a hd
        cases hs
        have hnw : ∀ p, t.id ∉ s.waiting p := fun p => not_waiting h ht (by rw [hd]; intro a h; cases h)
        refine left_map h (g := fun u => if u.id = t.id then { u with todo := u.todo.tail } else u) rfl ?_ hb hj ?_ ?_
        · intro u; split <;> rfl
        · intro u hu
          split
          · rename_i e
            rw [h.same hu ht e]
            simp [State.steps, State.advance, hnw, hd, Act.steps]
          · exact Nat.le_refl _
        · intro u hu e
          rw [h.same hu ht e]
          simp [State.steps, State.advance, hnw, hd, Act.steps]
      · rename_i p a hd
        split at hs
        · cases hs
        · rename_i hn
          cases hs
          have hnw : ∀ q, t.id ∉ s.waiting q := by
            intro q hq
            obtain ⟨u, hu, e, a', ha⟩ := h.asks q _ hq
            rw [h.same hu ht e, hd] at ha
            cases ha
            exact hn hq
          have hsub : ∀ u : Task, (s.setWaiting p (s.waiting p ++ [t.id])).steps u ≤ s.steps u := by
            intro u
            simp only [State.steps]
            refine Nat.sub_le_sub_left ?_ _
            split
            · rename_i hu
              rw [if_pos]
              · exact Nat.le_refl _
              · simp only [State.setWaiting]
                rcases hu with hu | hu
                · left; split
                  · rename_i e; rw [← e]; exact List.mem_append_left _ hu
                  · exact hu
                · right; split
                  · rename_i e; rw [← e]; exact List.mem_append_left _ hu
                  · exact hu
            · exact Nat.zero_le _
          refine left_map h (g := id) (by simp [State.setWaiting]) (fun _ => rfl) hb hj (fun u _ => hsub u) ?_
          intro u hu e
          rw [h.same hu ht e]
          cases p <;> simp [State.steps, State.setWaiting, hnw]
  | grant p =>
    simp only [step] at hs
    split at hs
    · cases hs
    · rename_i i q hw
      split at hs
      · cases hs
        simp only [actor, hw, List.head?_cons]
        obtain ⟨t, ht, rfl, a, hd⟩ := h.asks p i (by rw [hw]; exact List.mem_cons_self)
        have hnd := h.once p
        rw [hw, List.nodup_cons] at hnd
        have hnw : ∀ r, r ≠ p → t.id ∉ s.waiting r := by
          intro r hr hq
          obtain ⟨u, hu, e, a', ha⟩ := h.asks r _ hq
          rw [h.same hu ht e, hd] at ha
          cases ha
          exact hr rfl
        have hin : t.id ∈ s.waiting .reader ∨ t.id ∈ s.waiting .writer := by
          cases p
          · left; rw [hw]; exact List.mem_cons_self
          · right; rw [hw]; exact List.mem_cons_self
        have hout : ∀ r, t.id ∉ (if r = p then q else s.waiting r) := by
          intro r
          split
          · exact hnd.1
          · rename_i e; exact hnw r e
        have heq : ∀ u ∈ s.tasks, u.id ≠ t.id → ∀ r, (u.id ∈ (if r = p then q else s.waiting r) ↔ u.id ∈ s.waiting r) := by
          intro u _ hne r
          split
          · rename_i e; subst e; rw [hw]; simp [hne]
          · rfl
        refine left_map h (g := fun u => if u.id = t.id then { u with todo := u.todo.tail } else u) rfl ?_ hb
          (List.mem_map_of_mem ht) ?_ ?_
        · intro u; split <;> rfl
        · intro u hu
          split
          · rename_i e
            rw [h.same hu ht e]
            simp [State.steps, State.advance, State.setWaiting, hin, hout, hd, Act.steps]
            omega
          · rename_i e
            apply Nat.le_of_eq
            apply steps_eq
            intro r
            exact heq u hu e r
        · intro u hu e
          rw [h.same hu ht e]
          simp [State.steps, State.advance, State.setWaiting, hin, hout, hd, Act.steps]
          omega
      · cases hs
  | leave i =>
    cases hs
    have := left_filter (s' := { tasks := s.tasks.filter (·.id ≠ i), taken := s.taken.filter (·.1 ≠ i),
                                 waiting := fun p => (s.waiting p).filter (· ≠ i) }) (b := b) (b' := b') h (j := i) rfl hb
      (fun u _ hne => Nat.le_of_eq (steps_eq (by intro p; simp [List.mem_filter, hne])))
    simp only [actor, taken, Nat.add_zero] at this ⊢
    omega

/-- Is the task one of those that keep `i` waiting? -/
def blocks (s : State) (p : Pool) (i : Nat) (j : Nat) : Bool :=
  (j, p) ∈ s.taken ∨ j ∈ (s.waiting p).takeWhile (· ≠ i)

theorem left_blocks (s : State) (p : Pool) (i : Nat) : left s (blocks s p i) = ((s.before p i).map s.steps).sum := by
  rw [State.before, sum_filter]
  rfl

/-- While `i` waits nobody gets in its way who was not before. -/
theorem blocks_step {max : Nat} {s s' : State} {e : Event} {p : Pool} {i : Nat} (h : Inv max s) (hs : step max s e = some s')
    (hi : i ∈ s.waiting p) (hi' : i ∈ s'.waiting p) (j : Nat) (hj : blocks s' p i j = true) : blocks s p i j = true := by
  simp only [blocks, decide_eq_true_eq] at hj ⊢
  cases e with
  | call k c =>
    simp only [step] at hs
    split at hs
    · cases hs
    · cases hs; exact hj
  | run k =>
    simp only [step] at hs
    split at hs
    · cases hs
    · rename_i t hf
      obtain ⟨ht, rfl⟩ := find_task hf
      split at hs
      · cases hs; exact hj
      · cases hs; exact hj
      · cases hs
        rcases hj with hj | hj
        · exact .inl (List.mem_of_mem_erase hj)
        · exact .inr hj
      · split at hs
        · cases hs
        · cases hs
          rcases hj with hj | hj
          · exact .inl hj
          · right
            simp only [State.setWaiting] at hj
            split at hj
            · rename_i e
              subst e
              rwa [mem_ahead_append hi] at hj
            · exact hj
  | grant q =>
    simp only [step] at hs
    split at hs
    · cases hs
    · rename_i k w hw
      split at hs
      · cases hs
        simp only [State.setWaiting] at hj hi'
        have ahead : j ∈ (if p = q then w else s.waiting p).takeWhile (· ≠ i) → j ∈ (s.waiting p).takeWhile (· ≠ i) := by
          intro hm
          split at hm
          · rename_i e
            subst e
            rw [if_pos rfl] at hi'
            have hnd := h.once p
            rw [hw, List.nodup_cons] at hnd
            rw [hw, List.takeWhile_cons, if_pos]
            · exact List.mem_cons_of_mem _ hm
            · simp only [ne_eq, decide_not, Bool.not_eq_true', decide_eq_false_iff_not]
              rintro rfl
              exact hnd.1 hi'
          · exact hm
        rcases hj with hj | hj
        · rcases List.mem_cons.mp hj with hj | hj
          · simp only [Prod.mk.injEq] at hj
            obtain ⟨rfl, rfl⟩ := hj
            right
            rw [if_pos rfl] at hi'
            have hnd := h.once p
            rw [hw, List.nodup_cons] at hnd
            rw [hw, List.takeWhile_cons, if_pos]
            · exact List.mem_cons_self
            · simp only [ne_eq, decide_not, Bool.not_eq_true', decide_eq_false_iff_not]
              rintro rfl
              exact hnd.1 hi'
          · exact .inl hj
        · exact .inr (ahead hj)
      · cases hs
  | leave k =>
    cases hs
    rcases hj with hj | hj
    · exact .inl (List.mem_filter.mp hj).1
    · right
      refine ahead_filter hj ?_
      simpa using (List.mem_filter.mp hi').2

theorem moves_bounded {max : Nat} {p : Pool} {i : Nat} : ∀ (es : List Event) (s : State), Inv max s →
    waitsDuring max p i s es → movesIn max p s es ≤ left s (blocks s p i) := by
  intro es
  induction es with
  | nil => intro s _ _; exact Nat.zero_le _
  | cons e es ih =>
    intro s h hw
    simp only [movesIn]
    obtain ⟨hi, hw⟩ := hw
    -- the task of a move is one of those that keep `i` waiting
    have mv : (step max s e).isSome → (∀ s', step max s e = some s' → i ∈ s'.waiting p) →
        (if moves p s e then 1 else 0) ≤ taken (blocks s p i) (actor s e) := by
      intro hsome hstill
      split
      · rename_i hm
        cases e with
        | grant q =>
          simp only [moves, decide_eq_true_eq] at hm
          subst hm
          obtain ⟨s', hs⟩ := Option.isSome_iff_exists.mp hsome
          have hi' := hstill s' hs
          simp only [step] at hs
          split at hs
          · cases hs
          · rename_i k w hk
            split at hs
            · cases hs
              simp only [State.setWaiting, if_pos] at hi'
              have hnd := h.once q
              rw [hk, List.nodup_cons] at hnd
              have : k ≠ i := by rintro rfl; exact hnd.1 hi'
              simp [actor, taken, hk, blocks, this]
            · cases hs
        | run j =>
          simp only [moves, decide_eq_true_eq] at hm
          simp [actor, taken, blocks, hm]
        | call _ _ => cases hm
        | leave _ => cases hm
      · exact Nat.zero_le _
    cases hs : step max s e with
    | none => exact Nat.zero_le _
    | some s' =>
      have hw' := hw s' hs
      have hi' : i ∈ s'.waiting p := by cases es <;> first | exact hw' | exact hw'.1
      simp only
      have h1 := mv (by simp [hs]) (by intro s2 h2; rw [hs] at h2; cases h2; exact hi')
      have h2 := left_step (b := blocks s p i) (b' := blocks s' p i) h hs (fun j _ hj => blocks_step h hs hi hi' j hj) (by
        intro k c e
        subst e
        simp only [step] at hs
        split at hs
        · cases hs
        · rename_i hk
          cases hs
          simp only [blocks, decide_eq_false_iff_not, not_or]
          constructor
          · intro hm; exact hk (h.owner _ hm)
          · intro hm
            obtain ⟨t, ht, e, -⟩ := h.asks p k ((List.takeWhile_sublist _).subset hm)
            exact hk (e ▸ List.mem_map_of_mem ht))
      have h3 := ih s' (inv_step h hs) hw'
      omega

/-! ## Somebody can always go on -/

/-- A task that does not wait can take a step. -/
theorem can_run {max : Nat} {s : State} (h : Inv max s) {t : Task} (ht : t ∈ s.tasks)
    (hn : ∀ p a, t.todo = .acquire p :: a → t.id ∉ s.waiting p) : (step max s (.run t.id)).isSome := by
  have hf : s.tasks.find? (·.id = t.id) = some t := by
    have := find?_key_of_mem (key := Task.id) h.nodup ht
    rw [← this]
    congr 1
  simp only [step, hf]
  split
  · rfl
  · rfl
  · rfl
  · rename_i p a hd
    rw [if_neg (hn p a hd)]
    rfl

theorem can_grant {max : Nat} {s : State} {p : Pool} {i : Nat} (hi : i ∈ s.waiting p) (hu : s.used p < p.size max) :
    (step max s (.grant p)).isSome := by
  simp only [step]
  split
  · rename_i h; rw [h] at hi; cases hi
  · rw [if_pos hu]; rfl

theorem mem_taken_count {s : State} {i : Nat} {p : Pool} (h : (i, p) ∈ s.taken) : 0 < s.taken.count (i, p) :=
  List.count_pos_iff.mpr h

/-- Who has the connection for writing does not wait. -/
theorem writer_runs {max : Nat} {s : State} (h : Inv max s) {t : Task} (ht : t ∈ s.tasks) (hw : (t.id, .writer) ∈ s.taken) :
    (step max s (.run t.id)).isSome := by
  refine can_run h ht ?_
  intro p a hd hp
  have ho := h.ok t ht
  rw [hd] at ho
  have := mem_taken_count hw
  cases p with
  | reader => have := ho.1; omega
  | writer => have := ho.1; omega

/-- If all who have a reader's connection wait, there are as many fetches as connections taken. -/
theorem all_wait {max : Nat} {s : State} (h : Inv max s)
    (hall : ∀ t ∈ s.tasks, (t.id, .reader) ∈ s.taken → ∃ p a, t.todo = .acquire p :: a) : s.used .reader ≤ s.fetches := by
  have key : ∀ t ∈ s.tasks, (t.id, Pool.reader) ∈ s.taken → t.call.isFetch = true ∧ s.taken.count (t.id, .reader) = 1 := by
    intro t ht hm
    obtain ⟨p, a, hd⟩ := hall t ht hm
    have ho := h.ok t ht
    rw [hd] at ho
    have := mem_taken_count hm
    cases p with
    | reader =>
      rcases ho.2.1 with e | e
      · omega
      · exact e
    | writer => have := ho.2.1; omega
  have e1 : s.used .reader = ((s.taken.filter (·.2 = .reader)).map (·.1)).length := by
    rw [State.used, List.countP_eq_length_filter, List.length_map]
  have e2 : s.fetches = ((s.tasks.filter (·.call.isFetch)).map (·.id)).length := by
    rw [State.fetches, List.countP_eq_length_filter, List.length_map]
  rw [e1, e2]
  apply length_le_of_nodup_subset
  · rw [List.nodup_iff_count]
    intro i
    by_cases hi : (i, Pool.reader) ∈ s.taken
    · obtain ⟨t, ht, e⟩ := List.mem_map.mp (h.owner _ hi)
      simp only at e
      subst e
      have := (key t ht hi).2
      rw [List.count_eq_countP, List.countP_map, List.countP_filter] 
      rw [List.count_eq_countP] at this
      refine Nat.le_of_eq ?_
      rw [← this]
      apply List.countP_congr
      intro x _
      obtain ⟨a, b⟩ := x
      simp
    · rw [List.count_eq_zero.mpr]
      · exact Nat.zero_le _
      · intro hm
        obtain ⟨x, hx, e⟩ := List.mem_map.mp hm
        obtain ⟨hx, hp⟩ := List.mem_filter.mp hx
        obtain ⟨a, b⟩ := x
        simp only [decide_eq_true_eq] at hp e
        subst hp e
        exact hi hx
  · intro i hi
    obtain ⟨x, hx, e⟩ := List.mem_map.mp hi
    obtain ⟨hx, hp⟩ := List.mem_filter.mp hx
    obtain ⟨a, b⟩ := x
    simp only [decide_eq_true_eq] at hp e
    subst hp e
    obtain ⟨t, ht, e⟩ := List.mem_map.mp (h.owner _ hx)
    simp only at e
    subst e
    exact List.mem_map_of_mem (List.mem_filter.mpr ⟨ht, (key t ht hx).1⟩)

/-- While somebody waits for a connection something goes on with those of the pool. -/
theorem goes_on {max : Nat} {s : State} (h : Inv max s) {p : Pool} {i : Nat} (hi : i ∈ s.waiting p)
    (hp : p = .reader → s.fetches < max) : ∃ e, moves p s e = true ∧ (step max s e).isSome := by
  by_cases hu : s.used p < p.size max
  · exact ⟨.grant p, by simp [moves], can_grant hi hu⟩
  · cases p with
    | writer =>
      simp only [Pool.size] at hu
      have : 0 < s.used .writer := by omega
      obtain ⟨x, hx, hx2⟩ := List.countP_pos_iff.mp this
      obtain ⟨j, q⟩ := x
      simp only [decide_eq_true_eq] at hx2
      subst hx2
      obtain ⟨t, ht, e⟩ := List.mem_map.mp (h.owner _ hx)
      simp only at e
      subst e
      exact ⟨.run t.id, by simpa [moves] using hx, writer_runs h ht hx⟩
    | reader =>
      simp only [Pool.size] at hu
      by_cases hall : ∀ t ∈ s.tasks, (t.id, Pool.reader) ∈ s.taken → ∃ p a, t.todo = .acquire p :: a ∧ t.id ∈ s.waiting p
      · have := all_wait h (fun t ht hm => by obtain ⟨p, a, hd, -⟩ := hall t ht hm; exact ⟨p, a, hd⟩)
        have := hp rfl
        omega
      · simp only [Classical.not_forall] at hall
        obtain ⟨t, ht, hm, hne⟩ := hall
        refine ⟨.run t.id, by simpa [moves] using hm, can_run h ht ?_⟩
        intro p a hd hw
        exact hne ⟨p, a, hd, hw⟩

/-! ## Everybody finishes -/

theorem own_step {max : Nat} {s s' : State} {e : Event} (h : Inv max s) (hs : step max s e = some s') (ho : e.own = true) :
    (s'.tasks.map s'.steps).sum < (s.tasks.map s.steps).sum := by
  have := left_step (b := fun _ => true) (b' := fun _ => true) h hs (fun _ _ _ => rfl) (by
    intro i c e'; subst e'; cases ho)
  have ha : taken (fun _ => true) (actor s e) = 1 := by
    cases e with
    | run i => rfl
    | grant p =>
      simp only [step] at hs
      split at hs
      · cases hs
      · rename_i hw
        simp [actor, taken, hw]
    | call _ _ => cases ho
    | leave _ => cases ho
  simp only [left, ha, if_true] at this
  exact this

theorem own_fetches {max : Nat} {s s' : State} {e : Event} (hs : step max s e = some s') (ho : e.own = true) :
    s'.fetches ≤ s.fetches := by
  have adv : ∀ i, (s.advance i).fetches = s.fetches := by
    intro i
    simp only [State.fetches, State.advance, List.countP_map]
    apply List.countP_congr
    intro t _
    simp only [Function.comp]
    split <;> rfl
  cases e with
  | call _ _ => cases ho
  | leave _ => cases ho
  | run i =>
    simp only [step] at hs
    split at hs
    · cases hs
    · split at hs
      · cases hs; exact List.Sublist.countP_le List.filter_sublist
      · cases hs; exact Nat.le_of_eq (adv i)
      · cases hs; exact Nat.le_of_eq (adv i)
      · split at hs
        · cases hs
        · cases hs; exact Nat.le_refl _
  | grant p =>
    simp only [step] at hs
    split at hs
    · cases hs
    · split at hs
      · cases hs; exact Nat.le_of_eq (adv _)
      · cases hs

theorem own_run {max : Nat} : ∀ (es : List Event) (s s' : State), Inv max s → run max s es = some s' →
    (∀ e ∈ es, e.own = true) → es.length + (s'.tasks.map s'.steps).sum ≤ (s.tasks.map s.steps).sum ∧ s'.fetches ≤ s.fetches := by
  intro es
  induction es with
  | nil => intro s s' _ h _; cases h; simp
  | cons e es ih =>
    intro s s' h hr ho
    simp only [run, Option.bind_eq_some_iff] at hr
    obtain ⟨s1, h1, h2⟩ := hr
    have a := own_step h h1 (ho e List.mem_cons_self)
    have b := own_fetches h1 (ho e List.mem_cons_self)
    have c := ih s1 s' (inv_step h h1) h2 (fun e he => ho e (List.mem_cons_of_mem _ he))
    simp only [List.length_cons]
    omega

theorem nobody_left {max : Nat} {s : State} (h : Inv max s) (hf : s.fetches < max)
    (hn : ∀ e : Event, e.own = true → step max s e = none) : s.tasks = [] := by
  match hts : s.tasks with
  | [] => rfl
  | t :: ts =>
    exfalso
    have ht : t ∈ s.tasks := by rw [hts]; exact List.mem_cons_self
    by_cases hw : ∀ p a, t.todo = .acquire p :: a → t.id ∉ s.waiting p
    · have := can_run h ht hw
      rw [hn _ rfl] at this
      cases this
    · simp only [Classical.not_forall, Classical.not_not] at hw
      obtain ⟨p, a, -, hw⟩ := hw
      obtain ⟨e, hm, he⟩ := goes_on h hw (fun _ => hf)
      rw [hn e] at he
      · cases he
      · cases e <;> first | rfl | cases hm

/-! ## Fetches that wait for each other -/

/-- All connections for reading are taken by tasks that wait for one. -/
structure Stuck (max : Nat) (s : State) : Prop where
  full : s.used .reader = max
  wait : ∀ i, (i, .reader) ∈ s.taken → i ∈ s.waiting .reader

theorem stuck_step {max : Nat} {s s' : State} {e : Event} (h : Inv max s) (hk : Stuck max s) (hs : step max s e = some s')
    (hl : ∀ i, e ≠ .leave i) : Stuck max s' ∧ ∀ i ∈ s.waiting .reader, i ∈ s'.waiting .reader := by
  cases e with
  | leave i => exact absurd rfl (hl i)
  | call i c =>
    simp only [step] at hs
    split at hs
    · cases hs
    · cases hs; exact ⟨⟨hk.full, hk.wait⟩, fun _ h => h⟩
  | run i =>
    simp only [step] at hs
    split at hs
    · cases hs
    · rename_i t hf
      obtain ⟨ht, rfl⟩ := find_task hf
      split at hs
      · cases hs; exact ⟨⟨hk.full, hk.wait⟩, fun _ h => h⟩
      · cases hs; exact ⟨⟨hk.full, hk.wait⟩, fun _ h => h⟩
      · rename_i p a hd
        cases hs
        have hnw := not_waiting h ht (p := .reader) (by rw [hd]; intro a h; cases h)
        refine ⟨⟨?_, fun i hi => hk.wait i (List.mem_of_mem_erase hi)⟩, fun _ h => h⟩
        rw [← hk.full]
        simp only [State.used]
        cases p with
        | reader =>
          rw [List.erase_of_not_mem]
          intro hm
          exact hnw (hk.wait _ hm)
        | writer =>
          simp only [List.countP_eq_length_filter]
          rw [← List.erase_filter, List.erase_of_not_mem]
          simp [List.mem_filter]
      · rename_i p a hd
        split at hs
        · cases hs
        · cases hs
          have sub : ∀ i ∈ s.waiting .reader, i ∈ (s.setWaiting p (s.waiting p ++ [t.id])).waiting .reader := by
            intro i hi
            simp only [State.setWaiting]
            split
            · rename_i e; rw [← e]; exact List.mem_append_left _ hi
            · exact hi
          exact ⟨⟨hk.full, fun i hi => sub i (hk.wait i hi)⟩, sub⟩
  | grant p =>
    simp only [step] at hs
    split at hs
    · cases hs
    · rename_i i q hw
      split at hs
      · rename_i hu
        cases hs
        cases p with
        | reader => simp only [Pool.size, hk.full, Nat.lt_irrefl] at hu
        | writer =>
          refine ⟨⟨?_, ?_⟩, ?_⟩
          · rw [← hk.full]
            simp [State.used]
          · intro j hj
            simp only [List.mem_cons, Prod.mk.injEq, reduceCtorEq, and_false, false_or] at hj
            exact hk.wait j hj
          · intro j hj
            exact hj
      · cases hs

theorem stuck_run {max : Nat} : ∀ (es : List Event) (s s' : State), Inv max s → Stuck max s → run max s es = some s' →
    (∀ i, .leave i ∉ es) → Stuck max s' ∧ ∀ i ∈ s.waiting .reader, i ∈ s'.waiting .reader := by
  intro es
  induction es with
  | nil => intro s s' _ hk h _; cases h; exact ⟨hk, fun _ h => h⟩
  | cons e es ih =>
    intro s s' h hk hr hl
    simp only [run, Option.bind_eq_some_iff] at hr
    obtain ⟨s1, h1, h2⟩ := hr
    obtain ⟨k1, w1⟩ := stuck_step h hk h1 (fun i e' => hl i (e' ▸ List.mem_cons_self))
    obtain ⟨k2, w2⟩ := ih s1 s' (inv_step h h1) k1 h2 (fun i hm => hl i (List.mem_cons_of_mem _ hm))
    exact ⟨k2, fun i hi => w2 i (w1 i hi)⟩

/-! ## In turn -/

/-- Who is not ahead of `i` now is not ahead of it later, and gets no connection before it. -/
theorem turn_step {max : Nat} {s s' : State} {e : Event} {p : Pool} {i j : Nat} (h : Inv max s)
    (hs : step max s e = some s') (hi : i ∈ s.waiting p) (hi' : i ∈ s'.waiting p)
    (hj : j ∉ (s.waiting p).takeWhile (· ≠ i)) :
    j ∉ (s'.waiting p).takeWhile (· ≠ i) ∧ s'.taken.count (j, p) ≤ s.taken.count (j, p) := by
  cases e with
  | call k c =>
    simp only [step] at hs
    split at hs
    · cases hs
    · cases hs; exact ⟨hj, Nat.le_refl _⟩
  | run k =>
    simp only [step] at hs
    split at hs
    · cases hs
    · split at hs
      · cases hs; exact ⟨hj, Nat.le_refl _⟩
      · cases hs; exact ⟨hj, Nat.le_refl _⟩
      · cases hs; exact ⟨hj, List.Sublist.count_le _ List.erase_sublist⟩
      · split at hs
        · cases hs
        · cases hs
          refine ⟨?_, Nat.le_refl _⟩
          simp only [State.setWaiting]
          split
          · rename_i e; subst e; rwa [mem_ahead_append hi]
          · exact hj
  | grant q =>
    simp only [step] at hs
    split at hs
    · cases hs
    · rename_i k w hw
      split at hs
      · cases hs
        simp only [State.setWaiting] at hi' ⊢
        by_cases e : p = q
        · subst e
          rw [if_pos rfl] at hi' ⊢
          have hnd := h.once p
          rw [hw, List.nodup_cons] at hnd
          have hki : k ≠ i := by rintro rfl; exact hnd.1 hi'
          rw [hw, List.takeWhile_cons, if_pos (by simpa using hki), List.mem_cons, not_or] at hj
          refine ⟨hj.2, ?_⟩
          rw [List.count_cons_of_ne]
          · exact Nat.le_refl _
          · simp only [ne_eq, Prod.mk.injEq, and_true]
            exact fun e => hj.1 e.symm
        · rw [if_neg e]
          refine ⟨hj, ?_⟩
          rw [List.count_cons_of_ne]
          · exact Nat.le_refl _
          · simp only [ne_eq, Prod.mk.injEq, not_and]
            exact fun _ e' => e e'.symm
      · cases hs
  | leave k =>
    cases hs
    refine ⟨fun hm => hj (ahead_filter hm (by simpa using (List.mem_filter.mp hi').2)), ?_⟩
    exact List.Sublist.count_le _ List.filter_sublist

theorem waits_head {max : Nat} {p : Pool} {i : Nat} {s : State} {es : List Event} (h : waitsDuring max p i s es) :
    i ∈ s.waiting p := by cases es <;> first | exact h | exact h.1

theorem turn_run {max : Nat} {p : Pool} {i j : Nat} : ∀ (es : List Event) (s s' : State), Inv max s →
    run max s es = some s' → waitsDuring max p i s es → j ∉ (s.waiting p).takeWhile (· ≠ i) →
    s'.taken.count (j, p) ≤ s.taken.count (j, p) := by
  intro es
  induction es with
  | nil => intro s s' _ h _ _; cases h; exact Nat.le_refl _
  | cons e es ih =>
    intro s s' h hr hw hj
    simp only [run, Option.bind_eq_some_iff] at hr
    obtain ⟨s1, h1, h2⟩ := hr
    obtain ⟨hi, hw⟩ := hw
    have hw1 := hw s1 h1
    obtain ⟨a, b⟩ := turn_step h h1 hi (waits_head hw1) hj
    exact Nat.le_trans (ih s1 s' (inv_step h h1) h2 hw1 a) b

/-! ## The fetches of as many consumers as there are connections -/

/-- A fetch that finds a chunk. -/
def aFetch : Call := .fetch [(0, true)] 0

/-- `n` of them have begun. -/
def begun (n : Nat) : State :=
  { tasks := (List.range n).map fun j => ⟨j, aFetch, join ++ [.release .reader]⟩
    taken := ((List.range n).map fun j => (j, .reader)).reverse }

theorem run_append (max : Nat) : ∀ (es es' : List Event) (s : State),
    run max s (es ++ es') = (run max s es).bind fun s => run max s es' := by
  intro es
  induction es with
  | nil => intro es' s; rfl
  | cons e es ih =>
    intro es' s
    simp only [List.cons_append, run]
    cases step max s e with
    | none => rfl
    | some s1 => simp only [Option.bind_some, ih]

theorem Reachable.more {max : Nat} {s s' : State} {es : List Event} (h : Reachable max s) (hr : run max s es = some s') :
    Reachable max s' := by
  obtain ⟨es0, h0⟩ := h
  exact ⟨es0 ++ es, by rw [run_append, h0]; exact hr⟩

theorem begun_used (n : Nat) : (begun n).used .reader = n := by
  have : ∀ x ∈ (begun n).taken, decide (x.2 = Pool.reader) = true := by
    intro x hx
    simp only [begun, List.mem_reverse, List.mem_map] at hx
    obtain ⟨_, _, rfl⟩ := hx
    rfl
  rw [State.used, List.countP_eq_length.mpr this]
  simp [begun]

theorem begun_ids (n : Nat) : (begun n).tasks.map (·.id) = List.range n := by
  simp [begun, Function.comp_def]

theorem begun_reachable (max : Nat) : ∀ n ≤ max, Reachable max (begun n) := by
  intro n
  induction n with
  | zero => intro _; exact ⟨[], rfl⟩
  | succ n ih =>
    intro hn
    refine (ih (by omega)).more (es := [.call n aFetch, .run n, .grant .reader]) ?_
    have hid := begun_ids n
    let t : Task := ⟨n, aFetch, aFetch.acts⟩
    let s1 : State := { begun n with tasks := (begun n).tasks ++ [t] }
    let s2 : State := s1.setWaiting .reader [n]
    have hfind : s1.tasks.find? (·.id = n) = some t := by
      simp only [s1]
      rw [List.find?_append, List.find?_eq_none.mpr]
      · simp [t]
      · intro u hu
        have : u.id ∈ List.range n := hid ▸ List.mem_map_of_mem hu
        rw [List.mem_range] at this
        simp
        omega
    have e1 : step max (begun n) (.call n aFetch) = some s1 := by
      simp only [step, hid]
      rw [if_neg (by simp)]
    have e2 : step max s1 (.run n) = some s2 := by
      simp only [step, hfind]
      rfl
    have hu : s2.used .reader < Pool.size max .reader := by
      have : s2.used .reader = n := begun_used n
      rw [this]
      exact hn
    have e3 : step max s2 (.grant .reader) = some { (s2.advance n).setWaiting .reader [] with taken := (n, .reader) :: s2.taken } := by
      have hw : s2.waiting .reader = [n] := rfl
      simp only [step, hw]
      rw [if_pos hu]
    simp only [run, e1, e2, e3, Option.bind_some]
    simp only [begun, State.advance, State.setWaiting, s2, s1, t, List.map_append, List.map_map, List.range_succ,
      List.reverse_append, List.map_cons, List.map_nil, List.reverse_cons, List.reverse_nil, List.nil_append,
      List.cons_append, if_true]
    congr 2
    · congr 1
      apply List.map_congr_left
      intro j hj
      rw [List.mem_range] at hj
      simp only [Function.comp]
      rw [if_neg (by omega)]
    · funext p
      cases p <;> rfl

/-- The first `k` of them have asked for the connection for the submission. -/
def asking (n k : Nat) : State := (begun n).setWaiting .reader (List.range k)

theorem asking_reachable (max n : Nat) (hn : n ≤ max) : ∀ k ≤ n, Reachable max (asking n k) := by
  intro k
  induction k with
  | zero =>
    intro _
    have : asking n 0 = begun n := by
      simp only [asking, State.setWaiting, begun, List.range_zero]
      congr 1
      funext p
      split <;> rfl
    rw [this]
    exact begun_reachable max n hn
  | succ k ih =>
    intro hk
    refine (ih (by omega)).more (es := [.run k]) ?_
    have hnd : (begun n).tasks.map (·.id) |>.Nodup := by rw [begun_ids]; exact List.nodup_range
    have hmem : (⟨k, aFetch, join ++ [.release .reader]⟩ : Task) ∈ (asking n k).tasks :=
      List.mem_map.mpr ⟨k, List.mem_range.mpr hk, rfl⟩
    have hf : (asking n k).tasks.find? (·.id = k) = some ⟨k, aFetch, join ++ [.release .reader]⟩ := by
      have := find?_key_of_mem (key := Task.id) hnd hmem
      rw [← this]
      rfl
    have hw : (asking n k).waiting .reader = List.range k := rfl
    simp only [run, step, hf, join, useConn, List.cons_append, hw]
    rw [if_neg (by simp), Option.bind_some]
    simp only [asking, State.setWaiting, List.range_succ]
    congr 2
    funext p
    cases p <;> rfl

/-- All of them have asked, and somebody asks for the status of a submission. -/
def blocked (n : Nat) : State :=
  { begun n with
    tasks := (begun n).tasks ++ [⟨n, .status 1, (Call.status 1).acts⟩]
    waiting := fun p => if p = .reader then List.range (n + 1) else [] }

theorem blocked_reachable (n : Nat) : Reachable n (blocked n) := by
  refine (asking_reachable n n (Nat.le_refl n) n (Nat.le_refl n)).more (es := [.call n (.status 1), .run n]) ?_
  have hid : (asking n n).tasks.map (·.id) = List.range n := begun_ids n
  let t : Task := ⟨n, .status 1, (Call.status 1).acts⟩
  let s1 : State := { asking n n with tasks := (asking n n).tasks ++ [t] }
  have e1 : step n (asking n n) (.call n (.status 1)) = some s1 := by
    simp only [step, hid]
    rw [if_neg (by simp)]
  have hfind : s1.tasks.find? (·.id = n) = some t := by
    simp only [s1]
    rw [List.find?_append, List.find?_eq_none.mpr]
    · simp [t]
    · intro u hu
      have : u.id ∈ List.range n := hid ▸ List.mem_map_of_mem hu
      rw [List.mem_range] at this
      simp
      omega
  have e2 : step n s1 (.run n) = some (s1.setWaiting .reader (List.range n ++ [n])) := by
    have hw : s1.waiting .reader = List.range n := rfl
    simp only [step, hfind, t, Call.acts, useConn, hw]
    rw [if_neg (by simp)]
  simp only [run, e1, e2, Option.bind_some]
  simp only [State.setWaiting, s1, asking, blocked, List.range_succ]
  congr 2
  funext p
  cases p <;> rfl

theorem blocked_stuck (n : Nat) : Stuck n (blocked n) where
  full := begun_used n
  wait := by
    intro i hi
    simp only [blocked, begun, List.mem_reverse, List.mem_map, List.mem_range, Prod.mk.injEq, and_true, exists_eq_right] at hi
    simp only [blocked, if_true, List.mem_range]
    omega

end Opsqueue.Pools
