import Verif.Spec.Work
import Verif.Proofs.Invariant
import Verif.Proofs.Status

/-! The measure behind `C73`: what is left of the budgets of the chunks of a submission. -/

namespace Opsqueue
open SubmissionDb

/-! ### sums -/

theorem sum_filter_le {ρ : Type} (w : ρ → Nat) (p : ρ → Bool) (l : List ρ) :
    ((l.filter p).map w).sum ≤ (l.map w).sum := by
  induction l with
  | nil => simp
  | cons x xs ih =>
    simp only [List.filter_cons]
    split <;> simp only [List.map_cons, List.sum_cons] <;> omega

theorem sum_filter_drop {ρ : Type} (w : ρ → Nat) (p : ρ → Bool) {l : List ρ} {c : ρ} (hc : c ∈ l)
    (hp : p c = false) : ((l.filter p).map w).sum + w c ≤ (l.map w).sum := by
  induction l with
  | nil => simp at hc
  | cons x xs ih =>
    have h0 := sum_filter_le w p xs
    rcases List.mem_cons.1 hc with rfl | h
    · simp only [List.filter_cons, hp, Bool.false_eq_true, if_false, List.map_cons, List.sum_cons]
      omega
    · have := ih h
      simp only [List.filter_cons]
      split <;> simp only [List.map_cons, List.sum_cons] <;> omega

theorem sum_map_le {ρ : Type} (w : ρ → Nat) (g : ρ → ρ) (h : ∀ x, w (g x) ≤ w x) (l : List ρ) :
    ((l.map g).map w).sum ≤ (l.map w).sum := by
  induction l with
  | nil => simp
  | cons x xs ih =>
    have := h x
    simp only [List.map_cons, List.sum_cons]; omega

theorem sum_map_drop {ρ : Type} (w : ρ → Nat) (g : ρ → ρ) (h : ∀ x, w (g x) ≤ w x) {l : List ρ} {c : ρ}
    (hc : c ∈ l) (hd : w (g c) + 1 ≤ w c) : ((l.map g).map w).sum + 1 ≤ (l.map w).sum := by
  induction l with
  | nil => simp at hc
  | cons x xs ih =>
    have h0 := sum_map_le w g h xs
    rcases List.mem_cons.1 hc with rfl | h'
    · simp only [List.map_cons, List.sum_cons]; omega
    · have := ih h'
      have := h x
      simp only [List.map_cons, List.sum_cons]; omega

theorem le_sum_of_mem {ρ : Type} (w : ρ → Nat) {l : List ρ} {c : ρ} (hc : c ∈ l) : w c ≤ (l.map w).sum := by
  induction l with
  | nil => simp at hc
  | cons x xs ih =>
    rcases List.mem_cons.1 hc with rfl | h'
    · simp only [List.map_cons, List.sum_cons]; omega
    · have := ih h'
      simp only [List.map_cons, List.sum_cons]; omega

/-! ### the measure -/

/-- How many chunks the submission was inserted with. -/
def insertedChunks (id : SubmissionId) (ops : List Op) : Nat :=
  (ops.map fun
    | .insert a _ _ => if a.id = id then a.contents.length else 0
    | _ => 0).sum

/-- What is left of the budget of a chunk, if it belongs to the submission. -/
def left (M : Nat) (id : SubmissionId) (c : ChunkRow) : Nat :=
  if c.submissionId = id then M - c.retries else 0

/-- What is left of the budgets of the chunks of a submission. -/
def leftOf (M : Nat) (id : SubmissionId) (db : DB) : Nat := (db.chunks.map (left M id)).sum

/-- No chunk has used up its budget. -/
def InBudget (M : Nat) (db : DB) : Prop := ∀ c ∈ db.chunks, c.retries < M

theorem mem_mkChunks_retries {id : SubmissionId} {cs : List Content} {c : ChunkRow} (h : c ∈ mkChunks id cs) :
    c.submissionId = id ∧ c.retries = 0 := by
  simp only [mkChunks, List.mem_map] at h
  obtain ⟨x, _, rfl⟩ := h
  exact ⟨rfl, rfl⟩

theorem sum_const {ρ : Type} (w : ρ → Nat) (k : Nat) (l : List ρ) (h : ∀ x ∈ l, w x = k) :
    (l.map w).sum = l.length * k := by
  induction l with
  | nil => simp
  | cons x xs ih =>
    simp only [List.map_cons, List.sum_cons, List.length_cons]
    rw [ih fun y hy => h y (List.mem_cons_of_mem _ hy), h x List.mem_cons_self, Nat.add_mul, Nat.one_mul, Nat.add_comm]

theorem left_mkChunks (M : Nat) (id x : SubmissionId) (cs : List Content) :
    ((mkChunks x cs).map (left M id)).sum = (if x = id then cs.length else 0) * M := by
  by_cases h : x = id
  · subst h
    rw [sum_const _ M, if_pos rfl]
    · simp [mkChunks]
    · intro c hc
      obtain ⟨h1, h2⟩ := mem_mkChunks_retries hc
      simp [left, h1, h2]
  · rw [sum_const _ 0, if_neg h]
    · simp
    · intro c hc
      obtain ⟨h1, h2⟩ := mem_mkChunks_retries hc
      simp [left, h1, h]

theorem inBudget_effect {m : Nat} {db db' : DB} {op : Op} (hI : Inv db) (he : Effect db op db')
    (hb : ∀ cid f m' t1 t2 t3 o, op = .fail cid f m' t1 t2 t3 o → m' = m) (h : InBudget (max 1 m) db) :
    InBudget (max 1 m) db' := by
  have hins : ∀ a : InsertArgs, InBudget (max 1 m) (Eff.insert a db) := by
    intro a c hc
    rcases List.mem_append.1 hc with hc | hc
    · exact h c hc
    · rw [(mem_mkChunks_retries hc).2]; omega
  cases he with
  | none => exact h
  | insert a => exact hins a
  | insertEmpty a => exact hins a
  | complete c s => exact fun c hc => h c (List.mem_filter.1 hc).1
  | completeLast c s => exact fun c hc => h c (List.mem_filter.1 hc).1
  | retry c f m' t1 t2 t3 o hc hr =>
    have hm := hb _ _ _ _ _ _ _ rfl
    subst hm
    intro d hd
    simp only [Eff.bump, List.mem_map] at hd
    obtain ⟨e, he, rfl⟩ := hd
    have h1 := h e he
    split
    · rename_i hk
      have := eq_of_key_eq hI.chunkKeys he hc (by simpa using hk)
      subst this
      simp only; omega
    · exact h1
  | fail c s => exact fun c hc => h c (List.mem_filter.1 hc).1
  | cancel s => exact fun c hc => h c (List.mem_filter.1 hc).1
  | cleanup => exact h

theorem leftOf_effect {m : Nat} {db db' : DB} {op : Op} (he : Effect db op db') (h : InBudget (max 1 m) db)
    (id : SubmissionId) :
    (if op.reportsOn id = true ∧ db' ≠ db then 1 else 0) + leftOf (max 1 m) id db'
      ≤ leftOf (max 1 m) id db + insertedChunks id [op] * max 1 m := by
  have hins : ∀ (a : InsertArgs) (now : Time) (o : List Fault),
      leftOf (max 1 m) id (Eff.insert a db) =
        leftOf (max 1 m) id db + insertedChunks id [Op.insert a now o] * max 1 m := by
    intro a now o
    simp only [leftOf, Eff.insert, List.map_append, List.sum_append, left_mkChunks, insertedChunks, List.map_cons,
      List.map_nil, List.sum_cons, List.sum_nil, Nat.add_zero]
  have hpos : ∀ c ∈ db.chunks, c.submissionId = id → 1 ≤ left (max 1 m) id c := by
    intro c hc hid
    have := h c hc
    simp only [left, hid, if_true]; omega
  have hdrop : ∀ (p : ChunkRow → Bool) (c : ChunkRow), c ∈ db.chunks → p c = false →
      (if c.submissionId = id then 1 else 0) + ((db.chunks.filter p).map (left (max 1 m) id)).sum
        ≤ leftOf (max 1 m) id db := by
    intro p c hc hp
    have h1 := sum_filter_drop (left (max 1 m) id) p hc hp
    have h2 := hpos c hc
    simp only [leftOf]
    split
    · rename_i h3
      have := h2 h3
      omega
    · omega
  have hkey : ∀ (c : ChunkRow) (q : Prop) [Decidable ((c.key.submissionId == id) = true ∧ q)],
      (if (c.key.submissionId == id) = true ∧ q then 1 else 0) ≤ (if c.submissionId = id then 1 else 0) := by
    intro c q _
    by_cases h1 : c.submissionId = id
    · rw [if_pos h1]; split <;> omega
    · rw [if_neg (by simp [ChunkRow.key, h1])]; omega
  cases he with
  | none => simp
  | insert a now o => rw [hins a now o]; simp [Op.reportsOn]
  | insertEmpty a now o =>
    rw [← hins a now o]
    simp [Op.reportsOn, leftOf, Eff.finish]
  | complete c s out t1 t2 o hc hs hid hl =>
    have h1 := hdrop (fun r => !(r.key == c.key)) c hc (by simp)
    refine Nat.le_trans (Nat.add_le_add_right (hkey c _) _) ?_
    simp only [leftOf, Eff.completeRaw] at h1 ⊢
    omega
  | completeLast c s out t1 t2 o hc hs hid hl =>
    have h1 := hdrop (fun r => !(r.key == c.key)) c hc (by simp)
    refine Nat.le_trans (Nat.add_le_add_right (hkey c _) _) ?_
    simp only [leftOf, Eff.completeRaw, Eff.finish] at h1 ⊢
    omega
  | retry c f m' t1 t2 t3 o hc hr =>
    have hle : ∀ x : ChunkRow, left (max 1 m) id (if x.key == c.key then { x with retries := x.retries + 1 } else x) ≤
        left (max 1 m) id x := by
      intro x
      split
      · simp only [left]; split <;> omega
      · exact Nat.le_refl _
    refine Nat.le_trans (Nat.add_le_add_right (hkey c _) _) ?_
    simp only [leftOf, Eff.bump]
    by_cases h3 : c.submissionId = id
    · have := sum_map_drop (left (max 1 m) id) _ hle hc (by
        have := h c hc
        simp only [left, h3, beq_self_eq_true, if_true]; omega)
      rw [if_pos h3]
      omega
    · have := sum_map_le (left (max 1 m) id) _ hle db.chunks
      rw [if_neg h3]
      omega
  | fail c s f m' t1 t2 t3 o hc hs hid hr =>
    have h1 := hdrop (fun r => !(r.submissionId == s.id)) c hc (by simp [hid])
    refine Nat.le_trans (Nat.add_le_add_right (hkey c _) _) ?_
    simp only [leftOf, Eff.fail] at h1 ⊢
    omega
  | cancel s t1 t2 o hs =>
    have := sum_filter_le (left (max 1 m) id) (fun r => !(r.submissionId == s.id)) db.chunks
    simp only [Op.reportsOn, leftOf, Eff.cancel, Bool.false_eq_true, false_and, if_false]
    omega
  | cleanup t o =>
    simp only [Op.reportsOn, leftOf, Eff.cleanup, Bool.false_eq_true, false_and, if_false]
    omega

theorem effectiveReports_append (id : SubmissionId) (db : DB) (xs ys : List Op) :
    effectiveReports id db (xs ++ ys) = effectiveReports id db xs + effectiveReports id (runFrom db xs) ys := by
  induction xs generalizing db with
  | nil => simp [effectiveReports, runFrom]
  | cons x xs ih =>
    simp only [List.cons_append, effectiveReports, ih]
    rw [show runFrom db (x :: xs) = runFrom (step db x).2 xs from rfl]
    omega

theorem effectiveReports_snoc (id : SubmissionId) (ops : List Op) (op : Op) :
    effectiveReports id DB.empty (ops ++ [op]) = effectiveReports id DB.empty ops +
      (if op.reportsOn id = true ∧ run (ops ++ [op]) ≠ run ops then 1 else 0) := by
  rw [effectiveReports_append, run_snoc]
  rfl

theorem insertedChunks_append (id : SubmissionId) (xs ys : List Op) :
    insertedChunks id (xs ++ ys) = insertedChunks id xs + insertedChunks id ys := by
  simp [insertedChunks]

theorem work_run {m : Nat} {ops : List Op} (hf : FreshIds ops) (hb : Budget m ops) :
    InBudget (max 1 m) (run ops) ∧ ∀ id, effectiveReports id DB.empty ops + leftOf (max 1 m) id (run ops) ≤
      insertedChunks id ops * max 1 m := by
  induction ops using snoc_induction with
  | nil =>
    refine ⟨?_, ?_⟩
    · intro c hc; simp [run_nil, DB.empty] at hc
    · intro id; simp [effectiveReports, run_nil, leftOf, DB.empty]
  | snoc ops op ih =>
    obtain ⟨h1, h2⟩ := ih hf.snoc.1 fun cid f m' t1 t2 t3 o hm =>
      hb cid f m' t1 t2 t3 o (List.mem_append_left _ hm)
    have he := effect_run hf
    refine ⟨inBudget_effect (inv_run hf.snoc.1) he (fun cid f m' t1 t2 t3 o e =>
      hb cid f m' t1 t2 t3 o (by simp [e])) h1, fun id => ?_⟩
    have h3 := leftOf_effect he h1 id
    have h4 := h2 id
    rw [effectiveReports_snoc, insertedChunks_append, Nat.add_mul]
    omega

theorem insertedChunks_none {id : SubmissionId} {ops : List Op} (h : id ∉ ops.filterMap Op.insertId) :
    insertedChunks id ops = 0 := by
  induction ops with
  | nil => rfl
  | cons op ops ih =>
    rw [← List.singleton_append, insertedChunks_append]
    cases op with
    | insert a now o =>
      simp only [List.filterMap_cons, Op.insertId, List.mem_cons, not_or] at h
      rw [ih h.2]
      simp [insertedChunks, Ne.symm h.1]
    | complete | fail | cancel | cleanup =>
      simp only [List.filterMap_cons, Op.insertId] at h
      rw [ih h]
      simp [insertedChunks]

theorem insertedChunks_eq {a : InsertArgs} {now : Time} {o : List Fault} {ops : List Op} (hf : FreshIds ops)
    (hm : Op.insert a now o ∈ ops) : insertedChunks a.id ops = a.contents.length := by
  obtain ⟨xs, ys, rfl⟩ := List.append_of_mem hm
  unfold FreshIds at hf
  rw [List.filterMap_append, List.nodup_append] at hf
  obtain ⟨_, h2, h3⟩ := hf
  simp only [List.filterMap_cons, Op.insertId, List.nodup_cons] at h2 h3
  rw [insertedChunks_append, ← List.singleton_append, insertedChunks_append, insertedChunks_none h2.1,
    insertedChunks_none fun h => h3 _ h _ List.mem_cons_self rfl]
  simp [insertedChunks]

/-- Only an insert puts a submission among those in progress. -/
theorem Effect.running_before {db db' : DB} {op : Op} (he : Effect db op db') {x : SubmissionId}
    (h : x ∈ db'.submissions.map SubmissionRow.id) :
    x ∈ db.submissions.map SubmissionRow.id ∨ op.insertId = some x := by
  have hdrop : ∀ p : SubmissionRow → Bool, x ∈ (db.submissions.filter p).map SubmissionRow.id →
      x ∈ db.submissions.map SubmissionRow.id := fun p h => (List.filter_sublist.map _).subset h
  have hmap : ∀ (cid : ChunkId), (db.submissions.map fun r =>
      if r.id == cid.submissionId then { r with chunksDone := r.chunksDone + 1 } else r).map SubmissionRow.id =
      db.submissions.map SubmissionRow.id := by
    intro cid
    rw [List.map_map]
    apply List.map_congr_left
    intro r _
    simp only [Function.comp]
    split <;> rfl
  cases he with
  | none => exact .inl h
  | insert a now o =>
    simp only [Eff.insert, List.map_append, List.mem_append] at h
    rcases h with h | h
    · exact .inl h
    · simp only [List.map_cons, List.map_nil, List.mem_singleton] at h
      exact .inr (by rw [h]; rfl)
  | insertEmpty a now o =>
    have h := (List.filter_sublist.map _).subset h
    simp only [Eff.insert, List.map_append, List.mem_append] at h
    rcases h with h | h
    · exact .inl h
    · simp only [List.map_cons, List.map_nil, List.mem_singleton] at h
      exact .inr (by rw [h]; rfl)
  | complete c s => simp only [Eff.completeRaw] at h; rw [hmap] at h; exact .inl h
  | completeLast c s =>
    have h := (List.filter_sublist.map _).subset h
    simp only [Eff.completeRaw] at h; rw [hmap] at h; exact .inl h
  | retry c => exact .inl h
  | fail c s => exact .inl (hdrop _ h)
  | cancel s => exact .inl (hdrop _ h)
  | cleanup => exact .inl h

theorem not_running_stays {xs ys : List Op} (hf : FreshIds (xs ++ ys)) {x : SubmissionId}
    (hx : x ∈ xs.filterMap Op.insertId) (h : x ∉ (run xs).submissions.map SubmissionRow.id) :
    x ∉ (run (xs ++ ys)).submissions.map SubmissionRow.id := by
  induction ys using snoc_induction with
  | nil => simpa using h
  | snoc ys y ih =>
    rw [← List.append_assoc] at hf ⊢
    intro hm
    rcases (effect_run hf).running_before hm with h1 | h1
    · exact ih hf.snoc.1 h1
    · exact hf.snoc.2 x h1 (by rw [List.filterMap_append]; exact List.mem_append_left _ hx)

theorem inProgress_iff {db : DB} (hI : Inv db) {x : SubmissionId} :
    (∃ s, InProgressAt db x s) ↔ x ∈ db.submissions.map SubmissionRow.id := by
  constructor
  · rintro ⟨s, h⟩
    obtain ⟨r, hr, rfl, _⟩ := statusAt_inProgress h
    exact List.mem_map_of_mem hr
  · intro h
    obtain ⟨r, hr, rfl⟩ := List.mem_map.1 h
    exact ⟨_, statusAt_sub hI hr⟩

/-! ### unending sequences of calls -/

theorem firstCalls_succ (calls : Nat → Op) (n : Nat) :
    firstCalls calls (n + 1) = firstCalls calls n ++ [calls n] := by
  simp [firstCalls, List.range_succ]

theorem firstCalls_add (calls : Nat → Op) (n k : Nat) :
    firstCalls calls (n + k) = firstCalls calls n ++ (List.range k).map fun i => calls (n + i) := by
  induction k with
  | zero => simp
  | succ k ih => rw [← Nat.add_assoc, firstCalls_succ, ih, List.range_succ]; simp

theorem effectiveReports_mono (id : SubmissionId) (calls : Nat → Op) {n k : Nat} (h : n ≤ k) :
    effectiveReports id DB.empty (firstCalls calls n) ≤ effectiveReports id DB.empty (firstCalls calls k) := by
  obtain ⟨j, rfl⟩ := Nat.le.dest h
  rw [firstCalls_add, effectiveReports_append]
  omega

/-- Reports that keep having effects add up. -/
theorem unbounded_reports (id : SubmissionId) (calls : Nat → Op) (n0 : Nat)
    (h : ∀ n, n0 ≤ n → ∃ k, n ≤ k ∧ (calls k).reportsOn id = true ∧
      run (firstCalls calls (k + 1)) ≠ run (firstCalls calls k)) (j : Nat) :
    ∃ n, n0 ≤ n ∧ j ≤ effectiveReports id DB.empty (firstCalls calls n) := by
  induction j with
  | zero => exact ⟨n0, Nat.le_refl _, Nat.zero_le _⟩
  | succ j ih =>
    obtain ⟨n, hn, hj⟩ := ih
    obtain ⟨k, hk, hr, hd⟩ := h n hn
    refine ⟨k + 1, by omega, ?_⟩
    have := effectiveReports_mono id calls hk
    rw [firstCalls_succ] at hd ⊢
    rw [effectiveReports_snoc, if_pos ⟨hr, hd⟩]
    omega

end Opsqueue
