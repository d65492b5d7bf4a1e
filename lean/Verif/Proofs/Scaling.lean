import Verif.Spec.Scaling
import Verif.Proofs.Gauges

/-! Lemmas for C97. -/

namespace Opsqueue.Scaling

theorem run_append (p : Pace) (h h' : List Event) : ∀ s, run p s (h ++ h') = (run p s h).bind (run p · h') := by
  induction h with
  | nil => intro s; rfl
  | cons e h ih =>
    intro s
    simp only [List.cons_append, run]
    cases step p s e with
    | none => rfl
    | some s' => exact ih s'

theorem run_snoc {p : Pace} {s s' : State} {h : List Event} {e : Event} (hr : run p s (h ++ [e]) = some s') :
    ∃ s1, run p s h = some s1 ∧ step p s1 e = some s' := by
  rw [run_append] at hr
  cases h1 : run p s h with
  | none => rw [h1] at hr; cases hr
  | some s1 =>
    rw [h1] at hr
    simp only [Option.bind_some, run] at hr
    cases h2 : step p s1 e with
    | none => rw [h2] at hr; cases hr
    | some s2 => rw [h2] at hr; exact ⟨s1, rfl, by rw [h2]; exact hr⟩

theorem elapsed_append (h h' : List Event) : elapsed (h ++ h') = elapsed h + elapsed h' := by
  simp [elapsed]

theorem calls_append (h h' : List Event) : calls (h ++ h') = calls h ++ calls h' := by
  simp [calls]

@[simp] theorem elapsed_cons (e : Event) (h : List Event) :
    elapsed (e :: h) = (match e with | .tick d => d | _ => 0) + elapsed h := rfl
@[simp] theorem elapsed_nil : elapsed [] = 0 := rfl

theorem undisturbed_append {p : Pace} {h h' : List Event} : ∀ {s s' : State}, run p s h = some s' →
    (Undisturbed p s (h ++ h') ↔ Undisturbed p s h ∧ Undisturbed p s' h') := by
  induction h with
  | nil => intro s s' hr; cases hr; simp [Undisturbed]
  | cons e h ih =>
    intro s s' hr
    simp only [run] at hr
    cases h1 : step p s e with
    | none => rw [h1] at hr; cases hr
    | some s1 =>
      rw [h1] at hr
      have := ih (s := s1) (s' := s') hr
      simp only [List.cons_append, Undisturbed, h1, Option.some.injEq]
      constructor
      · rintro ⟨a, b⟩
        have := this.1 (b s1 rfl)
        exact ⟨⟨a, by rintro _ rfl; exact this.1⟩, this.2⟩
      · rintro ⟨⟨a, b⟩, c⟩
        exact ⟨a, by rintro _ rfl; exact this.2 ⟨b _ rfl, c⟩⟩

/-- The phase fits the clock. -/
def InTime (p : Pace) (s : State) : Prop :=
  match s.phase with
  | .sleeping t => t ≤ s.now ∧ s.now ≤ t + interval + p.lag
  | .working t _ => t ≤ s.now ∧ s.now ≤ t + p.work
  | .stopped => s.cancelled = true

/-- What every step keeps. -/
theorem step_basics {p : Pace} {s s' : State} {e : Event} (hs : step p s e = some s') (ht : InTime p s) :
    InTime p s' ∧ s'.now = s.now + elapsed [e] ∧ s'.mon.db = runFrom s.mon.db (calls [e]) := by
  unfold InTime at ht ⊢
  cases e with
  | call op =>
    simp only [step] at hs
    split at hs
    · cases hs
      refine ⟨⟨Nat.le_refl _, by simp [fresh]; omega⟩, rfl, rfl⟩
    · cases hs
      refine ⟨ht, rfl, ?_⟩
      show (s.mon.step (.call op)).db = _
      rw [step_call]; rfl
  | tick d =>
    simp only [step, deadline] at hs
    cases hp : s.phase with
    | stopped =>
      rw [hp] at hs ht; dsimp only at hs ht
      cases hs
      exact ⟨ht, rfl, rfl⟩
    | sleeping t =>
      rw [hp] at hs ht; dsimp only at hs ht
      split at hs
      · cases hs
        exact ⟨⟨by dsimp only; omega, by dsimp only; omega⟩, rfl, rfl⟩
      · cases hs
    | working t st =>
      rw [hp] at hs ht; dsimp only at hs ht
      split at hs
      · cases hs
        exact ⟨⟨by dsimp only; omega, by dsimp only; omega⟩, rfl, rfl⟩
      · cases hs
  | wake =>
    simp only [step] at hs
    split at hs
    · split at hs
      · cases hs
        exact ⟨⟨Nat.le_refl _, by dsimp only; omega⟩, rfl, rfl⟩
      · cases hs
    · cases hs
  | connected ok =>
    simp only [step] at hs
    split at hs
    · rename_i t hp
      rw [hp] at ht; dsimp only at ht
      cases hs
      refine ⟨?_, rfl, rfl⟩
      cases ok
      · exact ⟨Nat.le_refl _, by dsimp only; omega⟩
      · exact ht
    · cases hs
  | read ok =>
    simp only [step] at hs
    split at hs
    · rename_i t hp
      rw [hp] at ht; dsimp only at ht
      split at hs
      · cases hs; exact ⟨ht, rfl, rfl⟩
      · cases hs; exact ⟨⟨Nat.le_refl _, by dsimp only; omega⟩, rfl, rfl⟩
    · rename_i t hp
      rw [hp] at ht; dsimp only at ht
      split at hs
      · cases hs; exact ⟨ht, rfl, rfl⟩
      · cases hs; exact ⟨⟨Nat.le_refl _, by dsimp only; omega⟩, rfl, rfl⟩
    · cases hs
  | set =>
    simp only [step] at hs
    split at hs
    · rename_i t n hp
      rw [hp] at ht; dsimp only at ht
      cases hs; exact ⟨ht, rfl, rfl⟩
    · cases hs; exact ⟨⟨Nat.le_refl _, by dsimp only; omega⟩, rfl, rfl⟩
    · cases hs
  | cancel =>
    cases hs
    refine ⟨?_, rfl, rfl⟩
    dsimp only
    split <;> simp_all
  | notice =>
    simp only [step] at hs
    split at hs
    · rename_i hc
      cases hs; exact ⟨hc, rfl, rfl⟩
    · cases hs
  | restart =>
    cases hs
    exact ⟨⟨Nat.le_refl _, by simp [fresh]; omega⟩, rfl, rfl⟩

theorem run_basics {p : Pace} {ops : List Op} {h : List Event} : ∀ {s : State},
    run p (fresh (Opsqueue.run ops) 0) h = some s →
    InTime p s ∧ s.now = elapsed h ∧ s.mon.db = Opsqueue.run (ops ++ calls h) := by
  induction h using snoc_induction with
  | nil =>
    intro s hr
    cases hr
    exact ⟨⟨Nat.le_refl _, Nat.zero_le _⟩, rfl, by simp [calls, fresh]⟩
  | snoc h e ih =>
    intro s hr
    obtain ⟨s1, h1, h2⟩ := run_snoc hr
    obtain ⟨a, b, c⟩ := ih h1
    obtain ⟨a', b', c'⟩ := step_basics h2 a
    refine ⟨a', by rw [b', b, elapsed_append], ?_⟩
    rw [c', c, calls_append, ← List.append_assoc]
    simp [Opsqueue.run, runFrom, List.foldl_append]

/-- The count that the first query of a calculation makes. -/
theorem countChunks_val (db : DB) : (Metered.countChunks ⟨[], db⟩).1 = .ok db.chunks.length := rfl

/-- The sum that the second one makes. -/
def opsOf (db : DB) : Int := (db.chunks.flatMap fun c =>
  (db.submissions.filter fun s => c.submissionId == s.id).map fun s => s.chunkSize.getD 0).sum

theorem countOps_val (db : DB) : (Metered.countOpsInBacklogEstimate ⟨[], db⟩).1 = .ok (opsOf db) := rfl

/-- A value that a calculation has in hand was true when it was read, since the calculation began. -/
def InHand (p : Pace) (s0 : State) (h : List Event) (s : State) : Prop :=
  (∀ t n, s.phase = .working t (.counted n) → ∃ pre post u, h = pre ++ .read true :: post ∧ run p s0 pre = some u ∧
    t ≤ u.now ∧ n = u.mon.db.chunks.length) ∧
  (∀ t k, s.phase = .working t (.added k) → ∃ pre post u, h = pre ++ .read true :: post ∧ run p s0 pre = some u ∧
    t ≤ u.now ∧ k = opsOf u.mon.db)

theorem inHand_run {p : Pace} {ops : List Op} {h : List Event} : ∀ {s : State},
    run p (fresh (Opsqueue.run ops) 0) h = some s → InHand p (fresh (Opsqueue.run ops) 0) h s := by
  induction h using snoc_induction with
  | nil =>
    intro s hr
    cases hr
    exact ⟨fun t n hp => by simp [fresh] at hp, fun t n hp => by simp [fresh] at hp⟩
  | snoc h e ih =>
    intro s hr
    obtain ⟨s1, h1, h2⟩ := run_snoc hr
    obtain ⟨a, b⟩ := ih h1
    obtain ⟨ht, -, -⟩ := run_basics h1
    have keep : s.phase = s1.phase → InHand p (fresh (Opsqueue.run ops) 0) (h ++ [e]) s := by
      intro hph
      refine ⟨fun t n hp => ?_, fun t n hp => ?_⟩
      · obtain ⟨pre, post, u, e1, e2, e3⟩ := a t n (by rw [← hph]; exact hp)
        exact ⟨pre, post ++ [e], u, by rw [e1]; simp, e2, e3⟩
      · obtain ⟨pre, post, u, e1, e2, e3⟩ := b t n (by rw [← hph]; exact hp)
        exact ⟨pre, post ++ [e], u, by rw [e1]; simp, e2, e3⟩
    have other : (∀ t n, s.phase ≠ .working t (.counted n)) → (∀ t k, s.phase ≠ .working t (.added k)) →
        InHand p (fresh (Opsqueue.run ops) 0) (h ++ [e]) s :=
      fun x y => ⟨fun t n hp => absurd hp (x t n), fun t n hp => absurd hp (y t n)⟩
    cases e with
    | call op =>
      simp only [step] at h2
      split at h2 <;> cases h2
      · exact other (by simp [fresh]) (by simp [fresh])
      · exact keep rfl
    | tick d =>
      simp only [step] at h2
      split at h2
      · cases h2; exact keep rfl
      · split at h2 <;> cases h2; exact keep rfl
    | wake =>
      simp only [step] at h2
      split at h2
      · split at h2 <;> cases h2; exact other (by simp) (by simp)
      · cases h2
    | connected ok =>
      simp only [step] at h2
      split at h2 <;> cases h2
      cases ok <;> exact other (by simp) (by simp)
    | read ok =>
      simp only [step] at h2
      split at h2
      · rename_i t hp
        unfold InTime at ht
        rw [hp] at ht
        rw [countChunks_val] at h2
        cases ok
        · dsimp only at h2; cases h2; exact other (by simp) (by simp)
        · dsimp only at h2; cases h2
          refine ⟨fun t' n hp' => ?_, fun t' n hp' => by simp at hp'⟩
          simp only [Phase.working.injEq, Stage.counted.injEq] at hp'
          exact ⟨h, [], s1, rfl, h1, hp'.1 ▸ ht.1, hp'.2.symm⟩
      · rename_i t hp
        unfold InTime at ht
        rw [hp] at ht
        rw [countOps_val] at h2
        cases ok
        · dsimp only at h2; cases h2; exact other (by simp) (by simp)
        · dsimp only at h2; cases h2
          refine ⟨fun t' n hp' => by simp at hp', fun t' n hp' => ?_⟩
          simp only [Phase.working.injEq, Stage.added.injEq] at hp'
          exact ⟨h, [], s1, rfl, h1, hp'.1 ▸ ht.1, hp'.2.symm⟩
      · cases h2
    | set =>
      simp only [step] at h2
      split at h2 <;> cases h2
      · exact other (by simp) (by simp)
      · exact other (by simp) (by simp)
    | cancel => cases h2; exact keep rfl
    | notice =>
      simp only [step] at h2
      split at h2 <;> cases h2
      exact other (by simp) (by simp)
    | restart => cases h2; exact other (by simp [fresh]) (by simp [fresh])

/-- When the gauge of chunks is set next, at the latest, if nothing goes wrong. -/
def dueChunks (p : Pace) (s : State) : Nat :=
  match s.phase with
  | .sleeping t => t + interval + p.lag + p.work
  | .working t (.adding) => t + p.work + interval + p.lag + p.work
  | .working t (.added _) => t + p.work + interval + p.lag + p.work
  | .working t _ => t + p.work
  | .stopped => 0

/-- When the gauge of operations is set next, at the latest, if nothing goes wrong. -/
def dueOps (p : Pace) (s : State) : Nat :=
  match s.phase with
  | .sleeping t => t + interval + p.lag + p.work
  | .working t _ => t + p.work
  | .stopped => 0

/-- The gauge of chunks is what was read at the end of `pre`, less the chunks that failed after it was set. -/
def ChunksShown (p : Pace) (s0 : State) (h : List Event) (s : State) (due : Nat) : Prop :=
  ∃ pre mid post u v, h = pre ++ .read true :: mid ++ .set :: post ∧ run p s0 pre = some u ∧
    run p s0 (pre ++ .read true :: mid ++ [.set]) = some v ∧
    s.mon.metrics.chunksBacklog = u.mon.db.chunks.length - ((s.mon.metrics.chunksFailed : Int) - v.mon.metrics.chunksFailed) ∧
    v.mon.metrics.chunksFailed ≤ s.mon.metrics.chunksFailed ∧
    due ≤ u.now + age p

/-- The gauge of operations is what was read at the end of `pre`. -/
def OpsShown (p : Pace) (s0 : State) (h : List Event) (s : State) (due : Nat) : Prop :=
  ∃ pre mid u, h = pre ++ .read true :: mid ∧ run p s0 pre = some u ∧
    s.mon.metrics.operationsBacklog = opsOf u.mon.db ∧ due ≤ u.now + age p

theorem call_metrics {ops : List Op} {m : Monitored} {op : Op} (hdb : m.db = Opsqueue.run ops)
    (hf : FreshIds (ops ++ [op])) (ha : (Opsqueue.step m.db op).1.crashed = false) :
    m.metrics.Le (m.step (.call op)).metrics :=
  alive_calls_le [op] ops m hdb hf ⟨ha, trivial⟩

theorem shown_run {p : Pace} {ops : List Op} {a : List Event} {sa : State}
    (ha : run p (fresh (Opsqueue.run ops) 0) a = some sa) (hc : sa.cancelled = false) {b : List Event} : ∀ {s : State},
    run p (fresh (Opsqueue.run ops) 0) (a ++ b) = some s → FreshIds (ops ++ calls (a ++ b)) → Undisturbed p sa b →
    s.cancelled = false ∧
    (ChunksShown p (fresh (Opsqueue.run ops) 0) (a ++ b) s (dueChunks p s) ∨ dueChunks p s ≤ elapsed a + age p) ∧
    (OpsShown p (fresh (Opsqueue.run ops) 0) (a ++ b) s (dueOps p s) ∨ dueOps p s ≤ elapsed a + age p) := by
  induction b using snoc_induction with
  | nil =>
    intro s hr hf hu
    rw [List.append_nil, ha] at hr
    cases hr
    obtain ⟨ht, hn, -⟩ := run_basics ha
    unfold InTime at ht
    unfold dueChunks dueOps age
    cases hp : sa.phase with
    | stopped => rw [hp] at ht; rw [hc] at ht; cases ht
    | sleeping t =>
      rw [hp] at ht
      simp only [interval] at *
      exact ⟨hc, .inr (by omega), .inr (by omega)⟩
    | working t st =>
      rw [hp] at ht
      cases st <;> simp only [interval] at * <;> exact ⟨hc, .inr (by omega), .inr (by omega)⟩
  | snoc b e ih =>
    intro s hr hf hu
    rw [← List.append_assoc] at hr hf ⊢
    obtain ⟨s1, h1, h2⟩ := run_snoc hr
    have hab : run p sa b = some s1 := by
      rw [run_append, ha] at h1; exact h1
    have hu' := (undisturbed_append hab).1 hu
    rw [calls_append, ← List.append_assoc] at hf
    obtain ⟨ic, i1, i2⟩ := ih h1 (FreshIds.prefix hf) hu'.1
    obtain ⟨ht, hn, hdb⟩ := run_basics h1
    have hin := inHand_run h1
    have hok := hu'.2.1
    -- a step that leaves the metrics alone
    have same : s.mon.metrics = s1.mon.metrics → s.cancelled = false → dueChunks p s ≤ dueChunks p s1 →
        dueOps p s ≤ dueOps p s1 → s.cancelled = false ∧
        (ChunksShown p (fresh (Opsqueue.run ops) 0) (a ++ b ++ [e]) s (dueChunks p s) ∨ dueChunks p s ≤ elapsed a + age p) ∧
        (OpsShown p (fresh (Opsqueue.run ops) 0) (a ++ b ++ [e]) s (dueOps p s) ∨ dueOps p s ≤ elapsed a + age p) := by
      intro hm hc' hd1 hd2
      refine ⟨hc', ?_, ?_⟩
      · rcases i1 with ⟨pre, mid, post, u, v, e1, e2, e3, e4, e5, e6⟩ | i1
        · exact .inl ⟨pre, mid, post ++ [e], u, v, by rw [e1]; simp, e2, e3, by rw [hm]; exact e4, by rw [hm]; exact e5,
            Nat.le_trans hd1 e6⟩
        · exact .inr (Nat.le_trans hd1 i1)
      · rcases i2 with ⟨pre, mid, u, e1, e2, e3, e4⟩ | i2
        · exact .inl ⟨pre, mid ++ [e], u, by rw [e1]; simp, e2, by rw [hm]; exact e3, Nat.le_trans hd2 e4⟩
        · exact .inr (Nat.le_trans hd2 i2)
    cases e with
    | call op =>
      simp only at hok
      simp only [step, hok] at h2
      cases h2
      have hle := call_metrics (op := op) hdb hf hok
      refine ⟨ic, ?_, ?_⟩
      · rcases i1 with ⟨pre, mid, post, u, v, e1, e2, e3, e4, e5, e6⟩ | i1
        · refine .inl ⟨pre, mid, post ++ [.call op], u, v, by rw [e1]; simp, e2, e3, ?_, ?_, e6⟩
          · have := hle.chunksBacklog
            dsimp only
            omega
          · have := hle.chunksFailed
            dsimp only
            omega
        · exact .inr i1
      · rcases i2 with ⟨pre, mid, u, e1, e2, e3, e4⟩ | i2
        · refine .inl ⟨pre, mid ++ [.call op], u, by rw [e1]; simp, e2, ?_, e4⟩
          rw [← e3]
          exact hle.operationsBacklog
        · exact .inr i2
    | tick d =>
      simp only [step] at h2
      split at h2
      · cases h2; exact same rfl ic (Nat.le_refl _) (Nat.le_refl _)
      · split at h2 <;> cases h2; exact same rfl ic (Nat.le_refl _) (Nat.le_refl _)
    | wake =>
      simp only [step] at h2
      split at h2
      · rename_i t hp
        split at h2 <;> cases h2
        unfold InTime at ht
        rw [hp] at ht; dsimp only at ht
        refine same rfl ic ?_ ?_
        · simp only [dueChunks, hp]; omega
        · simp only [dueOps, hp]; omega
      · cases h2
    | connected ok =>
      simp only at hok
      subst hok
      simp only [step] at h2
      split at h2 <;> cases h2
      rename_i t hp
      refine same rfl ic ?_ ?_
      · simp [dueChunks, hp]
      · simp [dueOps, hp]
    | read ok =>
      simp only at hok
      subst hok
      simp only [step] at h2
      split at h2
      · rename_i t hp
        rw [countChunks_val] at h2
        cases h2
        refine same rfl ic ?_ ?_
        · simp [dueChunks, hp]
        · simp [dueOps, hp]
      · rename_i t hp
        rw [countOps_val] at h2
        cases h2
        refine same rfl ic ?_ ?_
        · simp [dueChunks, hp]
        · simp [dueOps, hp]
      · cases h2
    | set =>
      simp only [step] at h2
      unfold InTime at ht
      split at h2
      · rename_i t n hp
        cases h2
        refine ⟨ic, .inl ?_, ?_⟩
        · obtain ⟨pre, post, u, e1, e2, e3, e4⟩ := hin.1 t n hp
          refine ⟨pre, post, [], u, _, by rw [e1], e2, by rw [← e1]; exact hr, ?_, Nat.le_refl _, ?_⟩
          · dsimp only; rw [e4]; omega
          · simp only [dueChunks, age, interval]; omega
        · rcases i2 with ⟨pre, mid, u, e1, e2, e3, e4⟩ | i2
          · exact .inl ⟨pre, mid ++ [.set], u, by rw [e1]; simp, e2, e3, by simpa [dueOps, hp] using e4⟩
          · exact .inr (by simpa [dueOps, hp] using i2)
      · rename_i t k hp
        rw [hp] at ht; dsimp only at ht
        cases h2
        refine ⟨ic, ?_, .inl ?_⟩
        · rcases i1 with ⟨pre, mid, post, u, v, e1, e2, e3, e4, e5, e6⟩ | i1
          · refine .inl ⟨pre, mid, post ++ [.set], u, v, by rw [e1]; simp, e2, e3, e4, e5, ?_⟩
            simp only [dueChunks, hp] at e6 ⊢
            omega
          · simp only [dueChunks, hp] at i1
            refine .inr ?_
            simp only [dueChunks]
            omega
        · obtain ⟨pre, post, u, e1, e2, e3, e4⟩ := hin.2 t k hp
          refine ⟨pre, post ++ [.set], u, by rw [e1]; simp, e2, e4, ?_⟩
          simp only [dueOps, age, interval]; omega
      · cases h2
    | cancel => exact hok.elim
    | notice => exact hok.elim
    | restart => exact hok.elim

/-- Time does not pass beyond what is due. -/
theorem now_le_due {p : Pace} {s : State} (ht : InTime p s) (hc : s.cancelled = false) :
    s.now ≤ dueChunks p s ∧ s.now ≤ dueOps p s := by
  unfold InTime at ht
  unfold dueChunks dueOps
  cases hp : s.phase with
  | stopped => rw [hp] at ht; rw [hc] at ht; cases ht
  | sleeping t => rw [hp] at ht; dsimp only at *; omega
  | working t st => rw [hp] at ht; cases st <;> dsimp only at * <;> omega

theorem inProgressIds_of {db : DB} (hI : Inv db) : InProgressIds db (db.submissions.map SubmissionRow.id) := by
  refine ⟨hI.subIds, fun id => ⟨?_, ?_⟩⟩
  · intro hm
    obtain ⟨r, hr, rfl⟩ := List.mem_map.1 hm
    exact ⟨_, statusAt_sub hI hr⟩
  · rintro ⟨s, hs⟩
    obtain ⟨r, hr, rfl, _⟩ := statusAt_inProgress hs
    exact List.mem_map_of_mem hr

theorem chunksIn_run {ops : List Op} (hf : FreshIds ops) : ChunksIn (Opsqueue.run ops) (Opsqueue.run ops).chunks.length := by
  have hI := inv_run hf
  refine ⟨_, inProgressIds_of hI, ?_⟩
  have := backlog_sum hI (inProgressIds_of hI)
  omega

theorem opsIn_run {ops : List Op} (hf : FreshIds ops) : OperationsIn (Opsqueue.run ops) (opsOf (Opsqueue.run ops)) := by
  have hI := inv_run hf
  refine ⟨_, inProgressIds_of hI, operations_sum hI ?_ (inProgressIds_of hI)⟩
  intro r hr
  obtain ⟨a, _, _, _, e⟩ := (prov_run _ hf).sub r hr
  exact ⟨a.chunkSize, by rw [e]; rfl⟩

/-- Without calls, a chunk does not fail. -/
theorem chunksFailed_run {p : Pace} {b : List Event} : ∀ {s s' : State}, run p s b = some s' → Undisturbed p s b →
    calls b = [] → s'.mon.metrics.chunksFailed = s.mon.metrics.chunksFailed := by
  induction b with
  | nil => intro s s' hr _ _; cases hr; rfl
  | cons e b ih =>
    intro s s' hr hu hn
    simp only [run] at hr
    cases h1 : step p s e with
    | none => rw [h1] at hr; cases hr
    | some s1 =>
      rw [h1] at hr
      have hn' : calls b = [] := by
        cases e <;> first | exact hn | (simp [calls] at hn)
      rw [ih hr (hu.2 s1 h1) hn']
      have hok := hu.1
      cases e with
      | call op => simp [calls] at hn
      | restart => exact hok.elim
      | cancel => exact hok.elim
      | notice => exact hok.elim
      | tick d =>
        simp only [step] at h1
        split at h1
        · cases h1; rfl
        · split at h1 <;> cases h1; rfl
      | wake =>
        simp only [step] at h1
        split at h1
        · split at h1 <;> cases h1; rfl
        · cases h1
      | connected ok =>
        simp only [step] at h1
        split at h1 <;> cases h1; rfl
      | read ok =>
        simp only [step] at h1
        split at h1
        · split at h1 <;> cases h1 <;> rfl
        · split at h1 <;> cases h1 <;> rfl
        · cases h1
      | set =>
        simp only [step] at h1
        split at h1 <;> cases h1 <;> rfl

theorem first_seconds {p : Pace} {ops : List Op} {h : List Event} : ∀ {s : State},
    run p (fresh (Opsqueue.run ops) 0) h = some s → FreshIds (ops ++ calls h) → elapsed h < 5000 →
    (∀ t st, s.phase ≠ .working t st) ∧ s.mon.metrics.operationsBacklog = 0 ∧
    s.mon.metrics.chunksBacklog + s.mon.metrics.chunksFailed = 0 := by
  induction h using snoc_induction with
  | nil => intro s hr _ _; cases hr; exact ⟨by simp [fresh], rfl, rfl⟩
  | snoc h e ih =>
    intro s hr hf hl
    obtain ⟨s1, h1, h2⟩ := run_snoc hr
    rw [elapsed_append] at hl
    rw [calls_append, ← List.append_assoc] at hf
    obtain ⟨i1, i2, i3⟩ := ih h1 (FreshIds.prefix hf) (by omega)
    obtain ⟨ht, hn, hdb⟩ := run_basics h1
    cases e with
    | call op =>
      simp only [step] at h2
      split at h2
      · cases h2; exact ⟨by simp [fresh], rfl, rfl⟩
      · rename_i hc
        cases h2
        have hle := call_metrics (op := op) hdb hf (by simpa using hc)
        have g1 := hle.chunksBacklog
        have g2 := hle.operationsBacklog
        exact ⟨i1, by rw [← i2]; exact g2, by dsimp only; omega⟩
    | tick d =>
      simp only [step] at h2
      split at h2
      · cases h2; exact ⟨i1, i2, i3⟩
      · split at h2 <;> cases h2; exact ⟨i1, i2, i3⟩
    | wake =>
      simp only [step] at h2
      split at h2
      · rename_i t hp
        split at h2
        · rename_i hw
          simp only [interval] at hw
          omega
        · cases h2
      · cases h2
    | connected ok =>
      simp only [step] at h2
      split at h2 <;> cases h2
      rename_i hp; exact absurd hp (i1 _ _)
    | read ok =>
      simp only [step] at h2
      split at h2
      · rename_i hp; exact absurd hp (i1 _ _)
      · rename_i hp; exact absurd hp (i1 _ _)
      · cases h2
    | set =>
      simp only [step] at h2
      split at h2
      · rename_i hp; exact absurd hp (i1 _ _)
      · rename_i hp; exact absurd hp (i1 _ _)
      · cases h2
    | cancel => cases h2; exact ⟨i1, i2, i3⟩
    | notice =>
      simp only [step] at h2
      split at h2 <;> cases h2
      exact ⟨by simp, i2, i3⟩
    | restart => cases h2; exact ⟨by simp [fresh], rfl, rfl⟩

/-- A part at the end that is shorter in time than `b` is a part of `b`. -/
theorem within {a b pre x : List Event} (h : a ++ b = pre ++ x) (hl : elapsed x < elapsed b) :
    ∃ b', pre = a ++ b' ∧ b = b' ++ x := by
  rcases List.append_eq_append_iff.1 h with ⟨b', e1, e2⟩ | ⟨c, e1, e2⟩
  · exact ⟨b', e1, e2⟩
  · rw [e2, elapsed_append] at hl
    omega

end Opsqueue.Scaling
