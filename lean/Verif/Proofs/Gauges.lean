import Verif.Proofs.Tally
import Verif.Proofs.Counting

/-! # The backlog gauges -/

namespace Opsqueue
open SubmissionDb

/-- The chunks of a submission that are in the backlog. -/
def chunksOf (chunks : List ChunkRow) (s : SubmissionRow) : Nat := (chunks.filter (·.submissionId == s.id)).length

theorem sum_map_add {α : Type} (f g : α → Int) (l : List α) :
    (l.map fun x => f x + g x).sum = (l.map f).sum + (l.map g).sum := by
  induction l with
  | nil => rfl
  | cons x l ih => simp only [List.map_cons, List.sum_cons, ih]; omega

theorem sum_filter {α : Type} (p : α → Bool) (f : α → Int) (l : List α) :
    ((l.filter p).map f).sum = (l.map fun x => if p x then f x else 0).sum := by
  induction l with
  | nil => rfl
  | cons x l ih => by_cases h : p x <;> simp [List.filter_cons, h, ih]

theorem chunksOf_cons (c : ChunkRow) (cs : List ChunkRow) (s : SubmissionRow) :
    (chunksOf (c :: cs) s : Int) = (if c.submissionId == s.id then 1 else 0) + chunksOf cs s := by
  by_cases h : c.submissionId == s.id <;> simp [chunksOf, List.filter_cons, h]; omega

/-- Summing over the chunks of all submissions is summing over the submissions. -/
theorem sum_join (subs : List SubmissionRow) (f : SubmissionRow → Int) (chunks : List ChunkRow) :
    (chunks.flatMap fun c => (subs.filter fun s => c.submissionId == s.id).map f).sum =
      (subs.map fun s => f s * (chunksOf chunks s : Int)).sum := by
  induction chunks with
  | nil =>
    simp only [List.flatMap_nil, List.sum_nil]
    symm
    induction subs with
    | nil => rfl
    | cons s l ih => simp only [List.map_cons, List.sum_cons, ih]; simp [chunksOf]
  | cons c cs ih =>
    rw [List.flatMap_cons, List.sum_append, ih, sum_filter, ← sum_map_add]
    congr 1
    apply List.map_congr_left
    intro s _
    rw [chunksOf_cons]
    by_cases h : c.submissionId == s.id <;> simp [h, Int.mul_add]

theorem length_join {subs : List SubmissionRow} (hn : (subs.map SubmissionRow.id).Nodup) (chunks : List ChunkRow)
    (ho : ∀ c ∈ chunks, c.submissionId ∈ subs.map SubmissionRow.id) :
    (chunks.length : Int) = (subs.map fun s => (chunksOf chunks s : Int)).sum := by
  have h := sum_join subs (fun _ => 1) chunks
  simp only [Int.one_mul] at h
  rw [← h]
  clear h
  induction chunks with
  | nil => rfl
  | cons c cs ih =>
    rw [List.flatMap_cons, List.sum_append, ← ih fun x hx => ho x (List.mem_cons_of_mem _ hx)]
    obtain ⟨s, hs, e⟩ := List.mem_map.1 (ho c List.mem_cons_self)
    have hf : subs.filter (fun s => c.submissionId == s.id) = [s] := by
      rw [← filter_key_of_mem hn hs]
      apply List.filter_congr
      intro x _
      rw [← e, Bool.eq_iff_iff, beq_iff_eq, beq_iff_eq, eq_comm]
    rw [hf]
    simp; omega

theorem inProgressIds_perm {db : DB} (hI : Inv db) {ids : List SubmissionId} (h : InProgressIds db ids) :
    ids.Perm (db.submissions.map SubmissionRow.id) := by
  refine perm_of_nodup_mem h.1 hI.subIds fun id => (h.2 id).trans ⟨?_, ?_⟩
  · rintro ⟨s, hs⟩
    obtain ⟨r, hr, rfl, _⟩ := statusAt_inProgress hs
    exact List.mem_map_of_mem hr
  · intro hm
    obtain ⟨r, hr, rfl⟩ := List.mem_map.1 hm
    exact ⟨_, statusAt_sub hI hr⟩

theorem remaining_eq {db : DB} (hI : Inv db) {r : SubmissionRow} (hr : r ∈ db.submissions) :
    remaining db r.id = chunksOf db.chunks r := by
  have := hI.done r hr
  simp only [remaining, statusAt_sub hI hr, subView, chunksOf]
  omega

theorem perm_sum {l l' : List Int} (h : l.Perm l') : l.sum = l'.sum := by
  induction h with
  | nil => rfl
  | cons x _ ih => simp [ih]
  | swap x y l => simp only [List.sum_cons]; omega
  | trans _ _ h1 h2 => exact h1.trans h2

theorem sum_cast (l : List Nat) : ((l.sum : Nat) : Int) = (l.map Int.ofNat).sum := by
  induction l with
  | nil => rfl
  | cons x l ih => simp only [List.sum_cons, List.map_cons, ← ih]; simp

theorem backlog_sum {db : DB} (hI : Inv db) {ids : List SubmissionId} (h : InProgressIds db ids) :
    (db.chunks.length : Int) = ((ids.map (remaining db)).sum : Nat) := by
  rw [sum_cast, List.map_map, perm_sum ((inProgressIds_perm hI h).map _), List.map_map,
    length_join hI.subIds db.chunks fun c hc => by
      obtain ⟨s, hs, e, _⟩ := hI.owner c hc
      rw [← e]; exact List.mem_map_of_mem hs]
  congr 1
  apply List.map_congr_left
  intro r hr
  simp only [Function.comp]
  rw [remaining_eq hI hr]
  rfl

theorem operations_sum {db : DB} (hI : Inv db) (hsz : ∀ r ∈ db.submissions, ∃ n, r.chunkSize = some n)
    {ids : List SubmissionId} (h : InProgressIds db ids) :
    (db.chunks.flatMap fun c =>
      (db.submissions.filter fun s => c.submissionId == s.id).map fun s => s.chunkSize.getD 0).sum =
      (ids.map (remainingOperations db)).sum := by
  rw [sum_join, perm_sum ((inProgressIds_perm hI h).map _), List.map_map]
  congr 1
  apply List.map_congr_left
  intro r hr
  obtain ⟨n, hn⟩ := hsz r hr
  have := remaining_eq hI hr
  have hd := hI.done r hr
  simp only [Function.comp, remainingOperations, statusAt_sub hI hr, subView, hn, decodeChunkSize, Option.getD_some]
  congr 2
  simp only [chunksOf]
  omega

theorem query_val {α : Type} {f : DB → α} {w w' : World} {a : α}
    (h : Sql.query (fun db => .ok (f db)) w = (.ok a, w')) : a = f w.db := by
  have := Sql.stmt_ok h
  simp only [Except.ok.injEq, Prod.mk.injEq] at this
  exact this.1.symm

/-- A successful refresh. -/
theorem refresh_ok {s : Monitored} {o : List Fault}
    (h : (Metered.calculateScalingMetrics ⟨o, s.db⟩ s.metrics).1 = .ok ()) :
    (s.step (.refresh true o)).db = s.db ∧
    (s.step (.refresh true o)).metrics.chunksBacklog = s.db.chunks.length ∧
    (s.step (.refresh true o)).metrics.operationsBacklog = (s.db.chunks.flatMap fun c =>
      (s.db.submissions.filter fun s => c.submissionId == s.id).map fun s => s.chunkSize.getD 0).sum := by
  have hne : (Metered.calculateScalingMetrics ⟨o, s.db⟩ s.metrics).1 ≠ .crash := by rw [h]; simp
  refine ⟨(refresh_step s true o fun _ => hne).1, ?_⟩
  simp only [Monitored.step, if_true]
  rw [surviving_metrics hne]
  clear hne
  unfold Metered.calculateScalingMetrics at h ⊢
  simp only [Metered.bind_run, Metered.lift, Metered.tick] at h ⊢
  rcases e1 : Metered.countChunks ⟨o, s.db⟩ with ⟨n | _ | _, w1⟩ <;> rw [e1] at h
  · dsimp only at h ⊢
    have h1 := query_db e1
    have q1 := query_val e1
    rcases e2 : Metered.countOpsInBacklogEstimate w1 with ⟨k | _ | _, w2⟩ <;> rw [e2] at h
    · dsimp only at h ⊢
      have q2 := query_val e2
      rw [h1] at q2
      exact ⟨by rw [q1], by rw [q2]⟩
    · simp at h
    · simp at h
  · simp at h
  · simp at h

theorem Counted.le {db db' : DB} {m m' : Metrics} {op : Op} (h : Counted db m op db' m') : m.Le m' := by
  cases h with
  | quiet _ _ hm _ => 
    refine Metrics.Le.trans ?_ hm
    cases op <;> first | exact .refl _ | exact Metered.le_inserted _ _ | exact Metered.le_chunkCompleted _
  | insert a now o _ hok hm _ => exact (Metered.le_inserted _ _).trans hm
  | insertEmpty a now o hok he => exact (Metered.le_inserted _ _).trans (Metered.le_submissionCompleted _)
  | complete => exact Metered.le_chunkCompleted _
  | completeLast => exact (Metered.le_submissionCompleted _).trans (Metered.le_chunkCompleted _)
  | retry => exact Metered.le_chunkRetried _
  | fail => exact (Metered.le_submissionFailed _).trans (Metered.le_chunkFailed _)
  | cancel => exact Metered.le_submissionCancelled _
  | cleanup => exact .refl _

theorem alive_calls_le (ops : List Op) : ∀ (pre : List Op) (s : Monitored), s.db = run pre → FreshIds (pre ++ ops) →
    s.Alive (ops.map .call) → s.metrics.Le (s.run (ops.map .call)).metrics := by
  induction ops with
  | nil => intro pre s _ _ _; exact .refl _
  | cons op ops ih =>
    intro pre s hdb hf ha
    obtain ⟨hh, ha⟩ := ha
    have hf' : FreshIds ((pre ++ [op]) ++ ops) := by simpa using hf
    have hfo : FreshIds (pre ++ [op]) := FreshIds.prefix hf'
    have hst := step_call s op
    rw [if_neg (by simp only at hh; rw [hh]; simp)] at hst
    have i := ih (pre ++ [op]) (s.step (.call op)) (by rw [hst, run_snoc, hdb]) hf' ha
    have hI : Inv s.db := by rw [hdb]; exact inv_run (FreshIds.prefix hfo)
    have hfr : ∀ x, op.insertId = some x → x ∉ usedIds s.db := by
      intro x hx; rw [hdb]; exact fresh_run hfo hx
    have t : s.metrics.Le (s.after op) := (counted hI s.metrics op hfr hh).le
    have e2 : (s.step (.call op)).metrics = s.after op := by rw [hst]
    rw [e2] at i
    exact t.trans i

/-! ## The balance -/

/-- Submissions that entered, minus those that left. -/
def Metrics.open (m : Metrics) : Int :=
  m.submissionsTotal - m.submissionsCompleted - m.submissionsFailed - m.submissionsCancelled

theorem Counted.balance {db db' : DB} {m m' : Metrics} {op : Op} (h : Counted db m op db' m') (hI : Inv db)
    (hu : op.Undisturbed) (hp : op.ProperMetadata) :
    m'.open - m.open = (db'.submissions.length : Int) - db.submissions.length := by
  cases h with
  | quiet _ _ hm hq =>
    obtain ⟨hi, rfl⟩ := hq hu hp
    cases op <;> simp [Op.base, Metrics.open, Metrics.chunkCompleted, Op.insertId] at * <;> omega
  | insert a now o _ hok hm hq =>
    have ho : o = [] := by simpa [Op.Undisturbed, Op.clean] using hu
    obtain ⟨_, rfl⟩ := hq ho
    simp [Metrics.open, Metrics.inserted, Eff.insert]; omega
  | insertEmpty a now o hok he =>
    have hself : db.submissions.filter (fun r => !(r.id == a.id)) = db.submissions := by
      rw [List.filter_eq_self]
      intro r hr
      have : r.id ≠ a.id := fun e => hok.1 (e ▸ List.mem_map_of_mem hr)
      simpa using this
    have : (Eff.finish a.row now (Eff.insert a db)).submissions = db.submissions := by
      simp only [Eff.finish, Eff.insert, List.filter_append]
      rw [show a.row.id = a.id from rfl, hself]
      simp [InsertArgs.row]
    rw [this]
    simp [Metrics.open, Metrics.inserted, Metrics.submissionCompleted]; omega
  | complete c s out t1 t2 o hc hs hid hl => simp [Metrics.open, Metrics.chunkCompleted, Eff.completeRaw]
  | completeLast c s out t1 t2 o hc hs hid hl =>
    have hids := completeRaw_subIds c.key out t1 db
    have := length_filter_ne_key (key := SubmissionRow.id) (by rw [hids]; exact hI.subIds)
      (completeRaw_sub_mem (c := c) out t1 hs hid)
    have hl : (Eff.completeRaw c.key out t1 db).submissions.length = db.submissions.length := by
      simp [Eff.completeRaw]
    simp only [Eff.finish, Metrics.open, Metrics.chunkCompleted, Metrics.submissionCompleted]
    simp only at this
    omega
  | retry => simp [Metrics.open, Metrics.chunkRetried, Eff.bump]
  | fail c s f n t1 t2 t3 o hc hs hid hr =>
    have := length_filter_ne_key (key := SubmissionRow.id) hI.subIds hs
    simp only [Eff.fail, Metrics.open, Metrics.chunkFailed, Metrics.submissionFailed]
    omega
  | cancel s t1 t2 o hs =>
    have := length_filter_ne_key (key := SubmissionRow.id) hI.subIds hs
    simp only [Eff.cancel, Metrics.open, Metrics.submissionCancelled]
    omega
  | cleanup => simp [Eff.cleanup]

theorem run_balance (hs : List Happening) : ∀ (pre : List Op) (s : Monitored), s.db = run pre →
    FreshIds (pre ++ callsOf hs) → s.Alive hs → (∀ op ∈ callsOf hs, op.Undisturbed ∧ op.ProperMetadata) →
    (s.run hs).metrics.open - s.metrics.open = ((s.run hs).db.submissions.length : Int) - s.db.submissions.length := by
  induction hs with
  | nil => intro pre s _ _ _ _; simp [Monitored.run]
  | cons h hs ih =>
    intro pre s hdb hf ha hu
    obtain ⟨hh, ha⟩ := ha
    rw [show s.run (h :: hs) = (s.step h).run hs from rfl]
    cases h with
    | call op =>
      rw [callsOf_call] at hf hu
      have hf' : FreshIds ((pre ++ [op]) ++ callsOf hs) := by simpa using hf
      have hfo : FreshIds (pre ++ [op]) := (FreshIds.prefix hf')
      have hst := step_call s op
      rw [if_neg (by simp only at hh; rw [hh]; simp)] at hst
      have i := ih (pre ++ [op]) (s.step (.call op)) (by rw [hst, run_snoc, hdb]) hf' ha
        (fun x hx => hu x (List.mem_cons_of_mem _ hx))
      have hI : Inv s.db := by rw [hdb]; exact inv_run (FreshIds.prefix hfo)
      have hfr : ∀ x, op.insertId = some x → x ∉ usedIds s.db := by
        intro x hx; rw [hdb]; exact fresh_run hfo hx
      have hop := hu op List.mem_cons_self
      have t : (s.after op).open - s.metrics.open = _ := (counted hI s.metrics op hfr hh).balance hI hop.1 hop.2
      have e1 : (s.step (.call op)).db = (Opsqueue.step s.db op).2 := by rw [hst]
      have e2 : (s.step (.call op)).metrics = s.after op := by rw [hst]
      rw [e1, e2] at i
      omega
    | refresh c o =>
      rw [callsOf_refresh] at hf hu
      have hr := refresh_step s c o hh
      have i := ih pre (s.step (.refresh c o)) (by rw [hr.1, hdb]) hf ha hu
      rw [hr.1] at i
      obtain ⟨r1, r2, r3, r4, r5, r6, r7, r8⟩ := hr.2
      have e : (s.step (.refresh c o)).metrics.open = s.metrics.open := by
        simp only [Metrics.open, r1, r2, r3, r4]
      rw [e] at i
      exact i
    | restart => exact hh.elim

end Opsqueue
