import Verif.Proofs.Concurrent
import Verif.Proofs.Status
import Verif.Proofs.StatusReads

/-!
# Reads at several moments of a concurrent execution
-/

namespace Opsqueue.Concurrent
open Sql SubmissionDb

/-! ## A call that is cut off -/

theorem exec_suffix {ρ : Type} (x : Code ρ) : ∀ o c, (x.exec o c).2.1 <:+ o := by
  have nx : ∀ o, (next o).2 <:+ o := by
    intro o
    cases o with
    | nil => exact List.suffix_refl _
    | cons f o => exact List.suffix_cons _ _
  induction x with
  | ret r => intro o c; exact List.suffix_refl _
  | stmt f k ih =>
    intro o c
    have h := nx o
    simp only [Code.exec]
    revert h
    rcases next o with ⟨x, o'⟩
    intro h
    cases x with
    | ok =>
      simp only
      cases f c.db with
      | ok b => exact (ih _ _ _).trans h
      | error e => exact (ih _ _ _).trans h
    | fail => exact (ih _ _ _).trans h
    | crash => exact h
    | crashLate => exact h
  | begin k ih =>
    intro o c
    have h := nx o
    simp only [Code.exec]
    revert h
    rcases next o with ⟨x, o'⟩
    intro h
    cases x with
    | ok => exact (ih _ _ _).trans h
    | fail => exact (ih _ _ _).trans h
    | crash => exact h
    | crashLate => exact h
  | commit k ih =>
    intro o c
    have h := nx o
    simp only [Code.exec]
    revert h
    rcases next o with ⟨x, o'⟩
    intro h
    cases x with
    | ok => exact (ih _ _ _).trans h
    | fail => exact (ih _ _ _).trans h
    | crash => exact h
    | crashLate => exact h
  | rollback k ih => intro o c; exact ih _ _

/-- A task that returns before the faults run out does not see what comes after them. -/
theorem exec_some {ρ : Type} (x : Code ρ) : ∀ fs c r o' c', x.exec (fs ++ [.crash]) c = (some r, o', c') →
    ∀ o, ∃ o'', x.exec (fs ++ o) c = (some r, o'', c') := by
  induction x with
  | ret r =>
    intro fs c r' o' c' h o
    simp only [Code.exec, Prod.mk.injEq] at h ⊢
    exact ⟨_, h.1, rfl, h.2.2⟩
  | stmt f k ih =>
    intro fs c r o' c' h o
    cases fs with
    | nil => simp [Code.exec, next] at h
    | cons g fs =>
      simp only [List.cons_append, Code.exec, next] at h ⊢
      cases g with
      | ok =>
        simp only at h ⊢
        cases hf : f c.db with
        | ok b => rw [hf] at h; exact ih _ fs _ _ _ _ h o
        | error e => rw [hf] at h; exact ih _ fs _ _ _ _ h o
      | fail => exact ih _ fs _ _ _ _ h o
      | crash => simp at h
      | crashLate => simp at h
  | begin k ih =>
    intro fs c r o' c' h o
    cases fs with
    | nil => simp [Code.exec, next] at h
    | cons g fs =>
      simp only [List.cons_append, Code.exec, next] at h ⊢
      cases g with
      | ok => exact ih _ fs _ _ _ _ h o
      | fail => exact ih _ fs _ _ _ _ h o
      | crash => simp at h
      | crashLate => simp at h
  | commit k ih =>
    intro fs c r o' c' h o
    cases fs with
    | nil => simp [Code.exec, next] at h
    | cons g fs =>
      simp only [List.cons_append, Code.exec, next] at h ⊢
      cases g with
      | ok => exact ih _ fs _ _ _ _ h o
      | fail => exact ih _ fs _ _ _ _ h o
      | crash => simp at h
      | crashLate => simp at h
  | rollback k ih => intro fs c r o' c' h o; exact ih fs _ _ _ _ h o

/-- What is left of the faults of a program is the end of them. -/
theorem Does.suffix {ε α : Type} {p : Sql ε α} (h : Does p) (o : List Fault) (db : DB) :
    (p ⟨o, db⟩).2.oracle <:+ o := by
  have e := h.spec o db []
  have s := exec_suffix h.code o ⟨db, []⟩
  rw [e] at s
  revert s
  rcases p ⟨o, db⟩ with ⟨r, w⟩
  intro s
  cases r <;> exact s

/-- A transaction that is cut off before its end has no effect. -/
theorem calm {ε α : Type} {p : Sql ε α} (h : DoesTx p) {o : List Fault} {db : DB} (hl : .crashLate ∉ o)
    (hc : (p ⟨o, db⟩).1 = .crash) : (p ⟨o, db⟩).2.db = db := by
  obtain ⟨conv, body, rfl, hb⟩ := h
  have inner : ∀ o', .crashLate ∉ o' →
      ((match body ⟨o', db⟩ with
      | (.err e, w2) => (.err e, ⟨w2.oracle, db⟩)
      | (.crash, w2) => (.crash, ⟨w2.oracle, db⟩)
      | (.ok a, w2) =>
        match w2.oracle with
        | [] => (.ok a, w2)
        | .ok :: o => (.ok a, ⟨o, w2.db⟩)
        | .fail :: o => (.err (conv .io), ⟨o, db⟩)
        | .crash :: o => (.crash, ⟨o, db⟩)
        | .crashLate :: o => (.crash, ⟨o, w2.db⟩) : Res ε α × World)).1 = .crash →
      ((match body ⟨o', db⟩ with
      | (.err e, w2) => (.err e, ⟨w2.oracle, db⟩)
      | (.crash, w2) => (.crash, ⟨w2.oracle, db⟩)
      | (.ok a, w2) =>
        match w2.oracle with
        | [] => (.ok a, w2)
        | .ok :: o => (.ok a, ⟨o, w2.db⟩)
        | .fail :: o => (.err (conv .io), ⟨o, db⟩)
        | .crash :: o => (.crash, ⟨o, db⟩)
        | .crashLate :: o => (.crash, ⟨o, w2.db⟩) : Res ε α × World)).2.db = db := by
    intro o' hl' hc'
    have hs := hb.suffix o' db
    rcases hx : body ⟨o', db⟩ with ⟨r, ⟨o2, db2⟩⟩
    rw [hx] at hc' hs
    simp only at hs
    cases r with
    | err e => rfl
    | crash => rfl
    | ok a =>
      cases o2 with
      | nil => simp at hc'
      | cons f o2 =>
        cases f with
        | ok => simp at hc'
        | fail => rfl
        | crash => rfl
        | crashLate => exact absurd (hs.subset (List.mem_cons_self ..)) hl'
  revert hc
  unfold transaction stmt
  cases o with
  | nil => exact inner [] (by simp)
  | cons f o =>
    have hl' : Fault.crashLate ∉ o := fun h => hl (List.mem_cons_of_mem _ h)
    cases f with
    | ok => exact inner o hl'
    | fail => intro hc; rfl
    | crash => intro hc; rfl
    | crashLate => intro hc; rfl

/-- A call that is cut off has no effect, or it is an insert of an empty submission between its two transactions. -/
theorem cut_off {op : Op} {o : List Fault} {db : DB} (hl : .crashLate ∉ o)
    (hc : (Opsqueue.step db (withFaults o op)).1.crashed = true) :
    (Opsqueue.step db (withFaults o op)).2 = db ∨
    ∃ a now o', op = .insert a now o' ∧ a.contents = [] ∧ Eff.InsertOk a db ∧
      (Opsqueue.step db (withFaults o op)).2 = Eff.insert a db := by
  cases op with
  | complete cid out t1 t2 o' =>
    left
    simp only [withFaults, Opsqueue.step, ChunkDb.completeChunk, matchRes_run] at hc ⊢
    have h := calm (db := db) (tx_completeChunk cid out t1 t2) hl
    rcases hx : ChunkDb.completeChunkTx cid out t1 t2 ⟨o, db⟩ with ⟨r, w⟩
    rw [hx] at h hc
    cases r with
    | ok b => simp [pure_run, Out.crashed] at hc
    | err e => simp [pure_run, Out.crashed] at hc
    | crash => exact h rfl
  | fail cid f m t1 t2 t3 o' =>
    left
    simp only [withFaults, Opsqueue.step] at hc ⊢
    refine calm (tx_failChunk cid f m t1 t2 t3) hl ?_
    cases hx : (ChunkDb.retryOrFailChunk cid f m t1 t2 t3 ⟨o, db⟩).1 <;> rw [hx] at hc <;>
      simp_all [Out.crashed]
  | cancel id t1 t2 o' =>
    left
    simp only [withFaults, Opsqueue.step] at hc ⊢
    refine calm (tx_cancel id t1 t2) hl ?_
    cases hx : (cancelSubmission id t1 t2 ⟨o, db⟩).1 <;> rw [hx] at hc <;> simp_all [Out.crashed]
  | cleanup t o' =>
    left
    simp only [withFaults, Opsqueue.step] at hc ⊢
    refine calm (tx_cleanup t) hl ?_
    cases hx : (cleanupOld t ⟨o, db⟩).1 <;> rw [hx] at hc <;> simp_all [Out.crashed]
  | insert a now o' =>
    simp only [withFaults, Opsqueue.step, insertSubmissionFromChunks, bind_run] at hc ⊢
    have h := calm (db := db) (tx_insertSubmission a.row a.strategic (mkChunks a.id a.contents)) hl
    have hsuf := (does_insertSubmission a.row a.strategic (mkChunks a.id a.contents)).suffix o db
    have hb : insertSubmission a.row a.strategic (mkChunks a.id a.contents) =
        transaction (fun e => e) (insertBody a) := rfl
    have hspec := transaction_spec (conv := fun e => e) (faithful_insertBody a) ⟨o, db⟩
    rw [← hb] at hspec
    rcases hx : insertSubmission a.row a.strategic (mkChunks a.id a.contents) ⟨o, db⟩ with ⟨r, w⟩
    rw [hx] at h hc hspec hsuf
    cases r with
    | err e => simp [Out.crashed] at hc
    | crash => exact .inl (h rfl)
    | ok u =>
      simp only at hc ⊢
      have hins : w.db = Eff.insert a db ∧ Eff.InsertOk a db := by
        rcases hspec with ⟨hno, _⟩ | ⟨x, hbody, _⟩
        · exact absurd rfl (hno u)
        · by_cases hok : Eff.InsertOk a db
          · rw [insertBody_ok a db hok] at hbody
            simp only [Prod.mk.injEq, World.mk.injEq, true_and] at hbody
            exact ⟨hbody.symm, hok⟩
          · obtain ⟨db', h'⟩ := insertBody_err a db hok
            rw [h'] at hbody
            simp at hbody
      split at hc
      · rename_i hlen
        rw [if_pos hlen]
        right
        refine ⟨a, now, o', rfl, List.length_eq_zero_iff.1 hlen, hins.2, ?_⟩
        rw [matchRes_run] at hc ⊢
        have hl' : Fault.crashLate ∉ w.oracle := fun hm => hl (hsuf.subset hm)
        have h2 := calm (db := w.db) (tx_maybeComplete a.id now) hl'
        rcases hy : maybeCompleteSubmission a.id now w with ⟨r, w2⟩
        rw [show (⟨w.oracle, w.db⟩ : World) = w from rfl, hy] at h2
        rw [hy] at hc
        cases r with
        | ok b => simp [pure_run, Out.crashed] at hc
        | err e => cases e <;> simp [pure_run, throw_run, Out.crashed] at hc
        | crash => rw [← hins.1]; exact h2 rfl
      · simp [pure_run, Out.crashed] at hc

/-! ## Status calls -/

/-- A status call cannot tell the databases apart. -/
structure Sel (id : SubmissionId) (d e : DB) : Prop where
  sub : Stmt.selectSubmission id d = Stmt.selectSubmission id e
  comp : Stmt.selectCompleted id d = Stmt.selectCompleted id e
  fail : Stmt.selectFailed id d = Stmt.selectFailed id e
  canc : Stmt.selectCancelled id d = Stmt.selectCancelled id e
  cf : ∀ cid, Stmt.selectChunkFailed cid d = Stmt.selectChunkFailed cid e

theorem Sel.status {id : SubmissionId} {d e : DB} (h : Sel id d e) : statusAt d id = statusAt e id := by
  rw [statusAt_eq, statusAt_eq]
  unfold statusReads
  rw [h.sub, h.comp, h.fail, h.canc]
  simp only [h.cf]

theorem strategicOf_insert {a : InsertArgs} {db : DB} {id : SubmissionId} (h : a.id ≠ id) :
    Stmt.strategicOf id (Eff.insert a db) = Stmt.strategicOf id db := by
  unfold Stmt.strategicOf Eff.insert metaRows
  rw [List.filter_append]
  have : ((a.strategic.map fun kv => (⟨a.id, kv.1, kv.2⟩ : MetaRow)).filter (·.submissionId == id)) = [] := by
    rw [List.filter_eq_nil_iff]
    intro r hr
    obtain ⟨kv, _, rfl⟩ := List.mem_map.mp hr
    simpa using h
  rw [this, List.append_nil]

theorem sel_insert {a : InsertArgs} {db : DB} {id : SubmissionId} (h : a.id ≠ id) : Sel id (Eff.insert a db) db := by
  have hst := strategicOf_insert (db := db) h
  refine ⟨?_, ?_, ?_, ?_, fun cid => rfl⟩
  · unfold Stmt.selectSubmission
    have e : (Eff.insert a db).submissions.find? (·.id == id) = db.submissions.find? (·.id == id) := by
      simp [Eff.insert, List.find?_append, InsertArgs.row, h]
    rw [e]
    cases hf : db.submissions.find? (·.id == id) with
    | none => rfl
    | some r => simp only [Option.map_some, show r.id = id by simpa using List.find?_some hf, hst]
  · unfold Stmt.selectCompleted
    have e : (Eff.insert a db).submissionsCompleted = db.submissionsCompleted := rfl
    rw [e]
    cases hf : db.submissionsCompleted.find? (·.id == id) with
    | none => rfl
    | some r => simp only [Option.map_some, show r.id = id by simpa using List.find?_some hf, hst]
  · unfold Stmt.selectFailed
    have e : (Eff.insert a db).submissionsFailed = db.submissionsFailed := rfl
    rw [e]
    cases hf : db.submissionsFailed.find? (·.id == id) with
    | none => rfl
    | some r => simp only [Option.map_some, show r.id = id by simpa using List.find?_some hf, hst]
  · unfold Stmt.selectCancelled
    have e : (Eff.insert a db).submissionsCancelled = db.submissionsCancelled := rfl
    rw [e]
    cases hf : db.submissionsCancelled.find? (·.id == id) with
    | none => rfl
    | some r => simp only [Option.map_some, show r.id = id by simpa using List.find?_some hf, hst]

/-- The outcome of the first `m` calls, or that with the first transaction of the next call, an insert. -/
def Almost (ops : List Op) (m : Nat) (d : DB) : Prop :=
  m ≤ ops.length ∧ (d = Opsqueue.run (ops.take m) ∨
    ∃ a now o, ops[m]? = some (.insert a now o) ∧ d = Eff.insert a (Opsqueue.run (ops.take m)))

/-- The submission is just being inserted. -/
def Fresh (ops : List Op) (id : SubmissionId) (m : Nat) (d : DB) : Prop :=
  ∃ a now o, ops[m]? = some (.insert a now o) ∧ a.id = id ∧ d = Eff.insert a (Opsqueue.run (ops.take m))

theorem Almost.cases {ops : List Op} {m : Nat} {d : DB} (h : Almost ops m d) (id : SubmissionId) :
    Sel id d (Opsqueue.run (ops.take m)) ∨ Fresh ops id m d := by
  rcases h.2 with rfl | ⟨a, now, o, h1, rfl⟩
  · exact .inl ⟨rfl, rfl, rfl, rfl, fun _ => rfl⟩
  · by_cases hid : a.id = id
    · exact .inr ⟨a, now, o, h1, hid, rfl⟩
    · exact .inl (sel_insert hid)

theorem Fresh.unknown {ops : List Op} {id : SubmissionId} {m : Nat} {d : DB} (h : Fresh ops id m d) (hf : FreshIds ops)
    {k : Nat} (hk : k ≤ m) : id ∉ allIds (Opsqueue.run (ops.take k)) := by
  obtain ⟨a, now, o, h1, rfl, -⟩ := h
  have e : ops = ops.take m ++ .insert a now o :: ops.drop (m + 1) := by
    obtain ⟨hlt, hget⟩ := List.getElem?_eq_some_iff.mp h1
    rw [← hget, List.getElem_cons_drop, List.take_append_drop]
  have hf' : FreshIds (ops.take m ++ [.insert a now o]) := by
    refine FreshIds.prefix (ys := ops.drop (m + 1)) ?_
    rw [List.append_assoc, List.singleton_append, ← e]
    exact hf
  obtain ⟨h2, h3⟩ := hf'.snoc
  have ht : ops.take m = ops.take k ++ (ops.take m).drop k := by
    have := List.take_append_drop k (ops.take m)
    rw [List.take_take, Nat.min_eq_left hk] at this
    exact this.symm
  intro hm
  refine h3 a.id rfl ?_
  rw [ht, List.filterMap_append]
  refine List.mem_append_left _ (known_inserted ?_ hm)
  rw [ht] at h2
  exact h2.prefix

theorem Fresh.none {ops : List Op} {id : SubmissionId} {m : Nat} {d : DB} (h : Fresh ops id m d) (hf : FreshIds ops) :
    (Stmt.selectCompleted id d = .none ∧ Stmt.selectCompleted id (Opsqueue.run (ops.take m)) = .none) ∧
    (Stmt.selectFailed id d = .none ∧ Stmt.selectFailed id (Opsqueue.run (ops.take m)) = .none) ∧
    (Stmt.selectCancelled id d = .none ∧ Stmt.selectCancelled id (Opsqueue.run (ops.take m)) = .none) ∧
    (∀ cid, Stmt.selectChunkFailed cid d = Stmt.selectChunkFailed cid (Opsqueue.run (ops.take m))) := by
  have hu := h.unknown hf (Nat.le_refl m)
  obtain ⟨a, now, o, h1, rfl, rfl⟩ := h
  simp only [allIds, List.mem_append, not_or] at hu
  exact ⟨⟨selectCompleted_none.2 hu.1.1.2, selectCompleted_none.2 hu.1.1.2⟩,
    ⟨selectFailed_none.2 hu.1.2, selectFailed_none.2 hu.1.2⟩,
    ⟨selectCancelled_none.2 hu.2, selectCancelled_none.2 hu.2⟩, fun _ => rfl⟩

/-- **Status calls.** The answer is true at one of the moments of the reads, even if these see calls between their
transactions. -/
theorem status_almost {ops : List Op} (hf : FreshIds ops) {id : SubmissionId} {m1 m2 m3 m4 : Nat} (h12 : m1 ≤ m2)
    (h23 : m2 ≤ m3) (h34 : m3 ≤ m4) {d1 d2 d3 d4 : DB} (a1 : Almost ops m1 d1) (a2 : Almost ops m2 d2)
    (a3 : Almost ops m3 d3) (a4 : Almost ops m4 d4) {r : Option SubmissionStatus}
    (h : statusReads id d1 d2 d3 d4 d4 = .ok r) :
    statusAt d1 id = .ok r ∨ statusAt d2 id = .ok r ∨ statusAt d3 id = .ok r ∨ statusAt d4 id = .ok r := by
  let R := fun m => Opsqueue.run (ops.take m)
  have split : ∀ {i j}, i ≤ j → ∃ y, ops.take j = ops.take i ++ y := by
    intro i j hij
    refine ⟨(ops.take j).drop i, ?_⟩
    have := List.take_append_drop i (ops.take j)
    rw [List.take_take, Nat.min_eq_left hij] at this
    exact this.symm
  have hR : ∀ q, statusReads id (R m1) (R m2) (R m3) (R m4) (R m4) = .ok q →
      statusAt (R m1) id = .ok q ∨ statusAt (R m2) id = .ok q ∨ statusAt (R m3) id = .ok q ∨
        statusAt (R m4) id = .ok q := by
    intro q hq
    obtain ⟨y1, e1⟩ := split h12
    obtain ⟨y2, e2⟩ := split h23
    obtain ⟨y3, e3⟩ := split h34
    rw [e1, List.append_assoc] at e2
    rw [e2, List.append_assoc] at e3
    have hf4 : FreshIds (ops.take m4) := by
      refine FreshIds.prefix (ys := ops.drop m4) ?_
      rw [List.take_append_drop]
      exact hf
    simp only [R] at hq ⊢
    rw [e1, e2, e3] at hq ⊢
    exact status_moment id _ y1 y2 y3 (e3 ▸ hf4) q hq
  rcases a1.cases id with s1 | b1
  · -- the first read cannot be told apart
    by_cases hb : Fresh ops id m2 d2 ∨ Fresh ops id m3 d3 ∨ Fresh ops id m4 d4
    · have hu1 : id ∉ allIds (R m1) := by
        rcases hb with hb | hb | hb
        · exact hb.unknown hf h12
        · exact hb.unknown hf (Nat.le_trans h12 h23)
        · exact hb.unknown hf (Nat.le_trans (Nat.le_trans h12 h23) h34)
      have hn1 : statusAt d1 id = .ok .none := by rw [s1.status]; exact statusAt_none hu1
      cases r with
      | none => exact .inl hn1
      | some st =>
        have c2 : Stmt.selectCompleted id d2 = Stmt.selectCompleted id (R m2) := by
          rcases a2.cases id with s | b
          · exact s.comp
          · rw [(b.none hf).1.1, (b.none hf).1.2]
        have c3 : Stmt.selectFailed id d3 = Stmt.selectFailed id (R m3) := by
          rcases a3.cases id with s | b
          · exact s.fail
          · rw [(b.none hf).2.1.1, (b.none hf).2.1.2]
        have c4 : Stmt.selectCancelled id d4 = Stmt.selectCancelled id (R m4) := by
          rcases a4.cases id with s | b
          · exact s.canc
          · rw [(b.none hf).2.2.1.1, (b.none hf).2.2.1.2]
        have c5 : ∀ cid, Stmt.selectChunkFailed cid d4 = Stmt.selectChunkFailed cid (R m4) := by
          rcases a4.cases id with s | b
          · exact s.cf
          · exact (b.none hf).2.2.2
        have hr : statusReads id (R m1) (R m2) (R m3) (R m4) (R m4) = .ok (some st) := by
          rw [← h]
          unfold statusReads
          rw [s1.sub, c2, c3, c4]
          simp only [c5]
          rfl
        have keep : ∀ {m d}, Almost ops m d → statusAt (R m) id = .ok (some st) → statusAt d id = .ok (some st) := by
          intro m d ha hs
          rcases ha.cases id with s | b
          · rw [s.status]; exact hs
          · have := statusAt_none (b.unknown hf (Nat.le_refl m))
            rw [show statusAt (R m) id = _ from this] at hs
            cases hs
        rcases hR _ hr with h | h | h | h
        · exact .inl (keep a1 h)
        · exact .inr (.inl (keep a2 h))
        · exact .inr (.inr (.inl (keep a3 h)))
        · exact .inr (.inr (.inr (keep a4 h)))
    · simp only [not_or] at hb
      have s2 := (a2.cases id).resolve_right hb.1
      have s3 := (a3.cases id).resolve_right hb.2.1
      have s4 := (a4.cases id).resolve_right hb.2.2
      rw [s1.status, s2.status, s3.status, s4.status]
      refine hR r ?_
      rw [← h]
      unfold statusReads
      rw [s1.sub, s2.comp, s3.fail, s4.canc]
      simp only [s4.cf]
      rfl
  · -- found by the first read
    left
    obtain ⟨a, now, o, _, rfl, rfl⟩ := b1
    rw [statusAt_eq]
    cases hs : Stmt.selectSubmission a.id (Eff.insert a (Opsqueue.run (ops.take m1))) with
    | none =>
      have := selectSubmission_none.1 hs
      simp [Eff.insert, InsertArgs.row] at this
    | some s =>
      unfold statusReads at h ⊢
      rw [hs] at h ⊢
      simp only at h ⊢
      rw [h]
      rfl

/-! ## Reads of a concurrent execution -/

/-- The database was seen after `m` calls, or in the middle of the insert that came next. -/
def Was (op : Nat → Op) (past : List (Nat × List Fault)) (act : Option (Nat × List Fault)) (d : DB) (m : Nat) : Prop :=
  (m ≤ past.length ∧ d = Opsqueue.run (calls op (past.take m))) ∨
  (∃ i fs, act = some (i, fs) ∧ m = past.length + 1 ∧
    ∀ o, (Opsqueue.step (Opsqueue.run (calls op past)) (withFaults (fs ++ o) (op i))).2 = d) ∨
  (∃ i, m ≤ past.length ∧ (past.map (·.1) ++ (act.map (·.1)).toList)[m]? = some i ∧
    ∃ a now o, op i = .insert a now o ∧ d = Eff.insert a (Opsqueue.run (calls op (past.take m))))

theorem Was.later {op : Nat → Op} {past past' : List (Nat × List Fault)} {act act' : Option (Nat × List Fault)} {d : DB}
    {m : Nat} (h : Was op past act d m) (hl : Later past act past' act') : Was op past' act' d m := by
  cases hl with
  | idle _ =>
    rcases h with h | ⟨i, fs, h, _⟩ | ⟨i, h1, h2, h3⟩
    · exact .inl h
    · cases h
    · refine .inr (.inr ⟨i, h1, ?_, h3⟩)
      simp only [Option.map_none, Option.toList_none, List.append_nil] at h2
      rw [List.getElem?_append_left (List.getElem?_eq_some_iff.mp h2).1]
      exact h2
  | goes i fs g =>
    rcases h with h | ⟨j, gs, h, hm, hd⟩ | ⟨j, h1, h2, h3⟩
    · exact .inl h
    · simp only [Option.some.injEq, Prod.mk.injEq] at h
      obtain ⟨rfl, rfl⟩ := h
      exact .inr (.inl ⟨i, fs ++ g, rfl, hm, fun o => by rw [List.append_assoc]; exact hd _⟩)
    · exact .inr (.inr ⟨j, h1, h2, h3⟩)
  | ends i fs g =>
    rcases h with ⟨hm, hd⟩ | ⟨j, gs, h, hm, hd⟩ | ⟨j, h1, h2, h3⟩
    · refine .inl ⟨by rw [List.length_append]; omega, ?_⟩
      rw [List.take_append_of_le_length hm]
      exact hd
    · simp only [Option.some.injEq, Prod.mk.injEq] at h
      obtain ⟨rfl, rfl⟩ := h
      refine .inl ⟨by simp [hm], ?_⟩
      rw [List.take_of_length_le (by simp [hm]), run_calls_snoc]
      exact (hd g).symm
    · refine .inr (.inr ⟨j, by rw [List.length_append]; omega, ?_, ?_⟩)
      · simpa using h2
      · rw [List.take_append_of_le_length h1]
        exact h3

theorem Plain.notLate {es : List Event} {fs : List Fault} (h : Plain es fs) : .crashLate ∉ fs ++ [.crash] := by
  intro hm
  rcases List.mem_append.mp hm with hm | hm
  · rcases h _ hm with h | ⟨h, _⟩ <;> cases h
  · simp at hm

/-- What is seen now was not seen before what was seen before. -/
theorem was_now {op : Nat → Op} {code : Nat → Code Out} (hc : ∀ i, Runs (code i) (op i)) {es : List Event} {s : State}
    {past : List (Nat × List Fault)} {act : Option (Nat × List Fault)} (hg : Good op code es s past act) {d : DB} {m : Nat}
    (h : Was op past act d m) : ∃ m', m ≤ m' ∧ Was op past act s.seen m' := by
  cases ha : s.active with
  | none =>
    obtain ⟨h0, -, h2⟩ := hg.idle ha
    have hw : Was op past act s.seen past.length := by
      refine .inl ⟨Nat.le_refl _, ?_⟩
      rw [List.take_of_length_le (Nat.le_refl _), State.seen, ha]
      exact h2
    rcases h with ⟨hm, -⟩ | ⟨i, fs, h, -⟩ | ⟨i, hm, -⟩
    · exact ⟨_, hm, hw⟩
    · rw [h0] at h; cases h
    · exact ⟨_, hm, hw⟩
  | some a =>
    obtain ⟨fs, h0, h1, h2, h3⟩ := hg.busy a ha
    have hseen : s.seen = (Opsqueue.step (Opsqueue.run (calls op past)) (withFaults (fs ++ [.crash]) (op a.task))).2 := by
      rw [State.seen, ha, killed (hc a.task), h3]
      exact (exec_crash _ _).symm
    rcases h with ⟨hm, -⟩ | ⟨i, gs, h, hm, hd⟩ | ⟨i, hm, -⟩
    rotate_left
    · rw [h0] at h
      simp only [Option.some.injEq, Prod.mk.injEq] at h
      obtain ⟨rfl, rfl⟩ := h
      refine ⟨m, Nat.le_refl _, .inr (.inl ⟨a.task, fs, h0, hm, fun o => ?_⟩)⟩
      rw [hd, hseen, hd]
    all_goals
    · rcases he : (code a.task).exec (fs ++ [.crash]) ⟨Opsqueue.run (calls op past), []⟩ with ⟨r, o', c'⟩
      cases r with
      | some r =>
        refine ⟨past.length + 1, by omega, .inr (.inl ⟨a.task, fs, h0, rfl, fun o => ?_⟩)⟩
        obtain ⟨o'', he'⟩ := exec_some _ _ _ _ _ _ he o
        rw [hseen, killed (hc a.task), killed (hc a.task), he, he']
      | none =>
        have hcr := ((hc a.task (fs ++ [.crash]) (Opsqueue.run (calls op past))).2 o' c' he).1
        refine ⟨past.length, hm, ?_⟩
        rcases cut_off h2.notLate hcr with hx | ⟨b, now, o, hx1, -, -, hx2⟩
        · refine .inl ⟨Nat.le_refl _, ?_⟩
          rw [hseen, hx, List.take_of_length_le (Nat.le_refl _)]
        · refine .inr (.inr ⟨a.task, Nat.le_refl _, ?_, b, now, o, hx1, ?_⟩)
          · rw [h0]; simp
          · rw [hseen, hx2, List.take_of_length_le (Nat.le_refl _)]

theorem was_run {op : Nat → Op} {code : Nat → Code Out} (hc : ∀ i, Runs (code i) (op i)) (more : List Event) :
    ∀ {es : List Event} {s s' : State} {past : List (Nat × List Fault)} {act : Option (Nat × List Fault)},
      Good op code es s past act → run code s more = some s' →
      ∃ past' act', Good op code (es ++ more) s' past' act' ∧ ∀ d m, Was op past act d m → Was op past' act' d m := by
  induction more with
  | nil =>
    intro es s s' past act hg h
    simp only [run, Option.some.injEq] at h
    subst h
    exact ⟨past, act, by rwa [List.append_nil], fun _ _ h => h⟩
  | cons e more ih =>
    intro es s s' past act hg h
    simp only [run] at h
    cases he : step code s e with
    | none => rw [he] at h; cases h
    | some s1 =>
      rw [he] at h
      obtain ⟨past1, act1, hg1, hl⟩ := good_step hc hg he
      obtain ⟨past', act', hg', hw⟩ := ih hg1 h
      refine ⟨past', act', ?_, fun d m hd => hw d m (hd.later hl)⟩
      rwa [List.append_assoc, List.singleton_append] at hg'

/-- The calls so far, the running one cut off. -/
def upToNow (past : List (Nat × List Fault)) (act : Option (Nat × List Fault)) : List (Nat × List Fault) :=
  past ++ (act.map fun x => (x.1, x.2 ++ [.crash])).toList

theorem Was.almost {op : Nat → Op} {past : List (Nat × List Fault)} {act : Option (Nat × List Fault)} {d : DB} {m : Nat}
    (h : Was op past act d m) : Almost (calls op (upToNow past act)) m d := by
  have tk : ∀ k ≤ past.length, (calls op (upToNow past act)).take k = calls op (past.take k) := by
    intro k hk
    unfold calls upToNow
    rw [← List.map_take, List.take_append_of_le_length hk]
  have len : past.length ≤ (calls op (upToNow past act)).length := by
    unfold calls upToNow
    rw [List.length_map, List.length_append]
    omega
  rcases h with ⟨hm, hd⟩ | ⟨i, fs, h, hm, hd⟩ | ⟨i, hm, h2, a, now, o, h3, h4⟩
  · exact ⟨Nat.le_trans hm len, .inl (by rw [tk m hm]; exact hd)⟩
  · subst h
    refine ⟨by simp [calls, upToNow, hm], .inl ?_⟩
    rw [List.take_of_length_le (by simp [calls, upToNow, hm]), ← hd [.crash], ← run_calls_snoc]
    rfl
  · refine ⟨Nat.le_trans hm len, .inr ?_⟩
    have hmap : (upToNow past act).map (·.1) = past.map (·.1) ++ (act.map (·.1)).toList := by
      cases act <;> simp [upToNow]
    rw [← hmap, List.getElem?_map] at h2
    cases hg : (upToNow past act)[m]? with
    | none => rw [hg] at h2; cases h2
    | some x =>
      rw [hg] at h2
      simp only [Option.map_some, Option.some.injEq] at h2
      refine ⟨a, now, x.2, ?_, by rw [tk m hm]; exact h4⟩
      unfold calls
      rw [List.getElem?_map, hg, Option.map_some, h2, h3]
      rfl

theorem fresh_calls {op : Nat → Op} {hist : List (Nat × List Fault)}
    (h : ((hist.map (·.1)).filterMap fun i => (op i).insertId).Nodup) : FreshIds (calls op hist) := by
  unfold FreshIds calls
  rw [List.filterMap_map] at h ⊢
  have e : (fun h : Nat × List Fault => (withFaults h.2 (op h.1)).insertId) =
      fun h : Nat × List Fault => (op h.1).insertId := by
    funext h
    cases op h.1 <;> rfl
  rw [show (Op.insertId ∘ fun h : Nat × List Fault => withFaults h.2 (op h.1)) = _ from e]
  exact h

theorem Good.acquired {op : Nat → Op} {code : Nat → Code Out} {es : List Event} {s : State}
    {past : List (Nat × List Fault)} {act : Option (Nat × List Fault)} (hg : Good op code es s past act) :
    (upToNow past act).map (·.1) = Concurrent.acquired es := by
  unfold upToNow
  cases ha : s.active with
  | none =>
    obtain ⟨h0, h1, -⟩ := hg.idle ha
    rw [h0, h1]; simp
  | some a =>
    obtain ⟨fs, h0, h1, -⟩ := hg.busy a ha
    rw [h0, h1]; simp

end Opsqueue.Concurrent
