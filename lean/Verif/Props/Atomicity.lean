import Verif.Proofs.Faults
import Verif.Props.Calls

/-!
# C11, C12, C13: crashes, failing statements, empty submissions
-/

namespace Opsqueue
open Sql SubmissionDb

/-- What a transaction leaves behind, against its undisturbed run. -/
private theorem tx_cases {ε α : Type} {conv : DbErr → ε} {body : Sql ε α} (hb : Faithful body)
    (o : List Fault) (db : DB) :
    (∃ r w, transaction conv body ⟨o, db⟩ = (r, w) ∧ w.db = db ∧ ∀ a, r ≠ .ok a) ∨
    (∃ r w a, transaction conv body ⟨o, db⟩ = (r, w) ∧
      transaction conv body ⟨[], db⟩ = (.ok a, ⟨[], w.db⟩) ∧ (r = .ok a ∨ r = .crash)) := by
  rcases ht : transaction conv body ⟨o, db⟩ with ⟨r, w⟩
  have hspec := transaction_spec (conv := conv) hb ⟨o, db⟩
  rw [ht] at hspec
  rcases hspec with ⟨h1, h2⟩ | ⟨a, h1, h2⟩
  · exact .inl ⟨r, w, rfl, h2, h1⟩
  · refine .inr ⟨r, w, a, rfl, ?_, h2⟩
    simp only at h1
    rw [transaction_nil, h1]

/-- **C11.** Any call except the insert of an empty submission, struck by any faults in any database:
the database found afterwards is the one before the call or the one the undisturbed call produces;
if the call returned an error, it is the one before. -/
theorem C11_atomic (db : DB) (op : Op) (hne : op.insertsEmpty = false) :
    ((step db op).2 = db ∨ (step db op).2 = (step db op.clean).2) ∧
    ((step db op).1.isErr = true → (step db op).2 = db) := by
  cases op with
  | insert a now o =>
    have hc : a.contents ≠ [] := by simpa [Op.insertsEmpty] using hne
    rcases C10_insert_all_or_nothing db a now hc o _ _ rfl with h | ⟨⟨e, h1⟩, h2⟩ | ⟨h1, h2 | h2⟩
    · refine ⟨.inr (congrArg Prod.snd h), fun he => ?_⟩
      have h1 : (step db (.insert a now o)).1 = _ := congrArg Prod.fst h
      have h2 : (step db (.insert a now o)).2 = _ := congrArg Prod.snd h
      rw [h1] at he
      rw [h2]
      -- an undisturbed call that errs has no effect
      have hlen : ¬ a.contents.length = 0 := by simpa [List.length_eq_zero_iff] using hc
      by_cases hok : Eff.InsertOk a db
      · simp [step, insertSubmissionFromChunks, bind_run, insertSubmission_ok a db hok, hlen,
          hc, pure_run, Out.isErr] at he
      · simp [step, insertSubmissionFromChunks, bind_run, insertSubmission_err a db hok]
    · exact ⟨.inl h2, fun _ => h2⟩
    · exact ⟨.inl h2, fun _ => h2⟩
    · exact ⟨.inr h2, fun he => by
        rw [show (step db (.insert a now o)).1 = _ from h1] at he; simp [Out.isErr] at he⟩
  | complete cid out t1 t2 o =>
    have hb : ChunkDb.completeChunkTx cid out t1 t2 = transaction E.L (completeBody cid out t1 t2) := rfl
    simp only [step, Op.clean, ChunkDb.completeChunk, matchRes_run, hb]
    rcases tx_cases (conv := E.L) (faithful_completeBody cid out t1 t2) o db with
      ⟨r, w, h, hdb, _⟩ | ⟨r, w, a, h, h', hr⟩
    · rw [h]
      cases r <;> simp [pure_run, hdb]
    · rw [h, h']
      rcases hr with rfl | rfl <;> simp [pure_run, Out.isErr]
  | fail cid f m t1 t2 t3 o =>
    simp only [step, Op.clean, retry_tx]
    rcases tx_cases (conv := fun e => e) (faithful_failBody cid f m t1 t2 t3) o db with
      ⟨r, w, h, hdb, _⟩ | ⟨r, w, a, h, h', hr⟩
    · rw [h]; exact ⟨.inl hdb, fun _ => hdb⟩
    · rw [h, h']
      rcases hr with rfl | rfl <;> simp [Out.isErr]
  | cancel id t1 t2 o =>
    simp only [step, Op.clean, cancel_tx]
    rcases tx_cases (conv := fun e => .err (.L e)) (faithful_cancelBody id t1 t2) o db with
      ⟨r, w, h, hdb, _⟩ | ⟨r, w, a, h, h', hr⟩
    · rw [h]; exact ⟨.inl hdb, fun _ => hdb⟩
    · rw [h, h']
      rcases hr with rfl | rfl <;> simp [Out.isErr]
  | cleanup t o =>
    simp only [step, Op.clean, cleanupOld]
    rcases tx_cases (conv := fun e => e) (faithful_cleanupBody t) o db with
      ⟨r, w, h, hdb, _⟩ | ⟨r, w, a, h, h', hr⟩
    · rw [h]; exact ⟨.inl hdb, fun _ => hdb⟩
    · rw [h, h']
      rcases hr with rfl | rfl <;> simp [Out.isErr]

/-- **C11, success.** A call that returned successfully, whatever faults struck, has done all of what the undisturbed
call does, and returned the same. Completing a chunk is the exception: it returns success also if its transaction
failed (`C14`). -/
theorem C11_success_is_full_effect (db : DB) (op : Op) (hne : op.insertsEmpty = false)
    (hnc : ∀ cid out t1 t2 o, op ≠ .complete cid out t1 t2 o) (hok : (step db op).1.isOk = true) :
    step db op = step db op.clean := by
  cases op with
  | insert a now o =>
    have hc : a.contents ≠ [] := by simpa [Op.insertsEmpty] using hne
    rcases C10_insert_all_or_nothing db a now hc o _ _ (Prod.eta _).symm with h | ⟨⟨e, h1⟩, h2⟩ | ⟨h1, h2⟩
    · exact h
    · rw [h1] at hok; simp [Out.isOk] at hok
    · rw [h1] at hok; simp [Out.isOk] at hok
  | complete cid out t1 t2 o => exact absurd rfl (hnc cid out t1 t2 o)
  | fail cid f m t1 t2 t3 o =>
    simp only [step, Op.clean, retry_tx] at hok ⊢
    rcases tx_cases (conv := fun e => e) (faithful_failBody cid f m t1 t2 t3) o db with
      ⟨r, w, h, hdb, hr⟩ | ⟨r, w, a, h, h', hr⟩
    · rw [h] at hok
      cases r <;> simp_all [Out.isOk]
    · rw [h] at hok ⊢; rw [h']
      rcases hr with rfl | rfl
      · rfl
      · simp [Out.isOk] at hok
  | cancel id t1 t2 o =>
    simp only [step, Op.clean, cancel_tx] at hok ⊢
    rcases tx_cases (conv := fun e => .err (.L e)) (faithful_cancelBody id t1 t2) o db with
      ⟨r, w, h, hdb, hr⟩ | ⟨r, w, a, h, h', hr⟩
    · rw [h] at hok
      cases r <;> simp_all [Out.isOk]
    · rw [h] at hok ⊢; rw [h']
      rcases hr with rfl | rfl
      · rfl
      · simp [Out.isOk] at hok
  | cleanup t o =>
    simp only [step, Op.clean, cleanupOld] at hok ⊢
    rcases tx_cases (conv := fun e => e) (faithful_cleanupBody t) o db with
      ⟨r, w, h, hdb, hr⟩ | ⟨r, w, a, h, h', hr⟩
    · rw [h] at hok
      cases r <;> simp_all [Out.isOk]
    · rw [h] at hok ⊢; rw [h']
      rcases hr with rfl | rfl
      · rfl
      · simp [Out.isOk] at hok

/-- C11 for the insert of an empty submission, which is two transactions: the database found
afterwards is the one before, the one after the first transaction (with the submission in progress),
or the one the undisturbed call produces. -/
theorem C11_atomic_empty_insert (ops : List Op) (a : InsertArgs) (now : Time) (o : List Fault)
    (hf : FreshIds (ops ++ [.insert a now o])) (hmap : (a.strategic.map (·.1)).Nodup)
    (he : a.contents = []) :
    (step (run ops) (.insert a now o)).2 = run ops ∨
    (step (run ops) (.insert a now o)).2 =
      (insertSubmission a.row a.strategic [] ⟨[], run ops⟩).2.db ∨
    (step (run ops) (.insert a now o)).2 = (step (run ops) (.insert a now [])).2 := by
  have hI := inv_run hf.snoc.1
  have hfr := fresh_run hf (x := a.id) rfl
  have hok := insertOk_of_fresh hI hfr hmap
  have he2 := effect_run hf
  rw [run_snoc] at he2
  rw [step_insert_ok hI now hfr hmap, if_pos he]
  have h1 : (insertSubmission a.row a.strategic [] ⟨[], run ops⟩).2.db = Eff.insert a (run ops) := by
    have := insertSubmission_ok a (run ops) hok
    rw [show mkChunks a.id a.contents = [] by rw [he]; rfl] at this
    rw [this]
  rw [h1]
  generalize (step (run ops) (.insert a now o)).2 = db' at he2
  cases he2 with
  | none => exact .inl rfl
  | insert _ _ _ _ => exact .inr (.inl rfl)
  | insertEmpty _ _ _ _ _ => exact .inr (.inr rfl)

/-- A commit that crashes: before or after it became durable. -/
example :
    let db := run exampleBeforeFail
    let k := fun f : Fault => Op.complete ⟨7, 0⟩ none 30 31 (List.replicate 7 .ok ++ [f])
    (step db (k .crash)).1.crashed ∧ (step db (k .crash)).2 = db ∧
    (step db (k .crashLate)).1.crashed ∧ (step db (k .crashLate)).2 ≠ db ∧
    (step db (k .fail)).2 = db ∧ (k .fail).insertsEmpty = false := by
  decide +kernel

/-- **C12.** Each of the transactions the calls consist of: if any of its statements (or its BEGIN or
COMMIT) fails — a `fail` symbol is among those the transaction consumed — it has no effect at all. -/
theorem C12_failed_statement_no_effect :
    (∀ s m cs, FailSafe (insertSubmission s m cs)) ∧
    (∀ id t, FailSafe (maybeCompleteSubmission id t)) ∧
    (∀ cid out t1 t2, FailSafe (ChunkDb.completeChunkTx cid out t1 t2)) ∧
    (∀ cid f m t1 t2 t3, FailSafe (ChunkDb.retryOrFailChunk cid f m t1 t2 t3)) ∧
    (∀ id t1 t2, FailSafe (cancelSubmission id t1 t2)) ∧
    (∀ t, FailSafe (cleanupOld t)) :=
  ⟨fun _ _ _ => failSafe_transaction (noFail_insertSubmissionBody _ _ _),
   fun _ _ => failSafe_transaction (noFail_maybeBody _ _),
   fun _ _ _ _ => failSafe_transaction (noFail_completeBody _ _ _ _),
   fun _ _ _ _ _ _ => failSafe_transaction (noFail_failBody _ _ _ _ _ _),
   fun _ _ _ => failSafe_transaction (noFail_cancelBody _ _ _),
   fun _ => failSafe_transaction (noFail_cleanupBody _)⟩

example : let o := [Fault.ok, .ok, .ok, .fail, .ok]
    let r := ChunkDb.completeChunkTx ⟨7, 0⟩ none 30 31 ⟨o, run exampleBeforeFail⟩
    o = [Fault.ok, .ok, .ok, .fail] ++ r.2.oracle ∧ r.1 = .err (.L .io) := by
  decide +kernel

/-- **C13.** Whenever inserting a submission with zero chunks returns an id, in whatever reachable
state and whatever faults struck, the status of that id is Completed with a total of zero. -/
theorem C13_empty_returned_is_completed (ops : List Op) (a : InsertArgs) (now : Time) (o : List Fault)
    (hf : FreshIds (ops ++ [.insert a now o])) (he : a.contents = []) (id : SubmissionId) (db' : DB)
    (hstep : step (run ops) (.insert a now o) = (.inserted (.ok id), db')) :
    id = a.id ∧ ∃ s, statusAt db' id = .ok (some (.completed s)) ∧ s.chunksTotal = 0 ∧
      s.completedAt = now := by
  have hI := inv_run hf.snoc.1
  have hfr := fresh_run hf (x := a.id) rfl
  have hI' := inv_run hf
  rw [run_snoc, hstep] at hI'
  have hI' : Inv db' := hI'
  simp only [step, insertSubmissionFromChunks, bind_run] at hstep
  have hb : insertSubmission a.row a.strategic (mkChunks a.id a.contents) =
      transaction (fun e => e) (insertBody a) := rfl
  rw [hb] at hstep
  rcases tx_cases (conv := fun e => e) (faithful_insertBody a) o (run ops) with
    ⟨r, w, h, hdb, hno⟩ | ⟨r, w, u, h, h', hr⟩
  · exfalso
    rw [h] at hstep
    cases r with
    | ok u => exact hno u rfl
    | err e => simp at hstep
    | crash => simp at hstep
  · rw [h] at hstep
    rcases hr with rfl | rfl
    · have hok : Eff.InsertOk a (run ops) := by
        apply Classical.byContradiction
        intro hn
        have := insertSubmission_err a (run ops) hn
        rw [hb, h'] at this
        simp at this
      have hw : w.db = Eff.insert a (run ops) := by
        have := insertSubmission_ok a (run ops) hok
        rw [hb, h'] at this
        simp only [Prod.mk.injEq, World.mk.injEq, true_and] at this
        exact this
      have hI1 := inv_insert hI hok hfr
      have hmem : a.row ∈ (Eff.insert a (run ops)).submissions := by simp [Eff.insert]
      have hd : a.row.chunksDone = a.row.chunksTotal := by simp [InsertArgs.row, he]
      have hdone := maybeComplete_done (s := a.row) (db := Eff.insert a (run ops)) now hI1.subIds hmem hd
        (hI1.sub_comp hmem)
      simp only [he, List.length_nil, if_true, matchRes_run] at hstep
      have hmb : maybeCompleteSubmission a.id now = transaction E.L (do
          let s ← getSubmission a.id
          if s.chunksDone = s.chunksTotal then
            completeSubmissionRaw a.id now
            pure true
          else
            pure false) := rfl
      rw [show w = ⟨w.oracle, w.db⟩ from rfl, hw, hmb] at hstep
      have hdone' : maybeCompleteSubmission a.id now ⟨[], Eff.insert a (run ops)⟩ =
          (.ok true, ⟨[], Eff.finish a.row now (Eff.insert a (run ops))⟩) := hdone
      rw [hmb] at hdone'
      have fin : ∀ d, (∃ d' : DB, d = d' ∧ d' = Eff.finish a.row now (Eff.insert a (run ops))) →
          d = db' → ∃ s, statusAt db' a.id = .ok (some (.completed s)) ∧ s.chunksTotal = 0 ∧
            s.completedAt = now := by
        rintro d ⟨_, rfl, hd'⟩ rfl
        have hm : toCompleted now a.row ∈ d.submissionsCompleted := by rw [hd']; simp [Eff.finish]
        exact ⟨_, statusAt_comp hI' hm, by simp [compView, toCompleted, InsertArgs.row, he], rfl⟩
      rcases tx_cases (conv := E.L) (faithful_maybeBody a.id now) w.oracle (Eff.insert a (run ops)) with
        ⟨r2, w2, g, gdb, gno⟩ | ⟨r2, w2, b, g, g', gr⟩
      · rw [g] at hstep
        cases r2 with
        | ok b => exact absurd rfl (gno b)
        | err e =>
          cases e with
          | L e => simp [throw_run] at hstep
          | R nf =>
            -- not found: the row is there, so this needs a fault-free contradiction
            exfalso
            have := rFaithful_transaction (rFaithful_maybeBody a.id now) _ _ _ g
            rw [hdone'] at this
            simp at this
        | crash => simp at hstep
      · rw [g] at hstep
        rw [g'] at hdone'
        simp only [Prod.mk.injEq, Res.ok.injEq, World.mk.injEq, true_and] at hdone'
        rcases gr with rfl | rfl
        · simp only [pure_run, Prod.mk.injEq, Out.inserted.injEq, Res.ok.injEq] at hstep
          refine ⟨hstep.1.symm, ?_⟩
          rw [← hstep.1]
          exact fin _ ⟨_, rfl, hdone'.2⟩ hstep.2
        · simp at hstep
    · simp at hstep

/-- The hypotheses of C13 are met, also with faults around: an insert after which the id is returned. -/
example : FreshIds (exampleBeforeFail ++ [.insert { id := 8, contents := [] } 40 [.ok, .ok, .ok]]) ∧
    (step (run exampleBeforeFail) (.insert { id := 8, contents := [] } 40 [.ok, .ok, .ok])).1 =
      .inserted (.ok 8) := by decide +kernel

/-- What C13 does not promise, and the program does not do: the insert of an empty submission is two
transactions. If the process dies (or a statement fails) between them no id is returned, but the
submission is there. From then on, whatever calls follow, only a cancel of it ever changes it: it
stays in progress with nothing to do. -/
theorem C13_empty_left_in_progress_stuck (xs ys : List Op) (hf : FreshIds (xs ++ ys))
    (id : SubmissionId) (s : Submission)
    (hs : statusAt (run xs) id = .ok (some (.inProgress s))) (h0 : s.chunksTotal = 0)
    (hn : ∀ t1 t2 o, Op.cancel id t1 t2 o ∉ ys) :
    ∃ s', statusAt (run (xs ++ ys)) id = .ok (some (.inProgress s')) ∧ s'.chunksTotal = 0 := by
  obtain ⟨r, hr, hid, hv⟩ := statusAt_inProgress hs
  have hr0 : r.chunksTotal = 0 := by rw [hv] at h0; exact h0
  suffices h : r ∈ (run (xs ++ ys)).submissions by
    exact ⟨subView _ r, by rw [← hid]; exact statusAt_sub (inv_run hf) h, hr0⟩
  refine cont_induction (P := fun zs => r ∈ (run (xs ++ zs)).submissions) hf (by simpa using hr) ?_
  intro zs op hw hf' ih
  have hI := inv_run hf'.snoc.1
  have he := effect_run hf'
  have hnc : ∀ c ∈ (run (xs ++ zs)).chunks, c.submissionId ≠ r.id := by
    have hd := hI.done r ih
    have hl : ((run (xs ++ zs)).chunks.filter (·.submissionId == r.id)).length = 0 := by omega
    intro c hc e
    rw [List.length_eq_zero_iff, List.filter_eq_nil_iff] at hl
    exact hl c hc (by simp [e])
  have hne : ∀ c ∈ (run (xs ++ zs)).chunks, ∀ s : SubmissionRow, s.id = c.submissionId → r.id ≠ s.id :=
    fun c hc s e e' => hnc c hc (e ▸ e'.symm)
  rw [← List.append_assoc]
  generalize hdb' : run ((xs ++ zs) ++ [op]) = db' at he
  generalize run (xs ++ zs) = db at *
  have hcr : ∀ c ∈ db.chunks, ∀ out t, r ∈ (Eff.completeRaw c.key out t db).submissions := by
    intro c hc out t
    simp only [Eff.completeRaw, List.mem_map]
    exact ⟨r, ih, by simp [ChunkRow.key, Ne.symm (hnc c hc)]⟩
  cases he with
  | none => exact ih
  | insert a now o h => simp [Eff.insert, ih]
  | insertEmpty a now o h hc =>
    simp only [Eff.finish, Eff.insert, List.mem_filter, List.mem_append, List.mem_singleton]
    refine ⟨.inl ih, ?_⟩
    have : r.id ≠ a.row.id := fun e => h.1 (by
      rw [show a.id = r.id from e.symm]; exact List.mem_map_of_mem ih)
    simpa using this
  | complete c s out t1 t2 o hc hs hid hl => exact hcr c hc _ _
  | completeLast c s out t1 t2 o hc hs hid hl =>
    simp only [Eff.finish, List.mem_filter]
    exact ⟨hcr c hc _ _, by simpa using hne c hc s hid⟩
  | retry c f m t1 t2 t3 o hc hr => exact ih
  | fail c s f m t1 t2 t3 o hc hs hid hr =>
    simp only [Eff.fail, List.mem_filter]
    exact ⟨ih, by simpa using hne c hc s hid⟩
  | cancel s t1 t2 o hs =>
    simp only [Eff.cancel, List.mem_filter]
    refine ⟨ih, ?_⟩
    obtain ⟨ws, rfl⟩ := hw
    have : r.id ≠ s.id := fun e => hn t1 t2 o (by rw [← hid, e]; simp)
    simpa using this
  | cleanup t o => exact ih

/-- A crash between the two transactions: BEGIN, INSERT, COMMIT, then death at the second BEGIN. The
same happens, with an error answer, when the second transaction fails. -/
example :
    let op := fun f : Fault => Op.insert { id := 8, contents := [] } 40 [.ok, .ok, .ok, f]
    FreshIds (exampleBeforeFail ++ [op .crash]) ∧
    (step (run exampleBeforeFail) (op .crash)).1 = .inserted .crash ∧
    (step (run exampleBeforeFail) (op .fail)).1 = .inserted (.err .io) ∧
    (∀ f ∈ [Fault.crash, .fail], statusAt (run (exampleBeforeFail ++ [op f])) 8 =
      .ok (some (.inProgress
        { id := 8, pfx := none, chunksTotal := 0, chunksDone := 0,
          chunkSize := 1, metadata := none, strategic := [], otel := "{}" }))) := by
  decide +kernel

end Opsqueue
