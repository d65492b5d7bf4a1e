import Verif.Proofs.HttpText
import Verif.Proofs.Honest
import Verif.Proofs.Fairness

/-! # The numbers in the server's answers fit -/

namespace Opsqueue
open Sql SubmissionDb

namespace HttpText
open Wire Http JsonText

/-- The numbers in the tables fit. -/
structure DBFits (db : DB) : Prop where
  subs : ∀ s ∈ db.submissions, s.id < 2 ^ 63 ∧ s.chunksTotal < 2 ^ 63 ∧ I64 (decodeChunkSize s.chunkSize)
  comp : ∀ s ∈ db.submissionsCompleted, s.id < 2 ^ 63 ∧ s.chunksTotal < 2 ^ 63 ∧ I64 (decodeChunkSize s.chunkSize)
  fail : ∀ s ∈ db.submissionsFailed, s.id < 2 ^ 63 ∧ s.chunksTotal < 2 ^ 63 ∧ (∀ n, s.chunksDone = some n → n < 2 ^ 63) ∧
    I64 (decodeChunkSize s.chunkSize) ∧ s.failedChunkId < 2 ^ 63
  canc : ∀ s ∈ db.submissionsCancelled, s.id < 2 ^ 63 ∧ s.chunksTotal < 2 ^ 63 ∧ s.chunksDone < 2 ^ 63
  strat : ∀ m ∈ db.submissionsMetadata, I64 m.value

theorem i64_one : I64 1 := by unfold I64; omega

theorem done_le {db : DB} (hI : Inv db) {s : SubmissionRow} (hs : s ∈ db.submissions) : s.chunksDone ≤ s.chunksTotal := by
  have := hI.done s hs
  omega

theorem chunk_fits {db : DB} (hI : Inv db) (h : DBFits db) {c : ChunkRow} (hc : c ∈ db.chunks) : c.chunkIndex < 2 ^ 63 := by
  obtain ⟨s, hs, _, h2⟩ := hI.owner c hc
  have h3 := (h.subs s hs).2.1
  generalize s.chunksTotal = n at *
  generalize c.chunkIndex = i at *
  exact Nat.lt_trans h2 h3

theorem fits_insert {a : InsertArgs} {db : DB} (h : DBFits db) {now : Time} {o : List Fault} (ha : OpFits (.insert a now o)) :
    DBFits (Eff.insert a db) := by
  obtain ⟨h1, h2, h3, h4⟩ := ha
  refine ⟨?_, h.comp, h.fail, h.canc, ?_⟩
  · intro s hs
    simp only [Eff.insert, List.mem_append, List.mem_singleton] at hs
    rcases hs with hs | rfl
    · exact h.subs s hs
    · exact ⟨h1, h2, h3⟩
  · intro m hm
    simp only [Eff.insert, List.mem_append, metaRows, List.mem_map] at hm
    rcases hm with hm | ⟨kv, hkv, rfl⟩
    · exact h.strat m hm
    · exact h4 kv hkv

theorem fits_finish {s : SubmissionRow} {t : Time} {db : DB} (h : DBFits db)
    (hs : s.id < 2 ^ 63 ∧ s.chunksTotal < 2 ^ 63 ∧ I64 (decodeChunkSize s.chunkSize)) : DBFits (Eff.finish s t db) := by
  refine ⟨fun r hr => h.subs r (List.mem_filter.1 hr).1, ?_, h.fail, h.canc, h.strat⟩
  intro r hr
  simp only [Eff.finish, List.mem_append, List.mem_singleton] at hr
  rcases hr with hr | rfl
  · exact h.comp r hr
  · exact ⟨hs.1, hs.2.1, i64_one⟩

theorem fits_completeRaw {cid : ChunkId} {out : Content} {t : Time} {db : DB} (h : DBFits db) :
    DBFits (Eff.completeRaw cid out t db) := by
  refine ⟨?_, h.comp, h.fail, h.canc, h.strat⟩
  intro r hr
  simp only [Eff.completeRaw, List.mem_map] at hr
  obtain ⟨s, hs, rfl⟩ := hr
  have := h.subs s hs
  split <;> exact this

theorem Effect_fits {db db' : DB} {op : Op} (he : Effect db op db') (hI : Inv db) (h : DBFits db) (ho : OpFits op) :
    DBFits db' := by
  cases he with
  | none => exact h
  | insert a now o hok => exact fits_insert h ho
  | insertEmpty a now o hok he => exact fits_finish (fits_insert h ho) ⟨ho.1, ho.2.1, ho.2.2.1⟩
  | complete => exact fits_completeRaw h
  | completeLast c s out t1 t2 o hc hs hid hl => exact fits_finish (fits_completeRaw h) (h.subs s hs)
  | retry => exact ⟨h.subs, h.comp, h.fail, h.canc, h.strat⟩
  | fail c s failure m t1 t2 t3 o hc hs hid hr =>
    refine ⟨fun r hr => h.subs r (List.mem_filter.1 hr).1, h.comp, ?_, h.canc, h.strat⟩
    intro r hr
    simp only [Eff.fail, List.mem_append, List.mem_singleton] at hr
    rcases hr with hr | rfl
    · exact h.fail r hr
    · refine ⟨(h.subs s hs).1, (h.subs s hs).2.1, ?_, i64_one, chunk_fits hI h hc⟩
      intro n hn
      simp only [toFailed, Option.some.injEq] at hn
      exact hn ▸ Nat.lt_of_le_of_lt (done_le hI hs) (h.subs s hs).2.1
  | cancel s t1 t2 o hs =>
    refine ⟨fun r hr => h.subs r (List.mem_filter.1 hr).1, h.comp, h.fail, ?_, h.strat⟩
    intro r hr
    simp only [Eff.cancel, List.mem_append, List.mem_singleton] at hr
    rcases hr with hr | rfl
    · exact h.canc r hr
    · exact ⟨(h.subs s hs).1, (h.subs s hs).2.1, Nat.lt_of_le_of_lt (done_le hI hs) (h.subs s hs).2.1⟩
  | cleanup t o =>
    exact ⟨h.subs, fun r hr => h.comp r (List.mem_filter.1 hr).1, fun r hr => h.fail r (List.mem_filter.1 hr).1,
      fun r hr => h.canc r (List.mem_filter.1 hr).1, fun r hr => h.strat r (List.mem_filter.1 hr).1⟩

theorem fits_run {ops : List Op} (hf : FreshIds ops) (ho : ∀ op ∈ ops, OpFits op) : DBFits (run ops) := by
  induction ops using snoc_induction with
  | nil => constructor <;> intro s hs <;> cases hs
  | snoc ops op ih =>
    have hf' := hf.prefix
    exact Effect_fits (effect_run hf) (inv_run hf') (ih hf' fun x hx => ho x (List.mem_append_left _ hx))
      (ho op (List.mem_append_right _ List.mem_cons_self))

theorem strategic_fits {db : DB} (h : DBFits db) (id : SubmissionId) : MapFits (Stmt.strategicOf id db) := by
  intro kv hkv
  simp only [Stmt.strategicOf, List.mem_map] at hkv
  obtain ⟨m, hm, rfl⟩ := hkv
  exact h.strat m (List.mem_filter.1 hm).1

theorem status_fits {db : DB} (hI : Inv db) (h : DBFits db) {id : SubmissionId} {s : SubmissionStatus}
    (hs : statusAt db id = .ok (some s)) : StatusFits s := by
  rw [statusAt_eq] at hs
  unfold statusReads at hs
  split at hs
  · rename_i r hr
    simp only [resOf, Res.ok.injEq, Option.some.injEq] at hs
    subst hs
    obtain ⟨r, hr', _, rfl⟩ := selectSubmission_some hr
    have := h.subs r hr'
    exact ⟨this.1, this.2.1, Nat.lt_of_le_of_lt (done_le hI hr') this.2.1, this.2.2, strategic_fits h _⟩
  · split at hs
    · rename_i r hr
      simp only [resOf, Res.ok.injEq, Option.some.injEq] at hs
      subst hs
      obtain ⟨r, hr', _, rfl⟩ := selectCompleted_some hr
      have := h.comp r hr'
      exact ⟨this.1, this.2.1, this.2.2, strategic_fits h _⟩
    · split at hs
      · rename_i r hr
        obtain ⟨r, hr', _, rfl⟩ := selectFailed_some hr
        have hfit := h.fail r hr'
        split at hs
        · rename_i c hc
          simp only [resOf, Res.ok.injEq, Option.some.injEq] at hs
          subst hs
          obtain ⟨r', _, hk, rfl⟩ := selectChunkFailed_ok hc
          have hk1 : r'.submissionId = r.id := congrArg ChunkId.submissionId hk
          have hk2 : r'.chunkIndex = r.failedChunkId := congrArg ChunkId.chunkIndex hk
          exact ⟨hfit.1, hfit.2.1, hfit.2.2.1, hfit.2.2.2.1, strategic_fits h _, hfit.2.2.2.2,
            (by show r'.submissionId < _; rw [hk1]; exact hfit.1), (by show r'.chunkIndex < _; rw [hk2]; exact hfit.2.2.2.2)⟩
        · cases hs
      · split at hs
        · rename_i r hr
          simp only [resOf, Res.ok.injEq, Option.some.injEq] at hs
          subst hs
          obtain ⟨r, hr', _, rfl⟩ := selectCancelled_some hr
          have := h.canc r hr'
          exact ⟨this.1, this.2.1, this.2.2, strategic_fits h _⟩
        · cases hs

/-- Fewer than 2^63 ids have 63 bits. -/
theorem few {α : Type} {l : List α} {f : α → Nat} (hn : (l.map f).Nodup) (h : ∀ x ∈ l, f x < 2 ^ 63) : l.length < 2 ^ 64 := by
  have := length_le_of_nodup_subset (m := List.range (2 ^ 63)) hn (fun x hx => by
    obtain ⟨y, hy, rfl⟩ := List.mem_map.1 hx
    exact List.mem_range.2 (h y hy))
  rw [List.length_map, List.length_range] at this
  omega

theorem whole_u64 {n : Nat} (h : n < 2 ^ 64) : Whole (encNat n) := .num (by omega) (by simp; omega)

theorem whole_notCancellable {s : SubmissionNotCancellable} {st : SubmissionStatus} (h : StatusFits st)
    (e : encNotCancellable s = encStatus st) : Whole (encNotCancellable s) := e ▸ whole_status h

theorem whole_readAnswer {ε α : Type} {enc : α → Json} {x : Res ε α} {r : Response} (h : ∀ a, x = .ok a → Whole (enc a))
    (hr : readAnswer enc x = some r) : Whole r.body := by
  cases x with
  | ok a => cases hr; exact h a rfl
  | err e => cases hr; exact .str _
  | crash => cases hr

theorem lookup_nil (m : StrategicMetadata) (max : Nat) (db : DB) :
    (lookupIdsByStrategicMetadata m max ⟨[], db⟩).1 =
      if (matchingIds m (max + 1) db).length > max then .err (.R ⟨max⟩) else .ok (matchingIds m (max + 1) db) := by
  simp only [lookupIdsByStrategicMetadata, bind_run, mapErr_run, query_nil]
  split <;> rfl

theorem joinAll_eq {db : DB} {id x : SubmissionId} {kvs : StrategicMetadata} (h : x ∈ joinAll db id kvs) : x = id := by
  induction kvs with
  | nil => simpa [joinAll] using h
  | cons kv rest ih =>
    obtain ⟨_, _, h⟩ := List.mem_flatMap.1 h
    exact ih h

theorem inserted_id {db : DB} {a : InsertArgs} {now : Time} {o : List Fault} {id : SubmissionId}
    (h : (step db (.insert a now o)).1 = .inserted (.ok id)) : id = a.id := by
  have h : (insertSubmissionFromChunks a now ⟨o, db⟩).1 = .ok id := by
    simpa only [step, Out.inserted.injEq] using h
  obtain ⟨_, w1, _, h2⟩ := bind_ok (Prod.ext h rfl)
  split at h2
  · rw [matchRes_run] at h2
    split at h2
    · simp only [pure_run, Prod.mk.injEq, Res.ok.injEq] at h2
      exact h2.1.symm
    · rename_i e w2 he
      cases e with
      | L e => simp [throw_run] at h2
      | R e =>
        simp only [pure_run, Prod.mk.injEq, Res.ok.injEq] at h2
        exact h2.1.symm
    · simp at h2
  · simp only [pure_run, Prod.mk.injEq, Res.ok.injEq] at h2
    exact h2.1.symm

theorem pathId_lt {seg : Seg} {id : SubmissionId} (h : pathId seg = some id) : id < 2 ^ 63 := by
  unfold pathId at h
  rw [Option.filter_eq_some_iff] at h
  simpa using h.2

/-- No number in an answer of the server has more than 64 bits. -/
theorem whole_handle {max : Nat} {e : ServerEnv} {q : HttpRequest} {hist : List Op} {r : Response} (hmax : max < 2 ^ 64)
    (hid : e.id < 2 ^ 63) (hf : route q.post q.path ≠ .insert → FreshIds hist ∧ ∀ op ∈ hist, OpFits op)
    (h : (handle max e q hist).1 = some r) : Whole r.body := by
  unfold handle at h
  split at h
  · split at h
    · cases h; exact .null
    · split at h
      · dsimp only at h
        unfold insertAnswer at h
        split at h
        · rename_i hx
          cases h
          rw [inserted_id hx]
          exact whole_nat hid
        · cases h; exact .str _
        · cases h
      · cases h; exact .str _
  all_goals
    rename_i hroute
    replace hf := hf (by rw [hroute]; simp)
    have hI := inv_run hf.1
    have hfit := fits_run hf.1 hf.2
  · split at h
    · cases h; exact .null
    · rename_i id hpid
      have hid := pathId_lt hpid
      split at h
      · dsimp only at h
        unfold Http.cancelAnswer at h
        split at h
        · cases h; exact .null
        · cases h; exact .str _
        · rename_i nf hx
          cases h
          obtain ⟨st, h1, h2⟩ := cancel_honest hI hx
          rcases st with _ | st
          · simp only [Opsqueue.cancelAnswer, Res.err.injEq, OrPanic.err.injEq, E.R.injEq, E.L.injEq] at h2
            subst h2
            exact whole_nat hid
          · cases st <;> simp [Opsqueue.cancelAnswer] at h2
        · rename_i nc hx
          cases h
          obtain ⟨st, h1, h2⟩ := cancel_honest hI hx
          rcases st with _ | st
          · simp [Opsqueue.cancelAnswer] at h2
          · have := status_fits hI hfit h1
            cases st <;> simp only [Opsqueue.cancelAnswer, Res.err.injEq, OrPanic.err.injEq, E.R.injEq, reduceCtorEq] at h2 <;>
              subst h2 <;> exact whole_status this
        · cases h; exact .str _
        · cases h
      · cases h; exact .str _
  · split at h
    · cases h; exact .null
    · split at h
      · refine whole_readAnswer (fun o ho => whole_opt fun s hs => ?_) h
        subst hs
        exact whole_status (status_fits hI hfit (faithful_res (faithful_status _) ho))
      · cases h; exact .str _
  · split at h
    · refine whole_readAnswer (fun o ho => whole_opt fun id hs => ?_) h
      subst hs
      have := faithful_res (faithful_query _) ho
      rw [query_nil] at this
      simp only [Res.ok.injEq] at this
      have hm := List.mem_of_mem_head? (Option.mem_def.2 this)
      simp only [prefixRows, List.mem_append, List.mem_map] at hm
      rcases hm with (⟨s, hs, rfl⟩ | ⟨s, hs, rfl⟩) | ⟨s, hs, rfl⟩
      · exact whole_nat (hfit.subs s (List.mem_filter.1 hs).1).1
      · exact whole_nat (hfit.comp s (List.mem_filter.1 hs).1).1
      · exact whole_nat (hfit.fail s (List.mem_filter.1 hs).1).1
    · cases h; exact .str _
  · split at h
    · cases h; exact .null
    · split at h
      · dsimp only at h
        unfold lookupAnswer at h
        split at h
        · rename_i ids hx
          cases h
          refine .arr fun x hx' => ?_
          obtain ⟨n, hn, rfl⟩ := List.mem_map.1 hx'
          have := faithful_res (faithful_lookup _ _) hx
          simp only [lookup_nil] at this
          split at this
          · cases this
          · simp only [Res.ok.injEq] at this
            subst this
            have hm := (orderBy_perm _ _).mem_iff.1 (List.mem_of_mem_take hn)
            obtain ⟨s, hs, hm⟩ := List.mem_flatMap.1 hm
            rw [joinAll_eq hm]
            exact whole_nat (hfit.subs s hs).1
        · cases h; exact .str _
        · rename_i tm hx
          cases h
          have := rFaithful_lookup _ _ _ _ _ (Prod.ext hx rfl)
          simp only [lookup_nil] at this
          split at this
          · simp only [Res.err.injEq, E.R.injEq] at this
            subst this
            exact whole_u64 hmax
          · cases this
        · cases h
      · cases h; exact .str _
  · split at h
    · refine whole_readAnswer (fun n hn => ?_) h
      have := faithful_res (faithful_query _) hn
      rw [query_nil] at this
      simp only [Res.ok.injEq] at this
      exact this ▸ whole_u64 (few hI.subIds fun s hs => (hfit.subs s hs).1)
    · cases h; exact .str _
  · split at h
    · refine whole_readAnswer (fun n hn => ?_) h
      have := faithful_res (faithful_query _) hn
      rw [query_nil] at this
      simp only [Res.ok.injEq] at this
      exact this ▸ whole_u64 (few hI.compIds fun s hs => (hfit.comp s hs).1)
    · cases h; exact .str _
  · cases h; exact .str _
  · cases h; exact .null
  · cases h; exact .null

theorem handle_hist {max : Nat} {e : ServerEnv} {q : HttpRequest} {hist : List Op} (h : route q.post q.path ≠ .insert) :
    (handle max e q hist).2 = hist ∨ ∃ id, (handle max e q hist).2 = hist ++ [.cancel id e.now1 e.now2 e.faults] := by
  unfold handle
  split
  · rename_i hr; exact absurd hr h
  · split
    · exact .inl rfl
    · split
      · exact .inr ⟨_, rfl⟩
      · exact .inl rfl
  all_goals (repeat' split) <;> exact .inl rfl

/-- What a call that inserts nothing leaves behind. -/
theorem history_plain {max : Nat} {c : Call} {env : Nat → TextAttempt} {hist : List Op}
    (hr : route (request c).post (request c).path ≠ .insert) (k : Nat) :
    (historyAfter max c (fun i => asTree (env i)) hist k).filterMap Op.insertId =
      (hist ++ ((List.range k).map fun i => (env i).before).flatten).filterMap Op.insertId ∧
    ∀ op ∈ historyAfter max c (fun i => asTree (env i)) hist k,
      op ∈ hist ∨ (∃ i, op ∈ (env i).before) ∨ ∃ id t1 t2 o, op = .cancel id t1 t2 o := by
  induction k with
  | zero => exact ⟨by simp [historyAfter], fun op h => .inl h⟩
  | succ k ih =>
    obtain ⟨ih1, ih2⟩ := ih
    have hatt : historyAfter max c (fun i => asTree (env i)) hist (k + 1) =
        historyAfter max c (fun i => asTree (env i)) hist k ++ (env k).before ∨
        ∃ id t1 t2 o, historyAfter max c (fun i => asTree (env i)) hist (k + 1) =
          historyAfter max c (fun i => asTree (env i)) hist k ++ (env k).before ++ [.cancel id t1 t2 o] := by
      have hh := handle_hist (max := max) (e := (env k).server) (q := request c)
        (hist := historyAfter max c (fun i => asTree (env i)) hist k ++ (env k).before) hr
      have hh : (handle max (env k).server (request c)
            (historyAfter max c (fun i => asTree (env i)) hist k ++ (env k).before)).2 =
          historyAfter max c (fun i => asTree (env i)) hist k ++ (env k).before ∨
          ∃ id t1 t2 o, (handle max (env k).server (request c)
            (historyAfter max c (fun i => asTree (env i)) hist k ++ (env k).before)).2 =
          historyAfter max c (fun i => asTree (env i)) hist k ++ (env k).before ++ [.cancel id t1 t2 o] := by
        rcases hh with hh | ⟨id, hh⟩
        · exact .inl hh
        · exact .inr ⟨_, _, _, _, hh⟩
      rw [historyAfter]
      unfold attempt
      dsimp only [asTree]
      cases (env k).net with
      | ok =>
        dsimp only
        split <;> exact hh
      | noRequest e => exact .inl rfl
      | noResponse e => exact hh
      | answeredBy p r =>
        dsimp only
        split
        · exact hh
        · exact .inl rfl
    have hrange : ((List.range (k + 1)).map fun i => (env i).before).flatten =
        ((List.range k).map fun i => (env i).before).flatten ++ (env k).before := by
      rw [List.range_succ]
      simp
    rcases hatt with hatt | ⟨id, t1, t2, o, hatt⟩
    · rw [hatt]
      constructor
      · rw [List.filterMap_append, ih1, hrange]
        simp only [List.filterMap_append, List.append_assoc]
      · intro op hop
        rcases List.mem_append.1 hop with hop | hop
        · exact ih2 op hop
        · exact .inr (.inl ⟨k, hop⟩)
    · rw [hatt]
      constructor
      · rw [List.filterMap_append, List.filterMap_append, ih1, hrange]
        simp [List.filterMap_append, Op.insertId]
      · intro op hop
        rcases List.mem_append.1 hop with hop | hop
        · rcases List.mem_append.1 hop with hop | hop
          · exact ih2 op hop
          · exact .inr (.inl ⟨k, hop⟩)
        · exact .inr (.inr ⟨id, t1, t2, o, List.mem_singleton.1 hop⟩)

/-- No number in an answer to a call has more than 64 bits. -/
theorem answers_fit {max : Nat} {c : Call} {env : Nat → TextAttempt} {hist : List Op} (hmax : max < 2 ^ 64)
    (h : OthersFit env hist) (k : Nat) (r : Response)
    (hr : (handle max (env k).server (request c)
      (historyAfter max c (fun i => asTree (env i)) hist k ++ (env k).before)).1 = some r) : Whole r.body := by
  refine whole_handle hmax (h.ids k) (fun hroute => ?_) hr
  obtain ⟨h1, h2⟩ := history_plain (max := max) (env := env) (hist := hist) hroute k
  constructor
  · have := h.fresh (k + 1)
    unfold FreshIds at this ⊢
    rw [List.range_succ, List.map_append, List.flatten_append, ← List.append_assoc, List.filterMap_append] at this
    rw [List.filterMap_append, h1]
    simpa using this
  · intro op hop
    rcases List.mem_append.1 hop with hop | hop
    · rcases h2 op hop with hop | ⟨i, hop⟩ | ⟨id, t1, t2, o, rfl⟩
      · exact h.before op hop
      · exact h.during i op hop
      · trivial
    · exact h.during k op hop

end HttpText
end Opsqueue
