import Verif.Proofs.Terminal

/-! Exact results of fault-free calls; chunk observations. -/

namespace Opsqueue
open Sql SubmissionDb

/-! ### chunk observations -/

theorem chunkAt_eq (db : DB) (cid : ChunkId) : chunkAt db cid = resOf (Stmt.selectChunk cid db) := by
  simp only [chunkAt, ChunkDb.getChunk, query_nil]
  cases Stmt.selectChunk cid db <;> rfl
theorem chunkCompletedAt_eq (db : DB) (cid : ChunkId) :
    chunkCompletedAt db cid = resOf (Stmt.selectChunkCompleted cid db) := by
  simp only [chunkCompletedAt, ChunkDb.getChunkCompleted, query_nil]
  cases Stmt.selectChunkCompleted cid db <;> rfl
theorem chunkFailedAt_eq (db : DB) (cid : ChunkId) :
    chunkFailedAt db cid = resOf (Stmt.selectChunkFailed cid db) := by
  simp only [chunkFailedAt, ChunkDb.getChunkFailed, query_nil]
  cases Stmt.selectChunkFailed cid db <;> rfl
theorem strategicAt_eq (db : DB) (id : SubmissionId) :
    strategicAt db id = .ok (Stmt.strategicOf id db) := by
  simp only [strategicAt, getStrategicMetadata, query_nil]
theorem skippedAt_eq (db : DB) (cid : ChunkId) :
    skippedAt db cid = (db.chunksFailed.find? (fun c => c.key == cid)).map (·.skipped) := by
  unfold skippedAt
  congr 2
  funext c
  cases cid
  rw [Bool.eq_iff_iff]; simp [ChunkFailedRow.key]

theorem chunkAt_ok_iff {db : DB} (hn : (db.chunks.map ChunkRow.key).Nodup) {cid : ChunkId}
    {c : ChunkRow} : chunkAt db cid = .ok c ↔ c ∈ db.chunks ∧ c.key = cid := by
  rw [chunkAt_eq, Stmt.selectChunk]
  constructor
  · intro h
    split at h
    · simp [resOf] at h
    · rename_i r hr
      simp only [resOf, Res.ok.injEq] at h
      subst h
      exact mem_of_find?_key hr
  · rintro ⟨hc, rfl⟩
    rw [find?_key_of_mem hn hc]; rfl

theorem chunkAt_err {db : DB} {cid : ChunkId} (h : cid ∉ db.chunks.map ChunkRow.key) :
    chunkAt db cid = .err .rowNotFound := by
  rw [chunkAt_eq, Stmt.selectChunk, find?_key_none.2 h]; rfl

theorem chunkAt_congr {db db' : DB} {cid : ChunkId}
    (h : db'.chunks.filter (fun c => c.key == cid) = db.chunks.filter (fun c => c.key == cid)) :
    chunkAt db' cid = chunkAt db cid := by
  have h2 : db'.chunks.find? (fun c => c.key == cid) = db.chunks.find? (fun c => c.key == cid) := by
    rw [← List.head?_filter, ← List.head?_filter, h]
  rw [chunkAt_eq, chunkAt_eq, Stmt.selectChunk, Stmt.selectChunk, h2]

theorem chunkCompletedAt_ok {db : DB} (hn : (db.chunksCompleted.map ChunkCompletedRow.key).Nodup)
    {c : ChunkCompletedRow} (hc : c ∈ db.chunksCompleted) :
    chunkCompletedAt db c.key = .ok c := by
  rw [chunkCompletedAt_eq, Stmt.selectChunkCompleted, find?_key_of_mem hn hc]; rfl

theorem chunkCompletedAt_congr {db db' : DB} {cid : ChunkId}
    (h : db'.chunksCompleted.filter (fun c => c.key == cid) =
      db.chunksCompleted.filter (fun c => c.key == cid)) :
    chunkCompletedAt db' cid = chunkCompletedAt db cid := by
  have h2 : db'.chunksCompleted.find? (fun c => c.key == cid) =
      db.chunksCompleted.find? (fun c => c.key == cid) := by
    rw [← List.head?_filter, ← List.head?_filter, h]
  rw [chunkCompletedAt_eq, chunkCompletedAt_eq, Stmt.selectChunkCompleted, Stmt.selectChunkCompleted, h2]

theorem chunkFailedAt_ok {db : DB} (hn : (db.chunksFailed.map ChunkFailedRow.key).Nodup)
    {c : ChunkFailedRow} (hc : c ∈ db.chunksFailed) :
    chunkFailedAt db c.key = .ok (chunkFailedView c) ∧ skippedAt db c.key = some c.skipped := by
  rw [chunkFailedAt_eq, skippedAt_eq, Stmt.selectChunkFailed, find?_key_of_mem hn hc]
  exact ⟨rfl, rfl⟩

theorem chunkFailedAt_congr {db db' : DB} {cid : ChunkId}
    (h : db'.chunksFailed.filter (fun c => c.key == cid) =
      db.chunksFailed.filter (fun c => c.key == cid)) :
    chunkFailedAt db' cid = chunkFailedAt db cid ∧ skippedAt db' cid = skippedAt db cid := by
  have h2 : db'.chunksFailed.find? (fun c => c.key == cid) =
      db.chunksFailed.find? (fun c => c.key == cid) := by
    rw [← List.head?_filter, ← List.head?_filter, h]
  rw [chunkFailedAt_eq, chunkFailedAt_eq, Stmt.selectChunkFailed, Stmt.selectChunkFailed,
    skippedAt_eq, skippedAt_eq, h2]
  exact ⟨rfl, rfl⟩

theorem backlogSize_zero {db : DB} {id : SubmissionId} :
    backlogSize db id = 0 ↔ ∀ c ∈ db.chunks, c.submissionId ≠ id := by
  simp [backlogSize, List.length_eq_zero_iff, List.filter_eq_nil_iff]

/-! ### fault-free calls -/

theorem step_complete_nil (db : DB) (cid : ChunkId) (out : Content) (t1 t2 : Time) :
    step db (.complete cid out t1 t2 []) = (.completed (.ok ()),
      match completeBody cid out t1 t2 ⟨[], db⟩ with
      | (.ok _, w) => w.db
      | _ => db) ∨
    (completeBody cid out t1 t2 ⟨[], db⟩).1 = .crash ∨
    (∃ a w, completeBody cid out t1 t2 ⟨[], db⟩ = (.ok a, w) ∧ w.oracle ≠ []) := by
  have hb : ChunkDb.completeChunkTx cid out t1 t2 = Sql.transaction E.L (completeBody cid out t1 t2) := rfl
  simp only [step, ChunkDb.completeChunk, Sql.matchRes_run, hb, Sql.transaction_nil]
  rcases h : completeBody cid out t1 t2 ⟨[], db⟩ with ⟨_ | _ | _, w⟩
  · rename_i a
    by_cases hw : w.oracle = []
    · left; simp [hw, pure_run]
    · right; right; exact ⟨a, w, rfl, hw⟩
  · left; simp [pure_run]
  · right; left; rfl

theorem step_complete_missing {db : DB} {cid : ChunkId} (h : cid ∉ keys db) (out : Content)
    (t1 t2 : Time) : step db (.complete cid out t1 t2 []) = (.completed (.ok ()), db) := by
  rcases step_complete_nil db cid out t1 t2 with h1 | h1 | ⟨a, w, h1, h2⟩
  · rw [h1, completeBody_missing out t1 t2 h]
  · rw [completeBody_missing out t1 t2 h] at h1; simp at h1
  · rw [completeBody_missing out t1 t2 h] at h1; simp at h1

theorem step_complete_notLast {db : DB} (hI : Inv db) {c : ChunkRow} {s : SubmissionRow}
    (out : Content) (t1 t2 : Time) (hc : c ∈ db.chunks) (hs : s ∈ db.submissions)
    (hid : s.id = c.submissionId) (hl : s.chunksDone + 1 ≠ s.chunksTotal) :
    step db (.complete c.key out t1 t2 []) = (.completed (.ok ()), Eff.completeRaw c.key out t1 db) := by
  have e := completeBody_notLast hI out t1 t2 hc hs hid hl
  rcases step_complete_nil db c.key out t1 t2 with h1 | h1 | ⟨a, w, h1, h2⟩
  · rw [h1, e]
  · rw [e] at h1; simp at h1
  · rw [e] at h1; simp only [Prod.mk.injEq] at h1; rw [← h1.2] at h2; simp at h2

theorem step_complete_last {db : DB} (hI : Inv db) {c : ChunkRow} {s : SubmissionRow}
    (out : Content) (t1 t2 : Time) (hc : c ∈ db.chunks) (hs : s ∈ db.submissions)
    (hid : s.id = c.submissionId) (hl : s.chunksDone + 1 = s.chunksTotal) :
    step db (.complete c.key out t1 t2 []) = (.completed (.ok ()),
      Eff.finish { s with chunksDone := s.chunksDone + 1 } t2 (Eff.completeRaw c.key out t1 db)) := by
  have e := completeBody_last hI out t1 t2 hc hs hid hl
  rcases step_complete_nil db c.key out t1 t2 with h1 | h1 | ⟨a, w, h1, h2⟩
  · rw [h1, e]
  · rw [e] at h1; simp at h1
  · rw [e] at h1; simp only [Prod.mk.injEq] at h1; rw [← h1.2] at h2; simp at h2

theorem retry_tx (cid : ChunkId) (f : String) (m : Nat) (t1 t2 t3 : Time) :
    ChunkDb.retryOrFailChunk cid f m t1 t2 t3 =
      transaction (fun e => e) (failBody cid f m t1 t2 t3) := rfl

theorem step_fail_missing {db : DB} {cid : ChunkId} (h : cid ∉ keys db) (f : String) (m : Nat)
    (t1 t2 t3 : Time) :
    step db (.fail cid f m t1 t2 t3 []) = (.failed (.err .rowNotFound), db) := by
  simp only [step, retry_tx, transaction_nil, failBody_missing f m t1 t2 t3 h]

theorem step_fail_retry {db : DB} (hI : Inv db) {c : ChunkRow} (f : String) {m : Nat}
    (t1 t2 t3 : Time) (hc : c ∈ db.chunks) (hr : c.retries + 1 < m) :
    step db (.fail c.key f m t1 t2 t3 []) = (.failed (.ok false), Eff.bump c.key db) := by
  simp only [step, retry_tx, transaction_nil, failBody_retry f t1 t2 t3 hI.chunkKeys hc hr]

theorem step_fail_fail {db : DB} (hI : Inv db) {c : ChunkRow} {s : SubmissionRow} (f : String)
    {m : Nat} (t1 t2 t3 : Time) (hc : c ∈ db.chunks) (hs : s ∈ db.submissions)
    (hid : s.id = c.submissionId) (hr : m ≤ c.retries + 1) :
    step db (.fail c.key f m t1 t2 t3 []) = (.failed (.ok true), Eff.fail s c f t1 t2 t3 db) := by
  simp only [step, retry_tx, transaction_nil, failBody_fail hI f t1 t2 t3 hc hs hid hr]

theorem cancel_tx (id : SubmissionId) (t1 t2 : Time) :
    cancelSubmission id t1 t2 = transaction (fun e => .err (.L e)) (cancelBody id t1 t2) := rfl

theorem step_cancel_ok {db : DB} (hI : Inv db) {s : SubmissionRow} (t1 t2 : Time)
    (hs : s ∈ db.submissions) :
    step db (.cancel s.id t1 t2 []) = (.cancelled (.ok ()), Eff.cancel s t1 t2 db) := by
  have h := cancelNotx_ok (s := s) (db := db) t1 t2 hI.subIds hs (hI.sub_canc hs) hI.chunkKeys
    (fun d hd => hI.cfNot d hd s hs)
  simp only [step, cancel_tx, transaction_nil, cancelBody, matchRes_run, h, pure_run]

/-- What cancel answers for a submission that is not in progress. -/
def cancelAnswer (id : SubmissionId) : Res DbErr (Option SubmissionStatus) → Res CancelErr Unit
  | .ok none => .err (.err (.R (.L ⟨id⟩)))
  | .ok (some (.inProgress _)) => .err .panicked
  | .ok (some (.completed s)) => .err (.err (.R (.R (.completed s))))
  | .ok (some (.failed s c)) => .err (.err (.R (.R (.failed s c))))
  | .ok (some (.cancelled s)) => .err (.err (.R (.R (.cancelled s))))
  | .err e => .err (.err (.L e))
  | .crash => .crash

theorem step_cancel_missing {db : DB} {id : SubmissionId} (t1 t2 : Time)
    (h : id ∉ db.submissions.map SubmissionRow.id) :
    step db (.cancel id t1 t2 []) = (.cancelled (cancelAnswer id (statusAt db id)), db) := by
  obtain ⟨db', hdb', hr⟩ := cancelNotx_missing t1 t2 h
  have hself : db.submissions.filter (fun r => !(r.id == id)) = db.submissions := by
    rw [List.filter_eq_self]
    intro r hr
    have : r.id ≠ id := fun e => h (e ▸ List.mem_map_of_mem hr)
    simpa using this
  rw [hself] at hdb'
  have hdb' : db' = db := hdb'
  subst hdb'
  simp only [step, cancel_tx, transaction_nil, cancelBody, matchRes_run, hr, status_run, statusAt]
  rcases statusReads id db' db' db' db' db' with e | (_ | st)
  · simp [resOf, throw_run, cancelAnswer]
  · simp [resOf, throw_run, cancelAnswer]
  · cases st <;> simp [resOf, throw_run, cancelAnswer]

/-- The strategic metadata of an insert is a map. -/
theorem insertOk_of_fresh {db : DB} (hI : Inv db) {a : InsertArgs} (hf : a.id ∉ usedIds db)
    (hm : (a.strategic.map (·.1)).Nodup) : Eff.InsertOk a db := by
  have hall : a.id ∉ allIds db := fun h => hf (by simp [usedIds, h])
  have hsub : a.id ∉ db.submissions.map SubmissionRow.id := fun h => hall (by simp [allIds, h])
  refine ⟨hsub, ⟨?_, ?_⟩, ⟨?_, ?_⟩⟩
  · intro r hr hk
    obtain ⟨kv, _, rfl⟩ := List.mem_map.1 hr
    obtain ⟨m, hm', e⟩ := List.mem_map.1 hk
    have : m.submissionId = a.id := congrArg Prod.fst e
    exact hall (this ▸ hI.metaOwner m hm')
  · have : (metaRows a.id a.strategic).map MetaRow.pk = a.strategic.map (fun kv => (a.id, kv.1)) := by
      simp [metaRows, List.map_map, Function.comp_def, MetaRow.pk]
    rw [this]
    have h2 : a.strategic.map (fun kv => (a.id, kv.1)) = (a.strategic.map (·.1)).map (fun k => (a.id, k)) := by
      simp
    rw [h2]
    exact List.Pairwise.map _ (fun x y h e => h (Prod.mk.inj e).2) hm
  · intro r hr hk
    obtain ⟨c, hc, e⟩ := List.mem_map.1 hk
    have hrs := (mem_mkChunks.1 hr).1
    obtain ⟨s, hs, hid, _⟩ := hI.owner c hc
    have : c.submissionId = r.submissionId := congrArg ChunkId.submissionId e
    exact hsub (by rw [← hrs, ← this, ← hid]; exact List.mem_map_of_mem hs)
  · have : (mkChunks a.id a.contents).map ChunkRow.key =
        (a.contents.zipIdx.map (·.2)).map (fun i => (⟨a.id, i⟩ : ChunkId)) := by
      rw [mkChunks, List.map_map, List.map_map]; rfl
    rw [this, List.zipIdx_map_snd]
    exact List.Pairwise.map _ (fun x y h e => h (ChunkId.mk.inj e).2) (List.nodup_range')

theorem step_insert_ok {db : DB} (hI : Inv db) {a : InsertArgs} (now : Time) (hf : a.id ∉ usedIds db)
    (hm : (a.strategic.map (·.1)).Nodup) :
    step db (.insert a now []) = (.inserted (.ok a.id),
      if a.contents = [] then Eff.finish a.row now (Eff.insert a db) else Eff.insert a db) := by
  have hok := insertOk_of_fresh hI hf hm
  simp only [step, insertSubmissionFromChunks, bind_run, insertSubmission_ok a db hok]
  by_cases he : a.contents = []
  · have hI' := inv_insert hI hok hf
    have hd : a.row.chunksDone = a.row.chunksTotal := by simp [InsertArgs.row, he]
    have hmem : a.row ∈ (Eff.insert a db).submissions := by simp [Eff.insert]
    have := maybeComplete_done (s := a.row) (db := Eff.insert a db) now hI'.subIds hmem hd
      (hI'.sub_comp hmem)
    simp only [InsertArgs.row] at this ⊢
    simp [he, matchRes_run, this, pure_run]
  · have : ¬ a.contents.length = 0 := by simpa [List.length_eq_zero_iff] using he
    simp [he, pure_run]

end Opsqueue

namespace Opsqueue
open Sql SubmissionDb

theorem FreshIds.add {ops : List Op} (h : FreshIds ops) {op : Op} (ho : op.insertId = none) :
    FreshIds (ops ++ [op]) := by
  unfold FreshIds at *
  rw [List.filterMap_append]
  simpa [ho] using h

theorem inv_step {ops : List Op} (h : FreshIds ops) {op : Op} (ho : op.insertId = none) :
    Inv (step (run ops) op).2 := by
  have := inv_run (h.add ho); rwa [run_snoc] at this

/-! ### retries -/

theorem Effect.chunk_back {db db' : DB} {op : Op} (h : Effect db op db') (hI : Inv db) {c' : ChunkRow}
    (hc' : c' ∈ db'.chunks) :
    c' ∈ db.chunks ∨
    (∃ c ∈ db.chunks, ∃ f m t1 t2 t3 o, op = .fail c.key f m t1 t2 t3 o ∧ c.retries + 1 < m ∧
      c' = { c with retries := c.retries + 1 }) ∨
    (∃ a now o, op = .insert a now o ∧ c' ∈ mkChunks a.id a.contents) := by
  cases h with
  | none => exact .inl hc'
  | insert a now o hok =>
    simp only [Eff.insert, List.mem_append] at hc'
    exact hc'.imp id fun h => .inr ⟨_, _, _, rfl, h⟩
  | insertEmpty a now o hok he =>
    simp only [Eff.finish, Eff.insert, List.mem_append] at hc'
    exact hc'.imp id fun h => .inr ⟨_, _, _, rfl, h⟩
  | complete c s out t1 t2 o hc hs hid hl => exact .inl (List.mem_filter.1 hc').1
  | completeLast c s out t1 t2 o hc hs hid hl => exact .inl (List.mem_filter.1 hc').1
  | retry c f m t1 t2 t3 o hc hr =>
    simp only [Eff.bump, List.mem_map] at hc'
    obtain ⟨x, hx, rfl⟩ := hc'
    by_cases e : x.key = c.key
    · refine .inr (.inl ⟨x, hx, f, m, t1, t2, t3, o, by rw [e], ?_, by simp [e]⟩)
      · rw [eq_of_key_eq hI.chunkKeys hx hc e]; exact hr
    · left; simpa [e] using hx
  | fail c s f m t1 t2 t3 o hc hs hid hr => exact .inl (List.mem_filter.1 hc').1
  | cancel s t1 t2 o hs => exact .inl (List.mem_filter.1 hc').1
  | cleanup t o => exact .inl hc'

/-- The recorded failures of a backlog chunk are at most the failure reports since the insert, and
exactly them if these were not disturbed; with one budget they stay below it. -/
theorem retries_run {pre post : List Op} {a : InsertArgs} {now : Time} {o : List Fault}
    (hf : FreshIds ((pre ++ [.insert a now o]) ++ post)) {c : ChunkRow}
    (hc : c ∈ (run ((pre ++ [.insert a now o]) ++ post)).chunks) (hid : c.submissionId = a.id) :
    c.retries ≤ (post.filter (Op.fails c.key)).length ∧
    ((∀ f m t1 t2 t3 o', Op.fail c.key f m t1 t2 t3 o' ∈ post → o' = []) →
      c.retries = (post.filter (Op.fails c.key)).length) ∧
    (∀ m, (∀ f m' t1 t2 t3 o', Op.fail c.key f m' t1 t2 t3 o' ∈ post → m' = m) →
      c.retries < max 1 m) := by
  revert c
  refine cont_induction (P := fun zs => ∀ {c : ChunkRow},
    c ∈ (run ((pre ++ [.insert a now o]) ++ zs)).chunks → c.submissionId = a.id →
    c.retries ≤ (zs.filter (Op.fails c.key)).length ∧
    ((∀ f m t1 t2 t3 o', Op.fail c.key f m t1 t2 t3 o' ∈ zs → o' = []) →
      c.retries = (zs.filter (Op.fails c.key)).length) ∧
    (∀ m, (∀ f m' t1 t2 t3 o', Op.fail c.key f m' t1 t2 t3 o' ∈ zs → m' = m) →
      c.retries < max 1 m)) hf ?_ ?_
  · intro c hc hid
    have hf' := hf.prefix
    rw [List.append_nil] at hc
    have hz : c.retries = 0 := by
      rcases (effect_run hf').chunk_back (inv_run hf'.snoc.1) hc with h | ⟨c0, _, f, m, t1, t2, t3, o', h, _⟩ |
          ⟨b, n, o', h, hm⟩
      · exfalso
        have := key_inserted hf'.snoc.1 (keys_of_mem h)
        exact hf'.snoc.2 a.id rfl (by rw [← hid]; exact this)
      · simp at h
      · exact (mem_mkChunks.1 hm).2.1
    refine ⟨by rw [hz]; exact Nat.zero_le _, fun _ => by simp [hz], fun m _ => by omega⟩
  · intro zs op hw hf' ih c hc hid
    rw [← List.append_assoc] at hc
    have hI := inv_run hf'.snoc.1
    have hin : c.key.submissionId ∈ ((pre ++ [Op.insert a now o]) ++ zs).filterMap Op.insertId := by
      show c.submissionId ∈ _
      rw [hid]; exact List.mem_filterMap.2 ⟨Op.insert a now o, by simp, rfl⟩
    have hkey : c.key ∈ keys (run ((pre ++ [.insert a now o]) ++ zs)) := by
      apply Classical.byContradiction
      intro hn
      exact keys_stay_gone hf' hin hn (keys_of_mem hc)
    rcases (effect_run hf').chunk_back hI hc with h | ⟨c0, hc0, f, m, t1, t2, t3, o', hop, hlt, e⟩ |
        ⟨b, n, o', hop, hm⟩
    · obtain ⟨i1, i2, i3⟩ := ih h hid
      have hle : (zs.filter (Op.fails c.key)).length ≤ ((zs ++ [op]).filter (Op.fails c.key)).length := by
        simp
      refine ⟨Nat.le_trans i1 hle, ?_, ?_⟩
      · intro hcl
        have hno : op.fails c.key = false := by
          cases hop : op with
          | fail cid f m t1 t2 t3 o' =>
            by_cases hck : cid = c.key
            · exfalso
              subst hck hop
              have := hcl f m t1 t2 t3 o' (by simp)
              subst this
              rw [run_snoc] at hc
              obtain ⟨s, hs, hs', _⟩ := hI.owner c h
              by_cases hr : c.retries + 1 < m
              · rw [step_fail_retry hI f t1 t2 t3 h hr] at hc
                simp only [Eff.bump, List.mem_map] at hc
                obtain ⟨x, hx, hx'⟩ := hc
                by_cases e : x.key = c.key
                · have := eq_of_key_eq hI.chunkKeys hx h e
                  subst this
                  have := congrArg ChunkRow.retries hx'
                  simp at this
                · simp [e] at hx'; subst hx'; exact e rfl
              · rw [step_fail_fail hI f t1 t2 t3 h hs hs' (by omega)] at hc
                have := (List.mem_filter.1 hc).2
                simp [hs'] at this
            · simp [Op.fails, hck]
          | _ => rfl
        rw [List.filter_append, i2 (fun f m t1 t2 t3 o' hm => hcl f m t1 t2 t3 o' (by simp [hm]))]
        simp [hno]
      · intro m hm
        exact i3 m fun f m' t1 t2 t3 o' h => hm f m' t1 t2 t3 o' (by simp [h])
    · have hk : c.key = c0.key := by rw [e]; rfl
      have hid0 : c0.submissionId = a.id := by rw [← hid, e]
      have hret : c.retries = c0.retries + 1 := by rw [e]
      obtain ⟨i1, i2, i3⟩ := ih hc0 hid0
      have hlen : ((zs ++ [op]).filter (Op.fails c.key)).length =
          (zs.filter (Op.fails c0.key)).length + 1 := by
        rw [hk, List.filter_append, List.length_append, hop]; simp [Op.fails]
      refine ⟨by omega, ?_, ?_⟩
      · intro hcl
        rw [hlen, hret, i2 (fun f m t1 t2 t3 o' hm => hcl f m t1 t2 t3 o' (by rw [hk]; simp [hm]))]
      · intro m' hm
        have := hm f m t1 t2 t3 o' (by rw [hk, hop]; simp)
        omega
    · exfalso
      subst hop
      have hb : c.submissionId = b.id := (mem_mkChunks.1 hm).1
      exact hf'.snoc.2 b.id rfl (by rw [← hb]; exact hin)

end Opsqueue
