import Verif.Proofs.Sql
import Verif.Proofs.Lists

/-! Closed forms of the fault-free effect of every call. -/

set_option linter.unusedSimpArgs false

namespace Opsqueue
open Sql SubmissionDb

theorem ok_bind {ε α β : Type} (a : α) (f : α → Except ε β) :
    ((Except.ok a : Except ε α) >>= f) = f a := rfl
theorem err_bind {ε α β : Type} (e : ε) (f : α → Except ε β) :
    ((Except.error e : Except ε α) >>= f) = .error e := rfl
theorem pure_eq {ε α : Type} (a : α) : (pure a : Except ε α) = .ok a := rfl

/-! ### insert -/

def metaRows (id : SubmissionId) (m : StrategicMetadata) : List MetaRow :=
  m.map fun (k, v) => ⟨id, k, v⟩

theorem insertMetadata_nil (id : SubmissionId) (m : StrategicMetadata) (db : DB) :
    (∃ t, Stmt.insertRows MetaRow.pk (metaRows id m) db.submissionsMetadata = .ok t ∧
      insertSubmissionMetadataRaw id m ⟨[], db⟩ = (.ok (), ⟨[], { db with submissionsMetadata := t }⟩))
    ∨ (Stmt.insertRows MetaRow.pk (metaRows id m) db.submissionsMetadata = .error .constraint ∧
      ∃ db', insertSubmissionMetadataRaw id m ⟨[], db⟩ = (.err .constraint, ⟨[], db'⟩)) := by
  induction m generalizing db with
  | nil => left; exact ⟨_, Stmt.insertRows_nil, rfl⟩
  | cons kv rest ih =>
    obtain ⟨k, v⟩ := kv
    have happ : metaRows id ((k, v) :: rest) = [⟨id, k, v⟩] ++ metaRows id rest := rfl
    rw [happ, Stmt.insertRows_append]
    simp only [insertSubmissionMetadataRaw, bind_run, stmt_nil, Stmt.insertMetadata]
    by_cases h : MetaRow.pk ⟨id, k, v⟩ ∉ db.submissionsMetadata.map MetaRow.pk
    · simp only [Stmt.insertRows_singleton, if_pos h, ok_bind, err_bind, pure_eq]
      exact ih { db with submissionsMetadata := db.submissionsMetadata ++ [⟨id, k, v⟩] }
    · right
      simp only [Stmt.insertRows_singleton, if_neg h, ok_bind, err_bind]
      exact ⟨trivial, _, rfl⟩

theorem insertBatches_nil (n : Nat) (rows : List ChunkRow) (db : DB) :
    (∃ t, Stmt.insertRows ChunkRow.key rows db.chunks = .ok t ∧
      ChunkDb.insertBatches n rows ⟨[], db⟩ = (.ok (), ⟨[], { db with chunks := t }⟩))
    ∨ (Stmt.insertRows ChunkRow.key rows db.chunks = .error .constraint ∧
      ∃ db', ChunkDb.insertBatches n rows ⟨[], db⟩ = (.err .constraint, ⟨[], db'⟩)) := by
  fun_induction ChunkDb.insertBatches n rows generalizing db with
  | case1 => left; exact ⟨_, Stmt.insertRows_nil, rfl⟩
  | case2 r rs ih =>
    have happ : r :: rs = (r :: rs).take (n + 1) ++ rs.drop n := by
      simp
    have hsplit : Stmt.insertRows ChunkRow.key (r :: rs) db.chunks =
        match Stmt.insertRows ChunkRow.key ((r :: rs).take (n + 1)) db.chunks with
        | .ok t => Stmt.insertRows ChunkRow.key (rs.drop n) t
        | .error e => .error e := by
      conv => lhs; rw [happ]
      rw [Stmt.insertRows_append]
      cases Stmt.insertRows ChunkRow.key ((r :: rs).take (n + 1)) db.chunks <;> rfl
    rw [hsplit]
    simp only [bind_run, stmt_nil, Stmt.insertChunks]
    by_cases h : (∀ r' ∈ (r :: rs).take (n + 1), ChunkRow.key r' ∉ db.chunks.map ChunkRow.key) ∧
        (((r :: rs).take (n + 1)).map ChunkRow.key).Nodup
    · rw [Stmt.insertRows_of h.1 h.2]
      simp only [ok_bind, err_bind, pure_eq]
      exact ih { db with chunks := db.chunks ++ (r :: rs).take (n + 1) }
    · right
      rw [Stmt.insertRows_err h]
      simp only [ok_bind, err_bind]
      exact ⟨trivial, _, rfl⟩

/-- The database after a successful insert transaction. -/
def Eff.insert (a : InsertArgs) (db : DB) : DB :=
  { db with
    submissions := db.submissions ++ [a.row]
    submissionsMetadata := db.submissionsMetadata ++ metaRows a.id a.strategic
    chunks := db.chunks ++ mkChunks a.id a.contents }

/-- When the insert transaction succeeds. -/
def Eff.InsertOk (a : InsertArgs) (db : DB) : Prop :=
  a.id ∉ db.submissions.map SubmissionRow.id ∧
  ((∀ r ∈ metaRows a.id a.strategic, r.pk ∉ db.submissionsMetadata.map MetaRow.pk) ∧
    ((metaRows a.id a.strategic).map MetaRow.pk).Nodup) ∧
  ((∀ r ∈ mkChunks a.id a.contents, r.key ∉ db.chunks.map ChunkRow.key) ∧
    ((mkChunks a.id a.contents).map ChunkRow.key).Nodup)

/-- The body of the insert transaction. -/
def insertBody (a : InsertArgs) : Sql DbErr Unit := do
  insertSubmissionRaw a.row
  insertSubmissionMetadataRaw a.row.id a.strategic
  ChunkDb.insertManyChunks (mkChunks a.id a.contents)

theorem insertBody_ok (a : InsertArgs) (db : DB) (h : Eff.InsertOk a db) :
    insertBody a ⟨[], db⟩ = (.ok (), ⟨[], Eff.insert a db⟩) := by
  obtain ⟨h1, h2, h3⟩ := h
  simp only [insertBody, insertSubmissionRaw, bind_run, stmt_nil, Stmt.insertSubmission]
  rw [Stmt.insertRows_singleton, if_pos (by exact h1)]
  simp only [ok_bind, err_bind, pure_eq]
  rcases insertMetadata_nil a.row.id a.strategic { db with submissions := db.submissions ++ [a.row] }
    with ⟨t, ht, hr⟩ | ⟨ht, _⟩
  · rw [hr]
    simp only
    rw [show a.row.id = a.id from rfl] at ht
    rw [Stmt.insertRows_of h2.1 h2.2] at ht
    injection ht with ht
    rcases insertBatches_nil 999 (mkChunks a.id a.contents)
      { db with submissions := db.submissions ++ [a.row], submissionsMetadata := t }
      with ⟨t', ht', hr'⟩ | ⟨ht', _⟩
    · rw [ChunkDb.insertManyChunks, hr']
      rw [Stmt.insertRows_of h3.1 h3.2] at ht'
      injection ht' with ht'
      subst ht ht'
      rfl
    · rw [Stmt.insertRows_of h3.1 h3.2] at ht'
      simp at ht'
  · rw [show a.row.id = a.id from rfl] at ht
    rw [Stmt.insertRows_of h2.1 h2.2] at ht
    simp at ht

theorem insertBody_err (a : InsertArgs) (db : DB) (h : ¬ Eff.InsertOk a db) :
    ∃ db', insertBody a ⟨[], db⟩ = (.err .constraint, ⟨[], db'⟩) := by
  simp only [insertBody, insertSubmissionRaw, bind_run, stmt_nil, Stmt.insertSubmission]
  rw [Stmt.insertRows_singleton]
  by_cases h1 : a.row.id ∉ db.submissions.map SubmissionRow.id
  · rw [if_pos h1]
    simp only [ok_bind, err_bind, pure_eq]
    rcases insertMetadata_nil a.row.id a.strategic
      { db with submissions := db.submissions ++ [a.row] } with ⟨t, ht, hr⟩ | ⟨_, db', hr⟩
    · rw [hr]
      simp only
      rcases insertBatches_nil 999 (mkChunks a.id a.contents)
        { db with submissions := db.submissions ++ [a.row], submissionsMetadata := t }
        with ⟨t', ht', hr'⟩ | ⟨_, db', hr'⟩
      · exact absurd ⟨h1, (Stmt.insertRows_ok ht).2, (Stmt.insertRows_ok ht').2⟩ h
      · rw [ChunkDb.insertManyChunks, hr']; exact ⟨_, rfl⟩
    · rw [hr]; exact ⟨_, rfl⟩
  · rw [if_neg h1]
    simp only [ok_bind, err_bind]
    exact ⟨_, rfl⟩

theorem insertSubmission_ok (a : InsertArgs) (db : DB) (h : Eff.InsertOk a db) :
    insertSubmission a.row a.strategic (mkChunks a.id a.contents) ⟨[], db⟩ =
      (.ok (), ⟨[], Eff.insert a db⟩) := by
  have hb : insertSubmission a.row a.strategic (mkChunks a.id a.contents) =
      transaction (fun e => e) (insertBody a) := rfl
  rw [hb, transaction_nil, insertBody_ok a db h]

theorem insertSubmission_err (a : InsertArgs) (db : DB) (h : ¬ Eff.InsertOk a db) :
    insertSubmission a.row a.strategic (mkChunks a.id a.contents) ⟨[], db⟩ =
      (.err .constraint, ⟨[], db⟩) := by
  have hb : insertSubmission a.row a.strategic (mkChunks a.id a.contents) =
      transaction (fun e => e) (insertBody a) := rfl
  obtain ⟨db', h'⟩ := insertBody_err a db h
  rw [hb, transaction_nil, h']

/-! ### completing a submission -/

/-- The completed row made of a submission row. -/
def toCompleted (t : Time) (r : SubmissionRow) : CompletedRow :=
  { id := r.id, pfx := r.pfx, chunksTotal := r.chunksTotal, metadata := r.metadata,
    completedAt := t, otel := "{}", chunkSize := none }

def Eff.finish (s : SubmissionRow) (t : Time) (db : DB) : DB :=
  { db with
    submissions := db.submissions.filter (fun r => !(r.id == s.id))
    submissionsCompleted := db.submissionsCompleted ++ [toCompleted t s] }

theorem maybeComplete_none {id : SubmissionId} {db : DB} (t : Time)
    (h : id ∉ db.submissions.map SubmissionRow.id) :
    maybeCompleteSubmission id t ⟨[], db⟩ = (.err (.R ⟨id⟩), ⟨[], db⟩) := by
  have hf := find?_key_none.2 h
  simp [maybeCompleteSubmission, transaction_nil, getSubmission, bind_run, mapErr_run, query_nil,
    Stmt.selectSubmission, hf, throw_run]

theorem maybeComplete_notYet {s : SubmissionRow} {db : DB} (t : Time)
    (hn : (db.submissions.map SubmissionRow.id).Nodup) (hs : s ∈ db.submissions)
    (hd : s.chunksDone ≠ s.chunksTotal) :
    maybeCompleteSubmission s.id t ⟨[], db⟩ = (.ok false, ⟨[], db⟩) := by
  have hf := find?_key_of_mem hn hs
  simp [maybeCompleteSubmission, transaction_nil, getSubmission, bind_run, mapErr_run, query_nil,
    Stmt.selectSubmission, hf, hd, pure_run]

theorem maybeComplete_done {s : SubmissionRow} {db : DB} (t : Time)
    (hn : (db.submissions.map SubmissionRow.id).Nodup) (hs : s ∈ db.submissions)
    (hd : s.chunksDone = s.chunksTotal)
    (hc : s.id ∉ db.submissionsCompleted.map CompletedRow.id) :
    maybeCompleteSubmission s.id t ⟨[], db⟩ = (.ok true, ⟨[], Eff.finish s t db⟩) := by
  have hf := find?_key_of_mem hn hs
  have hfl := filter_key_of_mem hn hs
  have hins : Stmt.insertCompletedSelect s.id t db =
      .ok ((), { db with submissionsCompleted := db.submissionsCompleted ++ [toCompleted t s] }) := by
    simp only [Stmt.insertCompletedSelect, hfl, List.map_cons, List.map_nil]
    rw [Stmt.insertRows_of]
    · rfl
    · intro r hr; simp only [List.mem_singleton] at hr; subst hr; exact hc
    · simp
  simp [maybeCompleteSubmission, transaction_nil, getSubmission, bind_run, mapErr_run, query_nil,
    Stmt.selectSubmission, hf, hd, pure_run, completeSubmissionRaw, stmt_nil, hins,
    Stmt.deleteSubmission, Eff.finish]

/-! ### completing a chunk -/

def Eff.completeRaw (cid : ChunkId) (out : Content) (t : Time) (db : DB) : DB :=
  { db with
    chunks := db.chunks.filter (fun r => !(r.key == cid))
    chunksCompleted := db.chunksCompleted ++ [⟨cid.submissionId, cid.chunkIndex, out, t⟩]
    submissions := db.submissions.map fun r =>
      if r.id == cid.submissionId then { r with chunksDone := r.chunksDone + 1 } else r }

theorem completeRaw_missing {cid : ChunkId} {db : DB} (out : Content) (t : Time)
    (h : cid ∉ db.chunks.map ChunkRow.key) :
    ChunkDb.completeChunkRaw cid out t ⟨[], db⟩ = (.err .rowNotFound, ⟨[], db⟩) := by
  have h1 := filter_key_nil.2 h
  have h2 := find?_key_none.2 h
  simp [ChunkDb.completeChunkRaw, bind_run, stmt_nil, Stmt.insertChunkCompletedSelect, h1,
    Stmt.insertRows_nil, ok_bind, err_bind, pure_eq, Stmt.deleteChunk, h2]

theorem completeRaw_ok {c : ChunkRow} {s : SubmissionRow} {db : DB} (out : Content) (t : Time)
    (hck : (db.chunks.map ChunkRow.key).Nodup) (hc : c ∈ db.chunks)
    (hn : (db.submissions.map SubmissionRow.id).Nodup) (hs : s ∈ db.submissions)
    (hid : s.id = c.submissionId)
    (hcc : c.key ∉ db.chunksCompleted.map ChunkCompletedRow.key) :
    ChunkDb.completeChunkRaw c.key out t ⟨[], db⟩ =
      (.ok s.chunkSize, ⟨[], Eff.completeRaw c.key out t db⟩) := by
  have h1 := filter_key_of_mem hck hc
  have h2 := find?_key_of_mem hck hc
  have h3 := find?_key_of_mem hn hs
  have hk : c.key.submissionId = s.id := by simp [ChunkRow.key, hid]
  have hins : Stmt.insertChunkCompletedSelect c.key out t db =
      .ok ((), { db with chunksCompleted := db.chunksCompleted ++
        [⟨c.key.submissionId, c.key.chunkIndex, out, t⟩] }) := by
    simp only [Stmt.insertChunkCompletedSelect, h1, List.map_cons, List.map_nil]
    rw [Stmt.insertRows_of]
    · rfl
    · intro r hr; simp only [List.mem_singleton] at hr; subst hr; exact hcc
    · simp
  simp [ChunkDb.completeChunkRaw, bind_run, stmt_nil, hins, Stmt.deleteChunk, h2,
    Stmt.bumpChunksDone, hk, h3, Eff.completeRaw]

/-! ### failing a chunk -/

def Eff.bump (cid : ChunkId) (db : DB) : DB :=
  { db with chunks := db.chunks.map fun r =>
      if r.key == cid then { r with retries := r.retries + 1 } else r }

def toFailed (i : ChunkIndex) (t : Time) (r : SubmissionRow) : FailedRow :=
  { id := r.id, pfx := r.pfx, chunksTotal := r.chunksTotal, chunksDone := some r.chunksDone,
    metadata := r.metadata, failedAt := t, failedChunkId := i, otel := "{}", chunkSize := none }

def toCancelled (t : Time) (r : SubmissionRow) : CancelledRow :=
  { id := r.id, pfx := r.pfx, chunksTotal := r.chunksTotal, chunksDone := r.chunksDone,
    metadata := r.metadata, cancelledAt := t }

def toChunkFailed (failure : String) (t : Time) (skipped : Bool) (r : ChunkRow) : ChunkFailedRow :=
  { submissionId := r.submissionId, chunkIndex := r.chunkIndex, inputContent := r.inputContent,
    failure := failure, failedAt := t, skipped := skipped }

/-- The skipped chunks when chunk `cid` fails its submission. -/
def otherChunks (cid : ChunkId) (db : DB) : List ChunkRow :=
  db.chunks.filter (fun r => !(r.key == cid) && (r.submissionId == cid.submissionId))

def Eff.fail (s : SubmissionRow) (c : ChunkRow) (failure : String) (t1 t2 t3 : Time) (db : DB) : DB :=
  { db with
    submissions := db.submissions.filter (fun r => !(r.id == s.id))
    submissionsFailed := db.submissionsFailed ++ [toFailed c.chunkIndex t1 s]
    chunks := db.chunks.filter (fun r => !(r.submissionId == s.id))
    chunksFailed := db.chunksFailed ++ [toChunkFailed failure t2 false c] ++
      (otherChunks c.key db).map (toChunkFailed "" t3 true) }

theorem skip_ok {id : SubmissionId} {db : DB} (t : Time)
    (hck : (db.chunks.map ChunkRow.key).Nodup)
    (hd : ∀ c ∈ db.chunks, c.submissionId = id → c.key ∉ db.chunksFailed.map ChunkFailedRow.key) :
    ChunkDb.skipRemainingChunks id t ⟨[], db⟩ =
      (.ok (), ⟨[], { db with
        chunks := db.chunks.filter (fun r => !(r.submissionId == id))
        chunksFailed := db.chunksFailed ++
          (db.chunks.filter (·.submissionId == id)).map (toChunkFailed "" t true) }⟩) := by
  have hins : Stmt.insertSkippedSelect id t db = .ok ((), { db with
      chunksFailed := db.chunksFailed ++
          (db.chunks.filter (·.submissionId == id)).map (toChunkFailed "" t true) }) := by
    simp only [Stmt.insertSkippedSelect]
    rw [Stmt.insertRows_of]
    · rfl
    · intro r hr
      simp only [List.mem_map, List.mem_filter, beq_iff_eq] at hr
      obtain ⟨c, ⟨hc, hid⟩, rfl⟩ := hr
      exact hd c hc hid
    · rw [List.map_map]
      exact nodup_map_filter (key := ChunkRow.key) hck _
  simp [ChunkDb.skipRemainingChunks, bind_run, stmt_nil, hins, Stmt.deleteChunksOf]

theorem failSubmissionNotx_ok {s : SubmissionRow} {c : ChunkRow} {db : DB} (failure : String)
    (t1 t2 t3 : Time)
    (hn : (db.submissions.map SubmissionRow.id).Nodup) (hs : s ∈ db.submissions)
    (hf : s.id ∉ db.submissionsFailed.map FailedRow.id)
    (hck : (db.chunks.map ChunkRow.key).Nodup) (hc : c ∈ db.chunks) (hid : c.submissionId = s.id)
    (hcf : ∀ d ∈ db.chunksFailed, d.submissionId ≠ s.id) :
    failSubmissionNotx c.submissionId c.chunkIndex failure t1 t2 t3 ⟨[], db⟩ =
      (.ok (), ⟨[], Eff.fail s c failure t1 t2 t3 db⟩) := by
  have h1 := find?_key_of_mem hn hs
  have h2 := filter_key_of_mem hn hs
  have h3 := find?_key_of_mem hck hc
  have h4 := filter_key_of_mem hck hc
  have hins : Stmt.insertFailedSelect s.id c.chunkIndex t1 db =
      .ok ((), { db with submissionsFailed := db.submissionsFailed ++ [toFailed c.chunkIndex t1 s] }) := by
    simp only [Stmt.insertFailedSelect, h2, List.map_cons, List.map_nil]
    rw [Stmt.insertRows_of]
    · rfl
    · intro r hr; simp only [List.mem_singleton] at hr; subst hr; exact hf
    · simp
  have hcf' : ∀ c' ∈ db.chunks, c'.submissionId = s.id →
      c'.key ∉ db.chunksFailed.map ChunkFailedRow.key := by
    intro c' _ hc' hm
    obtain ⟨d, hd, hk⟩ := List.mem_map.1 hm
    refine hcf d hd ?_
    have := congrArg ChunkId.submissionId hk
    simpa [ChunkFailedRow.key, ChunkRow.key, hc'] using this
  let db1 : DB := { db with
    submissions := db.submissions.filter (fun r => !(r.id == s.id))
    submissionsFailed := db.submissionsFailed ++ [toFailed c.chunkIndex t1 s] }
  let db2 : DB := { db1 with
    chunks := db.chunks.filter (fun r => !(r.key == c.key))
    chunksFailed := db.chunksFailed ++ [toChunkFailed failure t2 false c] }
  have e1 : failSubmissionRaw s.id c.chunkIndex t1 ⟨[], db⟩ = (.ok (), ⟨[], db1⟩) := by
    simp [failSubmissionRaw, bind_run, stmt_nil, hins, Stmt.deleteSubmission, h1, pure_run, db1]
  have hmins : Stmt.insertChunkFailedSelect c.key failure t2 db1 =
      .ok ((), { db1 with chunksFailed := db.chunksFailed ++ [toChunkFailed failure t2 false c] }) := by
    have h4' : db1.chunks.filter (fun r => r.key == c.key) = [c] := h4
    simp only [Stmt.insertChunkFailedSelect, h4', List.map_cons, List.map_nil]
    rw [Stmt.insertRows_of]
    · rfl
    · intro r hr; simp only [List.mem_singleton] at hr; subst hr; exact hcf' c hc hid
    · simp
  have e2 : ChunkDb.moveChunkToFailedChunks c.key failure t2 ⟨[], db1⟩ = (.ok (), ⟨[], db2⟩) := by
    simp [ChunkDb.moveChunkToFailedChunks, bind_run, stmt_nil, hmins, Stmt.deleteChunk, h3,
      db1, db2]
  have e3 : ChunkDb.skipRemainingChunks s.id t3 ⟨[], db2⟩ =
      (.ok (), ⟨[], Eff.fail s c failure t1 t2 t3 db⟩) := by
    rw [skip_ok]
    · have k1 : (db.chunks.filter (fun r => !(r.key == c.key))).filter
          (fun r => !(r.submissionId == s.id)) = db.chunks.filter (fun r => !(r.submissionId == s.id)) := by
        rw [List.filter_filter]
        apply List.filter_congr
        intro r _
        by_cases h : r.submissionId = s.id
        · simp [h]
        · have : r.key ≠ c.key := fun e => h (by
            have := congrArg ChunkId.submissionId e
            simpa [ChunkRow.key, hid] using this)
          simp [h, this]
      have k2 : (db.chunks.filter (fun r => !(r.key == c.key))).filter
          (fun r => r.submissionId == s.id) = otherChunks c.key db := by
        rw [List.filter_filter, otherChunks]
        apply List.filter_congr
        intro r _
        simp [ChunkRow.key, hid, Bool.and_comm]
      simp only [db2, db1, k1, k2, Eff.fail]
    · exact nodup_map_filter hck _
    · intro c' hc' hid' hm
      simp only [db2, List.map_append, List.map_cons, List.map_nil, List.mem_append,
        List.mem_singleton] at hm
      have hc'' : c' ∈ db.chunks ∧ ¬ c'.key = c.key := by simpa [db2] using hc'
      rcases hm with hm | hm
      · exact hcf' c' hc''.1 hid' hm
      · have : c'.key = c.key := by rw [hm]; rfl
        exact hc''.2 this
  have hkey : (⟨s.id, c.chunkIndex⟩ : ChunkId) = c.key := by rw [← hid]; rfl
  rw [hid]
  simp only [failSubmissionNotx, bind_run, e1, hkey, e2, e3]

/-! ### cancelling -/

def Eff.cancel (s : SubmissionRow) (t1 t2 : Time) (db : DB) : DB :=
  { db with
    submissions := db.submissions.filter (fun r => !(r.id == s.id))
    submissionsCancelled := db.submissionsCancelled ++ [toCancelled t1 s]
    chunks := db.chunks.filter (fun r => !(r.submissionId == s.id))
    chunksFailed := db.chunksFailed ++
      (db.chunks.filter (·.submissionId == s.id)).map (toChunkFailed "" t2 true) }

theorem cancelNotx_ok {s : SubmissionRow} {db : DB} (t1 t2 : Time)
    (hn : (db.submissions.map SubmissionRow.id).Nodup) (hs : s ∈ db.submissions)
    (hf : s.id ∉ db.submissionsCancelled.map CancelledRow.id)
    (hck : (db.chunks.map ChunkRow.key).Nodup)
    (hcf : ∀ d ∈ db.chunksFailed, d.submissionId ≠ s.id) :
    cancelSubmissionNotx s.id t1 t2 ⟨[], db⟩ = (.ok (), ⟨[], Eff.cancel s t1 t2 db⟩) := by
  have h1 := find?_key_of_mem hn hs
  have h2 := filter_key_of_mem hn hs
  have hins : Stmt.insertCancelledSelect s.id t1 db =
      .ok ((), { db with submissionsCancelled := db.submissionsCancelled ++ [toCancelled t1 s] }) := by
    simp only [Stmt.insertCancelledSelect, h2, List.map_cons, List.map_nil]
    rw [Stmt.insertRows_of]
    · rfl
    · intro r hr; simp only [List.mem_singleton] at hr; subst hr; exact hf
    · simp
  have e1 : cancelSubmissionRaw s.id t1 ⟨[], db⟩ = (.ok (), ⟨[], { db with
      submissions := db.submissions.filter (fun r => !(r.id == s.id))
      submissionsCancelled := db.submissionsCancelled ++ [toCancelled t1 s] }⟩) := by
    simp [cancelSubmissionRaw, bind_run, stmt_nil, mapErr_run, hins, Stmt.deleteSubmission, h1, pure_run]
  simp only [cancelSubmissionNotx, bind_run, e1, mapErr_run]
  rw [skip_ok]
  · rfl
  · exact hck
  · intro c' _ hc' hm
    obtain ⟨d, hd, hk⟩ := List.mem_map.1 hm
    refine hcf d hd ?_
    have := congrArg ChunkId.submissionId hk
    simpa [ChunkFailedRow.key, ChunkRow.key, hc'] using this

theorem cancelNotx_missing {id : SubmissionId} {db : DB} (t1 t2 : Time)
    (h : id ∉ db.submissions.map SubmissionRow.id) :
    ∃ db', db' = { db with submissions := db.submissions.filter (fun r => !(r.id == id)) } ∧
    cancelSubmissionNotx id t1 t2 ⟨[], db⟩ = (.err (.R ⟨id⟩), ⟨[], db'⟩) := by
  have h1 := filter_key_nil.2 h
  have h2 := find?_key_none.2 h
  refine ⟨_, rfl, ?_⟩
  simp [cancelSubmissionNotx, cancelSubmissionRaw, bind_run, mapErr_run, stmt_nil,
    Stmt.insertCancelledSelect, h1, Stmt.insertRows_nil, ok_bind, err_bind, pure_eq,
    Stmt.deleteSubmission, h2, throw_run]

/-! ### cleanup -/

/-- Whether a row of the metadata table belongs to a submission the cleanup removes. -/
def oldIds (t : Time) (db : DB) : List SubmissionId :=
  (db.submissionsCompleted.filter (fun r => decide (r.completedAt < t))).map (·.id) ++
  (db.submissionsFailed.filter (fun r => decide (r.failedAt < t))).map (·.id) ++
  (db.submissionsCancelled.filter (fun r => decide (r.cancelledAt < t))).map (·.id)

def Eff.cleanup (t : Time) (db : DB) : DB :=
  { submissions := db.submissions
    chunks := db.chunks
    submissionsMetadata := db.submissionsMetadata.filter fun m => !((oldIds t db).contains m.submissionId)
    submissionsCompleted := db.submissionsCompleted.filter (fun r => !decide (r.completedAt < t))
    submissionsFailed := db.submissionsFailed.filter (fun r => !decide (r.failedAt < t))
    submissionsCancelled := db.submissionsCancelled.filter (fun r => !decide (r.cancelledAt < t))
    chunksCompleted := db.chunksCompleted.filter (fun r => !decide (r.completedAt < t))
    chunksFailed := db.chunksFailed.filter (fun r => !decide (r.failedAt < t)) }

theorem cleanup_ok (t : Time) (db : DB) :
    cleanupOld t ⟨[], db⟩ = (.ok (), ⟨[], Eff.cleanup t db⟩) := by
  simp only [cleanupOld, transaction_nil, bind_run, stmt_nil, Stmt.deleteMetadataOfOldCompleted,
    Stmt.deleteMetadataOfOldFailed, Stmt.deleteMetadataOfOldCancelled, Stmt.deleteOldCompleted,
    Stmt.deleteOldFailed, Stmt.deleteOldCancelled, Stmt.deleteOldChunksCompleted,
    Stmt.deleteOldChunksFailed, Eff.cleanup]
  congr 3
  rw [List.filter_filter, List.filter_filter]
  apply List.filter_congr
  intro m _
  simp only [oldIds, List.contains_eq_mem, List.mem_append, Bool.decide_or, Bool.not_or]
  cases decide (m.submissionId ∈ (db.submissionsCompleted.filter _).map _) <;>
  cases decide (m.submissionId ∈ (db.submissionsFailed.filter _).map _) <;>
  cases decide (m.submissionId ∈ (db.submissionsCancelled.filter _).map _) <;> rfl

end Opsqueue
