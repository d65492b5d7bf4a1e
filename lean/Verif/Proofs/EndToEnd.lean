import Verif.Spec.ObjectStore
import Verif.Spec.Python
import Verif.Model.EndToEnd
import Verif.Proofs.ObjectStore
import Verif.Proofs.Python
import Verif.Proofs.Holding
import Verif.Proofs.Ledger
import Verif.Proofs.Fetch

/-!
# Lemmas about producers, server, consumers and object store together
-/

namespace Opsqueue

theorem mem_orderBy {α} {le : α → α → Bool} {l : List α} {x : α} (h : x ∈ SubmissionDb.orderBy le l) : x ∈ l :=
  (orderBy_perm _ _).mem_iff.1 h

theorem mem_cutDeck {α} {offset : Nat} {g : α → Nat} {p : α → Bool} {l : List α} {x : α}
    (h : x ∈ Strategy.cutDeck offset g p l) : x ∈ l := by
  unfold Strategy.cutDeck at h
  rcases List.mem_append.1 h with h | h <;> exact (List.mem_filter.1 h).1

theorem mem_chunkRows {st : Strategy} {offset : Nat} {reserved : ChunkId → Bool}
    {counts : String → List (Int × Nat)} {db : DB} {row : ChunkRow}
    (h : row ∈ st.chunkRows offset reserved counts db) : row ∈ db.chunks := by
  cases st with
  | oldest => exact (List.mem_filter.1 (mem_orderBy h)).1
  | newest => exact (List.mem_filter.1 (mem_orderBy h)).1
  | random => exact mem_cutDeck h
  | preferDistinct k u =>
    obtain ⟨_, _, h⟩ := List.mem_flatMap.1 h
    exact (List.mem_filter.1 h).1

namespace Server
open Conn (Request Response Report)

theorem calls_step (s : State) (a : Action) :
    (step s a).calls = s.calls ∨
    (∃ call, a = .producer call ∧ (step s a).calls = s.calls ++ [call.op]) ∨
    (∃ w n1 n2 n3 o c r queue, a = .handle w n1 n2 n3 o ∧ s.queue = (c, r) :: queue ∧
      (step s a).calls = s.calls ++ [reportOp s.maxRetries n1 n2 n3 o r]) := by
  cases a with
  | handle w n1 n2 n3 o =>
    simp only [step]
    rcases handle_cases s w n1 n2 n3 o with h | ⟨c', r, queue, hcomp, hq, h⟩
    · left; rw [h]
    · rcases h with ⟨_, h⟩ | ⟨_, h1, h2⟩
      · left; rw [h]
      · right; right
        refine ⟨w, n1, n2, n3, o, c', r, queue, rfl, hq, ?_⟩
        obtain ⟨-, h3, h4, -⟩ := dbCall_spec { s with queue := queue } (reportOp s.maxRetries n1 n2 n3 o r)
        cases hc : (dbCall { s with queue := queue } (reportOp s.maxRetries n1 n2 n3 o r)).1.crashed with
        | true => rw [h1 hc]; exact h4
        | false => rw [h2 hc]; exact h4
  | producer call =>
    right; left
    refine ⟨call, rfl, ?_⟩
    obtain ⟨-, h3, h4, -⟩ := dbCall_spec s call.op
    obtain ⟨-, ⟨id, hi, h⟩ | ⟨hi, h⟩⟩ := producer_cases s call
    · rw [h]; exact h4
    · rw [h]; exact h4
  | _ =>
    left
    simp only [step, State.withIdle, State.withFetch, State.withConn, begin, fetchRow, fetchJoin,
      release]
    repeat' split
    all_goals first | rfl | simp

theorem mem_queue_step {s : State} {a : Action} {x : ConnId × Report} (h : x ∈ (step s a).queue) :
    x ∈ s.queue ∨ a = .report x.1 x.2 := by
  rcases queue_step s a with ⟨h1, -⟩ | ⟨h1, -⟩ | ⟨c, r, ha, h1, -⟩ | ⟨b, ha, h1, -⟩ |
    ⟨w, n1, n2, n3, o, c, r, queue, ha, -, hq, h1, -⟩
  · rw [h1] at h; exact .inl h
  · rw [h1] at h; cases h
  · rw [h1] at h
    rcases List.mem_append.1 h with h | h
    · exact .inl h
    · cases List.mem_singleton.1 h; exact .inr ha
  · rw [h1] at h; exact .inl h
  · rw [h1] at h; left; rw [hq]; exact List.mem_cons_of_mem _ h

/-- How the fetch of a connection changes in a step. -/
inductive FetchChange (s : State) (a : Action) (c : ConnId) (f' : Fetching) : Prop
  | same : fetchOf s c = some f' → FetchChange s a c f'
  | new (k : ConnState) (r : Request) (v : View) : s.conn c = some k → k.fetching = none →
      (a = .request c r v ∨ a = .retry c v ∧ k.retry.head? = some r) → f'.joining = none →
      f'.rows = r.strategy.chunkRows v.offset v.reserved v.counts s.db → FetchChange s a c f'
  | row (k : ConnState) (f : Fetching) (row : ChunkRow) (rest : List ChunkRow) : a = .row c → s.conn c = some k →
      k.fetching = some f → f.joining = none → f.rows = row :: rest → f'.rows = rest →
      (f'.joining = none ∨ f'.joining = some row.key) → FetchChange s a c f'
  | join (f : Fetching) : fetchOf s c = some f → f'.rows = f.rows → f'.joining = none → FetchChange s a c f'

theorem begin_fetch {s : State} {c : ConnId} {k : ConnState} {r : Request} {v : View} {f' : Fetching}
    (hl : k.live = true) (h : fetchOf (begin s c k r v) c = some f') :
    f'.joining = none ∧ f'.rows = r.strategy.chunkRows v.offset v.reserved v.counts s.db := by
  unfold begin at h
  split at h
  · rw [fetchOf_setConn _ _ _ (by exact hl)] at h; cases h
  · dsimp only at h
    rw [fetchOf_setConn _ _ _ (by exact hl)] at h
    cases h
    exact ⟨rfl, rfl⟩

theorem fetch_step {s : State} {a : Action} {c : ConnId} {f' : Fetching}
    (h : fetchOf (step s a) c = some f') : FetchChange s a c f' := by
  by_cases ha : a.actor = some c
  · cases hk : s.conn c with
    | none =>
      -- only a new connection
      cases a <;> simp only [Action.actor, reduceCtorEq, Option.some.injEq] at ha <;> subst ha
      case connect =>
        simp only [step] at h
        cases hg : s.conns.get ‹_› with
        | none => rw [hg] at h; dsimp only at h; rw [fetchOf_setConn _ _ _ rfl] at h; cases h
        | some k => rw [hg] at h; exact .same h
      all_goals
        exact .same (by
          simpa [step, State.withIdle, State.withFetch, State.withConn, hk] using h)
    | some k =>
      have hl := (conn_eq.1 hk).2
      cases a <;> simp only [Action.actor, reduceCtorEq, Option.some.injEq] at ha <;> subst ha
      case connect =>
        simp only [step] at h
        rw [(conn_eq.1 hk).1] at h; exact .same h
      case request =>
        simp only [step, State.withIdle, State.withConn, hk] at h
        split at h
        · exact .same h
        · rename_i hf
          exact .new k _ _ hk (by simpa using hf) (.inl rfl) (begin_fetch hl h).1 (begin_fetch hl h).2
      case retry =>
        simp only [step, State.withIdle, State.withConn, hk] at h
        split at h
        · exact .same h
        · split at h
          · exact .same h
          · rename_i hf _ _ _ hr
            exact .new k _ _ hk (by simpa using hf) (.inr ⟨rfl, by rw [hr]; rfl⟩)
              (begin_fetch (by exact hl) h).1 (begin_fetch (by exact hl) h).2
      case row =>
        cases hf : k.fetching with
        | none => exact .same (by simpa [step, State.withFetch, State.withConn, hk, hf] using h)
        | some f =>
          rcases row_cases hk hf with ⟨_, hs⟩ | ⟨_, _, hs⟩ | ⟨row, rest, hj, hr, ⟨_, hs⟩ | ⟨_, hs⟩⟩
          · rw [hs] at h; exact .same h
          · rw [hs, fetchOf_setConn _ _ _ (by unfold finishFetch; cases f.got <;> exact hl),
              finishFetch_fetching] at h
            cases h
          · rw [hs, fetchOf_setConn _ _ _ (by exact hl)] at h
            cases h
            exact .row k f row rest rfl hk hf hj hr rfl (.inl hj)
          · rw [hs, fetchOf_setConn _ _ _ (by exact hl)] at h
            cases h
            exact .row k f row rest rfl hk hf hj hr rfl (.inr rfl)
      case join =>
        cases hf : k.fetching with
        | none => exact .same (by simpa [step, State.withFetch, State.withConn, hk, hf] using h)
        | some f =>
          have hfo : fetchOf s ‹_› = some f := by unfold fetchOf; rw [hk]; exact hf
          rcases join_cases hk hf with ⟨_, hs⟩ | ⟨id, hj, ⟨sub, _, hs⟩ | ⟨_, hs⟩⟩
          · rw [hs] at h; exact .same h
          · rw [hs] at h
            have hl' : (if (f.joined id).got.length = f.req.max then finishFetch k (f.joined id)
                else { k with fetching := some (f.joined id) }).live = true := by
              split
              · unfold finishFetch; split <;> exact hl
              · exact hl
            rw [fetchOf_setConn _ _ _ hl'] at h
            split at h
            · rw [finishFetch_fetching] at h; cases h
            · cases h; exact .join f hfo rfl rfl
          · rw [hs] at h
            obtain ⟨k', hk', hl', _⟩ := fetchOf_eq.1 h
            unfold dropConn at hk'
            rw [Map.get_set, if_pos rfl] at hk'
            cases hk'; cases hl'
      case fetchFails =>
        simp only [step, State.withFetch, State.withConn, hk] at h
        split at h
        · exact .same h
        · rw [fetchOf_setConn _ _ _ (by exact hl)] at h; cases h
      case register =>
        simp only [step, State.withConn, hk] at h
        split at h
        · exact .same h
        · rw [fetchOf_setConn _ _ _ (by exact hl)] at h
          exact .same (by unfold fetchOf; rw [hk]; exact h)
      case report =>
        simp only [step, State.withIdle, State.withConn, hk] at h
        split at h <;> exact .same h
      case disconnect =>
        simp only [step, State.withConn, hk] at h
        obtain ⟨k', hk', hl', _⟩ := fetchOf_eq.1 h
        unfold dropConn at hk'
        rw [Map.get_set, if_pos rfl] at hk'
        cases hk'; cases hl'
  · cases hg : s.conns.get c with
    | none =>
      have := conns_none hg ha
      obtain ⟨k, hk, _⟩ := fetchOf_eq.1 h
      rw [this] at hk; cases hk
    | some k =>
      obtain ⟨k', hk', hp⟩ := passive_step hg ha
      obtain ⟨k2, hk2, hl2, hf2⟩ := fetchOf_eq.1 h
      rw [hk'] at hk2; cases hk2
      refine .same (fetchOf_eq.2 ⟨k, hg, ?_⟩)
      cases hp with
      | same => exact ⟨hl2, hf2⟩
      | wake _ => exact ⟨hl2, hf2⟩
      | unhold => exact ⟨hl2, hf2⟩
      | crashed => cases hl2

end Server

namespace EndToEnd
open ObjectStore (Store PutResult chunkPath Plain)
open Python (PyChunk)
open Server (ConnId fetchOf)

/-- The insert of the submission that the chunk belongs to. -/
def From (calls : List Op) (row : ChunkRow) : Prop :=
  ∃ a now o, Op.insert a now o ∈ calls ∧ a.id = row.submissionId ∧
    a.contents[row.chunkIndex]? = some row.inputContent

/-- The chunk read by a consumer is the one the producer stored. -/
def Good (w : World) (c : PyChunk) : Prop :=
  ∃ a now o, Op.insert a now o ∈ w.server.calls ∧ a.id = c.submissionId ∧
    ((∃ p, c.submissionPrefix = some p ∧ a.pfx = some p ∧ Plain p ∧
        ∃ t ∈ w.tasks, t.pfx = p ∧ t.contents[c.chunkIndex]? = some c.inputContent) ∨
     (c.submissionPrefix = none ∧ a.pfx = none))

/-- The output of the chunk is in the store, if its submission has a prefix. -/
def Done (base : List Char) (w : World) (id : ChunkId) : Prop :=
  ∃ a now o, Op.insert a now o ∈ w.server.calls ∧ a.id = id.submissionId ∧
    ∀ p, a.pfx = some p → ∃ b, w.store.get (chunkPath base p id.chunkIndex .output) = some b

structure Inv (base : List Char) (callback : Bytes → List Bytes) (w : World) : Prop where
  reach : ∃ ttl m acts, w.server = Server.run ttl m acts
  plain : ∀ t ∈ w.tasks, Plain t.pfx
  distinct : (w.tasks.map Task.pfx).Nodup
  inputs : ∀ t ∈ w.tasks, t.done ≤ t.contents.length ∧
    ∀ i : Nat, i < t.done → w.store.get (chunkPath base t.pfx i .input) = t.contents[i]?
  inserts : ∀ a now o p, Op.insert a now o ∈ w.server.calls → a.pfx = some p →
    ∃ t ∈ w.tasks, t.pfx = p ∧ t.done = t.contents.length ∧ a.contents = List.replicate t.done none
  rows : ∀ c f, fetchOf w.server c = some f → (∀ row ∈ f.rows, From w.server.calls row) ∧
    ∀ id, f.joining = some id → ∃ row, w.rows.get c = some row ∧ row.key = id ∧ From w.server.calls row
  handed : ∀ x ∈ w.handed, ∃ a now o, Op.insert a now o ∈ w.server.calls ∧ a.id = x.1.submissionId ∧
    a.contents[x.1.chunkIndex]? = some x.1.inputContent ∧ x.2.pfx = a.pfx
  jobs : ∀ j ∈ w.jobs, Good w j.chunk
  outputs : ∀ p i b, Plain p → w.store.get (chunkPath base p i .output) = some b →
    ∃ t ∈ w.tasks, t.pfx = p ∧ ∃ c, t.contents[i]? = some c ∧ b ∈ callback c
  ready : ∀ j ∈ w.jobs, ∀ id out, j.ready = some (.complete id out) → Done base w id
  queued : ∀ c id out, (c, Conn.Report.complete id out) ∈ w.server.queue → Done base w id
  called : ∀ id out t1 t2 o, Op.complete id out t1 t2 o ∈ w.server.calls → Done base w id

theorem From.mono {calls ops : List Op} {row : ChunkRow} (h : From calls row) : From (calls ++ ops) row := by
  obtain ⟨a, now, o, hm, h⟩ := h
  exact ⟨a, now, o, List.mem_append_left _ hm, h⟩

theorem init_inv (base : List Char) (callback : Bytes → List Bytes) (ttl m : Nat) : Inv base callback (init ttl m) where
  reach := ⟨ttl, m, [], rfl⟩
  plain := by simp [init]
  distinct := by simp [init]
  inputs := by simp [init]
  inserts := by simp [init, Server.init]
  rows := by
    intro c f h
    obtain ⟨k, hk, _⟩ := Server.fetchOf_eq.1 h
    simp [init, Server.init] at hk
    cases hk
  handed := by simp [init]
  jobs := by simp [init]
  outputs := by intro p i b _ h; cases h
  ready := by simp [init]
  queued := by simp [init, Server.init]
  called := by simp [init, Server.init]

theorem getSubmission_pfx {ops : List Op} (hf : FreshIds ops) {x : SubmissionId} {s : Submission}
    (h : (SubmissionDb.getSubmission x ⟨[], Opsqueue.run ops⟩).1 = .ok s) :
    ∃ a now o, Op.insert a now o ∈ ops ∧ a.id = x ∧ s.pfx = a.pfx := by
  simp only [SubmissionDb.getSubmission, Sql.bind_run, Sql.mapErr_run, Sql.query_nil, Stmt.selectSubmission] at h
  cases hg : (Opsqueue.run ops).submissions.find? (·.id == x) with
  | none => rw [hg] at h; cases h
  | some r =>
    rw [hg] at h
    cases h
    have hr := List.mem_of_find?_eq_some hg
    have hx : r.id = x := by simpa using List.find?_some hg
    obtain ⟨a, now, o, hm, e⟩ := (prov_run ops hf).sub r hr
    refine ⟨a, now, o, hm, ?_, ?_⟩
    · rw [← hx, e]; rfl
    · show r.pfx = _
      rw [e]; rfl

theorem handedBy_spec {w : World} {a : Server.Action} {x : ChunkRow × Submission} (h : x ∈ handedBy w a) :
    ∃ c f id, a = .join c ∧ fetchOf w.server c = some f ∧ f.joining = some id ∧ w.rows.get c = some x.1 ∧
      (SubmissionDb.getSubmission id.submissionId ⟨[], w.server.db⟩).1 = .ok x.2 := by
  cases a with
  | join c =>
    simp only [handedBy] at h
    cases hk : w.server.conn c with
    | none => rw [hk] at h; cases h
    | some k =>
      cases hr : w.rows.get c with
      | none => rw [hk, hr] at h; cases h
      | some row =>
        rw [hk, hr] at h
        dsimp only at h
        cases hf : k.fetching with
        | none => rw [hf] at h; cases h
        | some f =>
          rw [hf] at h
          dsimp only at h
          cases hj : f.joining with
          | none => rw [hj] at h; cases h
          | some id =>
            rw [hj] at h
            dsimp only at h
            cases hs : (SubmissionDb.getSubmission id.submissionId ⟨[], w.server.db⟩).1 with
            | ok s =>
              rw [hs] at h
              cases List.mem_singleton.1 h
              exact ⟨c, f, id, rfl, by unfold fetchOf; rw [hk]; exact hf, hj, hr, hs⟩
            | err _ => rw [hs] at h; cases h
            | crash => rw [hs] at h; cases h
  | _ => cases h

theorem rowsAfter_other {w : World} {a : Server.Action} {c : ConnId} (h : a ≠ .row c) :
    (rowsAfter w a).get c = w.rows.get c := by
  cases a with
  | row c' =>
    have hne : c' ≠ c := fun e => h (by rw [e])
    simp only [rowsAfter]
    repeat' split
    all_goals first | rfl | rw [Map.get_set, if_neg hne]
  | _ => rfl

theorem rowsAfter_joining {w : World} {a : Server.Action} {c : ConnId} {f : Server.Fetching} {id : ChunkId}
    (hf : fetchOf w.server c = some f) (hj : f.joining = some id) : (rowsAfter w a).get c = w.rows.get c := by
  by_cases h : a = .row c
  · subst h
    obtain ⟨k, hk, hl, hkf⟩ := Server.fetchOf_eq.1 hf
    simp only [rowsAfter]
    rw [Server.conn_eq.2 ⟨hk, hl⟩]
    dsimp only
    rw [hkf]
    dsimp only
    rw [hj]
  · exact rowsAfter_other h

/-- A step of the server. -/
theorem serve_inv {base : List Char} {callback : Bytes → List Bytes} {w : World} (h : Inv base callback w)
    (hfresh : FreshIds w.server.calls) (a : Server.Action)
    (hins : ∀ b now o p, a = .producer (.insert b now o) → b.pfx = some p →
      ∃ t ∈ w.tasks, t.pfx = p ∧ t.done = t.contents.length ∧ b.contents = List.replicate t.done none)
    (hrep : ∀ c id out, a = .report c (.complete id out) → Done base w id) :
    Inv base callback (serve w a) := by
  obtain ⟨ttl, m, acts, hserver⟩ := h.reach
  have hdb : w.server.db = Opsqueue.run w.server.calls := by rw [hserver]; exact Server.db_run ttl m acts
  obtain ⟨ops, hops⟩ : ∃ ops, (Server.step w.server a).calls = w.server.calls ++ ops := by
    rcases Server.db_step w.server a with ⟨op, _, h⟩ | ⟨_, h⟩
    · exact ⟨[op], h⟩
    · exact ⟨[], by rw [h, List.append_nil]⟩
  have up : ∀ {op}, op ∈ w.server.calls → op ∈ (Server.step w.server a).calls := by
    intro op ho; rw [hops]; exact List.mem_append_left _ ho
  have done : ∀ {id}, Done base w id → Done base (serve w a) id := by
    rintro id ⟨b, now, o, hm, h1, h2⟩
    exact ⟨b, now, o, up hm, h1, h2⟩
  have frm : ∀ {row}, From w.server.calls row → From (Server.step w.server a).calls row := by
    intro row hr; rw [hops]; exact hr.mono
  -- the rows of the database come from inserts
  have hchunks : ∀ row ∈ w.server.db.chunks, From w.server.calls row := by
    intro row hr
    rw [hdb] at hr
    exact (prov_run _ hfresh).chunk row hr
  constructor
  · exact ⟨ttl, m, acts ++ [a], by
      show Server.step w.server a = _
      rw [hserver]; unfold Server.run; rw [Server.exec_snoc]⟩
  · exact h.plain
  · exact h.distinct
  · exact h.inputs
  · -- inserts
    intro b now o p hm hp
    rcases Server.calls_step w.server a with hc | ⟨call, ha, hc⟩ | ⟨_, _, _, _, _, _, r, _, _, _, hc⟩
    · exact h.inserts b now o p (hc ▸ hm) hp
    · have hm : Op.insert b now o ∈ (Server.step w.server a).calls := hm
      rw [hc] at hm
      rcases List.mem_append.1 hm with hm | hm
      · exact h.inserts b now o p hm hp
      · have := List.mem_singleton.1 hm
        cases call with
        | insert b' now' o' =>
          cases this
          exact hins b now o p ha hp
        | _ => cases this
    · have hm : Op.insert b now o ∈ (Server.step w.server a).calls := hm
      rw [hc] at hm
      rcases List.mem_append.1 hm with hm | hm
      · exact h.inserts b now o p hm hp
      · have := List.mem_singleton.1 hm
        cases r <;> cases this
  · -- rows
    intro c f' hf'
    cases Server.fetch_step hf' with
    | same hf =>
      obtain ⟨h1, h2⟩ := h.rows c f' hf
      refine ⟨fun row hr => frm (h1 row hr), fun id hj => ?_⟩
      obtain ⟨row, hr, hk, hfr⟩ := h2 id hj
      exact ⟨row, (rowsAfter_joining hf hj).trans hr, hk, frm hfr⟩
    | new k r v hk hkf ha hj hr =>
      exact ⟨fun row hrow => frm (hchunks row (mem_chunkRows (hr ▸ hrow))), fun id hid => by rw [hj] at hid; cases hid⟩
    | row k f row rest ha hk hkf hj hrows hrest hj' =>
      have hf : fetchOf w.server c = some f := by unfold fetchOf; rw [hk]; exact hkf
      obtain ⟨h1, _⟩ := h.rows c f hf
      rw [hrows] at h1
      refine ⟨fun row hr => frm (h1 row (List.mem_cons_of_mem _ (hrest ▸ hr))), fun id hid => ?_⟩
      rcases hj' with hj' | hj'
      · rw [hj'] at hid; cases hid
      · rw [hj'] at hid; cases hid
        refine ⟨row, ?_, rfl, frm (h1 row List.mem_cons_self)⟩
        show (rowsAfter w a).get c = _
        subst ha
        simp only [rowsAfter]
        rw [hk]; dsimp only
        rw [hkf]; dsimp only
        rw [hj, hrows]; dsimp only
        rw [Map.get_set, if_pos rfl]
    | join f hf hrows hj =>
      obtain ⟨h1, _⟩ := h.rows c f hf
      exact ⟨fun row hr => frm (h1 row (hrows ▸ hr)), fun id hid => by rw [hj] at hid; cases hid⟩
  · -- handed
    intro x hx
    rcases List.mem_append.1 hx with hx | hx
    · obtain ⟨b, now, o, hm, hrest⟩ := h.handed x hx
      exact ⟨b, now, o, up hm, hrest⟩
    · obtain ⟨c, f, id, rfl, hf, hj, hrow, hs⟩ := handedBy_spec hx
      obtain ⟨row, hr, hkey, b, now, o, hm, hid, hcont⟩ := (h.rows c f hf).2 id hj
      rw [hrow] at hr
      cases hr
      rw [hdb] at hs
      obtain ⟨b', now', o', hm', hid', hp⟩ := getSubmission_pfx hfresh hs
      have : b.id = b'.id := by rw [hid, hid', ← hkey]; rfl
      have := insert_unique hfresh hm hm' this
      injection this with hb
      exact ⟨b, now, o, up hm, hid, hcont, by rw [hp, hb]⟩
  · -- jobs
    intro j hj
    obtain ⟨b, now, o, hm, hrest⟩ := h.jobs j hj
    exact ⟨b, now, o, up hm, hrest⟩
  · exact h.outputs
  · exact fun j hj id out hr => done (h.ready j hj id out hr)
  · intro c id out hm
    rcases Server.mem_queue_step hm with hm | ha
    · exact done (h.queued c id out hm)
    · exact done (hrep c id out ha)
  · intro id out t1 t2 o hm
    have hm : Op.complete id out t1 t2 o ∈ (Server.step w.server a).calls := hm
    rcases Server.calls_step w.server a with hc | ⟨call, ha, hc⟩ | ⟨_, _, _, _, _, c, r, queue, _, hq, hc⟩
    · exact done (h.called id out t1 t2 o (hc ▸ hm))
    · rw [hc] at hm
      rcases List.mem_append.1 hm with hm | hm
      · exact done (h.called id out t1 t2 o hm)
      · have := List.mem_singleton.1 hm
        cases call <;> cases this
    · rw [hc] at hm
      rcases List.mem_append.1 hm with hm | hm
      · exact done (h.called id out t1 t2 o hm)
      · have := List.mem_singleton.1 hm
        cases r with
        | complete id' out' =>
          cases this
          exact done (h.queued c id out (by rw [hq]; exact List.mem_cons_self))
        | fail _ _ => cases this

theorem mem_set_of_mem {α} {l : List α} {k : Nat} {x y z : α} (hx : l[k]? = some x) (hz : z ∈ l) :
    z ∈ l.set k y ∨ z = x := by
  obtain ⟨i, hi, rfl⟩ := List.mem_iff_getElem.1 hz
  by_cases h : i = k
  · subst h
    right
    rw [List.getElem?_eq_getElem hi] at hx
    exact Option.some.inj hx
  · left
    rw [List.mem_iff_getElem]
    refine ⟨i, by rw [List.length_set]; exact hi, ?_⟩
    rw [List.getElem_set, if_neg (fun e => h e.symm)]

theorem map_set_same {α β} {l : List α} {k : Nat} {x y : α} (g : α → β) (hx : l[k]? = some x) (h : g y = g x) :
    (l.set k y).map g = l.map g := by
  apply List.ext_getElem?
  intro i
  rw [List.getElem?_map, List.getElem?_map, List.getElem?_set]
  by_cases hk : k = i
  · subst hk
    rw [if_pos rfl, hx]
    split
    · simp [h]
    · rename_i hlt
      rw [List.getElem?_eq_none (by omega)] at hx; cases hx
  · rw [if_neg hk]

theorem get_storeChunk (base : List Char) (s : Store) (wr : ObjectStore.Write) (put : PutResult) (path : Bytes) :
    (ObjectStore.storeChunk base s wr put).2.get path = s.get path ∨
    (chunkPath base wr.pfx wr.index wr.type = path ∧
      (ObjectStore.storeChunk base s wr put).2.get path = some wr.content) := by
  unfold ObjectStore.storeChunk
  split
  · dsimp only; rw [ObjectStore.get_write]; split <;> simp_all
  · dsimp only; rw [ObjectStore.get_write]; split <;> simp_all
  · left; rfl

theorem get_storeChunk_ok (base : List Char) (s : Store) (wr : ObjectStore.Write) (put : PutResult)
    (h : (ObjectStore.storeChunk base s wr put).1 = .ok ()) :
    (ObjectStore.storeChunk base s wr put).2.get (chunkPath base wr.pfx wr.index wr.type) = some wr.content := by
  unfold ObjectStore.storeChunk at *
  split at h
  · dsimp only; rw [ObjectStore.get_write, if_pos rfl]
  · cases h
  · cases h

/-- A step that does not concern the server: tasks go on, the store grows. -/
theorem outside_inv {base : List Char} {callback : Bytes → List Bytes} {w w' : World} (h : Inv base callback w)
    (hserver : w'.server = w.server) (hrows : w'.rows = w.rows) (hhanded : w'.handed = w.handed)
    (htasks : ∀ t ∈ w.tasks, ∃ t' ∈ w'.tasks, t'.pfx = t.pfx ∧ t'.contents = t.contents ∧
      (t.done = t.contents.length → t' = t))
    (hplain : ∀ t ∈ w'.tasks, Plain t.pfx) (hdistinct : (w'.tasks.map Task.pfx).Nodup)
    (hinputs : ∀ t ∈ w'.tasks, t.done ≤ t.contents.length ∧
      ∀ i : Nat, i < t.done → w'.store.get (chunkPath base t.pfx i .input) = t.contents[i]?)
    (hstore : ∀ p i b, w.store.get (chunkPath base p i .output) = some b →
      ∃ b, w'.store.get (chunkPath base p i .output) = some b)
    (hjobs : ∀ j ∈ w'.jobs, Good w j.chunk)
    (houtputs : ∀ p i b, Plain p → w'.store.get (chunkPath base p i .output) = some b →
      ∃ t ∈ w.tasks, t.pfx = p ∧ ∃ c, t.contents[i]? = some c ∧ b ∈ callback c)
    (hready : ∀ j ∈ w'.jobs, ∀ id out, j.ready = some (.complete id out) → Done base w id ∨ Done base w' id) :
    Inv base callback w' := by
  have done : ∀ {id}, Done base w id → Done base w' id := by
    rintro id ⟨b, now, o, hm, h1, h2⟩
    refine ⟨b, now, o, hserver ▸ hm, h1, fun p hp => ?_⟩
    obtain ⟨x, hx⟩ := h2 p hp
    exact hstore _ _ _ hx
  constructor
  · rw [hserver]; exact h.reach
  · exact hplain
  · exact hdistinct
  · exact hinputs
  · intro a now o p hm hp
    obtain ⟨t, ht, h1, h2, h3⟩ := h.inserts a now o p (hserver ▸ hm) hp
    obtain ⟨t', ht', _, _, e⟩ := htasks t ht
    cases e h2
    exact ⟨t, ht', h1, h2, h3⟩
  · rw [hserver, hrows]; exact h.rows
  · rw [hserver, hhanded]; exact h.handed
  · intro j hj
    obtain ⟨a, now, o, hm, h1, h2⟩ := hjobs j hj
    refine ⟨a, now, o, hserver ▸ hm, h1, h2.imp ?_ id⟩
    rintro ⟨p, h3, h4, h5, t, ht, h6, h7⟩
    obtain ⟨t', ht', e1, e2, _⟩ := htasks t ht
    exact ⟨p, h3, h4, h5, t', ht', e1.trans h6, by rw [e2]; exact h7⟩
  · intro p i b hp hb
    obtain ⟨t, ht, h1, c, h2, h3⟩ := houtputs p i b hp hb
    obtain ⟨t', ht', e1, e2, _⟩ := htasks t ht
    exact ⟨t', ht', e1.trans h1, c, by rw [e2]; exact h2, h3⟩
  · intro j hj id out hr
    exact (hready j hj id out hr).elim done fun x => x
  · intro c id out hm
    exact done (h.queued c id out (hserver ▸ hm))
  · intro id out t1 t2 o hm
    exact done (h.called id out t1 t2 o (hserver ▸ hm))

theorem start_inv {base : List Char} {callback : Bytes → List Bytes} {w : World} (h : Inv base callback w)
    (pfx : String) (contents : List Bytes) : Inv base callback (step base callback w (.start pfx contents)) := by
  simp only [step]
  split
  · exact h
  · rename_i hg
    simp only [Bool.or_eq_true, List.contains_iff_mem, List.any_eq_true, beq_iff_eq, not_or, not_exists,
      not_and] at hg
    obtain ⟨hp, hn⟩ := hg
    refine outside_inv h rfl rfl rfl (fun t ht => ⟨t, List.mem_append_left _ ht, rfl, rfl, fun _ => rfl⟩) ?_ ?_ ?_
      (fun _ _ b hb => ⟨b, hb⟩) h.jobs h.outputs (fun j hj id out hr => .inl (h.ready j hj id out hr))
    · intro t ht
      rcases List.mem_append.1 ht with ht | ht
      · exact h.plain t ht
      · cases List.mem_singleton.1 ht; exact hp
    · rw [List.map_append, List.nodup_append]
      refine ⟨h.distinct, by simp, ?_⟩
      intro x hx y hy
      obtain ⟨t, ht, rfl⟩ := List.mem_map.1 hx
      cases List.mem_singleton.1 hy
      exact hn t ht
    · intro t ht
      rcases List.mem_append.1 ht with ht | ht
      · exact h.inputs t ht
      · cases List.mem_singleton.1 ht
        exact ⟨Nat.zero_le _, fun i hi => absurd hi (Nat.not_lt_zero i)⟩

theorem same_task {l : List Task} (hn : (l.map Task.pfx).Nodup) {t u : Task} (ht : t ∈ l) (hu : u ∈ l)
    (h : t.pfx = u.pfx) : t = u := by
  induction l with
  | nil => cases ht
  | cons x l ih =>
    rw [List.map_cons, List.nodup_cons] at hn
    rcases List.mem_cons.1 ht with rfl | ht' <;> rcases List.mem_cons.1 hu with rfl | hu'
    · rfl
    · exact absurd (h ▸ List.mem_map_of_mem hu') hn.1
    · exact absurd (h ▸ List.mem_map_of_mem ht') hn.1
    · exact ih hn.2 ht' hu'

theorem upload_inv {base : List Char} {callback : Bytes → List Bytes} {w : World} (h : Inv base callback w)
    (k : Nat) (put : PutResult) : Inv base callback (step base callback w (.upload k put)) := by
  simp only [step]
  split
  case h_2 => exact h
  rename_i t hk
  unfold upload
  split
  case h_2 => exact h
  rename_i content hcont _
  have hmem : t ∈ w.tasks := List.mem_of_getElem? hk
  have hpl := h.plain t hmem
  have hlt : t.done < t.contents.length := (List.getElem?_eq_some_iff.1 hcont).1
  -- the new store
  have hout : ∀ p i, Plain p → (ObjectStore.storeChunk base w.store ⟨t.pfx, t.done, .input, content⟩ put).2.get
      (chunkPath base p i .output) = w.store.get (chunkPath base p i .output) := by
    intro p i hp
    rcases get_storeChunk base w.store ⟨t.pfx, t.done, .input, content⟩ put (chunkPath base p i .output) with e | ⟨e, _⟩
    · exact e
    · have := (ObjectStore.chunkPath_inj base hpl hp e).2.2
      cases this
  have hkeep : ∀ path x, w.store.get path = some x →
      ∃ x, (ObjectStore.storeChunk base w.store ⟨t.pfx, t.done, .input, content⟩ put).2.get path = some x := by
    intro path x hx
    rcases get_storeChunk base w.store ⟨t.pfx, t.done, .input, content⟩ put path with e | ⟨_, e⟩
    · exact ⟨x, e.trans hx⟩
    · exact ⟨_, e⟩
  have hin : ∀ u ∈ w.tasks, ∀ i : Nat, i < u.done →
      (ObjectStore.storeChunk base w.store ⟨t.pfx, t.done, .input, content⟩ put).2.get
        (chunkPath base u.pfx i .input) = u.contents[i]? := by
    intro u hu i hi
    rcases get_storeChunk base w.store ⟨t.pfx, t.done, .input, content⟩ put (chunkPath base u.pfx i .input) with
      e | ⟨e, _⟩
    · rw [e]; exact (h.inputs u hu).2 i hi
    · obtain ⟨e1, e2, _⟩ := ObjectStore.chunkPath_inj base hpl (h.plain u hu) e
      have := same_task h.distinct hmem hu e1
      subst this
      have e2 : t.done = i := e2
      omega
  have main : ∀ (t' : Task) (store : Store), t'.pfx = t.pfx → t'.contents = t.contents →
      store = (ObjectStore.storeChunk base w.store ⟨t.pfx, t.done, .input, content⟩ put).2 →
      (t'.done = t.done ∨ t'.done = t.done + 1 ∧
        store.get (chunkPath base t.pfx t.done .input) = some content) →
      Inv base callback { w with store, tasks := w.tasks.set k t' } := by
    intro t' store hpfx hcontents hs hdone
    subst hs
    have hin' : ∀ u ∈ w.tasks.set k t', u.done ≤ u.contents.length ∧ ∀ i : Nat, i < u.done →
        (ObjectStore.storeChunk base w.store ⟨t.pfx, t.done, .input, content⟩ put).2.get
          (chunkPath base u.pfx i .input) = u.contents[i]? := by
      intro u hu
      rcases List.mem_or_eq_of_mem_set hu with hu | rfl
      · exact ⟨(h.inputs u hu).1, hin u hu⟩
      · rw [hpfx, hcontents]
        rcases hdone with hd | ⟨hd, hget⟩
        · rw [hd]; exact ⟨(h.inputs t hmem).1, hin t hmem⟩
        · rw [hd]
          refine ⟨hlt, fun i hi => ?_⟩
          rcases Nat.lt_succ_iff_lt_or_eq.1 hi with hi | rfl
          · exact hin t hmem i hi
          · rw [hcont]; exact hget
    refine outside_inv h rfl rfl rfl ?_ ?_ ?_ hin' ?_ h.jobs ?_ (fun j hj id out hr => .inl (h.ready j hj id out hr))
    · intro u hu
      rcases mem_set_of_mem (y := t') hk hu with hm | rfl
      · exact ⟨u, hm, rfl, rfl, fun _ => rfl⟩
      · refine ⟨t', ?_, hpfx, hcontents, fun e => by omega⟩
        exact List.mem_set (List.getElem?_eq_some_iff.1 hk).1 _
    · intro u hu
      rcases List.mem_or_eq_of_mem_set hu with hu | rfl
      · exact h.plain u hu
      · rw [hpfx]; exact hpl
    · show ((w.tasks.set k t').map Task.pfx).Nodup
      rw [map_set_same Task.pfx hk hpfx]; exact h.distinct
    · intro p i b hb; exact hkeep _ _ hb
    · intro p i b hp hb
      exact h.outputs p i b hp ((hout p i hp).symm.trans hb)
  split
  · rename_i hs
    have e1 := congrArg Prod.fst hs
    have e2 := congrArg Prod.snd hs
    refine main _ _ rfl rfl e2.symm (.inr ⟨rfl, ?_⟩)
    have := get_storeChunk_ok base w.store ⟨t.pfx, t.done, .input, content⟩ put e1
    rw [hs] at this
    exact this
  · rename_i hs
    exact main _ _ rfl rfl (congrArg Prod.snd hs).symm (.inl rfl)

theorem take_inv {base : List Char} {callback : Bytes → List Bytes} {w : World} (h : Inv base callback w)
    (k : Nat) (reachable : Bool) : Inv base callback (step base callback w (.take k reachable)) := by
  simp only [step]
  split
  case h_2 => exact h
  rename_i row s hk
  split
  case h_2 => exact h
  rename_i chunk hch
  obtain ⟨a, now, o, hm, hid, hcont, hpfx⟩ := h.handed _ (List.mem_of_getElem? hk)
  have hgood : Good w chunk := by
    unfold Python.fromInternal at hch
    split at hch
    · rename_i bytes hb
      cases hch
      refine ⟨a, now, o, hm, hid, .inr ⟨rfl, ?_⟩⟩
      cases hap : a.pfx with
      | none => rfl
      | some p =>
        obtain ⟨t, _, _, _, hc⟩ := h.inserts a now o p hm hap
        dsimp only at hcont
        rw [hb, hc, List.getElem?_replicate] at hcont
        split at hcont <;> cases hcont
    · split at hch
      · cases hch
      · rename_i p hp
        split at hch
        case isFalse => cases hch
        split at hch
        · cases hch
        · rename_i bytes hret
          cases hch
          dsimp only at hpfx
          have hap : a.pfx = some p := hpfx.symm.trans hp
          obtain ⟨t, ht, htp, htd, hc⟩ := h.inserts a now o p hm hap
          refine ⟨a, now, o, hm, hid, .inl ⟨p, rfl, hap, htp ▸ h.plain t ht, t, ht, htp, ?_⟩⟩
          dsimp only at hcont ⊢
          have hlt : row.chunkIndex < t.done := by
            rw [hc, List.getElem?_replicate] at hcont
            split at hcont
            · assumption
            · cases hcont
          have := (h.inputs t ht).2 _ hlt
          rw [← this, htp]
          unfold ObjectStore.retrieveChunk at hret
          split at hret
          · rename_i x hx; cases hret; exact hx
          · cases hret
  refine outside_inv h rfl rfl rfl (fun t ht => ⟨t, ht, rfl, rfl, fun _ => rfl⟩) h.plain h.distinct h.inputs
    (fun _ _ b hb => ⟨b, hb⟩) ?_ h.outputs ?_
  · intro j hj
    rcases List.mem_append.1 hj with hj | hj
    · exact h.jobs j hj
    · cases List.mem_singleton.1 hj; exact hgood
  · intro j hj id out hr
    rcases List.mem_append.1 hj with hj | hj
    · exact .inl (h.ready j hj id out hr)
    · cases List.mem_singleton.1 hj; cases hr

theorem finish_inv {base : List Char} {callback : Bytes → List Bytes} {w : World} (h : Inv base callback w)
    (k i : Nat) (put : PutResult) : Inv base callback (step base callback w (.finish k i put)) := by
  simp only [step]
  split
  case h_2 => exact h
  rename_i job hk
  split
  case h_2 => exact h
  rename_i output hout
  have hj := List.mem_of_getElem? hk
  have hcb : output ∈ callback job.chunk.inputContent := List.mem_of_getElem? hout
  have hgood := h.jobs job hj
  obtain ⟨a, now, o, hm, hid, hcase⟩ := hgood
  -- where the new store differs from the old one
  have hstore : ∀ path, (Python.completeChunk base w.store put job.chunk output).2.get path = w.store.get path ∨
      ∃ p, job.chunk.submissionPrefix = some p ∧ chunkPath base p job.chunk.chunkIndex .output = path ∧
        (Python.completeChunk base w.store put job.chunk output).2.get path = some output := by
    intro path
    unfold Python.completeChunk
    cases hp : job.chunk.submissionPrefix with
    | none => left; rfl
    | some p =>
      dsimp only
      have := get_storeChunk base w.store ⟨p, job.chunk.chunkIndex, .output, output⟩ put path
      split
      · rename_i hs
        rw [hs] at this
        exact this.imp id fun ⟨e1, e2⟩ => ⟨p, rfl, e1, e2⟩
      · rename_i hs
        rw [hs] at this
        exact this.imp id fun ⟨e1, e2⟩ => ⟨p, rfl, e1, e2⟩
  have hpp : ∀ p, job.chunk.submissionPrefix = some p → a.pfx = some p ∧ Plain p ∧
      ∃ t ∈ w.tasks, t.pfx = p ∧ t.contents[job.chunk.chunkIndex]? = some job.chunk.inputContent := by
    intro p hp
    rcases hcase with ⟨q, hq, hrest⟩ | ⟨hq, _⟩
    · rw [hp] at hq; cases hq; exact hrest
    · rw [hp] at hq; cases hq
  refine outside_inv h rfl rfl rfl (fun t ht => ⟨t, ht, rfl, rfl, fun _ => rfl⟩) h.plain h.distinct ?_ ?_ ?_ ?_ ?_
  · intro t ht
    refine ⟨(h.inputs t ht).1, fun i hi => ?_⟩
    rcases hstore (chunkPath base t.pfx i .input) with e | ⟨p, hp, e, _⟩
    · rw [show _ = _ from e]; exact (h.inputs t ht).2 i hi
    · have := (ObjectStore.chunkPath_inj base (hpp p hp).2.1 (h.plain t ht) e).2.2
      cases this
  · intro p i b hb
    rcases hstore (chunkPath base p i .output) with e | ⟨_, _, _, e⟩
    · exact ⟨b, e.trans hb⟩
    · exact ⟨_, e⟩
  · intro j hj'
    rcases List.mem_or_eq_of_mem_set hj' with hj' | rfl
    · exact h.jobs j hj'
    · exact h.jobs job hj
  · intro p i b hp hb
    rcases hstore (chunkPath base p i .output) with e | ⟨q, hq, e, e'⟩
    · exact h.outputs p i b hp (e.symm.trans hb)
    · obtain ⟨e1, e2, _⟩ := ObjectStore.chunkPath_inj base (hpp q hq).2.1 hp e
      subst e1 e2
      rw [show _ = some b from hb] at e'
      cases e'
      obtain ⟨_, _, t, ht, h1, h2⟩ := hpp q hq
      exact ⟨t, ht, h1, _, h2, hcb⟩
  · intro j hj' id out hr
    rcases List.mem_or_eq_of_mem_set hj' with hj' | rfl
    · exact .inl (h.ready j hj' id out hr)
    · right
      dsimp only at hr
      refine ⟨a, now, o, hm, ?_, ?_⟩
      · rw [hid]
        unfold Python.completeChunk at hr
        split at hr
        · cases hr; rfl
        · split at hr
          · cases hr; rfl
          · cases hr
      · intro p hp
        have hpfx : job.chunk.submissionPrefix = some p := by
          rcases hcase with ⟨q, hq, hq', _⟩ | ⟨_, hq⟩
          · rw [hp] at hq'; cases hq'; exact hq
          · rw [hp] at hq; cases hq
        refine ⟨output, ?_⟩
        show (Python.completeChunk base w.store put job.chunk output).2.get _ = _
        unfold Python.completeChunk at hr ⊢
        rw [hpfx] at hr ⊢
        dsimp only at hr ⊢
        have := get_storeChunk_ok base w.store ⟨p, job.chunk.chunkIndex, .output, output⟩ put
        split at hr
        · rename_i hs
          rw [hs] at this
          cases hr
          exact this rfl
        · cases hr

theorem step_inv {base : List Char} {callback : Bytes → List Bytes} {w : World} (h : Inv base callback w)
    (hfresh : FreshIds w.server.calls) (e : Ev) : Inv base callback (step base callback w e) := by
  cases e with
  | server a =>
    simp only [step]
    split
    case isFalse => exact h
    rename_i ha
    refine serve_inv h hfresh a ?_ ?_
    · rintro b now o p rfl hp
      simp [allowed, hp] at ha
    · rintro c id out rfl
      cases ha
  | start pfx contents => exact start_inv h pfx contents
  | upload k put => exact upload_inv h k put
  | submit k a now o =>
    simp only [step]
    split
    case h_2 => exact h
    rename_i t hk
    split
    case isFalse => exact h
    rename_i hd
    simp only [Bool.and_eq_true, decide_eq_true_eq] at hd
    refine serve_inv h hfresh _ ?_ ?_
    · rintro b now' o' p e hp
      cases e
      cases hp
      exact ⟨t, List.mem_of_getElem? hk, rfl, hd.1, rfl⟩
    · rintro c id out e
      cases e
  | take k reachable => exact take_inv h k reachable
  | finish k i put => exact finish_inv h k i put
  | send k c =>
    simp only [step]
    split
    case h_2 => exact h
    rename_i job hk
    split
    case h_2 => exact h
    rename_i r hr
    refine serve_inv h hfresh _ ?_ ?_
    · rintro b now' o' p e
      cases e
    · rintro c' id out e
      cases e
      exact h.ready job (List.mem_of_getElem? hk) id out hr

theorem serve_calls (w : World) (a : Server.Action) :
    ∃ ops, (serve w a).server.calls = w.server.calls ++ ops := by
  rcases Server.db_step w.server a with ⟨op, _, h⟩ | ⟨_, h⟩
  · exact ⟨[op], h⟩
  · exact ⟨[], by rw [List.append_nil]; exact h⟩

theorem calls_step (base : List Char) (callback : Bytes → List Bytes) (w : World) (e : Ev) :
    ∃ ops, (step base callback w e).server.calls = w.server.calls ++ ops := by
  have none : ∃ ops, w.server.calls = w.server.calls ++ ops := ⟨[], (List.append_nil _).symm⟩
  cases e <;> simp only [step, upload] <;> repeat' split
  all_goals first | exact serve_calls w _ | exact none

/-- Nothing disappears from the store. -/
theorem store_persists {base : List Char} {callback : Bytes → List Bytes} {w : World} {e : Ev} {path : Bytes}
    (h : ∃ b, w.store.get path = some b) : ∃ b, (step base callback w e).store.get path = some b := by
  have put : ∀ wr put, ∃ b, (ObjectStore.storeChunk base w.store wr put).2.get path = some b := by
    intro wr put
    obtain ⟨b, hb⟩ := h
    rcases get_storeChunk base w.store wr put path with e | ⟨_, e⟩
    · exact ⟨b, e.trans hb⟩
    · exact ⟨_, e⟩
  cases e with
  | upload k p =>
    simp only [step, upload]
    split
    · rename_i t _
      split
      · rename_i content _ _
        have := put ⟨t.pfx, t.done, .input, content⟩ p
        split <;> (rename_i hs; rw [hs] at this; exact this)
      · exact h
    · exact h
  | finish k i p =>
    simp only [step]
    split
    · rename_i job _
      split
      · rename_i output _
        unfold Python.completeChunk
        dsimp only
        cases hp : job.chunk.submissionPrefix with
        | none => exact h
        | some pfx =>
          have := put ⟨pfx, job.chunk.chunkIndex, .output, output⟩ p
          dsimp only
          split <;> (rename_i hs; rw [hs] at this; exact this)
      · exact h
    · exact h
  | _ =>
    simp only [step]
    repeat' split
    all_goals exact h

theorem run_snoc (base : List Char) (callback : Bytes → List Bytes) (ttl m : Nat) (h : List Ev) (e : Ev) :
    run base callback ttl m (h ++ [e]) = step base callback (run base callback ttl m h) e := by
  unfold run exec; rw [List.foldl_append]; rfl

theorem run_inv (base : List Char) (callback : Bytes → List Bytes) (ttl m : Nat) (h : List Ev)
    (hf : FreshIds (run base callback ttl m h).server.calls) : Inv base callback (run base callback ttl m h) := by
  refine snoc_induction (P := fun h => FreshIds (run base callback ttl m h).server.calls →
    Inv base callback (run base callback ttl m h)) (fun _ => init_inv base callback ttl m) ?_ h hf
  intro h e ih hf
  rw [run_snoc] at hf ⊢
  obtain ⟨ops, ho⟩ := calls_step base callback (run base callback ttl m h) e
  rw [ho] at hf
  exact step_inv (ih hf.prefix) hf.prefix e

end EndToEnd
end Opsqueue
