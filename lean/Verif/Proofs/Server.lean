import Verif.Spec.Server
import Verif.Proofs.Reserver
import Verif.Proofs.Strategy
import Verif.Proofs.Calls

/-!
# Lemmas about the server
-/

namespace Opsqueue.Server
open Conn (Request Response Report)

theorem get_mapValues {κ ν : Type} [DecidableEq κ] (m : Map κ ν) (f : ν → ν) (k : κ) :
    Map.get (m.map fun p => (p.1, f p.2)) k = (Map.get m k).map f := by
  induction m with
  | nil => rfl
  | cons p m ih =>
    rw [List.map_cons, Map.get_cons, Map.get_cons, ih]
    dsimp only
    split <;> rfl

theorem exec_append (s : State) (h1 h2 : List Action) : exec s (h1 ++ h2) = exec (exec s h1) h2 :=
  List.foldl_append

theorem exec_snoc (s : State) (h : List Action) (a : Action) :
    exec s (h ++ [a]) = step (exec s h) a := by rw [exec_append]; rfl

theorem conn_eq {s : State} {c : ConnId} {k : ConnState} :
    s.conn c = some k ↔ s.conns.get c = some k ∧ k.live = true := by
  unfold State.conn
  cases s.conns.get c with
  | none => simp
  | some k' =>
    simp only [Option.filter_some, Option.some.injEq]
    split <;> rename_i h
    · constructor
      · rintro h'; cases h'; exact ⟨rfl, h⟩
      · rintro ⟨rfl, -⟩; rfl
    · constructor
      · intro h'; cases h'
      · rintro ⟨rfl, h'⟩; exact absurd h' h

/-! ### The parts of the state that an action leaves alone -/

theorem dbCall_spec (s : State) (op : Op) :
    let r := Opsqueue.step s.db op
    let s' := (dbCall s op).2
    (dbCall s op).1 = r.1 ∧ s'.db = r.2 ∧ s'.calls = s.calls ++ [op] ∧
      (r.1.crashed = false → s' = { s with db := r.2, calls := s.calls ++ [op] }) ∧
      (r.1.crashed = true → s' = ({ s with calls := s.calls ++ [op] }.restart r.2)) := by
  dsimp only [dbCall]
  split <;> rename_i h
  · exact ⟨rfl, rfl, rfl, fun h' => by rw [h] at h'; (cases h'), fun _ => rfl⟩
  · exact ⟨rfl, rfl, rfl, fun _ => rfl, fun h' => absurd h' h⟩

/-- How a connection can be changed by something that happens elsewhere. -/
inductive Passive (s : State) (a : Action) (c : ConnId) (k : ConnState) : ConnState → Prop
  | same : Passive s a c k k
  | wake : a = .notify → Passive s a c k k.wake
  | unhold (id : ChunkId) (d b : Bool) : a = .release b → s.completing = some (c, id, d) →
      Passive s a c k { k with held := k.held.filter (· ≠ id) }
  | crashed : (step s a).reserver = { (.new s.reserver.ttl : Reserver ChunkId ChunkId ConnId) with
      now := s.reserver.now } → Dies s a → Passive s a c k { live := false, answers := k.answers }

theorem get_setConn (s : State) (c c' : ConnId) (k : ConnState) :
    (s.setConn c k).conns.get c' = if c = c' then some k else s.conns.get c' := Map.get_set _ _ _ _

theorem get_restart (s : State) (db : DB) (c : ConnId) :
    (s.restart db).conns.get c = (s.conns.get c).map fun k => { live := false, answers := k.answers } :=
  get_mapValues s.conns (fun k => { live := false, answers := k.answers }) c

theorem passive_dbCall {s : State} {op : Op} {c : ConnId} {k : ConnState}
    (hk : s.conns.get c = some k) :
    (dbCall s op).2.conns.get c = some k ∨
    ((dbCall s op).2.conns.get c = some { live := false, answers := k.answers } ∧
      (dbCall s op).2.reserver = { (.new s.reserver.ttl : Reserver ChunkId ChunkId ConnId) with
      now := s.reserver.now } ∧ (dbCall s op).1.crashed = true) := by
  obtain ⟨h1, h2, h3, h4, h5⟩ := dbCall_spec s op
  cases hc : (Opsqueue.step s.db op).1.crashed with
  | false => left; rw [h4 hc]; exact hk
  | true => right; rw [h5 hc, h1]; refine ⟨?_, rfl, hc⟩; rw [get_restart]; exact hk ▸ rfl

theorem withConn_other {s : State} {c c' : ConnId} {f : ConnState → State}
    (h : ∀ k, s.conn c = some k → (f k).conns.get c' = s.conns.get c') :
    (s.withConn c f).conns.get c' = s.conns.get c' := by
  unfold State.withConn
  cases hc : s.conn c with
  | none => rfl
  | some k => exact h k hc

theorem withIdle_other {s : State} {c c' : ConnId} {f : ConnState → State}
    (h : ∀ k, s.conn c = some k → (f k).conns.get c' = s.conns.get c') :
    (s.withIdle c f).conns.get c' = s.conns.get c' := by
  refine withConn_other fun k hk => ?_
  split
  · rfl
  · exact h k hk

theorem withFetch_other {s : State} {c c' : ConnId} {f : ConnState → Fetching → State}
    (h : ∀ k g, s.conn c = some k → k.fetching = some g → (f k g).conns.get c' = s.conns.get c') :
    (s.withFetch c f).conns.get c' = s.conns.get c' := by
  refine withConn_other fun k hk => ?_
  split
  · rfl
  · rename_i g hg; exact h k g hk hg

theorem begin_other {s : State} {c c' : ConnId} {k : ConnState} {r : Request} {v : View}
    (hne : c ≠ c') : (begin s c k r v).conns.get c' = s.conns.get c' := by
  unfold begin
  split <;> rw [get_setConn, if_neg hne]

theorem dropConn_other {s : State} {c c' : ConnId} {k : ConnState} (hne : c ≠ c') :
    (dropConn s c k).conns.get c' = s.conns.get c' := by
  show Map.get (Map.set _ _ _) _ = _
  rw [Map.get_set, if_neg hne]

theorem handle_cases (s : State) (w : Bool) (n1 n2 n3 : Time) (o : List Fault) :
    handle s w n1 n2 n3 o = s ∨ ∃ c r queue, s.completing = none ∧ s.queue = (c, r) :: queue ∧
      ((w = false ∧ handle s w n1 n2 n3 o = { s with queue := queue }) ∨
       (w = true ∧
        let res := dbCall { s with queue := queue } (reportOp s.maxRetries n1 n2 n3 o r)
        (res.1.crashed = true → handle s w n1 n2 n3 o = res.2) ∧
        (res.1.crashed = false → handle s w n1 n2 n3 o =
          { res.2 with completing := some (c, r.id, delayedAfter res.1) }))) := by
  unfold handle
  split
  · rename_i c r queue hcomp hq
    right
    refine ⟨c, r, queue, hcomp, hq, ?_⟩
    dsimp only
    cases w with
    | false => left; exact ⟨rfl, rfl⟩
    | true =>
      right
      refine ⟨rfl, fun h => ?_, fun h => ?_⟩
      · rw [if_pos rfl, if_pos h]
      · rw [if_pos rfl, if_neg (by rw [h]; decide)]
  · left; rfl

theorem passive_step {s : State} {a : Action} {c : ConnId} {k : ConnState}
    (hk : s.conns.get c = some k) (ha : a.actor ≠ some c) :
    ∃ k', (step s a).conns.get c = some k' ∧ Passive s a c k k' := by
  have same : (step s a).conns.get c = s.conns.get c →
      ∃ k', (step s a).conns.get c = some k' ∧ Passive s a c k k' :=
    fun h => ⟨k, by rw [h, hk], .same⟩
  cases a with
  | connect c' =>
    have hne : c' ≠ c := fun h => ha (by rw [h]; rfl)
    refine same ?_
    simp only [step]
    cases s.conns.get c' with
    | none => dsimp only; rw [get_setConn, if_neg hne]
    | some _ => rfl
  | request c' r v =>
    have hne : c' ≠ c := fun h => ha (by rw [h]; rfl)
    exact same (withIdle_other fun k _ => begin_other hne)
  | retry c' v =>
    have hne : c' ≠ c := fun h => ha (by rw [h]; rfl)
    refine same (withIdle_other fun k _ => ?_)
    cases k.retry with
    | nil => rfl
    | cons r rest => exact begin_other hne
  | row c' =>
    have hne : c' ≠ c := fun h => ha (by rw [h]; rfl)
    refine same (withFetch_other fun k f _ _ => ?_)
    cases f.joining with
    | some _ => rfl
    | none =>
      simp only [fetchRow]
      cases f.rows with
      | nil => dsimp only; rw [get_setConn, if_neg hne]
      | cons row rows =>
        dsimp only
        rcases s.reserver.tryReserve row.key row.key c' with ⟨_ | _, r⟩ <;>
          (dsimp only; rw [get_setConn, if_neg hne])
  | join c' =>
    have hne : c' ≠ c := fun h => ha (by rw [h]; rfl)
    refine same (withFetch_other fun k f _ _ => ?_)
    cases f.joining with
    | none => rfl
    | some id =>
      simp only [fetchJoin]
      cases (SubmissionDb.getSubmission id.submissionId ⟨[], s.db⟩).1 with
      | ok _ => dsimp only; rw [get_setConn, if_neg hne]
      | err _ => exact dropConn_other hne
      | crash => exact dropConn_other hne
  | fetchFails c' =>
    have hne : c' ≠ c := fun h => ha (by rw [h]; rfl)
    refine same (withFetch_other fun k f _ _ => ?_)
    rw [get_setConn, if_neg hne]
  | register c' i =>
    have hne : c' ≠ c := fun h => ha (by rw [h]; rfl)
    refine same (withConn_other fun k _ => ?_)
    cases k.spawned[i]? with
    | none => rfl
    | some r => dsimp only; rw [get_setConn, if_neg hne]
  | report c' r =>
    refine same (withIdle_other fun k _ => rfl)
  | handle w n1 n2 n3 o =>
    rcases handle_cases s w n1 n2 n3 o with h | ⟨c', r, queue, hcomp, hq, h⟩
    · exact same (by simp only [step]; rw [h])
    · rcases h with ⟨_, h⟩ | ⟨_, h1, h2⟩
      · exact same (by simp only [step]; rw [h])
      · have hk' : Map.get ({ s with queue := queue } : State).conns c = some k := hk
        rcases passive_dbCall (op := reportOp s.maxRetries n1 n2 n3 o r) hk' with h | ⟨h, hr, hc⟩
        · refine same ?_
          simp only [step]
          cases hc : (dbCall { s with queue := queue } (reportOp s.maxRetries n1 n2 n3 o r)).1.crashed with
          | true => rw [h1 hc, hk]; exact h
          | false => rw [h2 hc, hk]; exact h
        · obtain ⟨g1, g2, g3, -⟩ := dbCall_spec { s with queue := queue } (reportOp s.maxRetries n1 n2 n3 o r)
          refine ⟨_, ?_, .crashed ?_ ⟨_, ?_, by rw [g1] at hc; exact hc⟩⟩
          · simp only [step]; rw [h1 hc]; exact h
          · simp only [step]; rw [h1 hc]; exact hr
          · simp only [step]; rw [h1 hc]; exact g3
  | release b =>
    simp only [step, release]
    cases hcomp : s.completing with
    | none => exact ⟨k, hk, .same⟩
    | some p =>
      obtain ⟨c', id, d⟩ := p
      dsimp only
      cases hg : s.conns.get c' with
      | none => exact ⟨k, hk, .same⟩
      | some k' =>
        dsimp only
        rw [Map.get_set]
        by_cases hcc : c' = c
        · subst hcc
          rw [hk] at hg; cases hg
          rw [if_pos rfl]
          exact ⟨_, rfl, .unhold id d b rfl hcomp⟩
        · rw [if_neg hcc]
          exact ⟨k, hk, .same⟩
  | disconnect c' =>
    have hne : c' ≠ c := fun h => ha (by rw [h]; rfl)
    exact same (withConn_other fun k _ => dropConn_other hne)
  | producer call =>
    simp only [step, producerCall]
    rcases passive_dbCall (op := call.op) hk with h | ⟨h, hr, hc⟩
    · refine ⟨k, ?_, .same⟩
      generalize dbCall s call.op = x at *
      obtain ⟨o, s'⟩ := x
      cases o with
      | inserted r => cases r <;> exact h
      | _ => exact h
    · have hstep : step s (.producer call) = (dbCall s call.op).2 := by
        simp only [step, producerCall]
        generalize dbCall s call.op = x at *
        obtain ⟨o, s'⟩ := x
        cases o with
        | inserted r => cases r with
          | ok _ => cases hc
          | _ => rfl
        | _ => rfl
      obtain ⟨g1, g2, g3, -⟩ := dbCall_spec s call.op
      refine ⟨_, ?_, .crashed ?_ ⟨_, ?_, by rw [g1] at hc; exact hc⟩⟩
      · show (step s (.producer call)).conns.get c = _
        rw [hstep]; exact h
      · rw [hstep]; exact hr
      · rw [hstep]; exact g3
  | notify =>
    simp only [step]
    cases s.notifies with
    | zero => exact ⟨k, hk, .same⟩
    | succ n =>
      dsimp only
      refine ⟨k.wake, ?_, .wake rfl⟩
      rw [get_mapValues s.conns ConnState.wake, hk]; rfl
  | tick t => exact ⟨k, hk, .same⟩

/-! ### What an action of a busy connection does -/

theorem fetchOf_eq {s : State} {c : ConnId} {f : Fetching} :
    fetchOf s c = some f ↔ ∃ k, s.conns.get c = some k ∧ k.live = true ∧ k.fetching = some f := by
  unfold fetchOf
  rw [Option.bind_eq_some_iff]
  constructor
  · rintro ⟨k, hk, hf⟩; exact ⟨k, (conn_eq.1 hk).1, (conn_eq.1 hk).2, hf⟩
  · rintro ⟨k, hk, hl, hf⟩; exact ⟨k, conn_eq.2 ⟨hk, hl⟩, hf⟩

theorem withFetch_eq {s : State} {c : ConnId} {k : ConnState} {f : Fetching}
    (hk : s.conn c = some k) (hf : k.fetching = some f) (g : ConnState → Fetching → State) :
    s.withFetch c g = g k f := by
  unfold State.withFetch State.withConn
  rw [hk]; dsimp only; rw [hf]

theorem isReserved_eq_false {r : Reserver ChunkId ChunkId ConnId} {id : ChunkId} :
    r.isReserved id = false ↔ r.lookup id = none := by
  unfold Reserver.isReserved; cases r.lookup id <;> simp

theorem isReserved_eq_true {r : Reserver ChunkId ChunkId ConnId} {id : ChunkId} :
    r.isReserved id = true ↔ (r.lookup id).isSome := Iff.rfl

theorem row_cases {s : State} {c : ConnId} {k : ConnState} {f : Fetching}
    (hk : s.conn c = some k) (hf : k.fetching = some f) :
    (f.joining.isSome ∧ step s (.row c) = s) ∨
    (f.joining = none ∧ f.rows = [] ∧ step s (.row c) = s.setConn c (finishFetch k f)) ∨
    ∃ row rest, f.joining = none ∧ f.rows = row :: rest ∧
      ((s.reserver.isReserved row.key = true ∧
        step s (.row c) = s.setConn c { k with fetching := some { f with rows := rest } }) ∨
       (s.reserver.isReserved row.key = false ∧
        step s (.row c) = { s with reserver := (s.reserver.tryReserve row.key row.key c).2 }.setConn c
          { k with fetching := some { f with rows := rest, joining := some row.key } })) := by
  simp only [step]
  rw [withFetch_eq hk hf]
  cases hj : f.joining with
  | some id => left; exact ⟨rfl, rfl⟩
  | none =>
    right
    dsimp only
    unfold fetchRow
    cases hr : f.rows with
    | nil => left; exact ⟨rfl, rfl, rfl⟩
    | cons row rest =>
      right
      refine ⟨row, rest, rfl, rfl, ?_⟩
      dsimp only
      cases hres : s.reserver.isReserved row.key with
      | true =>
        left
        rw [Reserver.tryReserve_none (isReserved_eq_true.1 hres)]
        refine ⟨rfl, ?_⟩
        dsimp only
        rw [hj]
      | false =>
        right
        rw [Reserver.tryReserve_some (isReserved_eq_false.1 hres)]
        exact ⟨rfl, rfl⟩

/-- The fetch after the chunk was joined. -/
def Fetching.joined (f : Fetching) (id : ChunkId) : Fetching :=
  { f with joining := none, got := f.got ++ [id] }

theorem join_cases {s : State} {c : ConnId} {k : ConnState} {f : Fetching}
    (hk : s.conn c = some k) (hf : k.fetching = some f) :
    (f.joining = none ∧ step s (.join c) = s) ∨
    ∃ id, f.joining = some id ∧
      ((∃ sub, (SubmissionDb.getSubmission id.submissionId ⟨[], s.db⟩).1 = .ok sub ∧
        step s (.join c) = { s with
          counters := insertMetadata s.counters (Stmt.strategicOf id.submissionId s.db) }.setConn c
          (if (f.joined id).got.length = f.req.max then finishFetch k (f.joined id)
           else { k with fetching := some (f.joined id) })) ∨
       ((∀ sub, (SubmissionDb.getSubmission id.submissionId ⟨[], s.db⟩).1 ≠ .ok sub) ∧
        step s (.join c) = dropConn s c k)) := by
  simp only [step]
  rw [withFetch_eq hk hf]
  cases hj : f.joining with
  | none => left; exact ⟨rfl, rfl⟩
  | some id =>
    right
    refine ⟨id, rfl, ?_⟩
    dsimp only
    unfold fetchJoin
    cases hs : (SubmissionDb.getSubmission id.submissionId ⟨[], s.db⟩).1 with
    | ok sub => left; exact ⟨sub, rfl, rfl⟩
    | err e => right; exact ⟨(fun _ h => by cases h), rfl⟩
    | crash => right; exact ⟨(fun _ h => by cases h), rfl⟩

theorem idle_noop {s : State} {c : ConnId} {k : ConnState} {f : Fetching}
    (hk : s.conn c = some k) (hf : k.fetching = some f) (g : ConnState → State) :
    s.withIdle c g = s := by
  unfold State.withIdle State.withConn
  rw [hk]; dsimp only; rw [hf]; rfl

theorem finishFetch_fetching (k : ConnState) (f : Fetching) : (finishFetch k f).fetching = none := by
  unfold finishFetch; cases f.got <;> rfl

/-! ### The reserver -/

/-- The operations of an action on the reserver. -/
def resOps (s : State) : Action → List (Reserver.Op ChunkId ChunkId ConnId)
  | .row c => match fetchOf s c with
    | some f => match f.joining, f.rows with
      | none, row :: _ => [.tryReserve row.key row.key c]
      | _, _ => []
    | none => []
  | .join c => match s.conn c with
    | some k => match k.fetching with
      | some f => match f.joining with
        | some id => match (SubmissionDb.getSubmission id.submissionId ⟨[], s.db⟩).1 with
          | .ok _ => []
          | _ => k.held.map .finishSync
        | none => []
      | none => []
    | none => []
  | .disconnect c => match s.conn c with
    | some k => k.held.map .finishSync
    | none => []
  | .release _ => match s.completing with
    | some (_, id, d) => [.finish id d]
    | none => []
  | .tick t => [t.op]
  | _ => []

/-- The reserver after a restart. -/
def Wiped (s s' : State) : Prop :=
  s'.reserver = { (.new s.reserver.ttl : Reserver ChunkId ChunkId ConnId) with now := s.reserver.now } ∧
    s'.counters = [] ∧ s'.queue = [] ∧ s'.completing = none ∧ s'.notifies = 0 ∧
    ∀ c, s'.conns.get c = (s.conns.get c).map fun k => { live := false, answers := k.answers }

theorem finishSync_exec (r : Reserver ChunkId ChunkId ConnId) (ids : List ChunkId) :
    finishReservationsSync r ids = r.exec (ids.map .finishSync) := by
  unfold finishReservationsSync Reserver.exec
  rw [List.foldl_map]; rfl

theorem wiped_dbCall {s : State} {op : Op} (h : (dbCall s op).1.crashed = true) :
    Wiped s (dbCall s op).2 := by
  obtain ⟨h1, h2, h3, h4, h5⟩ := dbCall_spec s op
  rw [h1] at h
  rw [h5 h]
  exact ⟨rfl, rfl, rfl, rfl, rfl, fun c => get_restart _ _ _⟩

theorem dbCall_ok {s : State} {op : Op} (h : (dbCall s op).1.crashed = false) :
    (dbCall s op).2 = { s with db := (Opsqueue.step s.db op).2, calls := s.calls ++ [op] } := by
  obtain ⟨h1, h2, h3, h4, h5⟩ := dbCall_spec s op
  rw [h1] at h
  exact h4 h

theorem producer_cases (s : State) (call : ProducerCall) :
    (dbCall s call.op).1 = (Opsqueue.step s.db call.op).1 ∧
    ((∃ id, (dbCall s call.op).1 = .inserted (.ok id) ∧ step s (.producer call) =
      { (dbCall s call.op).2 with notifies := (dbCall s call.op).2.notifies + 1 }) ∨
    ((∀ id, (dbCall s call.op).1 ≠ .inserted (.ok id)) ∧
      step s (.producer call) = (dbCall s call.op).2)) := by
  refine ⟨(dbCall_spec s call.op).1, ?_⟩
  simp only [step, producerCall]
  generalize dbCall s call.op = x
  obtain ⟨o, s'⟩ := x
  cases o with
  | inserted r => cases r with
    | ok id => left; exact ⟨id, rfl, rfl⟩
    | err e => right; exact ⟨(fun _ h => by cases h), rfl⟩
    | crash => right; exact ⟨(fun _ h => by cases h), rfl⟩
  | _ => right; exact ⟨(fun _ h => by cases h), rfl⟩

theorem reserver_step' (s : State) (a : Action) :
    (step s a).reserver = s.reserver.exec (resOps s a) ∨ (Wiped s (step s a) ∧
      ∃ op, (step s a).calls = s.calls ++ [op] ∧ (Opsqueue.step s.db op).1.crashed = true) := by
  cases a with
  | connect c => left; simp only [step]; cases s.conns.get c <;> rfl
  | request c r v =>
    left
    simp only [step, State.withIdle, State.withConn, resOps]
    cases s.conn c with
    | none => rfl
    | some k =>
      dsimp only
      split
      · rfl
      · unfold begin; split <;> rfl
  | retry c v =>
    left
    simp only [step, State.withIdle, State.withConn, resOps]
    cases s.conn c with
    | none => rfl
    | some k =>
      dsimp only
      split
      · rfl
      · cases k.retry with
        | nil => rfl
        | cons r rest => dsimp only; unfold begin; split <;> rfl
  | row c =>
    left
    cases hk : s.conn c with
    | none => simp [step, State.withFetch, State.withConn, resOps, fetchOf, hk]; rfl
    | some k =>
      cases hf : k.fetching with
      | none => simp [step, State.withFetch, State.withConn, resOps, fetchOf, hk, hf]; rfl
      | some f =>
        have hfo : fetchOf s c = some f := by unfold fetchOf; rw [hk]; exact hf
        simp only [resOps, hfo]
        rcases row_cases hk hf with ⟨hj, h⟩ | ⟨hj, hr, h⟩ | ⟨row, rest, hj, hr, ⟨hres, h⟩ | ⟨hres, h⟩⟩
        · rw [h]
          cases hj' : f.joining with
          | none => rw [hj'] at hj; cases hj
          | some _ => rfl
        · rw [h, hj, hr]; rfl
        · rw [h, hj, hr]
          show s.reserver = (s.reserver.tryReserve row.key row.key c).2
          rw [Reserver.tryReserve_none (isReserved_eq_true.1 hres)]
        · rw [h, hj, hr]; rfl
  | join c =>
    left
    cases hk : s.conn c with
    | none => simp [step, State.withFetch, State.withConn, resOps, hk]; rfl
    | some k =>
      cases hf : k.fetching with
      | none => simp [step, State.withFetch, State.withConn, resOps, hk, hf]; rfl
      | some f =>
        simp only [resOps, hk, hf]
        rcases join_cases hk hf with ⟨hj, h⟩ | ⟨id, hj, ⟨sub, hsub, h⟩ | ⟨hsub, h⟩⟩
        · rw [h, hj]; rfl
        · rw [h, hj]; dsimp only; rw [hsub]; rfl
        · rw [h, hj]; dsimp only
          cases hs : (SubmissionDb.getSubmission id.submissionId ⟨[], s.db⟩).1 with
          | ok sub => exact absurd hs (hsub sub)
          | err e => exact finishSync_exec _ _
          | crash => exact finishSync_exec _ _
  | fetchFails c =>
    left
    simp only [step, State.withFetch, State.withConn, resOps]
    cases s.conn c with
    | none => rfl
    | some k => dsimp only; cases k.fetching <;> rfl
  | register c i =>
    left
    simp only [step, State.withConn, resOps]
    cases s.conn c with
    | none => rfl
    | some k => dsimp only; cases k.spawned[i]? <;> rfl
  | report c r =>
    left
    simp only [step, State.withIdle, State.withConn, resOps]
    cases s.conn c with
    | none => rfl
    | some k => dsimp only; split <;> rfl
  | handle w n1 n2 n3 o =>
    simp only [step]
    rcases handle_cases s w n1 n2 n3 o with h | ⟨c', r, queue, hcomp, hq, h⟩
    · left; rw [h]; rfl
    · rcases h with ⟨_, h⟩ | ⟨_, h1, h2⟩
      · left; rw [h]; rfl
      · cases hc : (dbCall { s with queue := queue } (reportOp s.maxRetries n1 n2 n3 o r)).1.crashed with
        | true =>
          right; rw [h1 hc]
          have := wiped_dbCall hc
          obtain ⟨g1, g2, g3, -⟩ := dbCall_spec { s with queue := queue } (reportOp s.maxRetries n1 n2 n3 o r)
          exact ⟨this, _, g3, by rw [g1] at hc; exact hc⟩
        | false => left; rw [h2 hc]; dsimp only; rw [dbCall_ok hc]; rfl
  | release b =>
    left
    simp only [step, release, resOps]
    cases s.completing <;> rfl
  | disconnect c =>
    left
    simp only [step, State.withConn, resOps]
    cases s.conn c with
    | none => rfl
    | some k => exact finishSync_exec _ _
  | producer call =>
    obtain ⟨h1, ⟨id, hi, h⟩ | ⟨hi, h⟩⟩ := producer_cases s call
    · left; rw [h]
      have : (dbCall s call.op).1.crashed = false := by rw [hi]; rfl
      dsimp only
      rw [dbCall_ok this]; rfl
    · cases hc : (dbCall s call.op).1.crashed with
      | true =>
        right; rw [h]
        obtain ⟨g1, g2, g3, -⟩ := dbCall_spec s call.op
        exact ⟨wiped_dbCall hc, _, g3, by rw [g1] at hc; exact hc⟩
      | false => left; rw [h, dbCall_ok hc]; rfl
  | notify => left; simp only [step]; cases s.notifies <;> rfl
  | tick t => left; rfl

theorem reserver_step (s : State) (a : Action) :
    (step s a).reserver = s.reserver.exec (resOps s a) ∨ Wiped s (step s a) :=
  (reserver_step' s a).imp id And.left

/-- An action makes at most one database call. -/
theorem db_step (s : State) (a : Action) :
    (∃ op, (step s a).db = (Opsqueue.step s.db op).2 ∧ (step s a).calls = s.calls ++ [op]) ∨
    ((step s a).db = s.db ∧ (step s a).calls = s.calls) := by
  cases a with
  | handle w n1 n2 n3 o =>
    simp only [step]
    rcases handle_cases s w n1 n2 n3 o with h | ⟨c', r, queue, hcomp, hq, h⟩
    · right; rw [h]; exact ⟨rfl, rfl⟩
    · rcases h with ⟨_, h⟩ | ⟨_, h1, h2⟩
      · right; rw [h]; exact ⟨rfl, rfl⟩
      · left
        refine ⟨reportOp s.maxRetries n1 n2 n3 o r, ?_⟩
        obtain ⟨-, h3, h4, -⟩ := dbCall_spec { s with queue := queue } (reportOp s.maxRetries n1 n2 n3 o r)
        cases hc : (dbCall { s with queue := queue } (reportOp s.maxRetries n1 n2 n3 o r)).1.crashed with
        | true => rw [h1 hc]; exact ⟨h3, h4⟩
        | false => rw [h2 hc]; exact ⟨h3, h4⟩
  | producer call =>
    left
    refine ⟨call.op, ?_⟩
    obtain ⟨-, h3, h4, -⟩ := dbCall_spec s call.op
    obtain ⟨-, ⟨id, hi, h⟩ | ⟨hi, h⟩⟩ := producer_cases s call
    · rw [h]; exact ⟨h3, h4⟩
    · rw [h]; exact ⟨h3, h4⟩
  | _ =>
    right
    simp only [step, State.withIdle, State.withFetch, State.withConn, begin, fetchRow, fetchJoin,
      release]
    repeat' split
    all_goals first | exact ⟨rfl, rfl⟩ | simp

theorem db_exec (s : State) (h : List Action) :
    ∃ ops, (exec s h).db = runFrom s.db ops ∧ (exec s h).calls = s.calls ++ ops := by
  induction h generalizing s with
  | nil => exact ⟨[], rfl, (List.append_nil _).symm⟩
  | cons a h ih =>
    obtain ⟨ops, h1, h2⟩ := ih (step s a)
    rcases db_step s a with ⟨op, h3, h4⟩ | ⟨h3, h4⟩
    · refine ⟨op :: ops, ?_, ?_⟩
      · show (exec (step s a) h).db = _
        rw [h1, h3]; rfl
      · show (exec (step s a) h).calls = _
        rw [h2, h4, List.append_assoc]; rfl
    · refine ⟨ops, ?_, ?_⟩
      · show (exec (step s a) h).db = _
        rw [h1, h3]
      · show (exec (step s a) h).calls = _
        rw [h2, h4]

/-- The database is the result of the calls made. -/
theorem db_run (ttl m : Nat) (h : List Action) :
    (run ttl m h).db = Opsqueue.run (run ttl m h).calls := by
  obtain ⟨ops, h1, h2⟩ := db_exec (init ttl m) h
  unfold run
  rw [h1, h2]; rfl

theorem calls_prefix (ttl m : Nat) (h1 h2 : List Action) :
    ∃ ops, (run ttl m (h1 ++ h2)).calls = (run ttl m h1).calls ++ ops := by
  unfold run
  rw [exec_append]
  obtain ⟨ops, _, h⟩ := db_exec (exec (init ttl m) h1) h2
  exact ⟨ops, h⟩

theorem ttl_step (s : State) (a : Action) : (step s a).reserver.ttl = s.reserver.ttl := by
  rcases reserver_step s a with h | h
  · rw [h, Reserver.ttl_exec]
  · rw [h.1]; rfl

theorem ttl_exec (s : State) (h : List Action) : (exec s h).reserver.ttl = s.reserver.ttl := by
  induction h generalizing s with
  | nil => rfl
  | cons a h ih => exact (ih _).trans (ttl_step s a)

end Opsqueue.Server
