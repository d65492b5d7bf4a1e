import Verif.Proofs.FairnessExample

/-!
# A run in which a chunk waits forever

Submissions 1 and 2 with one chunk each, and one consumer that asks for the newest work: it takes the chunk of submission
2 again and again, and lets the reservation expire each time.
-/

namespace Opsqueue.Server
open Conn (Request)

def nwR : Request := { nonce := 0, max := 1, strategy := .newest }

/-- What comes after the start, over and over. -/
def nwLoop : Nat → Action
  | 0 => .request 0 nwR exV
  | 1 => .row 0
  | 2 => .join 0
  | _ => .tick (.advance 10)

def nwStart : List Action :=
  [ .producer (.insert { id := 1, contents := [some [1]] } 0 []),
    .producer (.insert { id := 2, contents := [some [2]] } 0 []),
    .connect 0, nwLoop 0, nwLoop 1, nwLoop 2, nwLoop 3 ]

def nwActs (n : Nat) : Action := (nwStart[n]?).getD (nwLoop ((n - 7) % 4))

theorem nwActs_start (n : Nat) (h : n ≤ 7) : firstActions nwActs n = nwStart.take n := by
  have : n = 0 ∨ n = 1 ∨ n = 2 ∨ n = 3 ∨ n = 4 ∨ n = 5 ∨ n = 6 ∨ n = 7 := by omega
  rcases this with rfl | rfl | rfl | rfl | rfl | rfl | rfl | rfl <;> rfl

theorem nwActs_at (n : Nat) : nwActs (7 + n) = nwLoop (n % 4) := by
  unfold nwActs
  rw [List.getElem?_eq_none (by simp [nwStart]), Option.getD_none]
  congr 1
  omega

def nwDb : DB := (run 10 3 nwStart).db
def nwCalls : List Op := (run 10 3 nwStart).calls
def nwRow (id : SubmissionId) (b : UInt8) : ChunkRow :=
  { submissionId := id, chunkIndex := 0, inputContent := some [b], retries := 0 }

/-- The states of the loop: the time, the time of the last reservation of the second chunk, the notices, and the
connection. -/
def nwState (now res : Nat) (notices : List (ConnId × ChunkId)) (k : ConnState) : State :=
  { maxRetries := 3
    reserver := { ttl := 10, now, cache := [(⟨2, 0⟩, ⟨⟨2, 0⟩, 0, res⟩)], notices }
    db := nwDb
    conns := [(0, k)]
    notifies := 2
    calls := nwCalls }

theorem nwState_start : ∃ k, k.live = true ∧ k.fetching = none ∧ run 10 3 nwStart = nwState 10 0 [] k :=
  ⟨{ held := [⟨2, 0⟩], answers := [(0, some [⟨2, 0⟩])] }, rfl, rfl, by decide +kernel⟩

theorem nwState_request {now res : Nat} {notices : List (ConnId × ChunkId)} {k : ConnState} (hl : k.live = true)
    (hf : k.fetching = none) :
    step (nwState now res notices k) (nwLoop 0) =
      nwState now res notices { k with fetching := some { req := nwR, rows := [nwRow 2 2, nwRow 1 1] } } := by
  have hrows : nwR.strategy.chunkRows exV.offset exV.reserved exV.counts nwDb = [nwRow 2 2, nwRow 1 1] := by
    decide +kernel
  simp only [nwLoop, step, State.withIdle, State.withConn, State.conn, nwState, Map.get, List.find?_cons, decide_true,
    Option.map_some, Option.filter_some, hl, hf, if_true, begin, hrows]
  rfl

theorem nwState_row {now res : Nat} {notices : List (ConnId × ChunkId)} {k : ConnState} (hl : k.live = true)
    (hn : res + 10 ≤ now) :
    step (nwState now res notices { k with fetching := some { req := nwR, rows := [nwRow 2 2, nwRow 1 1] } })
      (nwLoop 1) = nwState now now (notices ++ [(0, ⟨2, 0⟩)])
        { k with fetching := some { req := nwR, rows := [nwRow 1 1], joining := some ⟨2, 0⟩ } } := by
  have hd : decide (now < res + 10) = false := by simp; omega
  simp [nwLoop, step, State.withFetch, State.withConn, State.conn, nwState, Map.get, hl, fetchRow, nwRow, ChunkRow.key,
    Reserver.tryReserve, Reserver.lookup, Reserver.alive, Reserver.drop, hd, Map.erase, Map.set, State.setConn,
    Option.filter]

theorem nwState_join {now res : Nat} {notices : List (ConnId × ChunkId)} {k : ConnState} (hl : k.live = true) :
    step (nwState now res notices
      { k with fetching := some { req := nwR, rows := [nwRow 1 1], joining := some ⟨2, 0⟩ } }) (nwLoop 2) =
      nwState now res notices
        { k with fetching := none, held := k.held ++ [⟨2, 0⟩], answers := k.answers ++ [(0, some [⟨2, 0⟩])] } := by
  have hs : ∃ sub, (SubmissionDb.getSubmission 2 ⟨[], nwDb⟩).1 = .ok sub :=
    ⟨⟨2, none, 1, 0, 1, none, [], "{}"⟩, by decide +kernel⟩
  have hm : Stmt.strategicOf 2 nwDb = [] := by decide +kernel
  obtain ⟨sub, hs⟩ := hs
  simp [nwLoop, step, State.withFetch, State.withConn, State.conn, nwState, Map.get, hl, fetchJoin, hs, hm,
    insertMetadata, nwR, finishFetch, ConnState.answer, Map.set, State.setConn, Option.filter]

theorem nwState_tick {now res : Nat} {notices : List (ConnId × ChunkId)} {k : ConnState} :
    step (nwState now res notices k) (nwLoop 3) = nwState (now + 10) res notices k := rfl

/-- The states of the loop, by phase. -/
inductive NwAt : Nat → State → Prop
  | request {now res notices} {k : ConnState} : k.live = true → k.fetching = none → res + 10 ≤ now →
      NwAt 0 (nwState now res notices k)
  | row {now res notices} {k : ConnState} : k.live = true → res + 10 ≤ now →
      NwAt 1 (nwState now res notices { k with fetching := some { req := nwR, rows := [nwRow 2 2, nwRow 1 1] } })
  | join {now notices} {k : ConnState} : k.live = true →
      NwAt 2 (nwState now now notices
        { k with fetching := some { req := nwR, rows := [nwRow 1 1], joining := some ⟨2, 0⟩ } })
  | tick {now notices} {k : ConnState} : k.live = true → k.fetching = none → NwAt 3 (nwState now now notices k)

theorem nwAt_step {p : Nat} {s : State} (h : NwAt p s) : NwAt ((p + 1) % 4) (step s (nwLoop p)) := by
  cases h with
  | request hl hf h1 => rw [nwState_request hl hf]; exact .row hl h1
  | row hl h1 => rw [nwState_row hl h1]; exact .join hl
  | join hl => rw [nwState_join hl]; exact .tick hl rfl
  | tick hl hf => rw [nwState_tick]; exact .request hl hf (by omega)

theorem nwAt (n : Nat) : NwAt (n % 4) (run 10 3 (firstActions nwActs (7 + n))) := by
  induction n with
  | zero =>
    obtain ⟨k, hl, hf, hs⟩ := nwState_start
    have : run 10 3 (firstActions nwActs 7) = nwState 10 0 [] k := by rw [nwActs_start 7 (by omega)]; exact hs
    show NwAt 0 (run 10 3 (firstActions nwActs 7))
    rw [this]; exact .request hl hf (by omega)
  | succ n ih =>
    have e : firstActions nwActs (7 + (n + 1)) = firstActions nwActs (7 + n) ++ [nwActs (7 + n)] := by
      have := firstActions_add nwActs (7 + n) 1
      rw [show 7 + (n + 1) = 7 + n + 1 by omega, this]; rfl
    rw [e, run_snoc', nwActs_at]
    have := nwAt_step ih
    rwa [show (n % 4 + 1) % 4 = (n + 1) % 4 by omega] at this

theorem nwAt_facts {p : Nat} {s : State} (h : NwAt p s) : s.calls = nwCalls ∧ s.db = nwDb ∧
    s.reserver.isReserved ⟨1, 0⟩ = false ∧ (∀ c, c ≠ 0 → fetchOf s c = none) ∧ (p = 0 → fetchOf s 0 = none) := by
  have hk : ∀ {now res notices} {k : ConnState} c, c ≠ 0 → fetchOf (nwState now res notices k) c = none := by
    intro now res notices k c hc
    simp [fetchOf, State.conn, nwState, Map.get, Ne.symm hc]
  have hr : ∀ {now res notices} {k : ConnState},
      (nwState now res notices k).reserver.isReserved ⟨1, 0⟩ = false := by
    intro now res notices k
    simp [Reserver.isReserved, Reserver.lookup, nwState, Map.get]
  cases h with
  | request hl hf h1 =>
    refine ⟨rfl, rfl, hr, fun c hc => hk c hc, fun _ => ?_⟩
    simp [fetchOf, State.conn, nwState, Map.get, Option.filter, hl, hf]
  | row hl h1 => exact ⟨rfl, rfl, hr, fun c hc => hk c hc, fun h => by cases h⟩
  | join hl => exact ⟨rfl, rfl, hr, fun c hc => hk c hc, fun h => by cases h⟩
  | tick hl hf => exact ⟨rfl, rfl, hr, fun c hc => hk c hc, fun h => by cases h⟩

theorem nwAt_backlog {p : Nat} {s : State} (h : NwAt p s) : backlog s = [⟨1, 0⟩, ⟨2, 0⟩] := by
  have : backlog s = nwDb.chunks.map (·.key) := by unfold backlog; rw [(nwAt_facts h).2.1]
  rw [this]; decide +kernel

theorem nwAt_free {p : Nat} {s : State} (h : NwAt p s) : Free s ⟨1, 0⟩ := by
  refine ⟨⟨nwRow 1 1, ?_⟩, (nwAt_facts h).2.2.1⟩
  rw [(nwAt_facts h).2.1]; decide +kernel

theorem nwAt_handed {s : State} (h : NwAt 1 s) : handedOut s (nwLoop 1) = [⟨2, 0⟩] := by
  have hb := nwAt_backlog h
  cases h with
  | @row now res notices k hl h1 =>
    unfold handedOut
    rw [hb, nwState_row hl h1]
    have h3 : ¬ now < res + 10 := by omega
    simp [Reserver.isReserved, Reserver.lookup, nwState, Map.get, Reserver.alive, Option.filter, h3]

theorem nwStart_given (n : Nat) (hn : n < 7) :
    ∀ y ∈ givenBack (run 10 3 (firstActions nwActs n)) (nwActs n), 1 < y.submissionId := by
  have : ∀ i : Fin 7, ∀ y ∈ givenBack (run 10 3 (nwStart.take i.1)) (nwActs i.1), 1 < y.submissionId := by
    decide +kernel
  have := this ⟨n, hn⟩
  rwa [nwActs_start n (by omega)]

theorem nwStart_begins (n : Nat) (hn : n < 7) (r : Request) (v : View)
    (h : begins (run 10 3 (firstActions nwActs n)) (nwActs n) = some (r, v)) :
    r.strategy = .newest ∧ v.reserved ⟨1, 0⟩ = (run 10 3 (firstActions nwActs n)).reserver.isReserved ⟨1, 0⟩ := by
  have hall : ∀ i : Fin 7, ∀ x ∈ (begins (run 10 3 (nwStart.take i.1)) (nwActs i.1)).map (fun x =>
      (x.1.strategy, x.2.reserved ⟨1, 0⟩)), x.1 = .newest ∧
      x.2 = (run 10 3 (nwStart.take i.1)).reserver.isReserved ⟨1, 0⟩ := by decide +kernel
  rw [nwActs_start n (by omega)] at h ⊢
  exact hall ⟨n, hn⟩ (r.strategy, v.reserved ⟨1, 0⟩) (by rw [h]; rfl)

theorem nwStart_free (n : Nat) (hn : n < 7) (h2 : 2 ≤ n) : Free (run 10 3 (firstActions nwActs n)) ⟨1, 0⟩ := by
  have : ∀ i : Fin 7, 2 ≤ i.1 → Free (run 10 3 (nwStart.take i.1)) ⟨1, 0⟩ := by decide +kernel
  rw [nwActs_start n (by omega)]
  exact this ⟨n, hn⟩ h2

end Opsqueue.Server
