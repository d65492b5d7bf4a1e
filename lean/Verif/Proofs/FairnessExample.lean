import Verif.Proofs.Fairness

/-!
# An unending run, as an example for C75

Submissions 1 and 2 with one chunk each. A consumer takes and completes the first, and then takes the second again and
again: it never reports on it, and the reservation expires each time.
-/

namespace Opsqueue.Server
open Conn (Request)

/-! ### Checking the hypotheses of finite examples -/

instance (s : State) (id : ChunkId) : Decidable (Free s id) :=
  match h : chunkAt s.db id with
  | .ok row =>
    if hr : s.reserver.isReserved id = false then .isTrue ⟨⟨row, h⟩, hr⟩ else .isFalse fun hf => hr hf.2
  | .err _ => .isFalse fun ⟨⟨_, hrow⟩, _⟩ => by rw [h] at hrow; cases hrow
  | .crash => .isFalse fun ⟨⟨_, hrow⟩, _⟩ => by rw [h] at hrow; cases hrow

theorem waitsFrom_of {s : State} {x : ChunkId} {es : List Action}
    (h : ∀ n ∈ List.range (es.length + 1), Free (exec s (es.take n)) x) : WaitsFrom s x es := by
  intro pre post he
  have := h pre.length (by rw [List.mem_range, he, List.length_append]; omega)
  rwa [he, List.take_left] at this

/-- Whether every request of the history has the strategy and a query that takes `x` for free; there are no retries. -/
def plainRequests (st : Strategy) (x : ChunkId) (es : List Action) : Bool :=
  es.all fun
    | .request _ r v => decide (r.strategy = st) && !v.reserved x
    | .retry _ _ => false
    | _ => true

theorem asksFrom_of {s : State} {st : Strategy} {x : ChunkId} {es : List Action}
    (h : plainRequests st x es = true) (c : ConnId) : AsksFrom s c st x es := by
  intro pre a post r v he _ hb
  have := List.all_eq_true.1 h a (by rw [he]; simp)
  cases a with
  | request c' r' v' =>
    simp only [begins] at hb
    split at hb
    · cases hb; simpa using this
    · cases hb
  | retry => cases this
  | _ => cases hb

theorem fetchOf_none {s : State} (h : ∀ p ∈ s.conns, p.2.fetching = none) (c : ConnId) : fetchOf s c = none := by
  cases hf : fetchOf s c with
  | none => rfl
  | some f =>
    obtain ⟨k, hk, _, hkf⟩ := fetchOf_eq.1 hf
    have := h _ (Map.mem_of_get hk)
    rw [show k.fetching = none from this] at hkf; cases hkf

/-! ### The unending run -/

def exR : Request := { nonce := 0, max := 1, strategy := .oldest }
def exV : View := { offset := 0, reserved := fun _ => false, counts := fun _ => [] }

def exStart : List Action :=
  [ .producer (.insert { id := 1, contents := [some [1]] } 0 []),
    .producer (.insert { id := 2, contents := [some [2]] } 0 []),
    .connect 0, .request 0 exR exV, .row 0, .join 0, .report 0 (.complete ⟨1, 0⟩ none), .handle true 0 0 0 [],
    .release true, .tick (.advance 10), .request 0 exR exV, .row 0, .join 0, .tick (.advance 10) ]

/-- What comes after the start, over and over. -/
def exLoop : Nat → Action
  | 0 => .request 0 exR exV
  | 1 => .row 0
  | 2 => .join 0
  | _ => .tick (.advance 10)

def exActs (n : Nat) : Action := (exStart[n]?).getD (exLoop ((n - 14) % 4))

theorem exActs_start (n : Nat) (h : n ≤ 14) : firstActions exActs n = exStart.take n := by
  have : n = 0 ∨ n = 1 ∨ n = 2 ∨ n = 3 ∨ n = 4 ∨ n = 5 ∨ n = 6 ∨ n = 7 ∨ n = 8 ∨ n = 9 ∨ n = 10 ∨ n = 11 ∨ n = 12 ∨
    n = 13 ∨ n = 14 := by omega
  rcases this with rfl | rfl | rfl | rfl | rfl | rfl | rfl | rfl | rfl | rfl | rfl | rfl | rfl | rfl | rfl <;> rfl

theorem exActs_loop (j p : Nat) (hp : p < 4) : exActs (14 + (4 * j + p)) = exLoop p := by
  unfold exActs
  rw [List.getElem?_eq_none (by simp [exStart]), Option.getD_none]
  congr 1
  omega

def exDb : DB := (run 10 3 exStart).db
def exCalls : List Op := (run 10 3 exStart).calls
def exRow : ChunkRow := { submissionId := 2, chunkIndex := 0, inputContent := some [2], retries := 0 }

/-- The states of the loop: the time, the time of the last reservation of the second chunk, the notices, and the
connection. -/
def exState (now res : Nat) (notices : List (ConnId × ChunkId)) (k : ConnState) : State :=
  { maxRetries := 3
    reserver := {
      ttl := 10, now
      cache := [(⟨1, 0⟩, ⟨⟨1, 0⟩, 0, 0⟩), (⟨2, 0⟩, ⟨⟨2, 0⟩, 0, res⟩)]
      pending := [(⟨1, 0⟩, 1000)], notices }
    db := exDb
    conns := [(0, k)]
    notifies := 2
    calls := exCalls }

theorem exState_start : ∃ k, k.live = true ∧ k.fetching = none ∧ run 10 3 exStart = exState 20 10 [] k :=
  ⟨{ held := [⟨2, 0⟩], answers := [(0, some [⟨1, 0⟩]), (0, some [⟨2, 0⟩])] }, rfl, rfl, by decide +kernel⟩

theorem exState_request {now res : Nat} {notices : List (ConnId × ChunkId)} {k : ConnState} (hl : k.live = true)
    (hf : k.fetching = none) :
    step (exState now res notices k) (exLoop 0) =
      exState now res notices { k with fetching := some { req := exR, rows := [exRow] } } := by
  have hrows : exR.strategy.chunkRows exV.offset exV.reserved exV.counts exDb = [exRow] := by decide +kernel
  simp only [exLoop, step, State.withIdle, State.withConn, State.conn, exState, Map.get, List.find?_cons, decide_true,
    Option.map_some, Option.filter_some, hl, hf, if_true, begin, hrows]
  rfl

theorem exState_row {now res : Nat} {notices : List (ConnId × ChunkId)} {k : ConnState} (hl : k.live = true)
    (hn : res + 10 ≤ now) :
    step (exState now res notices { k with fetching := some { req := exR, rows := [exRow] } }) (exLoop 1) =
      exState now now (notices ++ [(0, ⟨2, 0⟩)])
        { k with fetching := some { req := exR, rows := [], joining := some ⟨2, 0⟩ } } := by
  have hd : decide (now < res + 10) = false := by simp; omega
  simp [exLoop, step, State.withFetch, State.withConn, State.conn, exState, Map.get, hl, fetchRow, exRow, ChunkRow.key,
    Reserver.tryReserve, Reserver.lookup, Reserver.alive, Reserver.drop, hd, Map.erase, Map.set, State.setConn, Option.filter]

theorem exState_join {now res : Nat} {notices : List (ConnId × ChunkId)} {k : ConnState} (hl : k.live = true) :
    step (exState now res notices { k with fetching := some { req := exR, rows := [], joining := some ⟨2, 0⟩ } })
      (exLoop 2) = exState now res notices
        { k with fetching := none, held := k.held ++ [⟨2, 0⟩], answers := k.answers ++ [(0, some [⟨2, 0⟩])] } := by
  have hs : ∃ sub, (SubmissionDb.getSubmission 2 ⟨[], exDb⟩).1 = .ok sub :=
    ⟨⟨2, none, 1, 0, 1, none, [], "{}"⟩, by decide +kernel⟩
  have hm : Stmt.strategicOf 2 exDb = [] := by decide +kernel
  obtain ⟨sub, hs⟩ := hs
  simp [exLoop, step, State.withFetch, State.withConn, State.conn, exState, Map.get, hl, fetchJoin, hs, hm,
    insertMetadata, exR, finishFetch, ConnState.answer, Map.set, State.setConn, Option.filter]

theorem exState_tick {now res : Nat} {notices : List (ConnId × ChunkId)} {k : ConnState} :
    step (exState now res notices k) (exLoop 3) = exState (now + 10) res notices k := rfl

/-- The states of the loop, by phase. -/
inductive ExAt : Nat → State → Prop
  | request {now res notices} {k : ConnState} : k.live = true → k.fetching = none → res + 10 ≤ now → 10 ≤ now →
      ExAt 0 (exState now res notices k)
  | row {now res notices} {k : ConnState} : k.live = true → res + 10 ≤ now → 10 ≤ now →
      ExAt 1 (exState now res notices { k with fetching := some { req := exR, rows := [exRow] } })
  | join {now notices} {k : ConnState} : k.live = true → 10 ≤ now →
      ExAt 2 (exState now now notices { k with fetching := some { req := exR, rows := [], joining := some ⟨2, 0⟩ } })
  | tick {now notices} {k : ConnState} : k.live = true → k.fetching = none → 10 ≤ now → ExAt 3 (exState now now notices k)

theorem exAt_step {p : Nat} {s : State} (h : ExAt p s) : ExAt ((p + 1) % 4) (step s (exLoop p)) := by
  cases h with
  | request hl hf h1 h2 => rw [exState_request hl hf]; exact .row hl h1 h2
  | row hl h1 h2 => rw [exState_row hl h1]; exact .join hl h2
  | join hl h2 => rw [exState_join hl]; exact .tick hl rfl h2
  | tick hl hf h2 => rw [exState_tick]; exact .request hl hf (by omega) (by omega)

theorem exAt (n : Nat) : ExAt (n % 4) (run 10 3 (firstActions exActs (14 + n))) := by
  induction n with
  | zero =>
    obtain ⟨k, hl, hf, hs⟩ := exState_start
    have : run 10 3 (firstActions exActs 14) = exState 20 10 [] k := by rw [exActs_start 14 (by omega)]; exact hs
    show ExAt 0 (run 10 3 (firstActions exActs 14))
    rw [this]; exact .request hl hf (by omega) (by omega)
  | succ n ih =>
    have e : firstActions exActs (14 + (n + 1)) = firstActions exActs (14 + n) ++ [exActs (14 + n)] := by
      have := firstActions_add exActs (14 + n) 1
      rw [show 14 + (n + 1) = 14 + n + 1 by omega, this]; rfl
    have ha : exActs (14 + n) = exLoop (n % 4) := by
      have := exActs_loop (n / 4) (n % 4) (by omega)
      rwa [show 4 * (n / 4) + n % 4 = n by omega] at this
    rw [e, run_snoc', ha]
    have := exAt_step ih
    rwa [show (n % 4 + 1) % 4 = (n + 1) % 4 by omega] at this

theorem exActs_at (n : Nat) : exActs (14 + n) = exLoop (n % 4) := by
  have := exActs_loop (n / 4) (n % 4) (by omega)
  rwa [show 4 * (n / 4) + n % 4 = n by omega] at this

theorem exAt_calls {p : Nat} {s : State} (h : ExAt p s) : s.calls = exCalls ∧ s.db = exDb ∧
    s.reserver.isReserved ⟨1, 0⟩ = false ∧ (∀ c, c ≠ 0 → fetchOf s c = none) ∧ (p = 0 → fetchOf s 0 = none) := by
  have hk : ∀ {now res notices} {k : ConnState} c, c ≠ 0 → fetchOf (exState now res notices k) c = none := by
    intro now res notices k c hc
    simp [fetchOf, State.conn, exState, Map.get, Ne.symm hc]
  have hr : ∀ {now res notices} {k : ConnState}, 10 ≤ now →
      (exState now res notices k).reserver.isReserved ⟨1, 0⟩ = false := by
    intro now res notices k hn
    simp [Reserver.isReserved, Reserver.lookup, exState, Map.get, Reserver.alive, Option.filter]
    omega
  cases h with
  | request hl hf h1 h2 =>
    refine ⟨rfl, rfl, hr h2, fun c hc => hk c hc, fun _ => ?_⟩
    simp [fetchOf, State.conn, exState, Map.get, Option.filter, hl, hf]
  | row hl h1 h2 => exact ⟨rfl, rfl, hr h2, fun c hc => hk c hc, fun h => by cases h⟩
  | join hl h2 => exact ⟨rfl, rfl, hr h2, fun c hc => hk c hc, fun h => by cases h⟩
  | tick hl hf h2 => exact ⟨rfl, rfl, hr h2, fun c hc => hk c hc, fun h => by cases h⟩

theorem exAt_handed {s : State} (h : ExAt 1 s) : handedOut s (exLoop 1) = [⟨2, 0⟩] := by
  cases h with
  | @row now res notices k hl h1 h2 =>
    unfold handedOut
    have hb : backlog (exState now res notices { k with fetching := some { req := exR, rows := [exRow] } }) =
        [⟨2, 0⟩] := by show exDb.chunks.map (·.key) = _; decide +kernel
    rw [hb, exState_row hl h1]
    have h3 : ¬ now < res + 10 := by omega
    simp [Reserver.isReserved, Reserver.lookup, exState, Map.get, Reserver.alive, Option.filter, h3]

theorem exAt_backlog {p : Nat} {s : State} (h : ExAt p s) : backlog s = [⟨2, 0⟩] := by
  have : backlog s = exDb.chunks.map (·.key) := by unfold backlog; rw [(exAt_calls h).2.1]
  rw [this]; decide +kernel

theorem exStart_given (n : Nat) (hn : n < 14) :
    ∀ y ∈ givenBack (run 10 3 (firstActions exActs n)) (exActs n), 1 < y.submissionId := by
  have : ∀ i : Fin 14, ∀ y ∈ givenBack (run 10 3 (exStart.take i.1)) (exActs i.1), 1 < y.submissionId := by
    decide +kernel
  have := this ⟨n, hn⟩
  rwa [exActs_start n (by omega)]

theorem exStart_begins (n : Nat) (hn : n < 14) (r : Request) (v : View)
    (h : begins (run 10 3 (firstActions exActs n)) (exActs n) = some (r, v)) :
    r.strategy = .oldest ∧ v.reserved ⟨1, 0⟩ = (run 10 3 (firstActions exActs n)).reserver.isReserved ⟨1, 0⟩ := by
  have hall : ∀ i : Fin 14, ∀ x ∈ (begins (run 10 3 (exStart.take i.1)) (exActs i.1)).map (fun x =>
      (x.1.strategy, x.2.reserved ⟨1, 0⟩)), x.1 = .oldest ∧
      x.2 = (run 10 3 (exStart.take i.1)).reserver.isReserved ⟨1, 0⟩ := by decide +kernel
  rw [exActs_start n (by omega)] at h ⊢
  exact hall ⟨n, hn⟩ (r.strategy, v.reserved ⟨1, 0⟩) (by rw [h]; rfl)

end Opsqueue.Server
