import Verif.Spec.Python
import Verif.Proofs.Python
import Verif.Props.Lifecycle

/-!
# C46, C49, C53, C54, C59: the Python client
-/

namespace Opsqueue.Python

/-! ## C46: chunking -/

/-- **C46.** Splitting operations into chunks of size `k > 0`, encoding, decoding and flattening gives the original
operations; there are ceil(n/k) chunks, all of `k` operations but possibly the last, none empty. For every
serialization format that gives back what it was given. -/
theorem C46_chunking_roundtrip {α : Type} (f : Format α) (hf : f.Faithful) (k : Int) (hk : 0 < k) (ops : List α) :
    ∃ groups : List (List α), chunkIterator f k ops = some (groups.map f.dumps) ∧
      unchunkIterator f (groups.map f.dumps) = (ops, none) ∧
      groups.flatten = ops ∧
      groups.length = (ops.length + k.toNat - 1) / k.toNat ∧
      (∀ g ∈ groups, 0 < g.length ∧ g.length ≤ k) ∧
      (∀ g ∈ groups.dropLast, g.length = k) := by
  have hk' : 0 < k.toNat := by omega
  refine ⟨batched k.toNat ops, ?_, ?_, ?_, ?_, ?_, ?_⟩
  · unfold chunkIterator
    rw [if_neg (by omega)]
    rfl
  · have := unchunk_map f hf (batched k.toNat ops)
    rw [show batched k.toNat ops = batchedLoop k.toNat ops.length ops from rfl,
      batchedLoop_flatten _ hk' _ _ (Nat.le_refl _)] at this
    exact this
  · exact batchedLoop_flatten _ hk' _ _ (Nat.le_refl _)
  · exact batchedLoop_length _ hk' _ _ (Nat.le_refl _)
  · intro g hg
    have := (batchedLoop_sizes _ hk' _ ops (Nat.le_refl _)).1 g hg
    omega
  · intro g hg
    have := (batchedLoop_sizes _ hk' _ ops (Nat.le_refl _)).2 g hg
    omega

/-- **C46**, sizes that are not positive are rejected, whatever the operations. -/
theorem C46_bad_size_rejected {α : Type} (f : Format α) (k : Int) (ops : List α) :
    chunkIterator f k ops = none ↔ k ≤ 0 := by
  unfold chunkIterator
  split <;> simp_all

/-- **C46, errors are not swallowed**: for every format and every sequence of downloaded chunks, the results end
without an exception exactly if every chunk was downloaded and decoded, and are then all operations of all chunks in
order; otherwise they are the operations of the chunks before the first one with a problem, and its error is raised. -/
theorem C46_errors_are_raised {α : Type} (f : Format α) (chunks : List (Except PyErr Bytes)) :
    ∃ (good : List (Bytes × List α)) (rest : List (Except PyErr Bytes)),
      chunks = good.map (fun g => .ok g.1) ++ rest ∧ (∀ g ∈ good, f.loads g.1 = .ok (some g.2)) ∧
      (unchunkIterator f chunks).1 = (good.map (·.2)).flatten ∧
      ((rest = [] ∧ (unchunkIterator f chunks).2 = none) ∨
       (∃ e more, rest = .error e :: more ∧ (unchunkIterator f chunks).2 = some e) ∨
       (∃ b e more, rest = .ok b :: more ∧ f.loads b = .error e ∧ (unchunkIterator f chunks).2 = some e) ∨
       (∃ b more, rest = .ok b :: more ∧ f.loads b = .ok none ∧
          (unchunkIterator f chunks).2 = some ⟨"AssertionError"⟩)) := by
  induction chunks with
  | nil => exact ⟨[], [], rfl, by simp, rfl, .inl ⟨rfl, rfl⟩⟩
  | cons c chunks ih =>
    cases c with
    | error e => exact ⟨[], _, rfl, by simp, rfl, .inr (.inl ⟨e, chunks, rfl, rfl⟩)⟩
    | ok b =>
      cases hl : f.loads b with
      | error e =>
        refine ⟨[], _, rfl, by simp, by simp [unchunkIterator, decodeChunk, hl], ?_⟩
        exact .inr (.inr (.inl ⟨b, e, chunks, rfl, hl, by simp [unchunkIterator, decodeChunk, hl]⟩))
      | ok o =>
        cases o with
        | none =>
          refine ⟨[], _, rfl, by simp, by simp [unchunkIterator, decodeChunk, hl], ?_⟩
          exact .inr (.inr (.inr ⟨b, chunks, rfl, hl, by simp [unchunkIterator, decodeChunk, hl]⟩))
        | some ops =>
          obtain ⟨good, rest, h1, h2, h3, h4⟩ := ih
          refine ⟨(b, ops) :: good, rest, by rw [h1]; simp, ?_, ?_, ?_⟩
          · intro g hg
            rcases List.mem_cons.1 hg with rfl | hg
            · exact hl
            · exact h2 g hg
          · simp [unchunkIterator, decodeChunk, hl, h3]
          · simpa [unchunkIterator, decodeChunk, hl] using h4

/-- A format for small numbers: one byte each. -/
def byteFormat : Format UInt8 := { dumps := .ok, loads := fun b => .ok (some b) }

example : byteFormat.Faithful := fun ops => ⟨ops, rfl, rfl⟩

example : chunkIterator byteFormat 2 [1, 2, 3, 4, 5] = some [.ok [1, 2], .ok [3, 4], .ok [5]] ∧
    chunkIterator byteFormat 3 [] = some [] ∧ chunkIterator byteFormat 0 [1] = none ∧
    chunkIterator byteFormat (-1) [1] = none ∧
    unchunkIterator byteFormat [.ok [1, 2], .ok [3, 4], .ok [5]] = ([1, 2, 3, 4, 5], none) := by decide +kernel

/-- The second chunk cannot be downloaded. -/
example : unchunkIterator byteFormat [.ok [1, 2], .error ⟨"ChunkRetrievalError"⟩, .ok [5]] =
    ([1, 2], some ⟨"ChunkRetrievalError"⟩) := by decide +kernel

/-! ## C53: strategies and statuses -/

/-- **C53, strategies.** Converting a strategy from Python to Rust and back is the identity, and the other way round;
two Python strategies are equal for Python exactly if they are the same. -/
theorem C53_strategy_roundtrip (p : PyStrategy) (s : Strategy) :
    PyStrategy.ofRust p.toRust = p ∧ (PyStrategy.ofRust s).toRust = s ∧
      ∀ q : PyStrategy, p.eq q = true ↔ p = q := by
  refine ⟨ofRust_toRust p, toRust_ofRust s, fun q => ?_⟩
  unfold PyStrategy.eq
  rw [decide_eq_true_iff]
  constructor
  · intro h
    rw [← ofRust_toRust p, h, ofRust_toRust]
  · rintro rfl; rfl

example : PyStrategy.ofRust (.preferDistinct "a" (.preferDistinct "b" .newest)) =
    .preferDistinct "a" (.preferDistinct "b" .newest) ∧
    PyStrategy.eq (.preferDistinct "a" .random) (.preferDistinct "b" .random) = false := by decide +kernel

/-- The failed chunk that a status names. -/
def _root_.Opsqueue.SubmissionStatus.failure : SubmissionStatus → Option (ChunkIndex × String × Time)
  | .failed _ c => some (c.chunkIndex, c.failure, c.failedAt)
  | _ => none

/-- **C53, statuses.** The status shown in Python carries everything of the Rust status except prefix, chunk size,
trace carrier and the input of the failed chunk: two statuses look the same in Python exactly if they agree apart from
these. -/
theorem C53_status_shows_all (a b : SubmissionStatus) :
    PyStatus.ofRust a = PyStatus.ofRust b ↔ hideInternals a = hideInternals b := by
  cases a <;> cases b <;>
    simp [PyStatus.ofRust, hideInternals, PyFailed.ofRust, PyChunkFailed.ofRust, PyCompleted.ofRust, PyCancelled.ofRust] <;> grind

/-- **C53, states, ids, counts and failure**, spelled out. -/
theorem C53_status_fields (st : SubmissionStatus) :
    match st, PyStatus.ofRust st with
    | .inProgress s, .inProgress p => p.id = s.id ∧ p.chunksTotal = s.chunksTotal ∧ p.chunksDone = s.chunksDone ∧
        p.metadata = s.metadata ∧ p.strategic = s.strategic
    | .completed s, .completed p => p.id = s.id ∧ p.chunksTotal = s.chunksTotal ∧ p.completedAt = s.completedAt ∧
        p.metadata = s.metadata ∧ p.strategic = s.strategic
    | .failed s c, .failed p d => p.id = s.id ∧ p.chunksTotal = s.chunksTotal ∧ p.chunksDone = s.chunksDone ∧
        p.failedAt = s.failedAt ∧ p.failedChunkId = s.failedChunkId ∧ p.metadata = s.metadata ∧
        p.strategic = s.strategic ∧ d.submissionId = c.submissionId ∧ d.chunkIndex = c.chunkIndex ∧
        d.failure = c.failure ∧ d.failedAt = c.failedAt
    | .cancelled s, .cancelled p => p.id = s.id ∧ p.chunksTotal = s.chunksTotal ∧ p.chunksDone = s.chunksDone ∧
        p.cancelledAt = s.cancelledAt ∧ p.metadata = s.metadata ∧ p.strategic = s.strategic
    | _, _ => False := by
  cases st <;> simp [PyStatus.ofRust, PyFailed.ofRust, PyChunkFailed.ofRust, PyCompleted.ofRust, PyCancelled.ofRust]

/-- Two statuses that differ in the failure text differ in Python; two that differ only in the prefix do not. -/
example :
    let f (p : Option String) (text : String) : SubmissionStatus := .failed
      { id := 1, pfx := p, chunksTotal := 2, chunksDone := some 1, chunkSize := 1, metadata := none, strategic := []
        failedAt := 3, failedChunkId := 0, otel := "" }
      { submissionId := 1, chunkIndex := 0, inputContent := none, failure := text, failedAt := 3 }
    PyStatus.ofRust (f none "a") ≠ PyStatus.ofRust (f none "b") ∧
      PyStatus.ofRust (f none "a") = PyStatus.ofRust (f (some "p") "a") := by decide +kernel

/-! ## C49: waiting -/

/-- **C49, results.** If the submission is in progress in the first `n` answers and then completed, waiting pauses `n`
times and returns the iterator over the results: as many as the submission has chunks, from its prefix. -/
theorem C49_wait_returns_results (answers : Nat → Answer) (n : Nat) (s : SubmissionCompleted)
    (hrun : ∀ i, i < n → StillRunning (answers i)) (hend : answers n = .ok (some (.completed s)))
    (fuel : Nat) (hfuel : n < fuel) :
    (waitCompleted answers fuel).2 = some (.stream (s.pfx.getD "") s.chunksTotal) ∧
      (waitCompleted answers fuel).1.length = n := by
  refine waitLoop_ends answers _ n 0 10 fuel (fun j hj => ?_) ?_ hfuel
  · obtain ⟨s, hs⟩ := hrun j hj
    rw [Nat.zero_add, hs]; rfl
  · rw [Nat.zero_add, hend]; rfl

/-- **C49, failure.** If it is failed instead, waiting raises, with the failed submission and chunk. -/
theorem C49_wait_raises_on_failure (answers : Nat → Answer) (n : Nat) (s : SubmissionFailed) (c : ChunkFailed)
    (hrun : ∀ i, i < n → StillRunning (answers i)) (hend : answers n = .ok (some (.failed s c)))
    (fuel : Nat) (hfuel : n < fuel) :
    (waitCompleted answers fuel).2 = some (.failed (PyFailed.ofRust s) (PyChunkFailed.ofRust c)) ∧
      (waitCompleted answers fuel).1.length = n := by
  refine waitLoop_ends answers _ n 0 10 fuel (fun j hj => ?_) ?_ hfuel
  · obtain ⟨s, hs⟩ := hrun j hj
    rw [Nat.zero_add, hs]; rfl
  · rw [Nat.zero_add, hend]; rfl

/-- **C49, pauses.** Whatever the answers: every pause is at most 5 seconds (and at least 10 ms), and no pause is
shorter than an earlier one. -/
theorem C49_pauses (answers : Nat → Answer) (fuel : Nat) :
    (∀ p ∈ (waitCompleted answers fuel).1, 10 ≤ p ∧ p ≤ 5000) ∧
      (waitCompleted answers fuel).1.Pairwise (· ≤ ·) :=
  waitLoop_pauses answers fuel 0 10 (by decide)

/-- **C49, pauses.** They double from 10 ms on until they are 5 seconds. -/
theorem C49_pauses_double (answers : Nat → Answer) (fuel k : Nat) (h : k < (waitCompleted answers fuel).1.length) :
    (waitCompleted answers fuel).1[k]? = some (min (10 * 2 ^ k) 5000) :=
  waitLoop_doubling answers fuel 0 10 k (by decide) h

/-- Eleven rounds of waiting, then the results. -/
example :
    let sub : Submission := { id := 1, pfx := some "p", chunksTotal := 3, chunksDone := 0, chunkSize := 1
                              metadata := none, strategic := [], otel := "" }
    let answers : Nat → Answer := fun i => if i < 11 then .ok (some (.inProgress sub))
      else .ok (some (.completed { id := 1, pfx := some "p", chunksTotal := 3, chunkSize := 1, metadata := none
                                   strategic := [], completedAt := 7, otel := "" }))
    (∀ i, i < 11 → StillRunning (answers i)) ∧
    waitCompleted answers 20 =
      ([10, 20, 40, 80, 160, 320, 640, 1280, 2560, 5000, 5000], some (.stream "p" 3)) := by
  refine ⟨fun i hi => ⟨_, if_pos hi⟩, ?_⟩
  decide +kernel

/-- **C49, in full**: if from some moment on the answers say that the submission is over, waiting ends. -/
def C49_full : Prop :=
  ∀ (answers : Nat → Answer) (n : Nat), (∀ i, n ≤ i → ∃ st, answers i = .ok (some st) ∧ st.Terminal) →
    ∃ fuel, (waitCompleted answers fuel).2 ≠ none

/-- **C49 is refuted for cancelled submissions**: once a submission is cancelled, waiting for it never ends. This holds
for every history `ops` in which it is cancelled and all answers given by the server later on (also after the cleanup
removed it). -/
theorem C49_refuted_for_cancelled (ops : List Op) (id : SubmissionId) (s : SubmissionCancelled)
    (h : statusAt (run ops) id = .ok (some (.cancelled s)))
    (later : Nat → List Op) (hf : ∀ i, FreshIds (ops ++ later i))
    (answers : Nat → Answer)
    (hans : ∀ i, ∃ st, statusAt (run (ops ++ later i)) id = .ok st ∧ answers i = .ok st) (fuel : Nat) :
    (waitCompleted answers fuel).2 = none := by
  refine waitLoop_never answers fuel 0 10 (fun j _ => ?_)
  obtain ⟨st, h1, h2⟩ := hans j
  rw [h2]
  rcases C03_terminal_final ops (later j) (hf j) id (.cancelled s) trivial h with h' | ⟨_, h'⟩ | ⟨_, ⟨_, _, e, _⟩, _⟩
  · rw [h1] at h'; cases h'; rfl
  · rw [h1] at h'; cases h'; rfl
  · cases e

/-- A submission is cancelled while its producer waits for it, and later cleaned up. -/
def cancelledHistory : List Op :=
  [.insert { id := 7, contents := [some [1], some [2]] } 10 [], .complete ⟨7, 0⟩ (some [9]) 11 12 [], .cancel 7 13 14 []]

example : (statusAt (run cancelledHistory) 7 matches .ok (some (.cancelled _))) = true ∧
    statusAt (run (cancelledHistory ++ [.cleanup 100 []])) 7 = .ok none ∧
    FreshIds (cancelledHistory ++ [.cleanup 100 []]) := by decide +kernel

theorem C49_refuted : ¬ C49_full := by
  intro h
  obtain ⟨fuel, hne⟩ := h (fun _ => .ok (some (.cancelled { id := 7, pfx := none, chunksTotal := 2, chunksDone := 1
                                                            metadata := none, strategic := [], cancelledAt := 13 })))
    0 (fun _ _ => ⟨_, rfl, trivial⟩)
  exact hne (waitLoop_never _ _ _ _ (fun _ _ => rfl))

/-- **C49 is also refuted for unknown submissions**: waiting for an id that the server does not know never ends. -/
theorem C49_refuted_for_unknown (fuel : Nat) : (waitCompleted (fun _ => .ok none) fuel).2 = none :=
  waitLoop_never _ _ _ _ (fun _ _ => rfl)

/-- **C49**, without cancelled and unknown submissions: if the submission is at some time completed or failed, waiting
ends by then, whatever the answers before.

What is missing: `C49_full` asks the same of cancelled submissions, see `C49_refuted_for_cancelled`. -/
theorem C49_wait_ends_partial (answers : Nat → Answer) (n : Nat)
    (h : (∃ s, answers n = .ok (some (.completed s))) ∨ (∃ s c, answers n = .ok (some (.failed s c)))) (fuel : Nat)
    (hfuel : n < fuel) : (waitCompleted answers fuel).2 ≠ none := by
  have hn : maybeStream (answers n) ≠ none := by
    rcases h with ⟨s, h⟩ | ⟨s, c, h⟩ <;> rw [h] <;> simp [maybeStream]
  -- the first answer that ends the wait
  have key : ∀ m, maybeStream (answers m) ≠ none →
      ∃ k, k ≤ m ∧ maybeStream (answers k) ≠ none ∧ ∀ j, j < k → maybeStream (answers j) = none := by
    intro m
    induction m using Nat.strongRecOn with
    | _ m ih =>
      intro hm
      by_cases hall : ∀ j, j < m → maybeStream (answers j) = none
      · exact ⟨m, Nat.le_refl m, hm, hall⟩
      · simp only [Classical.not_forall] at hall
        obtain ⟨j, hj, hne⟩ := hall
        obtain ⟨k, h1, h2, h3⟩ := ih j hj hne
        exact ⟨k, by omega, h2, h3⟩
  obtain ⟨k, hk, hne, hall⟩ := key n hn
  obtain ⟨w, hw⟩ := Option.ne_none_iff_exists'.1 hne
  have := (waitLoop_ends answers w k 0 10 fuel (fun j hj => by rw [Nat.zero_add]; exact hall j hj)
    (by rw [Nat.zero_add]; exact hw) (by omega)).1
  unfold waitCompleted
  rw [this]
  simp

/-- Unknown at first, then failed. -/
example :
    let answers : Nat → Answer := fun i => if i < 3 then .ok none else .ok (some exampleFailedStatus)
    (∃ s c, answers 3 = .ok (some (.failed s c))) ∧ (waitCompleted answers 4).1 = [10, 20, 40] ∧
      (waitCompleted answers 4).2 ≠ none := by
  refine ⟨⟨_, _, rfl⟩, ?_⟩
  decide +kernel

/-! ## C54: the progress count -/

/-- **C54, in full**: after every 50 chunks the loop logs how many chunks it has processed. -/
def C54_full : Prop :=
  ∀ es : List Surroundings, AllWell es →
    (runPerChunk es).trace.logged = (List.range (es.length + 1)).filter fun n => n ≠ 0 ∧ n % 50 = 0

/-- The counter of the loop doubles with every chunk: after `n` chunks it is 2^n - 1 (until it saturates). -/
theorem C54_refuted_counter_doubles (es : List Surroundings) (hw : AllWell es) :
    (runPerChunk es).done = min (2 ^ es.length - 1) usizeMax := by
  have h1 : OneAtATime es := fun e he cs hcs => by
    obtain ⟨c, hc, _⟩ := hw e he
    rw [hc] at hcs; cases hcs; exact ⟨c, rfl⟩
  obtain ⟨⟨k, hk, hd, hp⟩, _⟩ := doubling_run es h1 {} ⟨⟨0, by decide, rfl, .inl rfl⟩, rfl⟩
  have hpr := (processed_run es hw {} rfl).1
  simp only [Nat.zero_add] at hpr
  unfold runPerChunk
  rw [hd]
  rw [hpr] at hp
  rcases hp with rfl | ⟨rfl, hle⟩
  · have : 2 ^ es.length ≤ 2 ^ 64 := Nat.pow_le_pow_right (by decide) hk
    unfold usizeMax
    omega
  · have : 2 ^ 64 ≤ 2 ^ es.length := Nat.pow_le_pow_right (by decide) hle
    unfold usizeMax
    omega

/-- Whatever happens, the loop never logs any progress: the counter is never a multiple of 50. -/
theorem C54_refuted_never_logs (es : List Surroundings) (h1 : OneAtATime es) : (runPerChunk es).trace.logged = [] :=
  (doubling_run es h1 {} ⟨⟨0, by decide, rfl, .inl rfl⟩, rfl⟩).2

/-- A round in which a chunk is processed. -/
def goodRound : Surroundings :=
  { reserved := .ok [{ submissionId := 1, chunkIndex := 0, inputContent := [], retries := 0, submissionPrefix := none }]
    call := fun _ => .returned [], reported := fun _ => .ok () }

theorem goodRounds (n : Nat) : AllWell (List.replicate n goodRound) := by
  intro e he
  rw [List.eq_of_mem_replicate he]
  exact ⟨_, rfl, rfl, rfl⟩

example : (runPerChunk (List.replicate 7 goodRound)).done = 127 ∧
    (runPerChunk (List.replicate 7 goodRound)).trace.processed = 7 := by decide +kernel

theorem C54_refuted : ¬ C54_full := by
  intro h
  have := h (List.replicate 50 goodRound) (goodRounds 50)
  revert this
  decide +kernel

/-- **C54**, what remains: the count is exact for the first chunk, and never too low.

What is missing: `C54_full`, see `C54_refuted_counter_doubles`. -/
theorem C54_progress_partial (es : List Surroundings) (hw : AllWell es) (hlen : es.length < 2 ^ 64) :
    (runPerChunk es).trace.processed = es.length ∧ es.length ≤ (runPerChunk es).done ∧
      (es.length ≤ 1 → (runPerChunk es).done = es.length) := by
  have hpr := (processed_run es hw {} rfl).1
  simp only [Nat.zero_add] at hpr
  rw [C54_refuted_counter_doubles es hw]
  refine ⟨hpr, ?_, ?_⟩
  · have : es.length < 2 ^ es.length := Nat.lt_two_pow_self
    unfold usizeMax
    omega
  · intro h
    have : es.length = 0 ∨ es.length = 1 := by omega
    rcases this with e | e <;> rw [e] <;> decide +kernel

/-! ## C59: the consumer's reports -/

/-- **C59.** The consumer makes exactly the reports that are due, in order: for every chunk given to the callback one
report, complete with the returned bytes or fail with the text of the exception, until an exception that is not an
`Exception`, a `SystemError` or an interrupt ends it. Other exceptions and errors do not end it. -/
theorem C59_reports_as_due (es : List Surroundings) (h1 : OneAtATime es) :
    (runPerChunk es).trace.sent = dueReports es := by
  have key : ∀ (es : List Surroundings) (r : Running), OneAtATime es →
      (es.foldl round r).trace.sent = r.trace.sent ++ if r.closed.isSome then [] else dueReports es := by
    intro es
    induction es with
    | nil => intro r _; simp [dueReports]
    | cons e es ih =>
      intro r h1
      have hrest : OneAtATime es := fun x hx => h1 x (List.mem_cons_of_mem _ hx)
      rw [List.foldl_cons, ih _ hrest, dueReports]
      rcases round_cases r e (h1 e (by simp)) with ⟨hc, e1⟩ | ⟨hc, x, hr, e1⟩ | ⟨hc, hr, e1⟩ |
          ⟨c, hc, hr, ⟨he, hrep, e1⟩ | ⟨hrep, e1⟩ | ⟨x, hrep | ⟨hrep, he⟩, e1⟩⟩
      · simp [e1, hc]
      · simp [e1, hc, hr]
      · simp [e1, hc, hr]
      · simp [e1, hc, hr, he, hrep]
      · simp [e1, hc, hr, hrep]
      · simp [e1, hc, hr, hrep]
      · simp [e1, hc, hr, hrep, endsConsumer_iff, he]
  have := key es {} h1
  simpa [runPerChunk] using this

/-- Chunk 0 raises an ordinary exception, chunk 1 cannot be reported, then a connection error, chunk 2 works, and at
chunk 3 the user presses Ctrl-C. -/
def exampleRounds : List Surroundings :=
  let c (i : Nat) : PyChunk :=
    { submissionId := 1, chunkIndex := i, inputContent := [], retries := 0, submissionPrefix := none }
  [{ reserved := .ok [c 0], call := fun _ => .raised ⟨.user "BadInput" .exception, .object 0⟩ "bad", reported := fun _ => .ok () },
   { reserved := .ok [c 1], call := fun _ => .returned [1], reported := fun _ => .error .rust },
   { reserved := .error .rust, call := fun _ => .returned [], reported := fun _ => .ok () },
   { reserved := .ok [c 2], call := fun _ => .returned [2], reported := fun _ => .ok () },
   { reserved := .ok [c 3], call := fun _ => .raised ⟨.keyboardInterrupt, .object 1⟩ "KeyboardInterrupt", reported := fun _ => .ok () },
   { reserved := .ok [c 4], call := fun _ => .returned [4], reported := fun _ => .ok () }]

example : OneAtATime exampleRounds := by
  intro e he cs hcs
  simp only [exampleRounds, List.mem_cons, List.not_mem_nil, or_false] at he
  rcases he with rfl | rfl | rfl | rfl | rfl | rfl <;> simp at hcs <;> exact ⟨_, hcs.symm⟩

example : (runPerChunk exampleRounds).trace.sent.length = 4 ∧ 
    (runPerChunk exampleRounds).closed = some ⟨.keyboardInterrupt, .object 1⟩ := by
  decide +kernel

/-! ## C60: no reserved chunk is forgotten -/

/-- **C60, in full**: whatever happens with the object store and in the callback, for a chunk that was reserved the
consumer sends the server a report on this chunk. -/
def C60_full : Prop :=
  ∀ (base : List Char) (store : ObjectStore.Store) (reachable : Bool) (put : ObjectStore.PutResult)
    (call : PyChunk → Called) (c : ChunkRow) (s : Submission), (c.inputContent ≠ none ∨ s.pfx ≠ none) →
    ∃ r, dealWith base store reachable put call c s = some r ∧
      ((∃ out, r = .complete c.key out) ∨ ∃ text, r = .fail c.key text)

/-- **C60 is refuted by a failed retrieval**: if the input of a chunk cannot be read from the object store, the
consumer neither completes nor fails it; it just goes on, and the chunk stays reserved. -/
theorem C60_refuted_by_retrieval (base : List Char) (store : ObjectStore.Store) (put : ObjectStore.PutResult)
    (call : PyChunk → Called) (c : ChunkRow) (s : Submission) (hc : c.inputContent = none) :
    dealWith base store false put call c s = none := by
  unfold dealWith retrieveAll fromInternal
  rw [hc]
  cases s.pfx <;> rfl

/-- **C60 is refuted by a failed upload**: if the output cannot be stored, there is no report either. -/
theorem C60_refuted_by_upload (base : List Char) (store : ObjectStore.Store) (stored : Bool) (call : PyChunk → Called)
    (c : ChunkRow) (s : Submission) (hc : c.inputContent = none) (hret : ∀ x, ∃ out, call x = .returned out) :
    dealWith base store true (.failed stored) call c s = none := by
  unfold dealWith retrieveAll fromInternal
  rw [hc]
  cases hp : s.pfx with
  | none => rfl
  | some p =>
    simp only [if_true]
    cases hr : ObjectStore.retrieveChunk base store p c.chunkIndex .input with
    | error e => simp
    | ok b =>
      simp only [retrieveAll]
      obtain ⟨out, ho⟩ := hret { submissionId := c.submissionId, chunkIndex := c.chunkIndex, inputContent := b
                                 retries := c.retries, submissionPrefix := some p }
      rw [ho]
      cases stored <;> rfl

theorem C60_refuted : ¬ C60_full := by
  intro h
  obtain ⟨r, hr, _⟩ := h [] [] false .ok (fun _ => .returned []) ⟨1, 0, none, 0⟩
    { id := 1, pfx := some "p", chunksTotal := 1, chunksDone := 0, chunkSize := 1, metadata := none, strategic := []
      otel := "" } (.inr (by simp))
  rw [C60_refuted_by_retrieval _ _ _ _ _ _ rfl] at hr
  cases hr

/-- **C60**, if the object store works: the input is there and can be read and the output can be stored (or the content
is in the database). Then the consumer sends one report on the chunk: complete if the callback returned, fail with
the exception's text if it raised.

What is missing: `C60_full`, see the two refutations. -/
theorem C60_reported_partial (base : List Char) (store : ObjectStore.Store) (call : PyChunk → Called) (c : ChunkRow)
    (s : Submission) (p : String) (b : Bytes)
    (hstore : c.inputContent ≠ none ∨
      (s.pfx = some p ∧ ObjectStore.retrieveChunk base store p c.chunkIndex .input = .ok b)) :
    ∃ chunk : PyChunk, chunk.id = c.key ∧ chunk.inputContent = c.inputContent.getD b ∧
      ((∃ out, call chunk = .returned out ∧ dealWith base store true .ok call c s =
          some (.complete c.key (if c.inputContent.isSome then some out else none))) ∨
       (∃ x text, call chunk = .raised x text ∧
          dealWith base store true .ok call c s = some (.fail c.key text))) := by
  cases hc : c.inputContent with
  | some bytes =>
    let chunk : PyChunk := { submissionId := c.submissionId, chunkIndex := c.chunkIndex, inputContent := bytes
                             retries := c.retries, submissionPrefix := none }
    refine ⟨chunk, rfl, rfl, ?_⟩
    have hd : dealWith base store true .ok call c s = match call chunk with
        | .returned output => (completeChunk base store .ok chunk output).1
        | .raised _ text => some (.fail chunk.id text) := by
      unfold dealWith retrieveAll fromInternal
      rw [hc]
      rfl
    rw [hd]
    cases hcall : call chunk with
    | returned out => exact .inl ⟨out, rfl, rfl⟩
    | raised kind text => exact .inr ⟨kind, text, rfl, rfl⟩
  | none =>
    obtain ⟨hp, hr⟩ := hstore.resolve_left (by simp [hc])
    let chunk : PyChunk := { submissionId := c.submissionId, chunkIndex := c.chunkIndex, inputContent := b
                             retries := c.retries, submissionPrefix := some p }
    refine ⟨chunk, rfl, rfl, ?_⟩
    have hd : dealWith base store true .ok call c s = match call chunk with
        | .returned output => (completeChunk base store .ok chunk output).1
        | .raised _ text => some (.fail chunk.id text) := by
      unfold dealWith retrieveAll fromInternal
      rw [hc]
      simp only [hp, hr]
      rfl
    rw [hd]
    cases hcall : call chunk with
    | returned out => exact .inl ⟨out, rfl, rfl⟩
    | raised kind text => exact .inr ⟨kind, text, rfl, rfl⟩

/-- A chunk with its content in the object store, dealt with successfully. -/
example :
    let s : Submission := { id := 1, pfx := some "p", chunksTotal := 1, chunksDone := 0, chunkSize := 1
                            metadata := none, strategic := [], otel := "" }
    let store := ObjectStore.write [] [] ⟨"p", 0, .input, [5]⟩
    ObjectStore.retrieveChunk [] store "p" 0 .input = .ok [5] ∧
      dealWith [] store true .ok (fun c => .returned (c.inputContent ++ [1])) ⟨1, 0, none, 0⟩ s =
        some (.complete ⟨1, 0⟩ none) := by decide +kernel

/-- **C60, several chunks at once**: with a limit above 1 (`reserve_chunks`), one chunk that cannot be retrieved makes
the whole call fail, so that the caller does not learn of the other chunks reserved with it. -/
theorem C60_refuted_for_batches (base : List Char) (store : ObjectStore.Store) (reachable : ChunkId → Bool)
    (l : List (ChunkRow × Submission)) (c : ChunkRow) (s : Submission) (hm : (c, s) ∈ l) (hc : c.inputContent = none)
    (hr : reachable c.key = false) : ∃ e, retrieveAll base store reachable l = .error e := by
  induction l with
  | nil => cases hm
  | cons x l ih =>
    obtain ⟨c', s'⟩ := x
    rw [retrieveAll]
    cases hf : fromInternal base store (reachable c'.key) c' s' with
    | error e => exact ⟨e, rfl⟩
    | ok chunk =>
      rcases List.mem_cons.1 hm with e | hm
      · cases e
        unfold fromInternal at hf
        rw [hc, hr] at hf
        cases hp : s.pfx <;> simp [hp] at hf
      · obtain ⟨e, he⟩ := ih hm
        exact ⟨e, by simp [he]⟩

example :
    let s : Submission := { id := 1, pfx := some "p", chunksTotal := 2, chunksDone := 0, chunkSize := 1
                            metadata := none, strategic := [], otel := "" }
    retrieveAll [] (ObjectStore.write [] [] ⟨"p", 0, .input, [5]⟩) (fun id => id.chunkIndex = 0)
      [(⟨1, 0, none, 0⟩, s), (⟨1, 1, none, 0⟩, s)] = .error .retrieval := by decide +kernel

end Opsqueue.Python
