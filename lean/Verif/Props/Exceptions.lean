import Verif.Proofs.Exceptions
import Verif.Props.Http
import Verif.Props.Endpoints
import Verif.Props.Python

/-!
# C76: the exceptions of the Python clients
-/

namespace Opsqueue.Python
open Http (Attempt Call Result ClientErr)

/-! ## What became of a submission -/

/-- **C76, cancelling.** A cancel that gets through to the server returns if the submission was in progress. If the
submission is over already, it raises `SubmissionNotCancellableError`, which carries the status that
`get_submission_status` shows. If there is none, it raises `SubmissionNotFoundError` with the id. -/
theorem C76_cancel_tells (max : Nat) (id : SubmissionId) (hid : id < 2 ^ 63) (env : Nat → Attempt) (hist : List Op)
    (hs : (env 0).Smooth) (hf : FreshIds (hist ++ (env 0).before)) :
    let db := run (hist ++ (env 0).before)
    let r := producerCall none (Http.call max (.cancel id) env hist).1
    (∀ s, statusAt db id = .ok (some (.inProgress s)) → r = .ok .cancelled) ∧
    (∀ st, statusAt db id = .ok (some st) → (∀ s, st ≠ .inProgress s) →
      ∃ e p, r = .error e ∧ e.cls = .submissionNotCancellable ∧ Carries e p ∧
        getStatus none (.ok (some st)) = .ok (some p)) ∧
    (statusAt db id = .ok none → r = .error ⟨.submissionNotFound, .submissionId id⟩) := by
  intro db r
  obtain ⟨h1, h2, h3, h4, h5⟩ := Http.C42_cancel_call max id hid env hist hs hf
  refine ⟨?_, ?_, ?_⟩
  · intro s h
    show producerCall none _ = _
    rw [(h1 s h).1]
    rfl
  · intro st h hn
    show ∃ e p, producerCall none _ = _ ∧ _
    cases st with
    | inProgress s => exact absurd rfl (hn s)
    | completed s =>
      rw [(h2 s h).1]
      exact ⟨_, PyStatus.ofRust (.completed s), rfl, rfl, rfl, rfl⟩
    | failed s c =>
      rw [(h3 s c h).1]
      exact ⟨_, PyStatus.ofRust (.failed s c), rfl, rfl, rfl, rfl⟩
    | cancelled s =>
      rw [(h4 s h).1]
      exact ⟨_, PyStatus.ofRust (.cancelled s), rfl, rfl, rfl, rfl⟩
  · intro h
    show producerCall none _ = _
    rw [(h5 h).1]
    rfl

/-- One submission is cancelled just before; cancelling it again tells so, cancelling the other one works, and an
unknown one is not found. -/
example :
    let env : Nat → Attempt := fun _ => { before := [.cancel 2 7 8 []], server := { now1 := 9, now2 := 10 } }
    FreshIds (Http.httpHistory ++ (env 0).before) ∧
    producerCall none (Http.call 10 (.cancel 1) env Http.httpHistory).1 = .ok .cancelled ∧
    producerCall none (Http.call 10 (.cancel 2) env Http.httpHistory).1 =
      .error ⟨.submissionNotCancellable, .notCancellable (.cancelled
        { id := 2, chunksTotal := 1, chunksDone := 0, metadata := some [0, 255], strategic := [("a", 1)],
          cancelledAt := 7 }) none⟩ ∧
    producerCall none (Http.call 10 (.cancel 3) env Http.httpHistory).1 =
      .error ⟨.submissionNotFound, .submissionId 3⟩ := by
  decide +kernel

/-- **C76, looking up.** A lookup that gets through and matches more submissions than the server's limit raises
`TooManyMatchingSubmissionsError` with the limit; otherwise it returns exactly the matching ids. -/
theorem C76_lookup_tells (max : Nat) (m : StrategicMetadata) (hmap : (m.map (·.1)).Nodup) (env : Nat → Attempt)
    (hist : List Op) (hs : (env 0).Smooth) (hf : FreshIds (hist ++ (env 0).before)) :
    let db := run (hist ++ (env 0).before)
    let r := producerCall none (Http.call max (.lookup m) env hist).1
    ∃ n, CountIs (Matches db m) n ∧
      ((n ≤ max ∧ ∃ ids, r = .ok (.ids ids) ∧ ∀ id, id ∈ ids ↔ Matches db m id) ∨
       (max < n ∧ r = .error ⟨.tooManyMatchingSubmissions, .maxSubmissions max⟩)) := by
  intro db r
  obtain ⟨_, n, hn, h⟩ := Http.C42_lookup_call max m hmap env hist hs hf
  refine ⟨n, hn, ?_⟩
  rcases h with ⟨h1, ids, h2, _, h4⟩ | ⟨h1, h2⟩
  · refine .inl ⟨h1, ids, ?_, h4⟩
    show producerCall none _ = _
    rw [h2]
    rfl
  · refine .inr ⟨h1, ?_⟩
    show producerCall none _ = _
    rw [h2]
    rfl

/-- Two submissions match. -/
example :
    let r := fun max => producerCall none (Http.call max (.lookup [("a", 1)]) (fun _ => {}) Http.httpHistory).1
    r 0 = .error ⟨.tooManyMatchingSubmissions, .maxSubmissions 0⟩ ∧ (r 10 matches .ok (.ids (_ :: _))) := by
  decide +kernel

/-- The answer of the server does not end a wait: there is no such submission, or it is in progress or cancelled. -/
def NotOver (a : Except ClientErr (Option SubmissionStatus)) : Prop :=
  ∃ st, a = .ok st ∧ (∀ s, st ≠ some (.completed s)) ∧ ∀ s c, st ≠ some (.failed s c)

/-- **C76, results.** Asking for the results of a submission gives them if it is completed; raises
`SubmissionFailedError` with the submission and the chunk as the status shows them if it failed;
`SubmissionNotCompletedYetError` with its id in all other cases the server tells; and an internal error if there was
no usable answer. -/
theorem C76_try_stream_tells (id : SubmissionId) (a : Except ClientErr (Option SubmissionStatus)) :
    (∀ s, a = .ok (some (.completed s)) → tryStreamPy none id a = .ok (s.pfx.getD "", s.chunksTotal)) ∧
    (∀ s c, a = .ok (some (.failed s c)) → ∃ ps pc, getStatus none a = .ok (some (.failed ps pc)) ∧
      tryStreamPy none id a = .error ⟨.submissionFailed, .failed ps pc⟩) ∧
    (NotOver a → ∃ text, tryStreamPy none id a = .error ⟨.submissionNotCompletedYet, .notCompleted text id⟩) ∧
    (∀ e, a = .error e → ¬ Http.Explained e → ∃ x, tryStreamPy none id a = .error x ∧ OfKind x .internal) := by
  refine ⟨?_, ?_, ?_, ?_⟩
  · rintro s rfl
    rfl
  · rintro s c rfl
    exact ⟨_, _, rfl, rfl⟩
  · rintro ⟨st, rfl, h1, h2⟩
    cases st with
    | none => exact ⟨_, rfl⟩
    | some st =>
      cases st with
      | inProgress s => exact ⟨_, rfl⟩
      | completed s => exact absurd rfl (h1 s)
      | failed s c => exact absurd rfl (h2 s c)
      | cancelled s => exact ⟨_, rfl⟩
  · rintro e rfl he
    cases e with
    | notFound e => exact absurd trivial he
    | notCancellable e => exact absurd trivial he
    | tooMany e => exact absurd trivial he
    | _ => exact ⟨_, rfl, rfl⟩

/-- **C76, waiting for results** returns or raises what asking for them would have at the first answer that is not
"not over", and only then. -/
theorem C76_wait_tells (id : SubmissionId) (answers : Nat → Except ClientErr (Option SubmissionStatus)) (fuel : Nat)
    (r : Except Exn (String × Nat)) :
    waitPy none answers fuel = some r ↔
      ∃ n < fuel, (∀ i < n, NotOver (answers i)) ∧ ¬ NotOver (answers n) ∧ r = tryStreamPy none id (answers n) := by
  have key : ∀ (fuel j : Nat), (waitOrErr answers fuel j).map raising = some r ↔
      ∃ n < fuel, (∀ i < n, NotOver (answers (j + i))) ∧ ¬ NotOver (answers (j + n)) ∧
        r = tryStreamPy none id (answers (j + n)) := by
    intro fuel
    induction fuel with
    | zero => intro j; simp [waitOrErr]
    | succ fuel ih =>
      intro j
      have next : NotOver (answers j) → (waitOrErr answers (fuel + 1) j = waitOrErr answers fuel (j + 1)) := by
        rintro ⟨st, h, h1, h2⟩
        rw [waitOrErr, h]
        cases st with
        | none => rfl
        | some st =>
          cases st with
          | inProgress s => rfl
          | completed s => exact absurd rfl (h1 s)
          | failed s c => exact absurd rfl (h2 s c)
          | cancelled s => rfl
      have stop : ¬ NotOver (answers j) →
          ((waitOrErr answers (fuel + 1) j).map raising = some (tryStreamPy none id (answers j))) := by
        intro h
        rw [waitOrErr]
        cases ha : answers j with
        | error e => rfl
        | ok st =>
          cases st with
          | none => exact absurd ⟨_, ha, by simp, by simp⟩ h
          | some st =>
            cases st with
            | inProgress s => exact absurd ⟨_, ha, by simp, by simp⟩ h
            | completed s => rfl
            | failed s c => rfl
            | cancelled s => exact absurd ⟨_, ha, by simp, by simp⟩ h
      by_cases hn : NotOver (answers j)
      · rw [next hn, ih]
        constructor
        · rintro ⟨n, h1, h2, h3, h4⟩
          refine ⟨n + 1, by omega, ?_, ?_, ?_⟩
          · intro i hi
            cases i with
            | zero => exact hn
            | succ i =>
              have := h2 i (by omega)
              rwa [show j + 1 + i = j + (i + 1) by omega] at this
          · rwa [show j + 1 + n = j + (n + 1) by omega] at h3
          · rwa [show j + 1 + n = j + (n + 1) by omega] at h4
        · rintro ⟨n, h1, h2, h3, h4⟩
          cases n with
          | zero => exact absurd hn h3
          | succ n =>
            refine ⟨n, by omega, ?_, ?_, ?_⟩
            · intro i hi
              have := h2 (i + 1) (by omega)
              rwa [show j + (i + 1) = j + 1 + i by omega] at this
            · rwa [show j + (n + 1) = j + 1 + n by omega] at h3
            · rwa [show j + (n + 1) = j + 1 + n by omega] at h4
      · rw [stop hn]
        constructor
        · intro h
          injection h with h
          exact ⟨0, by omega, by simp, hn, h.symm⟩
        · rintro ⟨n, h1, h2, h3, h4⟩
          cases n with
          | zero => rw [h4]; rfl
          | succ n => exact absurd (h2 0 (by omega)) hn
  have := key fuel 0
  simpa [waitPy] using this

/-- Two rounds of waiting, then the submission has failed. -/
example :
    let s : SubmissionFailed :=
      { id := 4, pfx := some "p", chunksTotal := 3, chunksDone := some 1, chunkSize := 5
        metadata := none, strategic := [], failedAt := 8, failedChunkId := 2, otel := "{}" }
    let c : ChunkFailed := { submissionId := 4, chunkIndex := 2, inputContent := none, failure := "boom", failedAt := 7 }
    let answers : Nat → Except ClientErr (Option SubmissionStatus) :=
      fun i => if i < 2 then .ok none else .ok (some (.failed s c))
    waitPy none answers 2 = none ∧
    waitPy none answers 3 = some (.error ⟨.submissionFailed, .failed
      { id := 4, chunksTotal := 3, chunksDone := some 1, metadata := none, strategic := [], failedAt := 8,
        failedChunkId := 2 } { submissionId := 4, chunkIndex := 2, failure := "boom", failedAt := 7 }⟩) := by
  decide +kernel

/-! ## Kinds of exceptions -/

theorem mro_eq (c : Cls) : c.mro = c :: (match c.base with | none => [] | some d => d.mro) := by
  cases c <;> rfl

theorem mem_mro (c d : Cls) : d ∈ c.mro ↔ Subclass c d := by
  constructor
  · intro h
    induction hn : c.mro.length generalizing c with
    | zero => rw [List.eq_nil_of_length_eq_zero hn] at h; cases h
    | succ n ih =>
      rw [mro_eq] at h hn
      cases hb : c.base with
      | none =>
        rw [hb] at h
        simp at h
        exact h ▸ .refl c
      | some e =>
        rw [hb] at h hn
        simp only [List.mem_cons, List.length_cons, Nat.add_right_cancel_iff] at h hn
        rcases h with h | h
        · exact h ▸ .refl c
        · exact .base hb (ih e h hn)
  · intro h
    induction h with
    | refl c => rw [mro_eq]; exact List.mem_cons_self
    | base hb _ ih => rw [mro_eq, hb]; exact List.mem_cons_of_mem _ ih

/-- **C76, what an `except` clause catches:** the exceptions of the named class and of the classes derived from it. -/
theorem C76_classes (x : Exn) (c : Cls) : x.isA c = true ↔ Subclass x.cls c := by
  rw [← mem_mro]
  simp [Exn.isA]

example : Subclass (.user "MyError" .tryFromInt) .typeError ∧
    (⟨.user "MyError" .tryFromInt, .message "m"⟩ : Exn).isA .opsqueueInternal = false :=
  ⟨.base rfl (.base rfl (.base rfl (.refl _))), by decide⟩

/-- **C76, numbers.** Where an identifier or a number of chunks is asked for: numbers that fit are taken as they are. A number
that no identifier can have is refused as incorrect usage, and one that no `u64` can hold by Python itself. -/
theorem C76_numbers (n : Int) :
    (∀ m, newId n = .ok m ↔ n = (m : Int) ∧ m < 2 ^ 63) ∧
    ((2 : Int) ^ 63 ≤ n → n < 2 ^ 64 → ∃ x, newId n = .error x ∧ x.cls = .tryFromInt ∧ OfKind x .usage) ∧
    ((n < 0 ∨ (2 : Int) ^ 64 ≤ n) → (∃ x, newId n = .error x ∧ x.cls = .overflowError) ∧
      ∀ s rounds, ∃ x, reserveChunks n s rounds = some (.error x) ∧ x.cls = .overflowError) := by
  refine ⟨fun m => ?_, fun h1 h2 => ?_, fun h => ?_⟩
  · unfold newId extractUnsigned
    by_cases h : n < 0 ∨ (2 : Int) ^ 64 ≤ n
    · rw [if_pos h]
      constructor
      · intro h'; cases h'
      · rintro ⟨h1, h2⟩; omega
    · rw [if_neg h]
      dsimp only
      by_cases hn : n.toNat < 2 ^ 63
      · rw [if_pos hn]
        simp only [raising]
        constructor
        · intro h'; injection h' with h'; omega
        · rintro ⟨h1, h2⟩; subst h1; rfl
      · rw [if_neg hn]
        constructor
        · intro h'; cases h'
        · rintro ⟨h1, h2⟩; omega
  · unfold newId extractUnsigned
    rw [if_neg (by omega)]
    dsimp only
    rw [if_neg (by omega)]
    exact ⟨_, rfl, rfl, by simp only [OfKind, toPy]; decide⟩
  · unfold newId reserveChunks extractUnsigned
    rw [if_pos h]
    exact ⟨⟨_, rfl, rfl⟩, fun s rounds => ⟨_, rfl, rfl⟩⟩

/-- **C76, kinds.** Whatever the server and the object store do: an exception of a call of the producer or the consumer
is the one raised by a signal handler, or an `Exception` of exactly one of the documented kinds (an outcome for the
submission, incorrect usage, internal error). For the arguments the signatures ask for. -/
theorem C76_one_kind (i i' : Option Exn) (x : Exn) :
    (∀ r, producerCall i r = .error x → i = some x ∨ OfOneKind x) ∧
    (∀ r, getStatus i r = .error x → i = some x ∨ OfOneKind x) ∧
    (∀ base pfx us s insert, insertChunks base pfx us s i i' insert = .error x →
      i = some x ∨ i' = some x ∨ OfOneKind x) ∧
    (∀ id a, tryStreamPy i id a = .error x → i = some x ∨ OfOneKind x) ∧
    (∀ answers fuel, waitPy i answers fuel = some (.error x) → i = some x ∨ OfOneKind x) ∧
    (∀ pfx n put sent, completeChunkPy i pfx n put sent = .error x → i = some x ∨ OfOneKind x) ∧
    (∀ sent, failChunkPy i sent = .error x → i = some x ∨ OfOneKind x) ∧
    (∀ n, 0 ≤ n → n < 2 ^ 64 → newId n = .error x → OfOneKind x) ∧
    (∀ url store, newClient url store = .error x → OfOneKind x) := by
  have plain : ∀ {ε α : Type} (f : ε → RustErr), (∀ e x, f e ≠ .fatal x) → ∀ r : Except ε α,
      raising (unlessInterrupted i (r.mapError f)) = .error x → i = some x ∨ OfOneKind x := by
    intro ε α f hf r h
    rcases raising_error h with h | h
    · rcases unlessInterrupted_fatal h with h | h
      · exact .inl h
      · exact (mapError_fatal hf h).elim
    · exact .inr h
  have stream : ∀ a, maybeStreamOrErr a ≠ .error (.fatal x) := by
    intro a h
    cases a with
    | error e => cases h
    | ok st =>
      simp only [maybeStreamOrErr] at h
      split at h <;> cases h
  refine ⟨fun r => plain .producer (by simp) r, ?_, ?_, ?_, ?_, ?_, fun sent => plain .consumer (by simp) sent, ?_, ?_⟩
  · intro r h
    unfold getStatus at h
    split at h
    · rename_i e he
      injection h with h
      exact plain .producer (by simp) r (h ▸ he)
    · cases h
  · intro base pfx us s insert h
    rcases raising_error h with h | h
    · split at h
      · rename_i e he
        injection h with h
        subst h
        rcases unlessInterrupted_fatal he with h | h
        · exact .inl h
        · exact (uploadFrom_not_fatal _ _ _ _ _ _ h).elim
      · rcases unlessInterrupted_fatal h with h | h
        · exact .inr (.inl h)
        · exact (mapError_fatal (by simp) h).elim
    · exact .inr (.inr h)
  · intro id a h
    rcases raising_error h with h | h
    · rcases unlessInterrupted_fatal h with h | h
      · exact .inl h
      · split at h
        · rename_i e he
          injection h with h
          exact absurd (h ▸ he) (stream a)
        · cases h
        · cases h
    · exact .inr h
  · intro answers fuel h
    cases i with
    | some e =>
      simp only [waitPy, raising, toPy] at h
      injection h with h
      injection h with h
      exact .inl (by rw [h])
    | none =>
      obtain ⟨n, _, _, _, h⟩ := (C76_wait_tells 0 answers fuel _).mp h
      rcases raising_error h.symm with h | h
      · simp only [unlessInterrupted] at h
        split at h
        · rename_i e he
          injection h with h
          exact absurd (h ▸ he) (stream _)
        · cases h
        · cases h
      · exact .inr h
  · intro pfx n put sent h
    rcases raising_error h with h | h
    · rcases unlessInterrupted_fatal h with h | h
      · exact .inl h
      · split at h
        · exact (mapError_fatal (by simp) h).elim
        · split at h
          · cases h
          · exact (mapError_fatal (by simp) h).elim
    · exact .inr h
  · intro n h0 h1 h
    unfold newId extractUnsigned at h
    rw [if_neg (by omega)] at h
    rcases raising_error h with h | h
    · split at h <;> cases h
    · exact h
  · intro url store h
    rcases raising_error h with h | h
    · split at h
      · split at h <;> cases h
      · cases h
    · exact h

/-- One exception of each kind, and a signal. -/
example :
    producerCall none (.error (.http { timeout := true })) =
      .error ⟨.internalProducerClient, .message "HTTP request failed"⟩ ∧
    producerCall (some ⟨.keyboardInterrupt, .object 1⟩) (.ok .cancelled) = .error ⟨.keyboardInterrupt, .object 1⟩ ∧
    completeChunkPy none (some "p") 3 (.failed false) (.ok ()) =
      .error ⟨.chunkStorage, .message "Failed to store chunk (p, 3, out) to object store"⟩ ∧
    newId (2 ^ 63) = .error ⟨.tryFromInt, .message "out of range integral type conversion attempted"⟩ := by
  decide +kernel

/-- **C76, reasons are true.** Whatever happens on the way to the server: a call of the producer (without signals)
raises something other than an internal error exactly if the answer it received last gives this reason: not found,
over already, or too many. -/
theorem C76_reasons_are_answers (max : Nat) (c : Call) (hv : c ≠ .version) (env : Nat → Attempt) (hist : List Op) :
    ∃ k, (Http.call max c env hist).2.2 = k + 1 ∧ ∀ x,
      ((producerCall none (Http.call max c env hist).1 = .error x ∧ ¬ OfKind x .internal) ↔
        ∃ r e, Http.received max c (env k) (Http.historyAfter max c env hist k) = .answer r ∧ Http.TellsError c r e ∧
          x = toPy (.producer e)) := by
  obtain ⟨k, h1, _, h3⟩ := Http.C64_results_are_what_was_answered max c hv env hist
  have told : ∀ r e, Http.TellsError c r e → Http.Explained e := by
    intro r e h
    cases c <;> cases e <;> first | exact trivial | exact h.elim
  have kind : ∀ e, ¬ OfKind (toPy (.producer e)) .internal ↔ Http.Explained e := by
    intro e
    cases e <;> simp [OfKind, toPy, producerToPy, Exn.isA, Cls.mro, Http.Explained]
  refine ⟨k, h1, fun x => ⟨?_, ?_⟩⟩
  · rintro ⟨h, hk⟩
    cases hr : (Http.call max c env hist).1 with
    | ok a => rw [hr] at h; cases h
    | error e =>
      rw [hr] at h
      have hx : toPy (.producer e) = x := by injection h
      obtain ⟨r, hr1, hr2⟩ := (h3 e ((kind e).mp (hx ▸ hk))).mp hr
      exact ⟨r, e, hr1, hr2, hx.symm⟩
  · rintro ⟨r, e, hr1, hr2, rfl⟩
    have he := told r e hr2
    refine ⟨?_, (kind e).mpr he⟩
    rw [(h3 e he).mpr ⟨r, hr1, hr2⟩]
    rfl

/-! ## Signals -/

/-- **C76, signals.** An exception that a signal handler raises while a call is waiting (`KeyboardInterrupt`, by
default) reaches the caller as it is: from every call of the producer, from both parts of an insert, while waiting for
a submission or for chunks, and from reports. -/
theorem C76_signals_reach_the_caller (e : Exn) :
    (∀ r, producerCall (some e) r = .error e) ∧
    (∀ r, getStatus (some e) r = .error e) ∧
    (∀ base pfx us s i' insert, insertChunks base pfx us s (some e) i' insert = .error e) ∧
    (∀ base pfx us s insert, (∀ u ∈ us, (∃ b, u.item = .ok b) ∧ u.put = .ok) →
      insertChunks base pfx us s none (some e) insert = .error e) ∧
    (∀ id a, tryStreamPy (some e) id a = .error e) ∧
    (∀ answers fuel, waitPy (some e) answers fuel = some (.error e)) ∧
    (∀ pfx n put sent, completeChunkPy (some e) pfx n put sent = .error e) ∧
    (∀ sent, failChunkPy (some e) sent = .error e) ∧
    (∀ (m : Nat) s rounds (before rest : List ReserveRound) r, m < 2 ^ 64 → rounds m = before ++ r :: rest →
      (∀ q ∈ before, q.interrupt = none ∧ q.result = .ok [] ∧ q.sleepInterrupt = none) →
      (r.interrupt = some e ∨ r.interrupt = none ∧ r.result = .ok [] ∧ r.sleepInterrupt = some e) →
      reserveChunks m (.strategy s) rounds = some (.error e)) := by
  refine ⟨fun _ => rfl, fun _ => rfl, fun _ _ _ _ _ _ => rfl, ?_, fun _ _ => rfl, fun _ _ => rfl,
    fun _ _ _ _ => rfl, fun _ => rfl, ?_⟩
  · intro base pfx us s insert h
    obtain ⟨s', h'⟩ := uploadFrom_append base pfx us 0 s [] h
    rw [List.append_nil] at h'
    unfold insertChunks
    rw [h']
    rfl
  · intro m s rounds before rest r hm hr hb h
    unfold reserveChunks extractUnsigned
    rw [if_neg (by omega)]
    simp only [StrategyArg.extract, Int.toNat_natCast, hr]
    rw [reserveLoop_skip before _ hb, reserveLoop]
    rcases h with h | ⟨h1, h2, h3⟩
    · simp [h, unlessInterrupted, raising, toPy]
    · simp [h1, h2, h3, unlessInterrupted, raising, toPy]

/-- Ctrl-C in the second round of polling for chunks. -/
example : reserveChunks 5 (.strategy .oldest) (fun _ =>
    [{ result := .ok [] }, { interrupt := some ⟨.keyboardInterrupt, .object 0⟩, result := .ok [] }]) =
      some (.error ⟨.keyboardInterrupt, .object 0⟩) := by decide +kernel

/-- **C76, reserving**: the first round that is not in vain decides; before it nothing is returned. -/
theorem C76_reserve_tells (m : Nat) (hm : m < 2 ^ 64) (s : PyStrategy) (rounds : Nat → List ReserveRound)
    (r : Except RustErr (List PyChunk)) (before rest : List ReserveRound) (sl : Option Exn) (hr : r ≠ .ok [])
    (hb : ∀ q ∈ before, q.interrupt = none ∧ q.result = .ok [] ∧ q.sleepInterrupt = none) :
    (rounds m = before → reserveChunks m (.strategy s) rounds = none) ∧
    (rounds m = before ++ ⟨none, r, sl⟩ :: rest →
      (∀ chunks, r = .ok chunks → reserveChunks m (.strategy s) rounds = some (.ok chunks)) ∧
      (∀ e, r = .error e → reserveChunks m (.strategy s) rounds = some (.error (toPy e)))) := by
  unfold reserveChunks extractUnsigned
  rw [if_neg (by omega)]
  simp only [StrategyArg.extract, Int.toNat_natCast]
  refine ⟨?_, ?_⟩
  · intro h
    have := reserveLoop_skip before [] hb
    rw [List.append_nil] at this
    rw [h, this]
    rfl
  · intro h
    rw [h, reserveLoop_skip before _ hb, reserveLoop]
    refine ⟨?_, ?_⟩
    · rintro chunks rfl
      cases chunks with
      | nil => exact absurd rfl hr
      | cons c cs => rfl
    · rintro e rfl
      rfl

/-! ## Where exceptions get lost -/

/-- An exception of the caller's iterator of chunks reaches the caller. -/
def IteratorsReach : Prop :=
  ∀ base pfx (us : List Upload) (e : Exn) rest others put s insert,
    (∀ u ∈ us, (∃ b, u.item = .ok b) ∧ u.put = .ok) →
    insertChunks base pfx (us ++ ⟨others, .error e, put⟩ :: rest) s none none insert = .error e

/-- If the consumer's loop ends, it raises the exception that ended it. -/
def LoopRaises : Prop :=
  ∀ (s : PyStrategy) (es : List Surroundings) (r : Except Exn Unit), OneAtATime es →
    runEachChunkRaw (.strategy s) true es = some r → ∃ e ∈ es, ∃ x, r = .error x ∧ EndsLoop e x

/-- If the callback raises `KeyboardInterrupt` (or any other exception that is not an `Exception`), the loop ends. -/
def LoopEnds : Prop :=
  ∀ (s : PyStrategy) (es : List Surroundings) (e : Surroundings) (c : PyChunk), OneAtATime es → e ∈ es →
    e.reserved = .ok [c] → endsConsumer e c = true → runEachChunkRaw (.strategy s) true es ≠ none

/-- Wrong arguments raise `IncorrectUsageError`. -/
def MisuseIsTold : Prop :=
  (∀ k base pfx us s i i' insert, k ≤ 0 →
    ∃ x, insertSubmission k base pfx us s i i' insert = .error x ∧ OfKind x .usage) ∧
  (∀ n s rounds, n < 0 → ∃ x, reserveChunks n (.strategy s) rounds = some (.error x) ∧ OfKind x .usage) ∧
  (∀ n, n < 0 → ∃ x, newId n = .error x ∧ OfKind x .usage) ∧
  (∀ s es, ∃ x, runEachChunkRaw (.strategy s) false es = some (.error x) ∧ x.isA .typeError = true)

/-- **C76** in full: exceptions of the caller's own code reach the caller, those that are to end the consumer end it,
and misuse is told as such (besides what the theorems above say). -/
def C76_full : Prop := IteratorsReach ∧ LoopRaises ∧ LoopEnds ∧ MisuseIsTold

/-- An exception of the iterator, even Ctrl-C, becomes an internal error. -/
theorem C76_refuted_for_iterators : ¬ IteratorsReach := by
  intro h
  have := h [] "p" [] ⟨.keyboardInterrupt, .object 7⟩ [] [] .ok [] (fun _ => .ok 1) (by simp)
  revert this
  decide +kernel

/-- A chunk for the witnesses. -/
def someChunk : PyChunk :=
  { submissionId := 1, chunkIndex := 0, inputContent := [1], retries := 0, submissionPrefix := none }

/-- After Ctrl-C in the callback, the loop returns as if all were well. -/
theorem C76_refuted_for_loop_end : ¬ LoopRaises := by
  intro h
  obtain ⟨e, _, x, h1, _⟩ := h .oldest
    [⟨.ok [someChunk], fun _ => .raised ⟨.keyboardInterrupt, .object 7⟩ "Ctrl-C", fun _ => .ok ()⟩] (.ok ())
    (by intro e he cs hc
        simp only [List.mem_singleton] at he
        subst he
        injection hc with hc
        exact ⟨_, hc.symm⟩) (by decide +kernel)
  cases h1

/-- If the failure of the chunk cannot be reported, Ctrl-C does not end the loop. -/
theorem C76_refuted_for_lost_report : ¬ LoopEnds := by
  intro h
  refine h .oldest [⟨.ok [someChunk], fun _ => .raised ⟨.keyboardInterrupt, .object 7⟩ "Ctrl-C", fun _ => .error .rust⟩]
    _ someChunk ?_ (List.mem_singleton.mpr rfl) rfl (by decide +kernel) (by decide +kernel)
  intro e he cs hc
  simp only [List.mem_singleton] at he
  subst he
  injection hc with hc
  exact ⟨_, hc.symm⟩

/-- No part of `MisuseIsTold` holds: the chunk size, a negative limit, a negative id, something not callable. -/
theorem C76_refuted_for_misuse : ¬ MisuseIsTold ∧
    (∀ k base pfx us s i i' insert, k ≤ 0 →
      ∃ x, insertSubmission k base pfx us s i i' insert = .error x ∧ x.cls = .chunkSizeIsZero ∧ ¬ OfKind x .usage) ∧
    (∀ n s rounds, n < 0 →
      ∃ x, reserveChunks n s rounds = some (.error x) ∧ x.cls = .overflowError ∧ ¬ OfKind x .usage) ∧
    (∀ n, n < 0 → ∃ x, newId n = .error x ∧ x.cls = .overflowError ∧ ¬ OfKind x .usage) ∧
    (∀ s es, runEachChunkRaw (.strategy s) false es = some (.ok ())) := by
  have a : ∀ k base pfx us s i i' insert, k ≤ 0 →
      ∃ x, insertSubmission k base pfx us s i i' insert = .error x ∧ x.cls = .chunkSizeIsZero ∧ ¬ OfKind x .usage := by
    intro k base pfx us s i i' insert hk
    refine ⟨_, by unfold insertSubmission; rw [if_pos hk], rfl, by simp [OfKind, Exn.isA, Cls.mro]⟩
  refine ⟨?_, a, ?_, ?_, fun _ _ => rfl⟩
  · rintro ⟨h, -⟩
    obtain ⟨x, h1, h2⟩ := h 0 [] "p" [] [] none none (fun _ => .ok 1) (by decide)
    obtain ⟨y, h3, _, h5⟩ := a 0 [] "p" [] [] none none (fun _ => .ok 1) (by decide)
    rw [h1] at h3
    injection h3 with h3
    exact h5 (h3 ▸ h2)
  · intro n s rounds hn
    refine ⟨_, by unfold reserveChunks extractUnsigned; rw [if_pos (.inl hn)], rfl, by
      simp [OfKind, Exn.isA, Cls.mro]⟩
  · intro n hn
    refine ⟨_, by unfold newId extractUnsigned; rw [if_pos (.inl hn)], rfl, by simp [OfKind, Exn.isA, Cls.mro]⟩

/-- The full statement does not hold. -/
theorem C76_refuted : ¬ C76_full := fun h => C76_refuted_for_iterators h.1

/-- `reserve_chunks()` with the default for its strategy raises `TypeError`, whatever the server does. -/
theorem C76_default_strategy_raises (m : Nat) (hm : m < 2 ^ 64) (rounds : Nat → List ReserveRound) :
    ∃ text, reserveChunks m .newestClass rounds = some (.error ⟨.typeError, .message text⟩) := by
  unfold reserveChunks extractUnsigned
  rw [if_neg (by omega)]
  exact ⟨_, rfl⟩

/-- **C76, part: iterators.** An exception of the iterator, or a failed upload, is told as `ChunksStorageError`, and
nothing is inserted: the result is the same whatever inserting would do. Missing: the exception itself. -/
theorem C76_iterator_partial (base : List Char) (pfx : String) (us : List Upload) (u : Upload) (rest : List Upload)
    (s : ObjectStore.Store) (i' : Option Exn) (insert : Nat → Except ClientErr SubmissionId)
    (hus : ∀ u ∈ us, (∃ b, u.item = .ok b) ∧ u.put = .ok)
    (hu : (∃ e, u.item = .error e) ∨ ∃ b st, u.item = .ok b ∧ u.put = .failed st) :
    ∃ x, insertChunks base pfx (us ++ u :: rest) s none i' insert = .error x ∧ x.cls = .chunksStorage ∧
      OfKind x .internal := by
  obtain ⟨s', h'⟩ := uploadFrom_append base pfx us 0 s (u :: rest) hus
  unfold insertChunks
  rw [h', uploadFrom]
  rcases hu with ⟨e, he⟩ | ⟨b, st, hb, hp⟩
  · rw [he]
    exact ⟨_, rfl, rfl, rfl⟩
  · rw [hb, hp]
    cases st <;> exact ⟨_, rfl, rfl, rfl⟩

/-- The third chunk cannot be made. -/
example : (∀ u ∈ ([⟨[], .ok [1], .ok⟩, ⟨[], .ok [2], .ok⟩] : List Upload), (∃ b, u.item = .ok b) ∧ u.put = .ok) ∧
    insertChunks [] "p" [⟨[], .ok [1], .ok⟩, ⟨[], .ok [2], .ok⟩, ⟨[], .error ⟨.typeError, .object 3⟩, .ok⟩] [] none none
      (fun _ => .ok 1) =
      .error ⟨.chunksStorage, .message "Failed to read chunk element from stream/iterator"⟩ := by
  refine ⟨?_, by decide +kernel⟩
  intro u hu
  simp only [List.mem_cons, List.not_mem_nil, or_false] at hu
  rcases hu with rfl | rfl <;> exact ⟨⟨_, rfl⟩, rfl⟩

/-- **C76, part: the loop.** The consumer's loop returns exactly if an interrupt ends it, or an exception of the
callback that is not an `Exception` (or is a `SystemError`) and whose report arrived; it goes on whatever else
happens. Missing: that it raises the exception. -/
theorem C76_loop_partial (s : PyStrategy) (es : List Surroundings) (h1 : OneAtATime es) :
    (∃ e ∈ es, ∃ x, EndsLoop e x) ↔ runEachChunkRaw (.strategy s) true es = some (.ok ()) := by
  have key : ∀ (es : List Surroundings) (r : Running), OneAtATime es → r.closed = none →
      ((∃ e ∈ es, ∃ x, EndsLoop e x) ↔ (es.foldl round r).closed.isSome = true) := by
    intro es
    induction es with
    | nil => intro r _ hr; simp [hr]
    | cons e es ih =>
      intro r h hr
      rw [List.foldl_cons]
      have hround := round_closed r e (h e (by simp)) hr
      by_cases hc : (round r e).closed = none
      · rw [← ih (round r e) (fun e he => h e (by simp [he])) hc]
        constructor
        · rintro ⟨e', he', x, hx⟩
          rcases List.mem_cons.mp he' with rfl | he'
          · rw [(hround x).mpr hx] at hc
            cases hc
          · exact ⟨e', he', x, hx⟩
        · rintro ⟨e', he', x, hx⟩
          exact ⟨e', by simp [he'], x, hx⟩
      · obtain ⟨x, hx⟩ := Option.ne_none_iff_exists'.mp hc
        rw [closed_stays es _ (by rw [hx]; rfl), hx]
        exact ⟨fun _ => rfl, fun _ => ⟨e, by simp, x, (hround x).mp hx⟩⟩
  rw [key es {} h1 rfl]
  unfold runEachChunkRaw runPerChunkPy runPerChunk
  simp only [StrategyArg.extract, if_true]
  cases (es.foldl round {}).closed <;> simp

/-- An error of the connection and a failing chunk, then Ctrl-C while waiting. -/
example :
    let es : List Surroundings :=
      [⟨.error .rust, fun _ => .returned [], fun _ => .ok ()⟩,
       ⟨.ok [someChunk], fun _ => .raised ⟨.user "MyError" .exception, .object 1⟩ "oops", fun _ => .ok ()⟩,
       ⟨.error (.fatal ⟨.keyboardInterrupt, .object 7⟩), fun _ => .returned [], fun _ => .ok ()⟩]
    runEachChunkRaw (.strategy .oldest) true es = some (.ok ()) ∧
    runEachChunkRaw (.strategy .oldest) true (es.take 2) = none := by decide +kernel

end Opsqueue.Python
