import Verif.Proofs.Http
import Verif.Proofs.Honest
import Verif.Props.Atomicity
import Verif.Props.Calls
import Verif.Props.Lifecycle
import Verif.Props.Reads

/-!
# C10, C41, C42, C43, C57, C58: the producer over HTTP
-/

namespace Opsqueue.Http
open SubmissionDb Wire

/-! ### C41 -/

/-- **C41 in full**: every failure that is transient is retried, up to 101 attempts, and no other. -/
def C41_full : Prop :=
  ∀ (max : Nat) (c : Call) (env : Nat → Attempt) (hist : List Op), c ≠ .version →
    RetriesExactly Transient max c env hist

private theorem http_of_checked {α : Type} {dec : Json → Option α} {r : Response} {f : α → Result} {e : ClientErr}
    (h : (checked dec r).map f = .error e) : e = .decoding ∨ ∃ x, e = .http x := by
  unfold checked at h
  split at h
  · simp only [Except.map] at h
    injection h with h
    exact .inr ⟨_, h.symm⟩
  · split at h
    · simp only [Except.map] at h
      injection h with h
      exact .inl h.symm
    · simp [Except.map] at h

private theorem attempt_error {max : Nat} {c : Call} {a : Attempt} {hist : List Op} {e : ClientErr}
    (h : (attempt max c a hist).1 = .error e) : (∃ x, e = .http x) ∨ ∃ r, interpret c r = .error e := by
  simp only [attempt] at h
  split at h
  · split at h
    · exact .inr ⟨_, h⟩
    · injection h with h; exact .inl ⟨_, h.symm⟩
  · injection h with h; exact .inl ⟨_, h.symm⟩
  · injection h with h; exact .inl ⟨_, h.symm⟩
  · exact .inr ⟨_, h⟩

private theorem plain_error {max : Nat} {c : Call} (hc : (∀ id, c ≠ .cancel id) ∧ (∀ m, c ≠ .lookup m))
    {a : Attempt} {hist : List Op} {e : ClientErr} (h : (attempt max c a hist).1 = .error e) :
    e = .decoding ∨ ∃ x, e = .http x := by
  rcases attempt_error h with h | ⟨r, h⟩
  · exact .inr h
  · cases c with
    | cancel id => exact absurd rfl (hc.1 id)
    | lookup m => exact absurd rfl (hc.2 m)
    | count => exact http_of_checked h
    | insert r => exact http_of_checked h
    | get id => exact http_of_checked h
    | lookupPrefix p => exact http_of_checked h
    | version => exact http_of_checked h

private theorem jsonOr_ne_decoding {α : Type} {dec : Json → Option α} {r : Response}
    {k : α → Except ClientErr Result} (hk : ∀ a, k a ≠ .error .decoding) : jsonOr dec r k ≠ .error .decoding := by
  unfold jsonOr
  split
  · simp
  · exact hk _

private theorem strict_error {max : Nat} {c : Call} (hc : (∃ id, c = .cancel id) ∨ (∃ m, c = .lookup m))
    {a : Attempt} {hist : List Op} {e : ClientErr} (h : (attempt max c a hist).1 = .error e) : e ≠ .decoding := by
  rintro rfl
  rcases attempt_error h with ⟨x, h⟩ | ⟨r, h⟩
  · cases h
  · rcases hc with ⟨id, rfl⟩ | ⟨m, rfl⟩
    · unfold interpret at h
      simp only at h
      split at h
      · simp at h
      · split at h
        · exact jsonOr_ne_decoding (by simp) h
        · split at h
          · exact jsonOr_ne_decoding (by simp) h
          · simp at h
    · unfold interpret at h
      simp only at h
      split at h
      · exact jsonOr_ne_decoding (by simp) h
      · split at h
        · exact jsonOr_ne_decoding (by simp) h
        · simp at h

/-- **C41** for counting, inserting, getting a status and looking up a prefix: at most 101 attempts; all attempts but the
last failed with a transient failure, a 5xx answer being one; the last is a success, or a failure that is not
transient, or the 101st; its outcome is what the call returns. Missing from the full statement: an answer whose body is
not what was expected is not retried. -/
theorem C41_plain_calls_partial (max : Nat) (c : Call) (env : Nat → Attempt) (hist : List Op)
    (hv : c ≠ .version) (hc : (∀ id, c ≠ .cancel id) ∧ (∀ m, c ≠ .lookup m)) :
    RetriesExactly (fun e => Transient e ∧ e ≠ .decoding) max c env hist := by
  refine (call_spec max hist c hv env).mono fun k e he => ?_
  rw [isEphemeral_iff]
  rcases plain_error hc he with rfl | ⟨x, rfl⟩
  · simp
  · simp [Transient]

/-- **C41** for cancelling and looking up by metadata, where an answer whose body is not what was expected is
retried. Missing from the full statement: a 5xx answer is not retried. -/
theorem C41_cancel_and_lookup_partial (max : Nat) (c : Call) (env : Nat → Attempt) (hist : List Op)
    (hc : (∃ id, c = .cancel id) ∨ (∃ m, c = .lookup m)) :
    RetriesExactly (fun e => Transient e ∧ ∀ s, e ≠ .unexpectedStatus s) max c env hist := by
  have hv : c ≠ .version := by rcases hc with ⟨id, rfl⟩ | ⟨m, rfl⟩ <;> simp
  refine (call_spec max hist c hv env).mono fun k e he => ?_
  have hd := strict_error hc he
  rw [isEphemeral_iff]
  cases e with
  | http x => simp [Transient]
  | decoding => exact absurd rfl hd
  | unexpectedStatus s => simp
  | notFound e => simp [Transient]
  | notCancellable e => simp [Transient]
  | tooMany e => simp [Transient]

/-- **C41.** Asking for the server's version is attempted once. -/
theorem C41_version_once (max : Nat) (env : Nat → Attempt) (hist : List Op) :
    call max .version env hist = (outcome max .version env hist 0, historyAfter max .version env hist 1, 1) := by
  unfold outcome historyAfter
  unfold call retrying
  simp only [historyAfter]
  rcases attempt max .version (env 0) hist with ⟨r, s⟩
  cases r <;> simp

/-- The surroundings of a call whose answers all come from a proxy saying 503. -/
def unavailable : Nat → Attempt := fun _ => { net := .answeredBy false ⟨503, .null⟩ }

/-- **The full C41 is false**: a cancel call answered with a 503 is not retried. -/
theorem C41_refuted_for_5xx_on_cancel : ¬ C41_full := by
  intro h
  obtain ⟨n, _, hcall, _, hlast⟩ := h 10 (.cancel 1) unavailable [] (by simp)
  have h1 : (call 10 (.cancel 1) unavailable []).2.2 = 1 := by decide +kernel
  rw [hcall] at h1
  simp only [Nat.add_eq_right] at h1
  subst h1
  rcases hlast with h | h
  · simp at h
  · refine h (.unexpectedStatus 503) (by decide +kernel) ?_
    simp [Transient]

/-- **The full C41 is false**: nor is a status call whose answer cannot be decoded. -/
theorem C41_refuted_for_undecodable_status : ¬ C41_full := by
  intro h
  obtain ⟨n, _, hcall, _, hlast⟩ := h 10 (.get 1) (fun _ => { net := .answeredBy false ⟨200, .str "<html>"⟩ }) []
    (by simp)
  have h1 : (call 10 (.get 1) (fun _ => { net := .answeredBy false ⟨200, .str "<html>"⟩ }) []).2.2 = 1 := by
    decide +kernel
  rw [hcall] at h1
  simp only [Nat.add_eq_right] at h1
  subst h1
  rcases hlast with h | h
  · simp at h
  · exact h .decoding (by decide +kernel) trivial

/-- Two timeouts and a 503, then an answer: four attempts. With 503s only: 101 attempts. -/
example :
    (call 10 .count (fun i => if i < 2 then { net := .noRequest { timeout := true } }
      else if i = 2 then { net := .answeredBy false ⟨503, .null⟩ } else {}) []).2.2 = 4 ∧
    (call 10 .count (fun i => if i < 2 then { net := .noRequest { timeout := true } }
      else if i = 2 then { net := .answeredBy false ⟨503, .null⟩ } else {}) []).1 = .ok (.count 0) ∧
    (call 10 (.get 3) unavailable []).2.2 = 101 ∧
    (call 10 (.cancel 3) (fun i => if i < 2 then { net := .noResponse { connect := true } } else {}) []).2.2 = 3 := by
  decide +kernel

/-! ### C42 -/

private theorem first_attempt {max : Nat} {c : Call} {env : Nat → Attempt} {hist h' : List Op}
    {r : Except ClientErr Result} (ha : attempt max c (env 0) hist = (r, h'))
    (hr : ∀ e, r = .error e → isEphemeral e = false) : call max c env hist = (r, h', 1) := by
  unfold call retrying
  simp only [ha]
  cases r with
  | ok a => rfl
  | error e =>
    have := hr e rfl
    cases c <;> simp [this]

private theorem attempt_ok {max : Nat} {c : Call} {a : Attempt} {hist : List Op} (hn : a.net = .ok) {r : Response}
    {h' : List Op} (hh : handle max a.server (request c) (hist ++ a.before) = (some r, h')) :
    attempt max c a hist = (interpret c r, h') := by
  unfold attempt
  simp only [hn, hh]

/-- **C42, cancel.** Whatever an attempt to cancel decided at the server is what the client reports for it: success,
not found with the id, not cancellable with the very status. -/
theorem C42_cancel (max : Nat) (id : SubmissionId) (hid : id < 2 ^ 63) (a : Attempt) (hist : List Op) (hn : a.net = .ok)
    (hc : a.server.connOk = true) :
    let op : Op := .cancel id a.server.now1 a.server.now2 a.server.faults
    let out := (step (run (hist ++ a.before)) op).1
    (attempt max (.cancel id) a hist).2 = hist ++ a.before ++ [op] ∧
    ((attempt max (.cancel id) a hist).1 = .ok .cancelled ↔ out = .cancelled (.ok ())) ∧
    (∀ e, (attempt max (.cancel id) a hist).1 = .error (.notFound e) ↔ out = .cancelled (.err (.err (.R (.L e))))) ∧
    (∀ e, (attempt max (.cancel id) a hist).1 = .error (.notCancellable e) ↔
      out = .cancelled (.err (.err (.R (.R e))))) := by
  intro op out
  have hh := handle_cancel max a.server (hist ++ a.before) id hid hc
  have hout : ∃ r, out = .cancelled r := ⟨_, rfl⟩
  obtain ⟨r, hr⟩ := hout
  change handle max a.server (request (.cancel id)) (hist ++ a.before) = (cancelAnswer out, _) at hh
  rw [hr] at hh ⊢
  cases hca : cancelAnswer (.cancelled r) with
  | none =>
    have hr' : r = .crash := by
      rcases r with u | e | _
      · simp [cancelAnswer] at hca
      · rcases e with e | _
        · rcases e with e | e
          · simp [cancelAnswer] at hca
          · rcases e with e | e <;> simp [cancelAnswer] at hca
        · simp [cancelAnswer] at hca
      · rfl
    subst hr'
    have ha : attempt max (.cancel id) a hist = (.error (.http a.lost), hist ++ a.before ++ [op]) := by
      unfold attempt
      simp only [hn, hh, hca]
      rfl
    rw [ha]
    simp
  | some resp =>
    rw [hca] at hh
    rw [attempt_ok hn hh]
    refine ⟨rfl, ?_⟩
    cases r with
    | ok u =>
      simp only [cancelAnswer, Option.some.injEq] at hca
      subst hca
      simp [interpret]
    | crash => simp [cancelAnswer] at hca
    | err e =>
      cases e with
      | panicked =>
        simp only [cancelAnswer, Option.some.injEq] at hca
        subst hca
        simp [interpret, serverError]
      | err e =>
        cases e with
        | L e =>
          simp only [cancelAnswer, Option.some.injEq] at hca
          subst hca
          simp [interpret, serverError]
        | R e =>
          cases e with
          | L e =>
            simp only [cancelAnswer, Option.some.injEq] at hca
            subst hca
            simp [interpret, jsonOr]
          | R e =>
            simp only [cancelAnswer, Option.some.injEq] at hca
            subst hca
            simp [interpret, jsonOr]

/-- **C42, refusals are true.** Whatever the database does during an attempt to cancel: if the client reports that there
is no such submission, there is none; if it reports that the submission has ended, it has ended just like that. -/
theorem C42_refusals_are_true (max : Nat) (id : SubmissionId) (hid : id < 2 ^ 63) (a : Attempt) (hist : List Op)
    (hn : a.net = .ok) (hf : FreshIds (hist ++ a.before)) :
    let db := run (hist ++ a.before)
    let r := (attempt max (.cancel id) a hist).1
    (∀ e, r = .error (.notFound e) → e = ⟨id⟩ ∧ statusAt db id = .ok none) ∧
    (∀ s, r = .error (.notCancellable (.completed s)) → statusAt db id = .ok (some (.completed s))) ∧
    (∀ s c, r = .error (.notCancellable (.failed s c)) → statusAt db id = .ok (some (.failed s c))) ∧
    (∀ s, r = .error (.notCancellable (.cancelled s)) → statusAt db id = .ok (some (.cancelled s))) := by
  intro db r
  by_cases hc : a.server.connOk = true
  · obtain ⟨_, _, h1, h2⟩ := C42_cancel max id hid a hist hn hc
    refine ⟨?_, ?_, ?_, ?_⟩
    · intro e he
      obtain ⟨st, hs, ha⟩ := cancel_honest (inv_run hf) ((h1 e).1 he)
      rcases st with _ | (s | s | ⟨s, c⟩ | s) <;> simp [Opsqueue.cancelAnswer] at ha
      exact ⟨ha.symm, hs⟩
    · intro s he
      obtain ⟨st, hs, ha⟩ := cancel_honest (inv_run hf) ((h2 _).1 he)
      rcases st with _ | (s | s | ⟨s, c⟩ | s) <;> simp [Opsqueue.cancelAnswer] at ha
      exact ha ▸ hs
    · intro s c he
      obtain ⟨st, hs, ha⟩ := cancel_honest (inv_run hf) ((h2 _).1 he)
      rcases st with _ | (s | s | ⟨s, c⟩ | s) <;> simp [Opsqueue.cancelAnswer] at ha
      exact ha.1 ▸ ha.2 ▸ hs
    · intro s he
      obtain ⟨st, hs, ha⟩ := cancel_honest (inv_run hf) ((h2 _).1 he)
      rcases st with _ | (s | s | ⟨s, c⟩ | s) <;> simp [Opsqueue.cancelAnswer] at ha
      exact ha ▸ hs
  · have hh := handle_cancel_noConn max a.server (hist ++ a.before) id hid (by simpa using hc)
    have hr : r = .error (.unexpectedStatus 500) := by
      show (attempt max (.cancel id) a hist).1 = _
      rw [attempt_ok hn hh]; rfl
    rw [hr]
    simp

/-- A cancel of a submission that was cancelled before is refused with that very status; if reading the table of cancelled
submissions fails, it is not reported as missing. -/
example : (attempt 5 (.cancel 1) {}
    [.insert { id := 1, contents := [none] } 5 [], .cancel 1 6 7 []]).1 = .error (.notCancellable (.cancelled
      { id := 1, pfx := none, chunksTotal := 1, chunksDone := 0, metadata := none, strategic := [], cancelledAt := 6 })) ∧
    (attempt 5 (.cancel 1) { server := { faults := [.ok, .ok, .ok, .ok, .ok, .ok, .fail] } }
      [.insert { id := 1, contents := [none] } 5 [], .cancel 1 6 7 []]).1 = .error (.unexpectedStatus 500) := by
  decide +kernel

/-- **C42, cancel, from the outside.** A cancel call that meets no trouble on the way: if the submission is in progress it
is cancelled and the call says so; if it is over, the call returns the very status it has, and changes nothing; if it
is unknown, the call says so with the id. -/
theorem C42_cancel_call (max : Nat) (id : SubmissionId) (hid : id < 2 ^ 63) (env : Nat → Attempt) (hist : List Op)
    (hs : (env 0).Smooth) (hf : FreshIds (hist ++ (env 0).before)) :
    let db := run (hist ++ (env 0).before)
    let r := call max (.cancel id) env hist
    (∀ s, statusAt db id = .ok (some (.inProgress s)) →
      r.1 = .ok .cancelled ∧ ∃ s', statusAt (run r.2.1) id = .ok (some (.cancelled s'))) ∧
    (∀ s, statusAt db id = .ok (some (.completed s)) →
      r.1 = .error (.notCancellable (.completed s)) ∧ run r.2.1 = db) ∧
    (∀ s c, statusAt db id = .ok (some (.failed s c)) →
      r.1 = .error (.notCancellable (.failed s c)) ∧ run r.2.1 = db) ∧
    (∀ s, statusAt db id = .ok (some (.cancelled s)) →
      r.1 = .error (.notCancellable (.cancelled s)) ∧ run r.2.1 = db) ∧
    (statusAt db id = .ok none → r.1 = .error (.notFound ⟨id⟩) ∧ run r.2.1 = db) := by
  intro db r
  obtain ⟨hn, hc, hfl⟩ := hs
  obtain ⟨h1, h2, h3, h4⟩ := C42_cancel max id hid (env 0) hist hn hc
  rw [hfl] at h1 h2 h3 h4
  have hrun : ∀ op, run (hist ++ (env 0).before ++ [op]) = (step db op).2 := by
    intro op; simp [run, runFrom, List.foldl_append, db]
  have over : ∀ nc, step db (.cancel id (env 0).server.now1 (env 0).server.now2 []) =
      (.cancelled (.err (.err (.R (.R nc)))), db) →
      r.1 = .error (.notCancellable nc) ∧ run r.2.1 = db := by
    intro nc hstep
    have hr := (h4 nc).2 (by rw [show run (hist ++ (env 0).before) = db from rfl, hstep])
    have hcall : r = (.error (.notCancellable nc), _, 1) :=
      first_attempt (Prod.ext hr h1) (by intro e he; injection he with he; subst he; rfl)
    rw [hcall]
    exact ⟨rfl, by rw [hrun, hstep]⟩
  have h9 := C09_cancel_over (hist ++ (env 0).before) hf id (env 0).server.now1 (env 0).server.now2
  refine ⟨?_, fun s h => over _ (h9.1 s h), fun s c h => over _ (h9.2.1 s c h), fun s h => over _ (h9.2.2 s h), ?_⟩
  · intro s h
    have h' := C09_cancel_in_progress _ hf id s h (env 0).server.now1 (env 0).server.now2 _ _ rfl
    have hr := h2.2 h'.1
    have hcall : r = (.ok .cancelled, _, 1) :=
      first_attempt (Prod.ext hr h1) (by intro e he; cases he)
    rw [hcall]
    exact ⟨rfl, _, by rw [hrun]; exact h'.2.1⟩
  · intro h
    have h' := C09_cancel_unknown (hist ++ (env 0).before) id (env 0).server.now1 (env 0).server.now2 h
    have hr := (h3 ⟨id⟩).2 (by rw [h'])
    have hcall : r = (.error (.notFound ⟨id⟩), _, 1) :=
      first_attempt (Prod.ext hr h1) (by intro e he; injection he with he; subst he; rfl)
    rw [hcall]
    exact ⟨rfl, by rw [hrun]; exact congrArg Prod.snd h'⟩

/-- **C42, lookup by metadata.** There are `n` matching submissions; if `n` is at most the configured maximum the client
gets exactly their ids, in increasing order, otherwise the too-many error with the maximum. -/
theorem C42_lookup_call (max : Nat) (m : StrategicMetadata) (hmap : (m.map (·.1)).Nodup) (env : Nat → Attempt)
    (hist : List Op) (hs : (env 0).Smooth) (hf : FreshIds (hist ++ (env 0).before)) :
    let db := run (hist ++ (env 0).before)
    let r := call max (.lookup m) env hist
    r.2.1 = hist ++ (env 0).before ∧
    ∃ n, CountIs (Matches db m) n ∧
      ((n ≤ max ∧ ∃ ids, r.1 = .ok (.ids ids) ∧ ids.Pairwise (· < ·) ∧ ∀ id, id ∈ ids ↔ Matches db m id) ∨
       (max < n ∧ r.1 = .error (.tooMany ⟨max⟩))) := by
  intro db r
  obtain ⟨hn, hc, hfl⟩ := hs
  obtain ⟨n, hcount, h⟩ := C18_metadata_lookup _ hf m max
  have hh := handle_lookup max (env 0).server (hist ++ (env 0).before) m hc
  rw [hfl, lastOfEach_self hmap] at hh
  rcases h with ⟨hle, ids, hl, hp, hm⟩ | ⟨hlt, hl⟩
  · unfold lookupAt at hl
    rw [hl] at hh
    have hcall : r = (.ok (.ids ids), hist ++ (env 0).before, 1) := by
      apply first_attempt
      · rw [attempt_ok hn hh]
        simp [interpret, jsonOr]
      · intro e he; cases he
    rw [hcall]
    exact ⟨rfl, n, hcount, .inl ⟨hle, ids, rfl, hp, hm⟩⟩
  · unfold lookupAt at hl
    rw [hl] at hh
    have hcall : r = (.error (.tooMany ⟨max⟩), hist ++ (env 0).before, 1) := by
      apply first_attempt
      · rw [attempt_ok hn hh]
        simp [interpret, jsonOr]
      · intro e he; injection he with he; subst he; rfl
    rw [hcall]
    exact ⟨rfl, n, hcount, .inr ⟨hlt, rfl⟩⟩

/-- **C42, status.** The client gets exactly the status the submission has at the server. -/
theorem C42_status_call (max : Nat) (id : SubmissionId) (hid : id < 2 ^ 63) (env : Nat → Attempt) (hist : List Op)
    (hs : (env 0).Smooth) (st : Option SubmissionStatus)
    (h : statusAt (run (hist ++ (env 0).before)) id = .ok st) :
    call max (.get id) env hist = (.ok (.status st), hist ++ (env 0).before, 1) := by
  obtain ⟨hn, hc, hfl⟩ := hs
  have hh := handle_get max (env 0).server (hist ++ (env 0).before) id hid hc
  rw [hfl] at hh
  unfold statusAt at h
  rw [h] at hh
  apply first_attempt
  · rw [attempt_ok hn hh]
    simp [interpret, checked, Except.map]
  · intro e he; cases he

/-- **C42, count.** The client gets the number of submissions in progress, as long as it fits in 32 bits; a larger
number is a decoding error. -/
theorem C42_count_call (max : Nat) (env : Nat → Attempt) (hist : List Op) (hs : (env 0).Smooth)
    (hf : FreshIds (hist ++ (env 0).before)) :
    ∃ n, CountIs (fun id => ∃ s, statusAt (run (hist ++ (env 0).before)) id = .ok (some (.inProgress s))) n ∧
      call max .count env hist =
        (if n < 2 ^ 32 then .ok (.count n) else .error .decoding, hist ++ (env 0).before, 1) := by
  obtain ⟨n, h, hcount⟩ := (C20_counts _ hf).1
  refine ⟨n, hcount, ?_⟩
  obtain ⟨hn, hc, hfl⟩ := hs
  have hh := handle_count max (env 0).server (hist ++ (env 0).before) hc
  rw [hfl, h] at hh
  apply first_attempt
  · rw [attempt_ok hn hh]
    by_cases hlt : n < 2 ^ 32
    · have : decU32 (encNat n) = some n := by simp only [decU32, nat_rt]; simp [Option.filter, hlt]
      simp [interpret, checked, Except.map, this, hlt]
    · have : decU32 (encNat n) = none := by simp only [decU32, nat_rt]; simp [Option.filter, hlt]
      simp [interpret, checked, Except.map, this, hlt]
  · intro e he
    by_cases hlt : n < 2 ^ 32
    · simp [hlt] at he
    · simp only [hlt, if_false] at he
      injection he with he; subst he; rfl

/-- Two submissions, one cancelled by another client before this call arrives. -/
def httpHistory : List Op :=
  [.insert { id := 1, contents := [some [1], none], pfx := some "p", strategic := [("a", 1)] } 5 [],
   .insert { id := 2, contents := [none], strategic := [("a", 1)], metadata := some [0, 255] } 6 []]

example :
    let env : Nat → Attempt := fun _ => { before := [.cancel 2 7 8 []], server := { now1 := 9, now2 := 10 } }
    FreshIds (httpHistory ++ (env 0).before) ∧
    (call 10 (.cancel 1) env httpHistory).1 = .ok .cancelled ∧
    (call 10 (.cancel 2) env httpHistory).1 = .error (.notCancellable (.cancelled
      { id := 2, pfx := none, chunksTotal := 1, chunksDone := 0, metadata := some [0, 255], strategic := [("a", 1)],
        cancelledAt := 7 })) ∧
    (call 10 (.cancel 3) env httpHistory).1 = .error (.notFound ⟨3⟩) ∧
    (call 10 (.lookup [("a", 1)]) env httpHistory).1 = .ok (.ids [1]) ∧
    (call 1 (.lookup []) (fun _ => {}) httpHistory).1 = .error (.tooMany ⟨1⟩) ∧
    (call 10 .count env httpHistory).1 = .ok (.count 1) ∧
    (call 10 (.get 12) env httpHistory).1 = .ok (.status none) := by
  decide +kernel

/-! ### C58: looking up a prefix -/

/-- **C58 in full**: whatever the prefix, the client finds what the server has for it. -/
def C58_full : Prop :=
  ∀ (max : Nat) (p : String) (env : Nat → Attempt) (hist : List Op) (o : Option SubmissionId),
    (env 0).Smooth → prefixAt (run (hist ++ (env 0).before)) p = .ok o →
    call max (.lookupPrefix p) env hist = (.ok (.found o), hist ++ (env 0).before, 1)

/-- **C58** for prefixes without characters that mean something in a URL, such as the UUIDs the client generates. -/
theorem C58_prefix_call_partial (max : Nat) (p : String) (hp : PlainPrefix p) (env : Nat → Attempt) (hist : List Op)
    (o : Option SubmissionId) (hs : (env 0).Smooth) (h : prefixAt (run (hist ++ (env 0).before)) p = .ok o) :
    call max (.lookupPrefix p) env hist = (.ok (.found o), hist ++ (env 0).before, 1) := by
  obtain ⟨hn, hc, hfl⟩ := hs
  have hh := handle_lookupPrefix max (env 0).server (hist ++ (env 0).before) hp hc
  rw [hfl] at hh
  unfold prefixAt at h
  rw [h] at hh
  apply first_attempt
  · rw [attempt_ok hn hh]
    simp [interpret, checked, Except.map]
  · intro e he; cases he

/-- **The full C58 is false**: asking for `p?x` finds the submission with prefix `p`. -/
theorem C58_refuted_for_question_mark : ¬ C58_full := by
  intro h
  have := h 10 "p?x" (fun _ => {}) httpHistory none ⟨rfl, rfl, rfl⟩ (by decide +kernel)
  have h1 := congrArg Prod.fst this
  revert h1
  decide +kernel

example : PlainPrefix "0194d2a1-7b1c-7e53-9c1f-3f1f5e0a7b11" ∧
    (call 10 (.lookupPrefix "p") (fun _ => {}) httpHistory).1 = .ok (.found (some 1)) ∧
    (call 10 (.lookupPrefix "p?x") (fun _ => {}) httpHistory).1 = .ok (.found (some 1)) ∧
    (call 10 (.lookupPrefix "%70") (fun _ => {}) httpHistory).1 = .ok (.found (some 1)) ∧
    (call 10 (.lookupPrefix "a/b") (fun _ => {}) httpHistory).1 = .error (.http { status := some 404 }) ∧
    (call 10 (.lookupPrefix "../1") (fun _ => {}) httpHistory).1 = .error .decoding := by
  unfold PlainPrefix
  decide +kernel

/-! ### C10: inserting over HTTP -/

private theorem run_snoc (h : List Op) (op : Op) : run (h ++ [op]) = (step (run h) op).2 := by
  simp [run, runFrom, List.foldl_append]

theorem insert_call (max : Nat) (r : InsertSubmission) (env : Nat → Attempt) (hist : List Op)
    (hs : (env 0).Smooth)
    (hf : FreshIds (hist ++ (env 0).before ++ [.insert (insertArgs r (env 0).server) (env 0).server.now1 []])) :
    call max (.insert r) env hist = (.ok (.inserted (env 0).server.id),
      hist ++ (env 0).before ++ [.insert (insertArgs r (env 0).server) (env 0).server.now1 []], 1) := by
  obtain ⟨hn, hc, hfl⟩ := hs
  have hh := handle_insert max (env 0).server (hist ++ (env 0).before) r hc
  rw [hfl, (C10_insert_faithful _ (insertArgs r (env 0).server) (env 0).server.now1 hf (lastOfEach_nodup _)
    _ _ (Prod.eta _).symm).1] at hh
  apply first_attempt
  · rw [attempt_ok hn hh]
    simp [interpret, checked, Except.map, insertArgs]
  · intro e he; cases he

/-- **C10 over HTTP, chunks in the request.** Inserting with the chunks' contents in the request creates one submission
in progress, without prefix, with exactly these chunks in this order, the given metadata, and chunk size 1 if none is
given; the call returns its id. -/
theorem C10_http_insert_direct (max : Nat) (contents : List Content) (metadata : Option Metadata)
    (strategic : StrategicMetadata) (chunkSize : Option Int) (env : Nat → Attempt) (hist : List Op)
    (hs : (env 0).Smooth) (hmap : (strategic.map (·.1)).Nodup) (hne : contents ≠ [])
    (hfresh : FreshIds (hist ++ (env 0).before)) (hid : ∀ op ∈ hist ++ (env 0).before,
      op.insertId ≠ some (env 0).server.id) :
    let r := call max (.insert { chunkContents := .direct contents, metadata, strategic, chunkSize }) env hist
    let db' := run r.2.1
    let id := (env 0).server.id
    r.1 = .ok (.inserted id) ∧
    statusAt db' id = .ok (some (.inProgress
      { id := id, pfx := none, chunksTotal := contents.length, chunksDone := 0, chunkSize := chunkSize.getD 1,
        metadata := metadata, strategic := strategic, otel := (env 0).server.otel })) ∧
    (∀ i (h : i < contents.length), chunkAt db' ⟨id, i⟩ =
      .ok { submissionId := id, chunkIndex := i, inputContent := contents[i], retries := 0 }) ∧
    backlogSize db' id = contents.length := by
  intro r db' id
  have hf : FreshIds (hist ++ (env 0).before ++ [.insert (insertArgs
      { chunkContents := .direct contents, metadata, strategic, chunkSize } (env 0).server) (env 0).server.now1 []]) := by
    unfold FreshIds at hfresh ⊢
    rw [List.filterMap_append, List.nodup_append]
    refine ⟨hfresh, by simp [Op.insertId], ?_⟩
    intro x hx y hy hxy
    simp only [List.filterMap_cons, Op.insertId, insertArgs, List.filterMap_nil, List.mem_singleton] at hy
    subst hy; subst hxy
    obtain ⟨op, hop, he⟩ := List.mem_filterMap.1 hx
    exact hid op hop he
  have hcall := insert_call max _ env hist hs hf
  obtain ⟨-, h1, h2, -, h3, -⟩ := C10_insert_faithful _ (insertArgs
    { chunkContents := .direct contents, metadata, strategic, chunkSize } (env 0).server) (env 0).server.now1 hf
    (lastOfEach_nodup _) _ _ (Prod.eta _).symm
  have hdb : db' = (step (run (hist ++ (env 0).before)) (.insert (insertArgs
      { chunkContents := .direct contents, metadata, strategic, chunkSize } (env 0).server) (env 0).server.now1 [])).2 := by
    show run r.2.1 = _
    rw [show r = _ from hcall]
    exact run_snoc _ _
  rw [hdb, show r = _ from hcall]
  refine ⟨rfl, ?_, h2, h3⟩
  have := h1 hne
  simp only [insertArgs, lastOfEach_self hmap] at this ⊢
  exact this

/-- **C10 over HTTP, chunks in the object store.** Inserting a prefix and a count creates one submission in progress
with that prefix and that many chunks without contents. -/
theorem C10_http_insert_object_store (max : Nat) (p : String) (count : Nat) (metadata : Option Metadata)
    (strategic : StrategicMetadata) (chunkSize : Option Int) (env : Nat → Attempt) (hist : List Op)
    (hs : (env 0).Smooth) (hmap : (strategic.map (·.1)).Nodup) (hne : count ≠ 0)
    (hfresh : FreshIds (hist ++ (env 0).before)) (hid : ∀ op ∈ hist ++ (env 0).before,
      op.insertId ≠ some (env 0).server.id) :
    let r := call max (.insert { chunkContents := .seeObjectStorage p count, metadata, strategic, chunkSize }) env hist
    let db' := run r.2.1
    let id := (env 0).server.id
    r.1 = .ok (.inserted id) ∧
    statusAt db' id = .ok (some (.inProgress
      { id := id, pfx := some p, chunksTotal := count, chunksDone := 0, chunkSize := chunkSize.getD 1,
        metadata := metadata, strategic := strategic, otel := (env 0).server.otel })) ∧
    (∀ i < count, chunkAt db' ⟨id, i⟩ =
      .ok { submissionId := id, chunkIndex := i, inputContent := none, retries := 0 }) ∧
    backlogSize db' id = count := by
  intro r db' id
  have hf : FreshIds (hist ++ (env 0).before ++ [.insert (insertArgs
      { chunkContents := .seeObjectStorage p count, metadata, strategic, chunkSize } (env 0).server)
      (env 0).server.now1 []]) := by
    unfold FreshIds at hfresh ⊢
    rw [List.filterMap_append, List.nodup_append]
    refine ⟨hfresh, by simp [Op.insertId], ?_⟩
    intro x hx y hy hxy
    simp only [List.filterMap_cons, Op.insertId, insertArgs, List.filterMap_nil, List.mem_singleton] at hy
    subst hy; subst hxy
    obtain ⟨op, hop, he⟩ := List.mem_filterMap.1 hx
    exact hid op hop he
  have hcall := insert_call max _ env hist hs hf
  obtain ⟨-, h1, h2, -, h3, -⟩ := C10_insert_faithful _ (insertArgs
    { chunkContents := .seeObjectStorage p count, metadata, strategic, chunkSize } (env 0).server) (env 0).server.now1 hf
    (lastOfEach_nodup _) _ _ (Prod.eta _).symm
  have hdb : db' = (step (run (hist ++ (env 0).before)) (.insert (insertArgs
      { chunkContents := .seeObjectStorage p count, metadata, strategic, chunkSize } (env 0).server) (env 0).server.now1 [])).2 := by
    show run r.2.1 = _
    rw [show r = _ from hcall]
    exact run_snoc _ _
  rw [hdb, show r = _ from hcall]
  have hlen : (List.replicate count (none : Content)).length = count := by simp
  refine ⟨rfl, ?_, ?_, ?_⟩
  · have := h1 (by simp [insertArgs, hne])
    simp only [insertArgs, List.length_replicate, lastOfEach_self hmap] at this ⊢
    exact this
  · intro i hi
    have := h2 i (by simpa [insertArgs] using hi)
    simp only [insertArgs, List.getElem_replicate] at this
    exact this
  · have := h3
    simp only [insertArgs, List.length_replicate] at this
    exact this

/-- The same with concrete values, over a history with another submission. -/
example :
    let env : Nat → Attempt := fun _ => { before := [.cancel 2 7 8 []], server := { id := 5, now1 := 9 } }
    let r := call 10 (.insert { chunkContents := .seeObjectStorage "q" 2, strategic := [("a", 3)] }) env httpHistory
    let r' := call 10 (.insert { chunkContents := .direct [some [1, 2], none], chunkSize := some 7 }) env httpHistory
    FreshIds (httpHistory ++ (env 0).before) ∧
    (∀ op ∈ httpHistory ++ (env 0).before, op.insertId ≠ some 5) ∧
    r.1 = .ok (.inserted 5) ∧ prefixAt (run r.2.1) "q" = .ok (some 5) ∧
    chunkAt (run r'.2.1) ⟨5, 0⟩ = .ok ⟨5, 0, some [1, 2], 0⟩ := by
  decide +kernel

/-! ### C43 -/

/-- **C43 in full**: of the attempts a successful insert call makes, exactly one creates a submission, and the call
returns its id; of the attempts of a failed call none does. -/
def C43_full : Prop :=
  ∀ (max : Nat) (r : InsertSubmission) (env : Nat → Attempt) (hist : List Op),
    FreshIds (call max (.insert r) env hist).2.1 → (r.strategic.map (·.1)).Nodup → OneEffect max r env hist

/-- The response to the first attempt is lost. -/
def lostResponse : Nat → Attempt := fun i =>
  { net := if i = 0 then .noResponse { timeout := true } else .ok, server := { id := 10 + i } }

/-- **The full C43 is false**: if the response to the first attempt is lost, the second attempt creates a second
submission. -/
theorem C43_refuted_by_lost_response : ¬ C43_full := by
  intro h
  have h := h 10 { chunkContents := .direct [none] } lostResponse [] (by decide +kernel) (by simp)
  unfold OneEffect at h
  rw [show (call 10 (.insert { chunkContents := .direct [none] }) lostResponse []).1 = .ok (.inserted 11) by
    decide +kernel] at h
  obtain ⟨k, -, -, h⟩ := h
  have h0 := (h 0 (by decide +kernel)).1 (by unfold Created; decide +kernel)
  have h1 := (h 1 (by decide +kernel)).1 (by unfold Created; decide +kernel)
  omega

/-- A server that cannot record the completion of an empty submission the first time. -/
def emptyDisturbed : Nat → Attempt := fun i =>
  { server := { id := 10 + i, faults := if i = 0 then [.ok, .ok, .ok, .fail] else [] } }

/-- **Nor is it true without lost responses if the submission has no chunks**: the server may answer with an error
although it has created the submission. -/
theorem C43_refuted_by_empty_submission : ¬ C43_full := by
  intro h
  have h := h 10 { chunkContents := .direct [] } emptyDisturbed [] (by decide +kernel) (by simp)
  unfold OneEffect at h
  rw [show (call 10 (.insert { chunkContents := .direct [] }) emptyDisturbed []).1 = .ok (.inserted 11) by
    decide +kernel] at h
  obtain ⟨k, -, -, h⟩ := h
  have h0 := (h 0 (by decide +kernel)).1 (by unfold Created; decide +kernel)
  have h1 := (h 1 (by decide +kernel)).1 (by unfold Created; decide +kernel)
  omega

private theorem attempt_extends (max : Nat) (c : Call) (a : Attempt) (hist : List Op) :
    ∃ l, (attempt max c a hist).2 = hist ++ l := by
  have hh : ∀ h, ∃ l, (handle max a.server (request c) h).2 = h ++ l := by
    intro h
    unfold handle
    split <;> (repeat' split) <;> first | exact ⟨_, rfl⟩ | exact ⟨[], by simp⟩
  obtain ⟨l, hl⟩ := hh (hist ++ a.before)
  simp only [attempt]
  split
  · split <;> exact ⟨a.before ++ l, by simp [hl]⟩
  · exact ⟨_, rfl⟩
  · exact ⟨a.before ++ l, by simp [hl]⟩
  · split
    · exact ⟨a.before ++ l, by simp [hl]⟩
    · exact ⟨_, rfl⟩

private theorem historyAfter_extends (max : Nat) (c : Call) (env : Nat → Attempt) (hist : List Op) {j k : Nat}
    (h : j ≤ k) : ∃ l, historyAfter max c env hist k = historyAfter max c env hist j ++ l := by
  induction k with
  | zero => exact ⟨[], by simp [Nat.le_zero.1 h]⟩
  | succ k ih =>
    by_cases hj : j = k + 1
    · exact ⟨[], by simp [hj]⟩
    · obtain ⟨l, hl⟩ := ih (by omega)
      obtain ⟨l', hl'⟩ := attempt_extends max c (env k) (historyAfter max c env hist k)
      refine ⟨l ++ l', ?_⟩
      rw [show historyAfter max c env hist (k + 1) = _ from hl', hl, List.append_assoc]

/-- One attempt of an insert whose answer, if there is one, arrives: it succeeds and creates a submission with the
generated id, or it fails and creates none. -/
private theorem insert_attempt (max : Nat) (r : InsertSubmission) (env : Nat → Attempt) (hist : List Op) (k : Nat)
    (hne : HasChunks r)
    (hnet : (env k).net = .ok ∨ ∃ e, (env k).net = .noRequest e) (hdied : ¬ DiedAt max (.insert r) env hist k)
    (hf : FreshIds (historyAfter max (.insert r) env hist (k + 1))) :
    (outcome max (.insert r) env hist k = .ok (.inserted (env k).server.id) ∧ Created max r env hist k) ∨
    ((∃ e, outcome max (.insert r) env hist k = .error e) ∧ ¬ Created max r env hist k) := by
  rcases hnet with hn | ⟨e, hn⟩
  case inr =>
    have ha : attempt max (.insert r) (env k) (historyAfter max (.insert r) env hist k) =
        (.error (.http e), historyAfter max (.insert r) env hist k ++ (env k).before) := by
      unfold attempt; simp only [hn]
    refine .inr ⟨⟨_, congrArg Prod.fst ha⟩, fun hc => hc.2 ?_⟩
    rw [show historyAfter max (.insert r) env hist (k + 1) = _ from congrArg Prod.snd ha]
    exact hc.1
  cases hc : (env k).server.connOk with
  | false =>
    have hh := handle_insert_noConn max (env k).server (historyAfter max (.insert r) env hist k ++ (env k).before) r hc
    have ha := attempt_ok hn hh
    refine .inr ⟨⟨_, congrArg Prod.fst ha⟩, fun hc => hc.2 ?_⟩
    rw [show historyAfter max (.insert r) env hist (k + 1) = _ from congrArg Prod.snd ha]
    exact hc.1
  | true =>
    have hh := handle_insert max (env k).server (historyAfter max (.insert r) env hist k ++ (env k).before) r hc
    have hdb : historyAfter max (.insert r) env hist (k + 1) =
        historyAfter max (.insert r) env hist k ++ (env k).before ++
          [.insert (insertArgs r (env k).server) (env k).server.now1 (env k).server.faults] := by
      show (attempt _ _ _ _).2 = _
      unfold attempt
      simp only [hn, hh]
      split <;> rfl
    have hcont : (insertArgs r (env k).server).contents ≠ [] := by
      unfold HasChunks at hne
      unfold insertArgs
      split at hne <;> simp_all
    rw [hdb] at hf
    have hf' : FreshIds (historyAfter max (.insert r) env hist k ++ (env k).before ++
        [.insert (insertArgs r (env k).server) (env k).server.now1 []]) := by
      unfold FreshIds at hf ⊢
      rw [List.filterMap_append] at hf ⊢
      exact hf
    have hclean := C10_insert_faithful _ _ _ hf' (lastOfEach_nodup _) _ _ (Prod.eta _).symm
    unfold DiedAt at hdied
    unfold outcome Created
    rw [hdb, run_snoc]
    rcases C10_insert_all_or_nothing (run (historyAfter max (.insert r) env hist k ++ (env k).before))
      (insertArgs r (env k).server) (env k).server.now1 hcont (env k).server.faults _ _ (Prod.eta _).symm with
      h | ⟨⟨e, h1⟩, h2⟩ | ⟨h1, -⟩
    · rw [Prod.eta] at h
      rw [h, hclean.1] at hh
      rw [h]
      have ha := attempt_ok hn hh
      refine .inl ⟨?_, statusAt_eq_none.2 ?_, ?_⟩
      · rw [ha]
        simp [interpret, checked, Except.map, insertArgs]
      · exact fun hm => fresh_run hf' (x := (env k).server.id) rfl (mem_usedIds.2 (.inl hm))
      · have := hclean.2.1 hcont
        rw [show (insertArgs r (env k).server).id = (env k).server.id from rfl] at this
        rw [this]
        simp
    · rw [h1] at hh
      have ha := attempt_ok hn hh
      rw [h2]
      refine .inr ⟨⟨.http { status := some 500 }, ?_⟩, fun hx => hx.2 hx.1⟩
      rw [ha]; rfl
    · rw [hh, h1] at hdied
      exact absurd rfl hdied

/-- **C43, as far as it holds**: if the submission has chunks, no response is lost and the server does not die, then a
successful insert call created exactly one submission, in its last attempt, and returns its id; a failed one
created none. Missing: lost responses, crashes, and submissions without chunks, where there can be duplicates. -/
theorem C43_one_effect_partial (max : Nat) (r : InsertSubmission) (env : Nat → Attempt) (hist : List Op)
    (hf : FreshIds (call max (.insert r) env hist).2.1) (hne : HasChunks r)
    (hnet : ∀ k < (call max (.insert r) env hist).2.2, (env k).net = .ok ∨ ∃ e, (env k).net = .noRequest e)
    (hdied : ∀ k < (call max (.insert r) env hist).2.2, ¬ DiedAt max (.insert r) env hist k) :
    OneEffect max r env hist := by
  obtain ⟨n, -, hcall, hearly, -⟩ := call_spec max hist (.insert r) (by simp) env
  unfold OneEffect
  rw [hcall] at hf hnet hdied ⊢
  simp only at hf hnet hdied ⊢
  have hatt : ∀ k < n + 1, _ := fun k hk => insert_attempt max r env hist k hne (hnet k hk) (hdied k hk) (by
    obtain ⟨l, hl⟩ := historyAfter_extends max (.insert r) env hist (j := k + 1) (k := n + 1) (by omega)
    rw [hl] at hf
    exact hf.prefix)
  have hno : ∀ k < n, ¬ Created max r env hist k := by
    intro k hk
    obtain ⟨e, he, -⟩ := hearly k hk
    rcases hatt k (by omega) with ⟨h, -⟩ | ⟨-, h⟩
    · rw [h] at he; cases he
    · exact h
  rcases hatt n (by omega) with ⟨h, hc⟩ | ⟨⟨e, h⟩, hc⟩
  · rw [h]
    refine ⟨n, rfl, rfl, fun j hj => ⟨fun hcj => ?_, fun e => e ▸ hc⟩⟩
    exact Classical.byContradiction fun hne => hno j (by omega) hcj
  · rw [h]
    intro j hj
    by_cases hjn : j = n
    · subst hjn; exact hc
    · exact hno j (by omega)

/-- A call that needs three attempts: the first request does not arrive, the second meets a database error. -/
example :
    let env : Nat → Attempt := fun i =>
      { net := if i = 0 then .noRequest { connect := true } else .ok
        server := { id := 10 + i, faults := if i = 1 then [.ok, .ok, .fail] else [] } }
    let r : InsertSubmission := { chunkContents := .direct [some [1], none], strategic := [("a", 1)] }
    FreshIds (call 10 (.insert r) env httpHistory).2.1 ∧ (call 10 (.insert r) env httpHistory).2.2 = 3 ∧
    (call 10 (.insert r) env httpHistory).1 = .ok (.inserted 12) ∧
    ¬ DiedAt 10 (.insert r) env httpHistory 1 ∧ ¬ Created 10 r env httpHistory 0 ∧ ¬ Created 10 r env httpHistory 1 ∧
    Created 10 r env httpHistory 2 := by
  refine ⟨by decide +kernel, by decide +kernel, by decide +kernel, ?_, ?_, ?_, ?_⟩
  · intro h
    exact absurd (congrArg Option.isSome h) (by decide +kernel)
  all_goals (unfold Created; decide +kernel)

/-! ### C57 -/

/-- **C57 in full**: if a submission is in progress and nobody else does anything, a cancel call does not report that it
could not be cancelled. -/
def C57_full : Prop :=
  ∀ (max : Nat) (id : SubmissionId) (env : Nat → Attempt) (hist : List Op) (s : Submission) (e : SubmissionNotCancellable),
    FreshIds hist → (∀ k, (env k).before = []) → (∀ k, ∀ p r, (env k).net ≠ .answeredBy p r) →
    statusAt (run hist) id = .ok (some (.inProgress s)) →
    (call max (.cancel id) env hist).1 ≠ .error (.notCancellable e)

/-- **The full C57 is false**: the response to the first attempt is lost, the second attempt finds the submission
cancelled. -/
theorem C57_refuted_by_lost_response : ¬ C57_full := by
  intro h
  refine h 10 2 lostResponse httpHistory
    { id := 2, pfx := none, chunksTotal := 1, chunksDone := 0, chunkSize := 1, metadata := some [0, 255],
      strategic := [("a", 1)], otel := "{}" }
    (.cancelled
      { id := 2, pfx := none, chunksTotal := 1, chunksDone := 0, metadata := some [0, 255], strategic := [("a", 1)],
        cancelledAt := 0 }) (by decide +kernel) (fun _ => rfl) ?_ (by decide +kernel)
    (by decide +kernel)
  intro k p r hk
  simp only [lostResponse] at hk
  split at hk <;> cases hk

/-- **C57, as far as it holds**: if no response is lost and the server does not die, then a cancel call for a
submission in progress that nobody else touches cancels it and says so, or fails and leaves it as it was, and what
it reports is never that the submission is unknown or could not be cancelled. Missing: lost responses and crashes. -/
theorem C57_cancel_says_so_partial (max : Nat) (id : SubmissionId) (hid : id < 2 ^ 63) (env : Nat → Attempt) (hist : List Op)
    (s : Submission) (hf : FreshIds hist) (hb : ∀ k, (env k).before = [])
    (hnet : ∀ k < (call max (.cancel id) env hist).2.2, (env k).net = .ok ∨ ∃ e, (env k).net = .noRequest e)
    (hdied : ∀ k < (call max (.cancel id) env hist).2.2, ¬ DiedAt max (.cancel id) env hist k)
    (hs : statusAt (run hist) id = .ok (some (.inProgress s))) :
    let r := call max (.cancel id) env hist
    (r.1 = .ok .cancelled ∧ ∃ s', statusAt (run r.2.1) id = .ok (some (.cancelled s'))) ∨
    (∃ e, r.1 = .error e ∧ (∀ x, e ≠ .notFound x) ∧ (∀ x, e ≠ .notCancellable x) ∧ run r.2.1 = run hist) := by
  obtain ⟨n, -, hcall, hearly, -⟩ := call_spec max hist (.cancel id) (by simp) env
  intro r
  have hr : r = _ := hcall
  rw [hcall] at hnet hdied
  simp only at hnet hdied
  -- each attempt cancels and says so, or fails and changes nothing
  have one : ∀ k < n + 1, run (historyAfter max (.cancel id) env hist k) = run hist →
      FreshIds (historyAfter max (.cancel id) env hist k) →
      FreshIds (historyAfter max (.cancel id) env hist (k + 1)) ∧
      ((outcome max (.cancel id) env hist k = .ok .cancelled ∧
        ∃ s', statusAt (run (historyAfter max (.cancel id) env hist (k + 1))) id = .ok (some (.cancelled s'))) ∨
      (∃ e, outcome max (.cancel id) env hist k = .error e ∧ (∀ x, e ≠ .notFound x) ∧ (∀ x, e ≠ .notCancellable x) ∧
        run (historyAfter max (.cancel id) env hist (k + 1)) = run hist)) := by
    intro k hk hrun hfk
    rcases hnet k hk with hn | ⟨e, hn⟩
    case inr =>
      have ha : attempt max (.cancel id) (env k) (historyAfter max (.cancel id) env hist k) =
          (.error (.http e), historyAfter max (.cancel id) env hist k) := by
        unfold attempt; simp only [hn, hb, List.append_nil]
      have ha2 : historyAfter max (.cancel id) env hist (k + 1) = _ := congrArg Prod.snd ha
      rw [ha2]
      exact ⟨hfk, .inr ⟨_, congrArg Prod.fst ha, by simp, by simp, hrun⟩⟩
    cases hc : (env k).server.connOk with
    | false =>
      have hh := handle_cancel_noConn max (env k).server (historyAfter max (.cancel id) env hist k ++ (env k).before)
        id hid hc
      have ha := attempt_ok hn hh
      have ha2 : historyAfter max (.cancel id) env hist (k + 1) = _ := congrArg Prod.snd ha
      rw [ha2, hb, List.append_nil]
      exact ⟨hfk, .inr ⟨_, congrArg Prod.fst ha, by simp [serverError], by simp [serverError], hrun⟩⟩
    | true =>
      obtain ⟨h1, h2, h3, h4⟩ := C42_cancel max id hid (env k) (historyAfter max (.cancel id) env hist k) hn hc
      rw [hb, List.append_nil] at h1 h2 h3 h4
      have ha2 : historyAfter max (.cancel id) env hist (k + 1) = _ := h1
      rw [ha2]
      refine ⟨hfk.add rfl, ?_⟩
      have hsk : statusAt (run (historyAfter max (.cancel id) env hist k)) id = .ok (some (.inProgress s)) := by
        rw [hrun]; exact hs
      rw [run_snoc]
      have hcl := C09_cancel_in_progress _ hfk id s hsk (env k).server.now1 (env k).server.now2 _ _ (Prod.eta _).symm
      rcases C09_cancel_in_progress_not_refused _ id s hsk (env k).server.now1 (env k).server.now2
        (env k).server.faults with h | ⟨e, h⟩ | h
      · refine .inl ⟨h2.2 h, ?_⟩
        rw [C11_success_is_full_effect _ _ rfl (by simp) (by rw [h]; rfl)]
        exact ⟨_, hcl.2.1⟩
      · have hat := C11_atomic (run (historyAfter max (.cancel id) env hist k))
          (.cancel id (env k).server.now1 (env k).server.now2 (env k).server.faults) rfl
        have hh := handle_cancel max (env k).server (historyAfter max (.cancel id) env hist k ++ (env k).before) id hid hc
        rw [hb, List.append_nil, h] at hh
        have ha : outcome max (.cancel id) env hist k = .error (.unexpectedStatus 500) := by
          unfold outcome attempt
          simp only [hn, hb, List.append_nil, hh]
          rfl
        refine .inr ⟨_, ha, by simp, by simp, ?_⟩
        rw [hat.2 (by rw [h]; rfl), hrun]
      · exfalso
        apply hdied k hk
        unfold DiedAt
        rw [hb, List.append_nil, handle_cancel max _ _ id hid hc, h]
        rfl
  have all : ∀ k ≤ n, run (historyAfter max (.cancel id) env hist k) = run hist ∧
      FreshIds (historyAfter max (.cancel id) env hist k) := by
    intro k
    induction k with
    | zero => exact fun _ => ⟨rfl, hf⟩
    | succ k ih =>
      intro hk
      obtain ⟨h1, h2⟩ := ih (by omega)
      obtain ⟨h3, h4⟩ := one k (by omega) h1 h2
      obtain ⟨e, he, -⟩ := hearly k (by omega)
      rcases h4 with ⟨h4, -⟩ | ⟨e', -, -, -, h4⟩
      · rw [h4] at he; cases he
      · exact ⟨h4, h3⟩
  obtain ⟨h1, h2⟩ := all n (Nat.le_refl n)
  rw [hr]
  exact (one n (by omega) h1 h2).2

/-- The hypotheses hold of a call whose first request does not arrive, and of one that meets a database error. -/
example :
    let env : Nat → Attempt := fun i => { net := if i = 0 then .noRequest { connect := true } else .ok }
    let env' : Nat → Attempt := fun _ => { server := { faults := [.ok, .ok, .fail] } }
    statusAt (run httpHistory) 2 = .ok (some (.inProgress
      { id := 2, pfx := none, chunksTotal := 1, chunksDone := 0, chunkSize := 1, metadata := some [0, 255],
        strategic := [("a", 1)], otel := "{}" })) ∧
    (call 10 (.cancel 2) env httpHistory).1 = .ok .cancelled ∧ (call 10 (.cancel 2) env httpHistory).2.2 = 2 ∧
    (call 10 (.cancel 2) env' httpHistory).1 = .error (.unexpectedStatus 500) ∧
    (call 10 (.cancel 2) lostResponse httpHistory).1 = .error (.notCancellable (.cancelled
      { id := 2, pfx := none, chunksTotal := 1, chunksDone := 0, metadata := some [0, 255],
        strategic := [("a", 1)], cancelledAt := 0 })) := by
  decide +kernel

end Opsqueue.Http
