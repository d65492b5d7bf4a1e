import Verif.Spec.Answers
import Verif.Proofs.Documents
import Verif.Proofs.Times

/-! # Lemmas for C64: what a producer concludes from a response -/

namespace Opsqueue.Wire
open Http Messages

theorem decTime_iff {j : Json} {t : Time} : decTime j = some t ↔ j = encTime t := by
  cases j with
  | str s =>
    simp only [decTime, encTime, Rfc3339.parse_iff, Json.str.injEq]
    constructor
    · intro h; rw [← h]; simp
    · rintro rfl; simp
  | _ => simp [decTime, encTime]

theorem field_time {name : String} {fs : List (String × Json)} {t : Time} :
    (field name (.obj fs) >>= decTime) = some t ↔ HasTime name t fs := by
  rw [show (field name (.obj fs) >>= decTime) = some t ↔ Has name (encTime t) fs from
    bind_field_eq (f := encTime) fun _ _ => decTime_iff]
  constructor
  · intro h
    exact ⟨_, h, by simpa using Rfc3339.says_iff.2 rfl⟩
  · rintro ⟨text, h, h2⟩
    have := Rfc3339.says_iff.1 h2
    unfold encTime
    rw [← this]
    simpa using h

theorem opt_nat {name : String} {fs : List (String × Json)} {x : Option Nat} :
    (optField name (.obj fs) >>= decOpt decNat) = some x ↔ Optionally name (fun n : Nat => .num n) fs x :=
  optField_iff (fun _ _ => decNat_iff) (by simp)

theorem decCompleted_iff {j : Json} {s : SubmissionCompleted} : decCompleted j = some s ↔ SaysCompleted j s := by
  unfold decCompleted SaysCompleted
  constructor
  · intro h
    obtain ⟨a, h1, h⟩ := Option.bind_eq_some_iff.1 h
    obtain ⟨b, h2, h⟩ := Option.bind_eq_some_iff.1 h
    obtain ⟨c, h3, h⟩ := Option.bind_eq_some_iff.1 h
    obtain ⟨d, h4, h⟩ := Option.bind_eq_some_iff.1 h
    obtain ⟨e, h5, h⟩ := Option.bind_eq_some_iff.1 h
    obtain ⟨f, h6, h⟩ := Option.bind_eq_some_iff.1 h
    obtain ⟨g, h7, h⟩ := Option.bind_eq_some_iff.1 h
    obtain ⟨o, h8, h⟩ := Option.bind_eq_some_iff.1 h
    cases h
    obtain ⟨fs, rfl⟩ := bind_field_obj h1
    exact ⟨fs, rfl, field_nat.1 h1, opt_str.1 h2, field_nat.1 h3, field_int.1 h4, opt_bytes.1 h5, mapField_iff.1 h6,
      field_time.1 h7, field_str.1 h8⟩
  · rintro ⟨fs, rfl, h1, h2, h3, h4, h5, h6, h7, h8⟩
    rw [field_nat.2 h1, opt_str.2 h2, field_nat.2 h3, field_int.2 h4, opt_bytes.2 h5, mapField_iff.2 h6,
      field_time.2 h7, field_str.2 h8]
    rfl

theorem decFailed_iff {j : Json} {s : SubmissionFailed} : decFailed j = some s ↔ SaysFailed j s := by
  unfold decFailed SaysFailed
  constructor
  · intro h
    obtain ⟨a, h1, h⟩ := Option.bind_eq_some_iff.1 h
    obtain ⟨b, h2, h⟩ := Option.bind_eq_some_iff.1 h
    obtain ⟨c, h3, h⟩ := Option.bind_eq_some_iff.1 h
    obtain ⟨d, h4, h⟩ := Option.bind_eq_some_iff.1 h
    obtain ⟨e, h5, h⟩ := Option.bind_eq_some_iff.1 h
    obtain ⟨f, h6, h⟩ := Option.bind_eq_some_iff.1 h
    obtain ⟨g, h7, h⟩ := Option.bind_eq_some_iff.1 h
    obtain ⟨i, h8, h⟩ := Option.bind_eq_some_iff.1 h
    obtain ⟨k, h9, h⟩ := Option.bind_eq_some_iff.1 h
    obtain ⟨o, h10, h⟩ := Option.bind_eq_some_iff.1 h
    cases h
    obtain ⟨fs, rfl⟩ := bind_field_obj h1
    exact ⟨fs, rfl, field_nat.1 h1, opt_str.1 h2, field_nat.1 h3, opt_nat.1 h4, field_int.1 h5, opt_bytes.1 h6,
      mapField_iff.1 h7, field_time.1 h8, field_nat.1 h9, field_str.1 h10⟩
  · rintro ⟨fs, rfl, h1, h2, h3, h4, h5, h6, h7, h8, h9, h10⟩
    rw [field_nat.2 h1, opt_str.2 h2, field_nat.2 h3, opt_nat.2 h4, field_int.2 h5, opt_bytes.2 h6, mapField_iff.2 h7,
      field_time.2 h8, field_nat.2 h9, field_str.2 h10]
    rfl

theorem decCancelled_iff {j : Json} {s : SubmissionCancelled} : decCancelled j = some s ↔ SaysCancelled j s := by
  unfold decCancelled SaysCancelled
  constructor
  · intro h
    obtain ⟨a, h1, h⟩ := Option.bind_eq_some_iff.1 h
    obtain ⟨b, h2, h⟩ := Option.bind_eq_some_iff.1 h
    obtain ⟨c, h3, h⟩ := Option.bind_eq_some_iff.1 h
    obtain ⟨d, h4, h⟩ := Option.bind_eq_some_iff.1 h
    obtain ⟨e, h5, h⟩ := Option.bind_eq_some_iff.1 h
    obtain ⟨f, h6, h⟩ := Option.bind_eq_some_iff.1 h
    obtain ⟨g, h7, h⟩ := Option.bind_eq_some_iff.1 h
    cases h
    obtain ⟨fs, rfl⟩ := bind_field_obj h1
    exact ⟨fs, rfl, field_nat.1 h1, opt_str.1 h2, field_nat.1 h3, field_nat.1 h4, opt_bytes.1 h5, mapField_iff.1 h6,
      field_time.1 h7⟩
  · rintro ⟨fs, rfl, h1, h2, h3, h4, h5, h6, h7⟩
    rw [field_nat.2 h1, opt_str.2 h2, field_nat.2 h3, field_nat.2 h4, opt_bytes.2 h5, mapField_iff.2 h6,
      field_time.2 h7]
    rfl

theorem decChunkFailed_iff {j : Json} {c : ChunkFailed} : decChunkFailed j = some c ↔ SaysChunkFailed j c := by
  unfold decChunkFailed SaysChunkFailed
  constructor
  · intro h
    obtain ⟨a, h1, h⟩ := Option.bind_eq_some_iff.1 h
    obtain ⟨b, h2, h⟩ := Option.bind_eq_some_iff.1 h
    obtain ⟨c, h3, h⟩ := Option.bind_eq_some_iff.1 h
    obtain ⟨d, h4, h⟩ := Option.bind_eq_some_iff.1 h
    obtain ⟨e, h5, h⟩ := Option.bind_eq_some_iff.1 h
    cases h
    obtain ⟨fs, rfl⟩ := bind_field_obj h1
    exact ⟨fs, rfl, field_nat.1 h1, field_nat.1 h2, opt_bytes.1 h3, field_str.1 h4, field_time.1 h5⟩
  · rintro ⟨fs, rfl, h1, h2, h3, h4, h5⟩
    rw [field_nat.2 h1, field_nat.2 h2, opt_bytes.2 h3, field_str.2 h4, field_time.2 h5]
    rfl

theorem decFailedPair_iff {j : Json} {s : SubmissionFailed} {c : ChunkFailed} :
    decFailedPair j = some (s, c) ↔ ∃ v w, j = .arr [v, w] ∧ SaysFailed v s ∧ SaysChunkFailed w c := by
  constructor
  · intro h
    unfold decFailedPair at h
    split at h
    · obtain ⟨s', h1, h⟩ := Option.bind_eq_some_iff.1 h
      obtain ⟨c', h2, h⟩ := Option.bind_eq_some_iff.1 h
      cases h
      exact ⟨_, _, rfl, decFailed_iff.1 h1, decChunkFailed_iff.1 h2⟩
    · cases h
  · rintro ⟨v, w, rfl, h1, h2⟩
    simp only [decFailedPair, decFailed_iff.2 h1, decChunkFailed_iff.2 h2]
    rfl

theorem decStatus_iff {j : Json} {s : SubmissionStatus} : decStatus j = some s ↔ SaysStatus j s := by
  constructor
  · intro h
    unfold decStatus at h
    split at h
    · split at h
      · rename_i ht; subst ht
        obtain ⟨x, h1, rfl⟩ := Option.map_eq_some_iff.1 h
        exact ⟨_, rfl, decSubmission_iff.1 h1⟩
      · split at h
        · rename_i ht; subst ht
          obtain ⟨x, h1, rfl⟩ := Option.map_eq_some_iff.1 h
          exact ⟨_, rfl, decCompleted_iff.1 h1⟩
        · split at h
          · rename_i ht; subst ht
            obtain ⟨⟨x, y⟩, h1, rfl⟩ := Option.map_eq_some_iff.1 h
            obtain ⟨v, w, rfl, h2, h3⟩ := decFailedPair_iff.1 h1
            exact ⟨v, w, rfl, h2, h3⟩
          · split at h
            · rename_i ht; subst ht
              obtain ⟨x, h1, rfl⟩ := Option.map_eq_some_iff.1 h
              exact ⟨_, rfl, decCancelled_iff.1 h1⟩
            · cases h
    · cases h
  · cases s with
    | inProgress s => rintro ⟨v, rfl, h1⟩; simp [decStatus, decSubmission_iff.2 h1]
    | completed s => rintro ⟨v, rfl, h1⟩; simp [decStatus, decCompleted_iff.2 h1]
    | failed s c => rintro ⟨v, w, rfl, h1, h2⟩; simp [decStatus, decFailedPair_iff.2 ⟨v, w, rfl, h1, h2⟩]
    | cancelled s => rintro ⟨v, rfl, h1⟩; simp [decStatus, decCancelled_iff.2 h1]

/-- The status a refused cancellation gives as the reason. -/
def asStatus : SubmissionNotCancellable → SubmissionStatus
  | .completed s => .completed s
  | .failed s c => .failed s c
  | .cancelled s => .cancelled s

theorem decNotCancellable_iff {j : Json} {e : SubmissionNotCancellable} :
    decNotCancellable j = some e ↔ SaysStatus j (asStatus e) := by
  rw [← decStatus_iff]
  unfold decNotCancellable decStatus
  split
  · rename_i tag v
    by_cases h0 : tag = "InProgress"
    · subst h0
      cases e <;> simp [asStatus]
    rw [if_neg h0]
    by_cases h1 : tag = "Completed"
    · subst h1
      cases e <;> simp [asStatus]
    rw [if_neg h1, if_neg h1]
    by_cases h2 : tag = "Failed"
    · subst h2
      cases e <;> simp [asStatus]
    rw [if_neg h2, if_neg h2]
    by_cases h3 : tag = "Cancelled"
    · subst h3
      cases e <;> simp [asStatus]
    rw [if_neg h3, if_neg h3]
    simp
  · simp

end Opsqueue.Wire

namespace Opsqueue.Http
open Wire

theorem checked_ok {α : Type} {dec : Json → Option α} {r : Response} {a : α} :
    checked dec r = .ok a ↔ NoError r ∧ dec r.body = some a := by
  unfold checked NoError
  by_cases h : 400 ≤ r.status ∧ r.status < 600
  · rw [if_pos h]; simp; omega
  · rw [if_neg h]
    have : r.status < 400 ∨ 600 ≤ r.status := by omega
    cases dec r.body <;> simp [this]

theorem checked_map_ok {α : Type} {dec : Json → Option α} {r : Response} {f : α → Result} {x : Result} :
    (checked dec r).map f = .ok x ↔ ∃ a, f a = x ∧ NoError r ∧ dec r.body = some a := by
  rw [show ((checked dec r).map f = .ok x) ↔ ∃ a, checked dec r = .ok a ∧ f a = x by
    cases checked dec r <;> simp [Except.map]]
  simp only [checked_ok]
  constructor
  · rintro ⟨a, ⟨h1, h2⟩, h3⟩; exact ⟨a, h3, h1, h2⟩
  · rintro ⟨a, h3, h1, h2⟩; exact ⟨a, ⟨h1, h2⟩, h3⟩

theorem checked_err {α : Type} {dec : Json → Option α} {r : Response} {f : α → Result} {e : ClientErr}
    (h : (checked dec r).map f = .error e) : ¬ Explained e := by
  unfold checked at h
  repeat' split at h
  all_goals simp only [Except.map, Except.error.injEq, reduceCtorEq] at h
  all_goals subst h; simp [Explained]

theorem jsonOr_ok {α : Type} {dec : Json → Option α} {r : Response} {k : α → Except ClientErr Result} {x : Result} :
    jsonOr dec r k = .ok x ↔ ∃ a, dec r.body = some a ∧ k a = .ok x := by
  unfold jsonOr
  cases dec r.body <;> simp

theorem jsonOr_err {α : Type} {dec : Json → Option α} {r : Response} {k : α → Except ClientErr Result} {e : ClientErr}
    (he : Explained e) : jsonOr dec r k = .error e ↔ ∃ a, dec r.body = some a ∧ k a = .error e := by
  unfold jsonOr
  cases dec r.body with
  | none =>
    simp only [reduceCtorEq, false_and, exists_false, iff_false, Except.error.injEq]
    rintro rfl
    exact he
  | some a => simp

theorem interpret_ok {c : Call} {r : Response} {x : Result} : interpret c r = .ok x ↔ Tells c r x := by
  cases c with
  | count =>
    simp only [interpret, checked_map_ok]
    cases x <;> simp [Tells, Messages.decU32_iff]
  | insert _ =>
    simp only [interpret, checked_map_ok]
    cases x <;> simp [Tells, decNat_iff]
  | cancel _ =>
    simp only [interpret]
    split
    · cases x <;> simp_all [Tells]
    · split
      · cases x <;> simp_all [Tells, jsonOr_ok]
      · split
        · cases x <;> simp_all [Tells, jsonOr_ok]
        · cases x <;> simp_all [Tells]
  | get _ =>
    simp only [interpret, checked_map_ok]
    cases x with
    | status s =>
      have hn : ∀ s, decOpt decStatus r.body = some (some s) ↔ SaysStatus r.body s := by
        intro s
        rw [← decStatus_iff]
        cases r.body <;> simp [decOpt, decStatus]
      have hz : decOpt decStatus r.body = some none ↔ r.body = .null := by
        cases r.body <;> simp [decOpt]
      cases s with
      | none => simp [Tells, hz]
      | some s => simp [Tells, hn]
    | _ => simp [Tells]
  | lookupPrefix _ =>
    simp only [interpret, checked_map_ok]
    cases x with
    | found s =>
      have h := fun x => decOpt_iff (f := fun n : Nat => Json.num n) (g := decNat) (fun _ _ => decNat_iff) (by simp)
        (j := r.body) (x := x)
      cases s with
      | none => simp [Tells, h]
      | some s => simp [Tells, h]
    | _ => simp [Tells]
  | lookup _ =>
    simp only [interpret]
    have h := fun x => decList_iff (f := fun n : Nat => Json.num n) (g := decNat) (fun _ _ => decNat_iff)
        (j := r.body) (xs := x)
    split
    · cases x <;> simp_all [Tells, jsonOr_ok]
    · split
      · cases x <;> simp_all [Tells, jsonOr_ok]
      · cases x <;> simp_all [Tells]
  | version =>
    simp only [interpret, checked_map_ok]
    cases x <;> simp [Tells, decStr_iff]

theorem interpret_err {c : Call} {r : Response} {e : ClientErr} (he : Explained e) :
    interpret c r = .error e ↔ TellsError c r e := by
  cases c with
  | cancel _ =>
    simp only [interpret]
    by_cases h1 : r.status = 200
    · rw [if_pos h1]
      cases e with
      | notFound e => simp [TellsError, h1]
      | notCancellable e => cases e <;> simp [TellsError, h1]
      | tooMany e => simp [TellsError]
      | _ => exact absurd he (by simp [Explained])
    rw [if_neg h1]
    by_cases h2 : r.status = 404
    · rw [if_pos h2, jsonOr_err he]
      cases e with
      | notFound e =>
        obtain ⟨id⟩ := e
        simp [TellsError, h2, decNotFound, decNat_iff]
      | notCancellable e => cases e <;> simp [TellsError, h2]
      | tooMany e => simp [TellsError]
      | _ => exact absurd he (by simp [Explained])
    rw [if_neg h2]
    by_cases h3 : r.status = 409
    · rw [if_pos h3, jsonOr_err he]
      simp only [decNotCancellable_iff]
      cases e with
      | notFound e => simp [TellsError, h3]
      | notCancellable e => cases e <;> simp [TellsError, h3, asStatus]
      | tooMany e => simp [TellsError]
      | _ => exact absurd he (by simp [Explained])
    rw [if_neg h3]
    cases e with
    | notFound e => simp [TellsError, h2]
    | notCancellable e => cases e <;> simp [TellsError, h3]
    | tooMany e => simp [TellsError]
    | _ => exact absurd he (by simp [Explained])
  | lookup _ =>
    simp only [interpret]
    by_cases h1 : r.status = 200
    · rw [if_pos h1, jsonOr_err he]
      cases e <;> simp [TellsError, h1]
    rw [if_neg h1]
    by_cases h2 : r.status = 400
    · rw [if_pos h2, jsonOr_err he]
      cases e with
      | tooMany e =>
        obtain ⟨m⟩ := e
        simp [TellsError, h2, decTooMany, decNat_iff]
      | _ => simp [TellsError]
    rw [if_neg h2]
    cases e with
    | unexpectedStatus s => exact absurd he (by simp [Explained])
    | _ => simp [TellsError, h2]
  | _ =>
    simp only [interpret]
    constructor
    · intro h; exact absurd he (checked_err h)
    · intro h; cases e <;> simp [TellsError] at h

end Opsqueue.Http
