import Verif.Model.Wire
import Verif.Proofs.Rfc3339

/-! # Everything sent as JSON is read back as it was -/

namespace Opsqueue.Wire

@[simp] theorem nat_rt (n : Nat) : decNat (encNat n) = some n := by simp [decNat, encNat]

@[simp] theorem int_rt (n : Int) : decInt (encInt n) = some n := rfl

@[simp] theorem str_rt (s : String) : decStr (encStr s) = some s := rfl

@[simp] theorem time_rt (t : Time) : decTime (encTime t) = some t := by
  simp [decTime, encTime, Rfc3339.parse_print]

@[simp] theorem u8_rt (b : UInt8) : decU8 (encU8 b) = some b := by
  have h : b.toNat < 256 := b.toNat_lt
  simp only [decU8, encU8]
  rw [if_pos (by omega)]
  simp

theorem mapM_rt {α β : Type} {f : α → β} {g : β → Option α} (h : ∀ a, g (f a) = some a) (xs : List α) :
    (xs.map f).mapM g = some xs := by
  induction xs with
  | nil => simp
  | cons x xs ih => simp [h, ih]

theorem list_rt {α : Type} {f : α → Json} {g : Json → Option α} (h : ∀ a, g (f a) = some a) (xs : List α) :
    decList g (encList f xs) = some xs := mapM_rt h xs

@[simp] theorem nats_rt (xs : List Nat) : decList decNat (encList encNat xs) = some xs := list_rt nat_rt xs

@[simp] theorem bytes_rt (b : Bytes) : decBytes (encBytes b) = some b := list_rt u8_rt b

theorem opt_rt {α : Type} {f : α → Json} {g : Json → Option α} (h : ∀ a, g (f a) = some a)
    (hn : ∀ a, f a ≠ .null) (x : Option α) : decOpt g (encOpt f x) = some x := by
  cases x with
  | none => rfl
  | some a =>
    simp only [encOpt]
    unfold decOpt
    split
    · rename_i heq; exact absurd heq (hn a)
    · rw [h]; rfl

@[simp] theorem optStr_rt (x : Option String) : decOpt decStr (encOpt encStr x) = some x :=
  opt_rt str_rt (by simp [encStr]) x

@[simp] theorem optBytes_rt (x : Option Bytes) : decOpt decBytes (encOpt encBytes x) = some x :=
  opt_rt bytes_rt (by simp [encBytes, encList]) x

@[simp] theorem optNat_rt (x : Option Nat) : decOpt decNat (encOpt encNat x) = some x :=
  opt_rt nat_rt (by simp [encNat]) x

@[simp] theorem optInt_rt (x : Option Int) : decOpt decInt (encOpt encInt x) = some x :=
  opt_rt int_rt (by simp [encInt]) x

@[simp] theorem contents_rt (x : List Content) :
    decList (decOpt decBytes) (encList (encOpt encBytes) x) = some x := list_rt optBytes_rt x

@[simp] theorem map_rt (m : StrategicMetadata) : decMap (encMap m) = some m :=
  mapM_rt (f := fun kv : String × Int => (kv.1, encInt kv.2))
    (g := fun kv : String × Json => (decInt kv.2).map fun v => (kv.1, v)) (fun a => by simp) m

theorem mem_lastOfEach {m : StrategicMetadata} {kv : String × Int} (h : kv ∈ lastOfEach m) : kv ∈ m := by
  induction m with
  | nil => exact h
  | cons x m ih =>
    rw [lastOfEach] at h
    split at h
    · exact List.mem_cons_of_mem _ (ih h)
    · rcases List.mem_cons.1 h with rfl | h
      · simp
      · exact List.mem_cons_of_mem _ (ih h)

theorem lastOfEach_nodup (m : StrategicMetadata) : ((lastOfEach m).map (·.1)).Nodup := by
  induction m with
  | nil => simp [lastOfEach]
  | cons x m ih =>
    rw [lastOfEach]
    split
    · exact ih
    · rename_i h
      rw [List.map_cons, List.nodup_cons]
      refine ⟨fun hx => h ?_, ih⟩
      obtain ⟨y, hy, e⟩ := List.mem_map.1 hx
      exact List.any_eq_true.2 ⟨y, mem_lastOfEach hy, by simp [e]⟩

@[simp] theorem lastOfEach_self {m : StrategicMetadata} (h : (m.map (·.1)).Nodup) : lastOfEach m = m := by
  induction m with
  | nil => rfl
  | cons x m ih =>
    rw [List.map_cons, List.nodup_cons] at h
    rw [lastOfEach, if_neg, ih h.2]
    intro hx
    obtain ⟨y, hy, e⟩ := List.any_eq_true.1 hx
    exact h.1 (List.mem_map.2 ⟨y, hy, by simpa using e⟩)

@[simp] theorem submission_rt (s : Submission) : decSubmission (encSubmission s) = some s := by
  simp [decSubmission, encSubmission, field, optField, mapField, lookupField, List.filter]

@[simp] theorem completed_rt (s : SubmissionCompleted) : decCompleted (encCompleted s) = some s := by
  simp [decCompleted, encCompleted, field, optField, mapField, lookupField, List.filter]

@[simp] theorem failed_rt (s : SubmissionFailed) : decFailed (encFailed s) = some s := by
  simp [decFailed, encFailed, field, optField, mapField, lookupField, List.filter]

@[simp] theorem cancelled_rt (s : SubmissionCancelled) : decCancelled (encCancelled s) = some s := by
  simp [decCancelled, encCancelled, field, optField, mapField, lookupField, List.filter]

@[simp] theorem chunkFailed_rt (s : ChunkFailed) : decChunkFailed (encChunkFailed s) = some s := by
  simp [decChunkFailed, encChunkFailed, field, optField, lookupField, List.filter]

@[simp] theorem failedPair_rt (s : SubmissionFailed) (c : ChunkFailed) :
    decFailedPair (.arr [encFailed s, encChunkFailed c]) = some (s, c) := by
  simp [decFailedPair]

@[simp] theorem status_rt (s : SubmissionStatus) : decStatus (encStatus s) = some s := by
  cases s <;> simp [decStatus, encStatus]

@[simp] theorem optStatus_rt (x : Option SubmissionStatus) : decOpt decStatus (encOpt encStatus x) = some x :=
  opt_rt status_rt (by intro s; cases s <;> simp [encStatus]) x

@[simp] theorem notFound_rt (e : SubmissionNotFound) : decNotFound (encNotFound e) = some e := by
  simp [decNotFound, encNotFound]

@[simp] theorem notCancellable_rt (e : SubmissionNotCancellable) :
    decNotCancellable (encNotCancellable e) = some e := by
  cases e <;> simp [decNotCancellable, encNotCancellable]

@[simp] theorem tooMany_rt (e : SubmissionDb.TooManyMatchingSubmissions) : decTooMany (encTooMany e) = some e := by
  simp [decTooMany, encTooMany]

@[simp] theorem chunkContents_rt (c : ChunkContents) : decContents (encContents c) = some c := by
  cases c <;> simp [decContents, encContents, asObject, field, lookupField, List.filter]

@[simp] theorem insert_rt (r : InsertSubmission) : decInsert (encInsert r) = some r := by
  simp [decInsert, decInsertFields, asObject, encInsert, field, optField, mapField, lookupField, List.filter]

end Opsqueue.Wire
