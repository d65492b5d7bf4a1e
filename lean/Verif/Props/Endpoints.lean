import Verif.Proofs.Alive
import Verif.Proofs.Endpoints
import Verif.Proofs.Answers
import Verif.Props.Atomicity
import Verif.Props.Reads
import Verif.Spec.Http

/-!
# C41, C63, C64: what makes a client try again, which requests the server acts on, and that reads are true
-/

namespace Opsqueue.Http
open SubmissionDb Wire

/-! ### C41 -/

private theorem checked_retry {α : Type} (dec : Json → Option α) (f : α → Result) (r : Response) :
    (∃ e, (checked dec r).map f = .error e ∧ isEphemeral e = true) ↔ 500 ≤ r.status ∧ r.status < 600 := by
  unfold checked
  split
  · rename_i h
    simp only [Except.map, Except.error.injEq, exists_eq_left', isEphemeral]
    simp
  · rename_i h
    cases dec r.body with
    | none =>
      simp only [Except.map, Except.error.injEq, exists_eq_left', isEphemeral]
      simp; omega
    | some a =>
      simp only [Except.map, reduceCtorEq, false_and, exists_false, false_iff]
      omega

private theorem none_iff {α : Type} {o : Option α} {P : α → Prop} (h : ∀ a, o = some a ↔ P a) :
    o = none ↔ ∀ a, ¬ P a := by
  cases o with
  | none => simp only [true_iff]; exact fun a ha => by cases (h a).2 ha
  | some a => simp only [reduceCtorEq, false_iff]; exact fun hn => hn a ((h a).1 rfl)

private theorem json_retry {α : Type} (dec : Json → Option α) (r : Response) (k : α → Except ClientErr Result)
    (hk : ∀ a e, k a = .error e → isEphemeral e = false) :
    (∃ e, jsonOr dec r k = .error e ∧ isEphemeral e = true) ↔ dec r.body = none := by
  unfold jsonOr
  cases dec r.body with
  | none => simp [isEphemeral]
  | some a =>
    simp only [reduceCtorEq, iff_false, not_exists, not_and, Bool.not_eq_true]
    exact fun e he => hk a e he

private theorem decNotFound_none {j : Json} : decNotFound j = none ↔ ∀ n : Nat, j ≠ .num n := by
  unfold decNotFound
  rw [Option.map_eq_none_iff]
  exact none_iff fun a => decNat_iff

private theorem decTooMany_none {j : Json} : decTooMany j = none ↔ ∀ n : Nat, j ≠ .num n := by
  unfold decTooMany
  rw [Option.map_eq_none_iff]
  exact none_iff fun a => decNat_iff

private theorem interpret_retry {c : Call} (hv : c ≠ .version) (r : Response) :
    (∃ e, interpret c r = .error e ∧ isEphemeral e = true) ↔ WorthRetrying c (.answer r) := by
  cases c with
  | version => exact absurd rfl hv
  | count => exact checked_retry _ _ r
  | insert q => exact checked_retry _ _ r
  | get id => exact checked_retry _ _ r
  | lookupPrefix p => exact checked_retry _ _ r
  | cancel id =>
    simp only [interpret, WorthRetrying, ← decNotFound_none]
    by_cases h2 : r.status = 200
    · simp [h2]
    by_cases h4 : r.status = 404
    · rw [if_neg h2, if_pos h4, json_retry _ _ _ (by simp [isEphemeral])]; simp [h4]
    by_cases h9 : r.status = 409
    · rw [if_neg h2, if_neg h4, if_pos h9, json_retry _ _ _ (by simp [isEphemeral])]; simp [h9]
    · rw [if_neg h2, if_neg h4, if_neg h9]; simp [isEphemeral, h4, h9]
  | lookup m =>
    have hl : decList decNat r.body = none ↔ ∀ ns : List Nat, r.body ≠ .arr (ns.map fun n => .num (n : Nat)) :=
      none_iff fun ns => decList_iff (fun _ _ => decNat_iff)
    simp only [interpret, WorthRetrying, ← decTooMany_none, ← hl]
    by_cases h2 : r.status = 200
    · rw [if_pos h2, json_retry _ _ _ (by simp)]; simp [h2]
    by_cases h4 : r.status = 400
    · rw [if_neg h2, if_pos h4, json_retry _ _ _ (by simp [isEphemeral])]; simp [h4]
    · rw [if_neg h2, if_neg h4]; simp [isEphemeral, h2, h4]

private theorem nothing_retry (c : Call) (x : ReqwestError) :
    (∃ e, (Except.error (.http x) : Except ClientErr Result) = .error e ∧ isEphemeral e = true) ↔
      WorthRetrying c (.nothing x) := by
  simp only [Except.error.injEq, exists_eq_left', isEphemeral_iff]
  cases c <;> simp [WorthRetrying]

private theorem attempt_retry {max : Nat} {c : Call} (hv : c ≠ .version) (a : Attempt) (hist : List Op) :
    (∃ e, (attempt max c a hist).1 = .error e ∧ isEphemeral e = true) ↔
      WorthRetrying c (received max c a hist) := by
  unfold attempt received
  cases a.net with
  | ok =>
    simp only
    cases (handle max a.server (request c) (hist ++ a.before)).1 with
    | some r => exact interpret_retry hv r
    | none => exact nothing_retry c _
  | noRequest e => exact nothing_retry c _
  | noResponse e => exact nothing_retry c _
  | answeredBy p r => exact interpret_retry hv r

/-- **C41, exactly.** Every call but the one for the version makes at most 101 attempts and returns what the last one
gave; every attempt but the last ended with something worth retrying, and the last did not, unless it was the
101st. What is worth retrying is said in terms of what the client received (`WorthRetrying`). -/
theorem C41_what_is_retried (max : Nat) (c : Call) (env : Nat → Attempt) (hist : List Op) (hv : c ≠ .version) :
    ∃ n, n ≤ 100 ∧ call max c env hist = (outcome max c env hist n, historyAfter max c env hist (n + 1), n + 1) ∧
      (∀ k < n, WorthRetrying c (received max c (env k) (historyAfter max c env hist k))) ∧
      (n = 100 ∨ ¬ WorthRetrying c (received max c (env n) (historyAfter max c env hist n))) := by
  obtain ⟨n, hn, hcall, h1, h2⟩ := call_spec max hist c hv env
  refine ⟨n, hn, hcall, fun k hk => ?_, ?_⟩
  · exact (attempt_retry hv _ _).1 (h1 k hk)
  · rcases h2 with h2 | h2
    · exact .inl h2
    · refine .inr fun hw => ?_
      obtain ⟨e, he, hp⟩ := (attempt_retry hv _ _).2 hw
      exact h2 e he hp

/-- A proxy's 404 page in answer to a cancel is retried; the server's own 404 is not. -/
example :
    (call 10 (.cancel 3) (fun i => if i < 2 then { net := .answeredBy false ⟨404, .str "<html>"⟩ } else {}) []).2.2 = 3 ∧
    (call 10 (.cancel 3) (fun i => if i < 2 then { net := .answeredBy false ⟨404, .str "<html>"⟩ } else {}) []).1 =
      .error (.notFound ⟨3⟩) := by
  decide +kernel

/-! ### C63 -/

private theorem path_insert {post : Bool} {path : List Seg} (h : route post path = .insert) :
    post = true ∧ path = submissionsPath [] := by
  unfold route Route.onlyIf at h
  repeat' split at h
  all_goals first | (exfalso; simp at h; done) | skip
  all_goals simp_all [submissionsPath]

private theorem path_cancel {post : Bool} {path : List Seg} {seg : Seg} (h : route post path = .cancel seg) :
    post = true ∧ seg ≠ [] ∧ path = submissionsPath ["cancel".toList, seg] := by
  unfold route Route.onlyIf at h
  repeat' split at h
  all_goals first | (exfalso; simp at h; done) | skip
  all_goals simp_all [submissionsPath]

private theorem route_submissions (post : Bool) :
    route post (submissionsPath []) = if post then .insert else .notAllowed := by
  cases post <;> decide +kernel

private theorem route_lookup_path : route true (submissionsPath ["lookup_ids_by_strategic_metadata".toList]) = .lookup := by
  decide +kernel

private theorem route_cancel_path {seg : Seg} (h : seg ≠ []) :
    route true (submissionsPath ["cancel".toList, seg]) = .cancel seg := by
  unfold submissionsPath
  rw [route_four _ _ _ h, if_pos rfl]
  rfl

private def words : List Seg :=
  ["count_completed".toList, "count".toList, "lookup_ids_by_strategic_metadata".toList]

private theorem route_status_path {seg : Seg} (h : seg ≠ []) (hw : seg ∉ words) :
    route false (submissionsPath [seg]) = .status seg := by
  unfold submissionsPath
  simp only [words, List.mem_cons, List.not_mem_nil, or_false, not_or] at hw
  rw [route_three, if_neg hw.1, if_neg hw.2.1, if_neg hw.2.2, if_neg h]
  rfl

private theorem not_word {seg : Seg} {id : SubmissionId} (h : SaysId seg id) : seg ≠ [] ∧ seg ∉ words := by
  have h' := pathId_iff.2 h
  refine ⟨?_, ?_⟩
  · rintro rfl
    have : pathId [] = none := by decide +kernel
    rw [this] at h'; cases h'
  · intro hm
    have : ∀ w ∈ words, pathId w = none := by decide +kernel
    rw [this _ hm] at h'; cases h'

private theorem asks (r : InsertSubmission) (e : ServerEnv) : AsksFor r (insertArgs r e) := by
  refine ⟨?_, rfl, lastOfEach_spec _, ?_⟩
  · unfold insertArgs
    cases r.chunkContents with
    | direct cs => exact ⟨rfl, rfl⟩
    | seeObjectStorage p n => exact ⟨rfl, List.length_replicate, fun c hc => List.eq_of_mem_replicate hc⟩
  · cases h : r.chunkSize <;> simp [insertArgs, h]

/-- **C63 (i).** A request changes what is stored only in two ways: a POST to `/producer/submissions` with a body that
is an insert request makes that insert; a POST to `/producer/submissions/cancel/…` with a submission id makes that
cancel. Any other request, and every request for which no connection to the database could be had, makes no write at
all. -/
theorem C63_only_what_is_asked (max : Nat) (e : ServerEnv) (q : HttpRequest) (hist : List Op) :
    (handle max e q hist).2 = hist ∨
    (e.connOk = true ∧ q.post = true ∧ q.path = submissionsPath [] ∧ ∃ j r a, q.body = some j ∧ SaysInsert j r ∧
      AsksFor r a ∧ a.id = e.id ∧ (handle max e q hist).2 = hist ++ [.insert a e.now1 e.faults]) ∨
    (e.connOk = true ∧ q.post = true ∧ ∃ seg id, q.path = submissionsPath ["cancel".toList, seg] ∧ SaysId seg id ∧
      (handle max e q hist).2 = hist ++ [.cancel id e.now1 e.now2 e.faults]) := by
  unfold handle
  cases hr : route q.post q.path with
  | insert =>
    obtain ⟨hp, hpath⟩ := path_insert hr
    simp only
    cases hb : q.body with
    | none => exact .inl rfl
    | some j =>
      simp only [Option.bind_some]
      cases hd : decInsert j with
      | none => exact .inl rfl
      | some r =>
        simp only
        by_cases hc : e.connOk = true
        · rw [if_pos hc]
          exact .inr (.inl ⟨hc, hp, hpath, j, r, _, rfl, decInsert_iff.1 hd, asks r e, rfl, rfl⟩)
        · rw [if_neg hc]; exact .inl rfl
  | cancel seg =>
    obtain ⟨hp, -, hpath⟩ := path_cancel hr
    simp only
    cases hd : pathId seg with
    | none => exact .inl rfl
    | some id =>
      simp only
      by_cases hc : e.connOk = true
      · rw [if_pos hc]
        exact .inr (.inr ⟨hc, hp, seg, id, hpath, pathId_iff.1 hd, rfl⟩)
      · rw [if_neg hc]; exact .inl rfl
  | status seg => left; simp only; repeat' split
                  all_goals rfl
  | lookupPrefix seg => left; simp only; split <;> rfl
  | lookup => left; simp only; repeat' split
              all_goals rfl
  | count => left; simp only; split <;> rfl
  | countCompleted => left; simp only; split <;> rfl
  | version => exact .inl rfl
  | notFound => exact .inl rfl
  | notAllowed => exact .inl rfl

/-- **C63 (ii).** A request that cannot be read is refused and changes nothing: an insert whose body is not an insert
request and a lookup whose body is not a map from names to numbers are answered with 422; a cancel or status request
for something that is not a submission id is answered with 400. -/
theorem C63_unreadable_is_refused (max : Nat) (e : ServerEnv) (body : Option Json) (hist : List Op) :
    ((∀ j r, body = some j → ¬ SaysInsert j r) →
      ∃ b, handle max e ⟨true, submissionsPath [], body⟩ hist = (some ⟨422, b⟩, hist)) ∧
    ((∀ m, body ≠ some (strategicMap m)) →
      ∃ b, handle max e ⟨true, submissionsPath ["lookup_ids_by_strategic_metadata".toList], body⟩ hist =
        (some ⟨422, b⟩, hist)) ∧
    (∀ seg, seg ≠ [] → (∀ id, ¬ SaysId seg id) →
      ∃ b, handle max e ⟨true, submissionsPath ["cancel".toList, seg], body⟩ hist = (some ⟨400, b⟩, hist)) ∧
    (∀ seg, seg ≠ [] → seg ∉ ["count".toList, "count_completed".toList, "lookup_ids_by_strategic_metadata".toList] →
      (∀ id, ¬ SaysId seg id) →
      ∃ b, handle max e ⟨false, submissionsPath [seg], body⟩ hist = (some ⟨400, b⟩, hist)) := by
  refine ⟨fun h => ⟨.null, ?_⟩, fun h => ⟨.null, ?_⟩, fun seg hne h => ⟨.null, ?_⟩, fun seg hne hw h => ⟨.null, ?_⟩⟩
  · have hb : body.bind decInsert = none := by
      cases body with
      | none => rfl
      | some j => exact (none_iff fun r => decInsert_iff).2 fun r => h j r rfl
    unfold handle
    simp only [route_submissions, if_true, hb]
  · have hb : body.bind decMap = none := by
      cases body with
      | none => rfl
      | some j => exact (none_iff fun m => decMap_iff).2 fun m hm => h m (by rw [hm])
    unfold handle
    simp only [route_lookup_path, hb]
  · have hb : pathId seg = none := (none_iff fun id => pathId_iff).2 h
    unfold handle
    simp only [route_cancel_path hne, hb]
  · have hb : pathId seg = none := (none_iff fun id => pathId_iff).2 h
    have hw' : seg ∉ words := by
      simp only [words, List.mem_cons, List.not_mem_nil, or_false, not_or] at hw ⊢
      exact ⟨hw.2.1, hw.1, hw.2.2⟩
    unfold handle
    simp only [route_status_path hne hw', hb]

/-- **C63 (iii).** A request that can be read is treated like the client's own request for the same thing, whatever
else its body contains, in whatever order, and however its id is written. A lookup by prefix is about the prefix its
last segment stands for, whatever characters that has. -/
theorem C63_readable_is_served (max : Nat) (e : ServerEnv) (hist : List Op) :
    (∀ j r, SaysInsert j r →
      handle max e ⟨true, submissionsPath [], some j⟩ hist = handle max e (request (.insert r)) hist) ∧
    (∀ seg id body, SaysId seg id →
      handle max e ⟨true, submissionsPath ["cancel".toList, seg], body⟩ hist = handle max e (request (.cancel id)) hist ∧
      handle max e ⟨false, submissionsPath [seg], body⟩ hist = handle max e (request (.get id)) hist) ∧
    (∀ seg p body o, seg ≠ [] → Unescapes seg p.toList → e.connOk = true → e.faults = [] →
      prefixAt (run hist) p = .ok o →
      handle max e ⟨false, submissionsPath ["lookup_id_by_prefix".toList, seg], body⟩ hist =
        (some ⟨200, match o with | none => .null | some id => .num id⟩, hist)) := by
  refine ⟨fun j r h => ?_, fun seg id body h => ⟨?_, ?_⟩, fun seg p body o hne hu hc hf ho => ?_⟩
  · have hb : (request (.insert r)).body.bind decInsert = some r := by simp [request]
    unfold handle
    rw [route_insert, hb]
    simp only [route_submissions, if_true, Option.bind_some, decInsert_iff.2 h]
  · unfold handle
    rw [route_cancel]
    simp only [route_cancel_path (not_word h).1, pathId_iff.2 h, pathId_decimal h.small]
  · unfold handle
    rw [route_get]
    simp only [route_status_path (not_word h).1 (not_word h).2, pathId_iff.2 h, pathId_decimal h.small]
  · have hr : route false (submissionsPath ["lookup_id_by_prefix".toList, seg]) = .lookupPrefix seg := by
      unfold submissionsPath
      rw [route_four _ _ _ hne, if_neg (by decide +kernel), if_pos rfl]
      rfl
    have hp : String.ofList (percentDecode seg) = p := by rw [← unescapes_iff.1 hu, String.ofList_toList]
    unfold handle
    simp only [hr, hc, if_true, hp, hf]
    unfold prefixAt at ho
    rw [ho]
    cases o <;> rfl

/-- **C63, lookups.** A POST to `/producer/submissions/lookup_ids_by_strategic_metadata` with an object of numbers is
answered with the ids of the submissions in progress that have all these values (of a name that is given several times,
the last one), or, if there are more than the maximum, with 400 and the maximum. -/
theorem C63_lookup_is_served (max : Nat) (e : ServerEnv) (hist : List Op) (hf : FreshIds hist)
    (hc : e.connOk = true) (hfl : e.faults = []) (given kept : StrategicMetadata) (hk : LastValues given kept) :
    ∃ n, CountIs (Matches (run hist) kept) n ∧
      ((n ≤ max ∧ ∃ ids : List SubmissionId, ids.Pairwise (· < ·) ∧ (∀ id, id ∈ ids ↔ Matches (run hist) kept id) ∧
        handle max e ⟨true, submissionsPath ["lookup_ids_by_strategic_metadata".toList], some (strategicMap given)⟩ hist =
          (some ⟨200, .arr (ids.map fun id : SubmissionId => .num (id : Nat))⟩, hist)) ∨
       (max < n ∧
        handle max e ⟨true, submissionsPath ["lookup_ids_by_strategic_metadata".toList], some (strategicMap given)⟩ hist =
          (some ⟨400, .num max⟩, hist))) := by
  have hsame : ∀ id, Matches (run hist) (lastOfEach given) id ↔ Matches (run hist) kept id := by
    have hm : ∀ kv, kv ∈ lastOfEach given ↔ kv ∈ kept := fun kv =>
      ((lastOfEach_spec given).2 kv.1 kv.2).trans (hk.2 kv.1 kv.2).symm
    intro id
    unfold Matches
    simp only [hm]
  have hh : handle max e ⟨true, submissionsPath ["lookup_ids_by_strategic_metadata".toList], some (strategicMap given)⟩ hist =
      (lookupAnswer (lookupIdsByStrategicMetadata (lastOfEach given) max ⟨[], run hist⟩).1, hist) := by
    unfold handle
    simp only [route_lookup_path, Option.bind_some, decMap_iff.2 rfl, hc, if_true, hfl]
  obtain ⟨n, hcount, h⟩ := C18_metadata_lookup _ hf (lastOfEach given) max
  have hfun : Matches (run hist) (lastOfEach given) = Matches (run hist) kept := funext fun id => propext (hsame id)
  rw [hfun] at hcount h
  refine ⟨n, hcount, ?_⟩
  unfold lookupAt at h
  rw [hh]
  rcases h with ⟨hle, ids, hl, hp, hm⟩ | ⟨hlt, hl⟩
  · rw [hl]
    exact .inl ⟨hle, ids, hp, hm, rfl⟩
  · rw [hl]
    exact .inr ⟨hlt, rfl⟩

/-- **C63, status codes.** The status code tells how the call on the database went, as documented at the handlers: an insert is answered with
200 and the new id exactly if it succeeded, and with 500 otherwise; a cancellation with 200, with 404 (there is no such
submission), with 409 (it has ended already), or 500. If no connection could be had the answer is 500 and nothing happens. -/
theorem C63_status_codes (max : Nat) (e : ServerEnv) (hist : List Op) :
    (∀ j r, SaysInsert j r → e.connOk = true → ∃ a, AsksFor r a ∧ a.id = e.id ∧
      ∀ code body, (handle max e ⟨true, submissionsPath [], some j⟩ hist).1 = some ⟨code, body⟩ →
        (code = 200 ∨ code = 500) ∧
        (code = 200 ↔ ∃ id, (step (run hist) (.insert a e.now1 e.faults)).1 = .inserted (.ok id) ∧ body = .num id)) ∧
    (∀ seg id b, SaysId seg id → e.connOk = true →
      ∀ code body, (handle max e ⟨true, submissionsPath ["cancel".toList, seg], b⟩ hist).1 = some ⟨code, body⟩ →
        (code = 200 ∨ code = 404 ∨ code = 409 ∨ code = 500) ∧
        (code = 200 ↔ (step (run hist) (.cancel id e.now1 e.now2 e.faults)).1 = .cancelled (.ok ())) ∧
        (code = 404 ↔ ∃ nf, (step (run hist) (.cancel id e.now1 e.now2 e.faults)).1 =
          .cancelled (.err (.err (.R (.L nf)))) ∧ body = .num nf.id) ∧
        (code = 409 ↔ ∃ nc, (step (run hist) (.cancel id e.now1 e.now2 e.faults)).1 = .cancelled (.err (.err (.R (.R nc)))))) ∧
    (∀ j r, SaysInsert j r → e.connOk = false →
      ∃ body, handle max e ⟨true, submissionsPath [], some j⟩ hist = (some ⟨500, body⟩, hist)) ∧
    (∀ seg id b, SaysId seg id → e.connOk = false →
      ∃ body, handle max e ⟨true, submissionsPath ["cancel".toList, seg], b⟩ hist = (some ⟨500, body⟩, hist)) := by
  refine ⟨fun j r h hc => ⟨insertArgs r e, asks r e, rfl, fun code body hr => ?_⟩, fun seg id b h hc code body hr => ?_,
    fun j r h hc => ?_, fun seg id b h hc => ?_⟩
  · unfold handle at hr
    simp only [route_submissions, if_true, Option.bind_some, decInsert_iff.2 h, hc] at hr
    generalize hs : (step (run hist) (.insert (insertArgs r e) e.now1 e.faults)).1 = out at hr ⊢
    unfold insertAnswer at hr
    split at hr
    · simp only [Option.some.injEq, Response.mk.injEq] at hr
      obtain ⟨rfl, rfl⟩ := hr
      exact ⟨.inl rfl, fun _ => ⟨_, rfl, rfl⟩, fun _ => rfl⟩
    · simp only [serverError, Option.some.injEq, Response.mk.injEq] at hr
      obtain ⟨rfl, rfl⟩ := hr
      refine ⟨.inr rfl, (fun h => by cases h), ?_⟩
      rintro ⟨id, h, -⟩
      cases h
    · cases hr
  · unfold handle at hr
    simp only [route_cancel_path (not_word h).1, pathId_iff.2 h, hc, if_true] at hr
    generalize hs : (step (run hist) (.cancel id e.now1 e.now2 e.faults)).1 = out at hr ⊢
    unfold cancelAnswer at hr
    split at hr <;>
      simp only [serverError, Option.some.injEq, Response.mk.injEq, reduceCtorEq] at hr <;>
      obtain ⟨rfl, rfl⟩ := hr <;> simp [encNotFound, encNat]
  · refine ⟨serverError.body, ?_⟩
    unfold handle
    simp only [route_submissions, if_true, Option.bind_some, decInsert_iff.2 h, hc]
    rfl
  · refine ⟨serverError.body, ?_⟩
    unfold handle
    simp only [route_cancel_path (not_word h).1, pathId_iff.2 h, hc]
    rfl

/-- An insert answered with 200, and cancellations answered with 404, 200 and 409. -/
example :
    ((handle 10 { id := 4 } ⟨true, submissionsPath [], some (.obj [("chunk_contents", .obj [("Direct",
      .obj [("contents", .arr [.null])])])])⟩ []).1.map (·.status) = some 200) ∧
    (handle 10 {} ⟨true, submissionsPath ["cancel".toList, "4".toList], none⟩ []).1.map (·.status) = some 404 ∧
    (handle 10 {} ⟨true, submissionsPath ["cancel".toList, "4".toList], none⟩
      [.insert { id := 4, pfx := none, contents := [none], metadata := none, strategic := [], chunkSize := 1, otel := "" } 0 []]).1.map
        (·.status) = some 200 ∧
    (handle 10 {} ⟨true, submissionsPath ["cancel".toList, "4".toList], none⟩
      [.insert { id := 4, pfx := none, contents := [none], metadata := none, strategic := [], chunkSize := 1, otel := "" } 0 [],
       .cancel 4 1 1 []]).1.map (·.status) = some 409 := by decide +kernel

private theorem route_unknown {post : Bool} {path : List Seg} (h : ¬ Offered post path) :
    route post path = .notFound ∨ route post path = .notAllowed := by
  have p : ∀ {b : Bool} {r : Route}, (b = true → False) → Route.onlyIf b r = .notAllowed := by
    intro b r hb
    cases b
    · rfl
    · exact absurd rfl hb
  unfold Offered at h
  unfold route
  split
  · rename_i n a
    split
    · exact .inl rfl
    rename_i hn
    have hn : n = "producer".toList := Decidable.not_not.1 hn
    split
    · rename_i ha
      refine .inr (p fun hp => h ?_)
      rw [if_pos hp, hn, ha]; exact .inl rfl
    split
    · rename_i ha
      refine .inr (p fun hp => h ?_)
      rw [if_neg (by simpa using hp), hn, ha]; exact .inl rfl
    · exact .inl rfl
  · rename_i n a b
    split
    · exact .inl rfl
    rename_i hna
    have hn : n = "producer".toList := Decidable.not_not.1 fun x => hna (.inl x)
    have ha : a = "submissions".toList := Decidable.not_not.1 fun x => hna (.inr x)
    rw [hn, ha] at h
    have get : b ≠ [] → b ≠ "lookup_ids_by_strategic_metadata".toList → (!post) = true → False := by
      intro h1 h2 hp
      apply h
      rw [if_neg (by simpa using hp)]
      exact .inr (.inl ⟨b, h1, h2, rfl⟩)
    split
    · rename_i hb; exact .inr (p (get (by rw [hb]; decide) (by rw [hb]; decide +kernel)))
    split
    · rename_i hb; exact .inr (p (get (by rw [hb]; decide) (by rw [hb]; decide +kernel)))
    split
    · rename_i hb
      refine .inr (p fun hp => h ?_)
      rw [if_pos hp, hb]; exact .inr (.inr rfl)
    rename_i hl
    split
    · exact .inl rfl
    · rename_i hb; exact .inr (p (get hb hl))
  · rename_i n a b c
    split
    · exact .inl rfl
    rename_i hna
    have hn : n = "producer".toList := Decidable.not_not.1 fun x => hna (.inl x)
    have ha : a = "submissions".toList := Decidable.not_not.1 fun x => hna (.inr (.inl x))
    have hc : c ≠ [] := fun x => hna (.inr (.inr x))
    rw [hn, ha] at h
    split
    · rename_i hb
      refine .inr (p fun hp => h ?_)
      rw [if_pos hp, hb]; exact .inr (.inl ⟨c, hc, rfl⟩)
    split
    · rename_i hb
      refine .inr (p fun hp => h ?_)
      rw [if_neg (by simpa using hp), hb]; exact .inr (.inr ⟨c, hc, rfl⟩)
    · exact .inl rfl
  · exact .inl rfl

/-- **C63 (iv).** A request to a path that is not offered, or with another method, is answered with 404 or 405 and
changes nothing. -/
theorem C63_unknown_is_refused (max : Nat) (e : ServerEnv) (q : HttpRequest) (hist : List Op)
    (h : ¬ Offered q.post q.path) :
    ∃ r, handle max e q hist = (some r, hist) ∧ (r.status = 404 ∨ r.status = 405) := by
  have hr : route q.post q.path = .notFound ∨ route q.post q.path = .notAllowed := by
    exact route_unknown h
  unfold handle
  rcases hr with hr | hr <;> rw [hr]
  · exact ⟨_, rfl, .inl rfl⟩
  · exact ⟨_, rfl, .inr rfl⟩

/-- **C63 (v).** When the answer is a client error (4xx), everything that is stored is as it was before. -/
theorem C63_client_error_changes_nothing (max : Nat) (e : ServerEnv) (q : HttpRequest) (hist : List Op) (r : Response)
    (hr : (handle max e q hist).1 = some r) (h4 : 400 ≤ r.status ∧ r.status < 500) :
    run (handle max e q hist).2 = run hist := by
  unfold handle at hr ⊢
  cases hrt : route q.post q.path with
  | insert =>
    simp only [hrt] at hr ⊢
    split at hr
    · rfl
    · split at hr
      · rename_i a ha hc
        exfalso
        simp only at hr
        unfold insertAnswer at hr
        split at hr
        · injection hr with hr; subst hr; simp at h4
        · injection hr with hr; subst hr; simp [serverError] at h4
        · cases hr
      · rename_i hc; simp [hc]
  | cancel seg =>
    simp only [hrt] at hr ⊢
    split at hr
    · rfl
    · split at hr
      · rename_i id hid hc
        simp only [hc, if_true]
        rw [run_snoc]
        apply (C11_atomic (run hist) _ rfl).2
        simp only at hr
        unfold cancelAnswer at hr
        split at hr
        · injection hr with hr; subst hr; simp at h4
        all_goals first | (rename_i ho; rw [ho]; rfl) | cases hr
      · rename_i hc; simp [hc]
  | status seg => simp only; repeat' split
                  all_goals rfl
  | lookupPrefix seg => simp only; split <;> rfl
  | lookup => simp only; repeat' split
              all_goals rfl
  | count => simp only; split <;> rfl
  | countCompleted => simp only; split <;> rfl
  | version => rfl
  | notFound => rfl
  | notAllowed => rfl

private theorem alive_read {ε α : Type} {x : Sql ε α} (hx : Alive x) (enc : α → Json) {o : List Fault} (db : DB)
    (h : NoKill o) : ∃ r, readAnswer enc (x ⟨o, db⟩).1 = some r := by
  have := (hx ⟨o, db⟩ h).1
  cases hr : (x ⟨o, db⟩).1 with
  | ok a => exact ⟨_, rfl⟩
  | err e => exact ⟨_, rfl⟩
  | crash => exact absurd hr this

/-- **C63 (vi).** Every request is answered, whatever statements fail in the database, unless the server is killed while
handling it. -/
theorem C63_every_request_is_answered (max : Nat) (e : ServerEnv) (q : HttpRequest) (hist : List Op)
    (h : ∀ f ∈ e.faults, f ≠ .crash ∧ f ≠ .crashLate) : ∃ r, (handle max e q hist).1 = some r := by
  have hk : NoKill e.faults := by
    intro f hf
    have := h f hf
    cases f <;> simp_all
  unfold handle
  cases route q.post q.path with
  | insert =>
    simp only
    split
    · exact ⟨_, rfl⟩
    · split
      · rename_i r _ _
        have := (alive_insert (insertArgs r e) e.now1 ⟨e.faults, run hist⟩ hk).1
        simp only [step]
        cases hr : (insertSubmissionFromChunks (insertArgs r e) e.now1 ⟨e.faults, run hist⟩).1 with
        | ok a => exact ⟨_, rfl⟩
        | err x => exact ⟨_, rfl⟩
        | crash => exact absurd hr this
      · exact ⟨_, rfl⟩
  | cancel seg =>
    simp only
    split
    · exact ⟨_, rfl⟩
    · split
      · rename_i id _ _
        have := (alive_cancel id e.now1 e.now2 ⟨e.faults, run hist⟩ hk).1
        simp only [step]
        cases hr : (cancelSubmission id e.now1 e.now2 ⟨e.faults, run hist⟩).1 with
        | ok a => exact ⟨_, rfl⟩
        | err x => rcases x with (x | x | x) | _ <;> exact ⟨_, rfl⟩
        | crash => exact absurd hr this
      · exact ⟨_, rfl⟩
  | status seg =>
    simp only
    split
    · exact ⟨_, rfl⟩
    · split
      · exact alive_read (alive_status _) _ _ hk
      · exact ⟨_, rfl⟩
  | lookupPrefix seg =>
    simp only
    split
    · exact alive_read (alive_query _) _ _ hk
    · exact ⟨_, rfl⟩
  | lookup =>
    simp only
    split
    · exact ⟨_, rfl⟩
    · split
      · rename_i m _ _
        have := (alive_lookup (lastOfEach m) max ⟨e.faults, run hist⟩ hk).1
        cases hr : (lookupIdsByStrategicMetadata (lastOfEach m) max ⟨e.faults, run hist⟩).1 with
        | ok a => exact ⟨_, rfl⟩
        | err x => rcases x with x | x <;> exact ⟨_, rfl⟩
        | crash => exact absurd hr this
      · exact ⟨_, rfl⟩
  | count =>
    simp only
    split
    · exact alive_read (alive_query _) _ _ hk
    · exact ⟨_, rfl⟩
  | countCompleted =>
    simp only
    split
    · exact alive_read (alive_query _) _ _ hk
    · exact ⟨_, rfl⟩
  | version => exact ⟨_, rfl⟩
  | notFound => exact ⟨_, rfl⟩
  | notAllowed => exact ⟨_, rfl⟩

/-- A body that says the same as `{"chunk_contents":{"Direct":{"contents":[null,[1]]}}}` with an unknown field in
between, and one that gives a field twice. -/
def plainBody : Json := .obj [("colour", .str "red"),
  ("chunk_contents", .obj [("Direct", .obj [("contents", .arr [.null, .arr [.num 1]])])]), ("chunk_size", .num 5)]

/-- The same with `chunk_size` given twice. -/
def doubledBody : Json := .obj [
  ("chunk_contents", .obj [("Direct", .obj [("contents", .arr [.null, .arr [.num 1]])])]), ("chunk_size", .num 5),
  ("chunk_size", .num 5)]

/-- The plain body is an insert of two chunks, with chunk size 5; the doubled one is nothing and gets a 422. -/
example : SaysInsert plainBody ⟨.direct [none, some [1]], none, [], some 5⟩ ∧ (∀ r, ¬ SaysInsert doubledBody r) ∧
    (handle 10 { id := 4 } ⟨true, submissionsPath [], some plainBody⟩ []).1.any (·.status == 200) = true ∧
    (handle 10 { id := 4 } ⟨true, submissionsPath [], some doubledBody⟩ []).1.any (·.status == 422) = true := by
  refine ⟨decInsert_iff.1 (by decide +kernel), fun r h => ?_, by decide +kernel, by decide +kernel⟩
  have := decInsert_iff.2 h
  rw [show decInsert doubledBody = none by decide +kernel] at this
  cases this

/-- The fields by position, and a name of strategic metadata twice. -/
def terseBody : Json := .arr [.obj [("Direct", .arr [.arr [.null]])], .null,
  .obj [("a", .num 1), ("b", .num 2), ("a", .num 3)], .null]

/-- This is an insert of one chunk; what is stored for the repeated name is the value given last. -/
example : SaysInsert terseBody ⟨.direct [none], none, [("a", 1), ("b", 2), ("a", 3)], none⟩ ∧
    (handle 10 { id := 4 } ⟨true, submissionsPath [], some terseBody⟩ []).2 =
      [.insert { id := 4, contents := [none], strategic := [("b", 2), ("a", 3)] } 0 []] ∧
    LastValues [("a", 1), ("b", 2), ("a", 3)] [("b", 2), ("a", 3)] :=
  ⟨decInsert_iff.1 (by decide +kernel), by rfl, lastOfEach_spec _⟩

/-- A lookup that gives a name twice finds a submission with the last value. -/
example : (handle 10 {} ⟨true, submissionsPath ["lookup_ids_by_strategic_metadata".toList],
      some (strategicMap [("a", 1), ("b", 2), ("a", 3)])⟩
      [.insert { id := 4, contents := [none], strategic := [("b", 2), ("a", 3)] } 0 []]).1.map
      (fun r => (r.status, decList decNat r.body)) = some (200, some [4]) := by decide +kernel

/-- `%2B007` is the submission id 7, `7a` is none, and neither is a number that does not fit in 63 bits. -/
example : SaysId "%2B007".toList 7 ∧ (∀ id, ¬ SaysId "7a".toList id) ∧
    (∀ id, ¬ SaysId "9223372036854775808".toList id) ∧ SaysId "9223372036854775807".toList (2 ^ 63 - 1) := by
  have no : ∀ s, pathId s = none → ∀ id, ¬ SaysId s id := fun s h id hs => by
    rw [pathId_iff.2 hs] at h; cases h
  exact ⟨pathId_iff.1 (by decide +kernel), no _ (by decide +kernel), no _ (by decide +kernel),
    pathId_iff.1 (by decide +kernel)⟩

/-- A prefix with a slash and a question mark, escaped, is found. -/
example : Unescapes "a%2Fb%3f".toList "a/b?".toList ∧
    (handle 10 {} ⟨false, submissionsPath ["lookup_id_by_prefix".toList, "a%2Fb%3f".toList], none⟩
      [.insert { id := 7, contents := [none], pfx := some "a/b?" } 0 []]).1.any (·.body matches .num 7) = true := by
  exact ⟨unescapes_iff.2 (by decide +kernel), by decide +kernel⟩

/-- A cancel of an unknown submission is answered with 404; a POST to a status path with 405. -/
example : (handle 10 {} (request (.cancel 3)) []).1.any (·.status == 404) = true ∧
    (handle 10 {} ⟨true, submissionsPath ["3".toList], none⟩ []).1.any (·.status == 405) = true ∧
    ¬ Offered true (submissionsPath ["3".toList]) := by
  refine ⟨by decide +kernel, by decide +kernel, ?_⟩
  unfold Offered submissionsPath
  simp

/-- With a database that fails on everything, a status request is still answered, with a 500. -/
example : (handle 10 { faults := [.fail, .fail] } (request (.get 3)) []).1.any (·.status == 500) = true := by
  decide +kernel

/-! ### C64 -/

/-- What the client is told is true of the database. An error that is not an answer says nothing. -/
def Truthful (max : Nat) (db : DB) : Call → Except ClientErr Result → Prop
  | .get id, .ok (.status s) => statusAt db id = .ok s
  | .lookupPrefix p, .ok (.found r) => prefixAt db p = .ok r
  | .lookup m, .ok (.ids ids) => ids.Pairwise (· < ·) ∧ ∀ id, id ∈ ids ↔ Matches db m id
  | .lookup m, .error (.tooMany e) => e.max = max ∧ ∃ n, CountIs (Matches db m) n ∧ max < n
  | .count, .ok (.count n) => CountIs (fun id => ∃ s, statusAt db id = .ok (some (.inProgress s))) n
  | _, .ok _ => False
  | _, .error (.http _) => True
  | _, .error .decoding => True
  | _, .error (.unexpectedStatus _) => True
  | _, .error _ => False

private theorem checked_500 {α : Type} (dec : Json → Option α) (f : α → Result) :
    (checked dec serverError).map f = .error (.http { status := some 500 }) := rfl

private theorem truthful_read {ε α : Type} {x : Sql ε α} (hx : Sql.Faithful x) {enc : α → Json} {c : Call}
    {max : Nat} {db : DB} {o : List Fault} {r : Response} (hr : readAnswer enc (x ⟨o, db⟩).1 = some r)
    (h5 : Truthful max db c (interpret c serverError))
    (h : ∀ a, (x ⟨[], db⟩).1 = .ok a → Truthful max db c (interpret c ⟨200, enc a⟩)) :
    Truthful max db c (interpret c r) := by
  cases hres : (x ⟨o, db⟩).1 with
  | ok a =>
    rw [hres] at hr
    injection hr with hr
    subst hr
    exact h a (faithful_res hx hres)
  | err e =>
    rw [hres] at hr
    injection hr with hr
    subst hr
    exact h5
  | crash => rw [hres] at hr; cases hr

private theorem truthful_http (max : Nat) (db : DB) (c : Call) (x : ReqwestError) :
    Truthful max db c (.error (.http x)) := by
  cases c <;> exact trivial

private theorem truthful_500 (max : Nat) (db : DB) (c : Call) : Truthful max db c (interpret c serverError) := by
  cases c <;> exact trivial

/-- The calls that only read from the database. -/
def ReadCall : Call → Prop
  | .count => True
  | .get id => id < 2 ^ 63
  | .lookupPrefix p => PlainPrefix p
  | .lookup m => (m.map (·.1)).Nodup
  | _ => False

private theorem truthful_handle {max : Nat} {c : Call} (hc : ReadCall c) {e : ServerEnv} {hist : List Op}
    (hf : FreshIds hist) {r : Response} (hr : (handle max e (request c) hist).1 = some r) :
    Truthful max (run hist) c (interpret c r) := by
  by_cases hconn : e.connOk = true
  · cases c with
    | insert _ => exact hc.elim
    | cancel _ => exact hc.elim
    | version => exact hc.elim
    | count =>
      rw [handle_count _ _ _ hconn] at hr
      refine truthful_read (Sql.faithful_query _) hr (truthful_500 _ _ _) fun n hn => ?_
      obtain ⟨m, hm, hcount⟩ := (C20_counts _ hf).1
      have : m = n := by
        have h2 := hm.symm.trans hn
        injection h2
      subst this
      simp only [interpret, checked]
      rw [if_neg (by simp)]
      cases hd : decU32 (encNat m) with
      | none => exact trivial
      | some k =>
        have hk : k = m := by
          simp only [decU32, nat_rt, Option.filter_some] at hd
          split at hd
          · injection hd with hd; exact hd.symm
          · cases hd
        rw [hk]
        exact hcount
    | get id =>
      rw [handle_get _ _ _ _ hc hconn] at hr
      refine truthful_read (faithful_status id) hr (truthful_500 _ _ _) fun s hs => ?_
      simp only [interpret, checked]
      rw [if_neg (by simp), optStatus_rt]
      exact hs
    | lookupPrefix p =>
      rw [handle_lookupPrefix _ _ _ hc hconn] at hr
      refine truthful_read (Sql.faithful_query _) hr (truthful_500 _ _ _) fun s hs => ?_
      simp only [interpret, checked]
      rw [if_neg (by simp), optNat_rt]
      exact hs
    | lookup m =>
      rw [handle_lookup _ _ _ _ hconn, lastOfEach_self hc] at hr
      obtain ⟨n, hcount, hn⟩ := C18_metadata_lookup hist hf m max
      cases hres : (lookupIdsByStrategicMetadata m max ⟨e.faults, run hist⟩).1 with
      | ok ids =>
        rw [hres] at hr
        injection hr with hr
        subst hr
        have hl : lookupAt (run hist) m max = .ok ids := faithful_res (faithful_lookup m max) hres
        rcases hn with ⟨-, ids', hl', h1, h2⟩ | ⟨-, hl'⟩
        · rw [hl] at hl'
          injection hl' with hl'
          subst hl'
          simp only [interpret, jsonOr, if_true, nats_rt]
          exact ⟨h1, h2⟩
        · rw [hl] at hl'; cases hl'
      | err x =>
        rw [hres] at hr
        cases x with
        | L x => injection hr with hr; subst hr; exact trivial
        | R tm =>
          injection hr with hr
          subst hr
          have hl : lookupAt (run hist) m max = .err (.R tm) :=
            rFaithful_lookup m max ⟨e.faults, run hist⟩ tm _ (by rw [← hres])
          rcases hn with ⟨-, ids', hl', -, -⟩ | ⟨hlt, hl'⟩
          · rw [hl] at hl'; cases hl'
          · rw [hl] at hl'
            simp only [Res.err.injEq, E.R.injEq] at hl'
            subst hl'
            simp only [interpret, jsonOr, tooMany_rt]
            exact ⟨rfl, n, hcount, hlt⟩
      | crash => rw [hres] at hr; cases hr
  · have hconn : e.connOk = false := by simpa using hconn
    have : r = serverError := by
      unfold handle at hr
      cases c with
      | insert _ => exact hc.elim
      | cancel _ => exact hc.elim
      | version => exact hc.elim
      | count => rw [route_count] at hr; simp [hconn] at hr; exact hr.symm
      | get id =>
        rw [route_get] at hr
        simp only [pathId_decimal hc] at hr
        simp [hconn] at hr; exact hr.symm
      | lookupPrefix p => rw [(route_lookupPrefix hc).1] at hr; simp [hconn] at hr; exact hr.symm
      | lookup m =>
        have hb : (request (.lookup m)).body.bind decMap = some m := by simp [request]
        rw [route_lookup, hb] at hr
        simp [hconn] at hr; exact hr.symm
    rw [this]
    exact truthful_500 _ _ _

/-- **C64.** Whatever fails at the server or on the way, what a reading call of the client returns was true when its
last attempt reached the server: a status is the status, a list of ids is the list of the matching submissions, and so
on; a failure is never taken for an answer such as "no such submission". Nobody but the server answers
(`honest`). -/
theorem C64_reads_are_true (max : Nat) (c : Call) (hc : ReadCall c) (env : Nat → Attempt) (hist : List Op)
    (honest : ∀ k passedOn r, (env k).net ≠ .answeredBy passedOn r) :
    ∃ k, (call max c env hist).2.2 = k + 1 ∧
      (FreshIds (historyAfter max c env hist k ++ (env k).before) →
        Truthful max (run (historyAfter max c env hist k ++ (env k).before)) c (call max c env hist).1) := by
  have hv : c ≠ .version := by rintro rfl; exact hc
  obtain ⟨n, -, hcall, -, -⟩ := call_spec max hist c hv env
  refine ⟨n, by rw [hcall], fun hf => ?_⟩
  rw [hcall]
  simp only [outcome, attempt]
  cases hnet : (env n).net with
  | ok =>
    simp only
    cases hh : (handle max (env n).server (request c) (historyAfter max c env hist n ++ (env n).before)).1 with
    | some r => exact truthful_handle hc hf hh
    | none => exact truthful_http _ _ _ _
  | noRequest e => exact truthful_http _ _ _ _
  | noResponse e => exact truthful_http _ _ _ _
  | answeredBy p r => exact absurd hnet (honest n p r)

/-- A status call whose first attempt meets a failing database and whose second is killed by a timeout; the third finds
the submission, inserted in the meantime. -/
example :
    let env : Nat → Attempt := fun i => if i = 0 then { server := { faults := [.ok, .fail] } }
      else if i = 1 then { net := .noResponse { timeout := true } }
      else { before := [.insert { id := 7, contents := [none] } 5 []] }
    (call 10 (.get 7) env []).2.2 = 3 ∧
    (call 10 (.get 7) env []).1 =
      .ok (.status (some (.inProgress ⟨7, none, 1, 0, 1, none, [], "{}"⟩))) := by
  decide +kernel

/-- **C64, from whoever the answer comes.** A call of the client (also one that changes something) returns a result exactly
if the last answer it received tells this result (`Tells`, independent of the client's decoders), and says that the
submission was not found, that it cannot be cancelled any more or that there are too many matches exactly if that answer
tells so. In particular a response that is cut off, of another kind or from somebody else is never taken for one. -/
theorem C64_results_are_what_was_answered (max : Nat) (c : Call) (hv : c ≠ .version) (env : Nat → Attempt)
    (hist : List Op) : ∃ k, (call max c env hist).2.2 = k + 1 ∧
      (∀ x, (call max c env hist).1 = .ok x ↔
        ∃ r, received max c (env k) (historyAfter max c env hist k) = .answer r ∧ Tells c r x) ∧
      (∀ e, Explained e → ((call max c env hist).1 = .error e ↔
        ∃ r, received max c (env k) (historyAfter max c env hist k) = .answer r ∧ TellsError c r e)) := by
  obtain ⟨n, -, hcall, -, -⟩ := call_spec max hist c hv env
  refine ⟨n, by rw [hcall], ?_⟩
  rw [hcall]
  have key : ∀ o : Except ClientErr Result, ∀ rec : Received,
      ((∃ e, rec = .nothing e ∧ o = .error (.http e)) ∨ ∃ r, rec = .answer r ∧ o = interpret c r) →
      (∀ x, o = .ok x ↔ ∃ r, rec = .answer r ∧ Tells c r x) ∧
      (∀ e, Explained e → (o = .error e ↔ ∃ r, rec = .answer r ∧ TellsError c r e)) := by
    rintro o rec (⟨e, rfl, rfl⟩ | ⟨r, rfl, rfl⟩)
    · refine ⟨fun x => by simp, fun e' he => ?_⟩
      simp only [Except.error.injEq, reduceCtorEq, false_and, exists_false, iff_false]
      rintro rfl
      exact he
    · exact ⟨fun x => by simp [interpret_ok], fun e he => by simp [interpret_err he]⟩
  refine key _ _ ?_
  simp only [outcome, attempt, received]
  cases (env n).net with
  | ok =>
    simp only
    cases (handle max (env n).server (request c) (historyAfter max c env hist n ++ (env n).before)).1 with
    | some r => exact .inr ⟨r, rfl, rfl⟩
    | none => exact .inl ⟨_, rfl, rfl⟩
  | noRequest e => exact .inl ⟨_, rfl, rfl⟩
  | noResponse e => exact .inl ⟨_, rfl, rfl⟩
  | answeredBy p r => exact .inr ⟨r, rfl, rfl⟩

/-- A proxy answers a status call with its own page, and a cancel call with a status of the right number but without the
reason: neither is taken for an answer of the server. -/
example : ((call 10 (.get 7) (fun _ => { net := .answeredBy false ⟨200, .str "<html>"⟩ }) []).1 = .error .decoding) ∧
    (call 10 (.cancel 7) (fun k => if k = 0 then { net := .answeredBy false ⟨409, .str "busy"⟩ } else {}) []).1 =
      .error (.notFound ⟨7⟩) := by
  decide +kernel

end Opsqueue.Http
