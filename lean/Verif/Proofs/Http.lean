import Verif.Spec.Http
import Verif.Proofs.Decimal
import Verif.Proofs.Wire

/-! # Lemmas about the HTTP interface: URLs reach their route, and retries -/

namespace Opsqueue.Http
open SubmissionDb Wire

/-! ## URLs -/

def PlainChar (c : Char) : Prop := 32 < c.toNat ∧ c ≠ '?' ∧ c ≠ '#'

instance (c : Char) : Decidable (PlainChar c) := inferInstanceAs (Decidable (_ ∧ _))

theorem trimEnd_plain {t : List Char} (h : ∀ c ∈ t, PlainChar c) : trimEnd t = t := by
  unfold trimEnd
  have : t.reverse.dropWhile (fun c => decide (c.toNat ≤ 32)) = t.reverse := by
    cases hr : t.reverse with
    | nil => rfl
    | cons c cs =>
      have hc : c ∈ t := List.mem_reverse.1 (by rw [hr]; simp)
      have := (h c hc).1
      rw [List.dropWhile_cons_of_neg]
      simp; omega
  rw [this, List.reverse_reverse]

theorem urlPath_plain {t : List Char} (h : ∀ c ∈ t, PlainChar c) : urlPath t = resolve [] (splitPath t) := by
  unfold urlPath
  rw [trimEnd_plain h]
  have h1 : t.filter (fun c => c != '\t' && c != '\n' && c != '\r') = t := by
    rw [List.filter_eq_self]
    intro c hc
    have := (h c hc).1
    have ht : c ≠ '\t' := by rintro rfl; revert this; decide
    have hn : c ≠ '\n' := by rintro rfl; revert this; decide
    have hr : c ≠ '\r' := by rintro rfl; revert this; decide
    simp [ht, hn, hr]
  have h2 : t.takeWhile (fun c => c != '?' && c != '#') = t := by
    have : ∀ c ∈ t, (fun c => c != '?' && c != '#') c = true := by
      intro c hc
      have := (h c hc).2
      simp [this]
    clear h h1
    induction t with
    | nil => rfl
    | cons c t ih =>
      rw [List.takeWhile_cons_of_pos (p := fun c => c != '?' && c != '#') (this c (by simp)),
        ih fun d hd => this d (by simp [hd])]
  rw [h1, h2]

theorem splitPath_ne_nil (t : List Char) : splitPath t ≠ [] := by
  cases t with
  | nil => simp [splitPath]
  | cons c cs =>
    unfold splitPath
    split
    · simp
    · split <;> simp

theorem splitPath_noSep {t : List Char} (h : ∀ c ∈ t, isSep c = false) : splitPath t = [t] := by
  induction t with
  | nil => rfl
  | cons c cs ih =>
    unfold splitPath
    rw [h c (by simp), ih fun d hd => h d (by simp [hd])]
    rfl

theorem splitPath_append (a b : List Char) (h : ∀ c ∈ a, isSep c = false) :
    splitPath (a ++ '/' :: b) = a :: splitPath b := by
  induction a with
  | nil => simp [splitPath, isSep]
  | cons c cs ih =>
    rw [List.cons_append, splitPath, h c (by simp), ih fun d hd => h d (by simp [hd])]
    simp

theorem isSep_digit {c : Char} (h : Decimal.IsDigit c) : isSep c = false := by
  unfold isSep
  have h1 : c ≠ '/' := by rintro rfl; revert h; unfold Decimal.IsDigit; decide
  have h2 : c ≠ '\\' := by rintro rfl; revert h; unfold Decimal.IsDigit; decide
  simp [h1, h2]

theorem plain_digit {c : Char} (h : Decimal.IsDigit c) : PlainChar c := by
  have h1 : c ≠ '?' := by rintro rfl; revert h; unfold Decimal.IsDigit; decide
  have h2 : c ≠ '#' := by rintro rfl; revert h; unfold Decimal.IsDigit; decide
  exact ⟨by unfold Decimal.IsDigit at h; omega, h1, h2⟩

theorem percentDecode_plain {s : List Char} (h : ∀ c ∈ s, c ≠ '%') : percentDecode s = s := by
  induction s with
  | nil => rfl
  | cons c cs ih =>
    unfold percentDecode
    split
    · simp_all
    · simp_all
    · rename_i heq
      obtain ⟨rfl, rfl⟩ := List.cons.inj heq
      rw [ih fun d hd => h d (by simp [hd])]

theorem percentDecode_decimal (n : Nat) : percentDecode (Decimal.decimal n) = Decimal.decimal n := by
  apply percentDecode_plain
  rintro c hc rfl
  have := Decimal.decimal_isDigit n _ hc
  revert this; unfold Decimal.IsDigit; decide

/-- The path of a call with one variable segment at the end. -/
theorem urlPath_tail (x : List Char) (hx : ∀ c ∈ x, PlainChar c) (hs : ∀ c ∈ x, isSep c = false)
    (h1 : x ≠ ['.']) (h2 : x ≠ ['.', '.']) :
    urlPath ("producer/submissions/".toList ++ x) = ["producer".toList, "submissions".toList, x] ∧
    urlPath ("producer/submissions/cancel/".toList ++ x) =
      ["producer".toList, "submissions".toList, "cancel".toList, x] ∧
    urlPath ("producer/submissions/lookup_id_by_prefix/".toList ++ x) =
      ["producer".toList, "submissions".toList, "lookup_id_by_prefix".toList, x] := by
  have e1 : "producer/submissions/".toList ++ x = "producer".toList ++ '/' :: ("submissions".toList ++ '/' :: x) := by
    simp
  have e2 : "producer/submissions/cancel/".toList ++ x =
      "producer".toList ++ '/' :: ("submissions".toList ++ '/' :: ("cancel".toList ++ '/' :: x)) := by
    simp
  have e3 : "producer/submissions/lookup_id_by_prefix/".toList ++ x =
      "producer".toList ++ '/' :: ("submissions".toList ++ '/' :: ("lookup_id_by_prefix".toList ++ '/' :: x)) := by
    simp
  have s1 : ∀ c ∈ "producer".toList, isSep c = false := by decide +kernel
  have s2 : ∀ c ∈ "submissions".toList, isSep c = false := by decide +kernel
  have s3 : ∀ c ∈ "cancel".toList, isSep c = false := by decide +kernel
  have s4 : ∀ c ∈ "lookup_id_by_prefix".toList, isSep c = false := by decide +kernel
  have p : ∀ l : List Char, (∀ c ∈ l, PlainChar c) → ∀ c ∈ l ++ x, PlainChar c := by
    intro l hl c hc
    rcases List.mem_append.1 hc with h | h
    · exact hl c h
    · exact hx c h
  refine ⟨?_, ?_, ?_⟩
  · rw [urlPath_plain (p _ (by decide +kernel)), e1, splitPath_append _ _ s1, splitPath_append _ _ s2,
      splitPath_noSep hs]
    simp [resolve, h1, h2]
  · rw [urlPath_plain (p _ (by decide +kernel)), e2, splitPath_append _ _ s1, splitPath_append _ _ s2,
      splitPath_append _ _ s3, splitPath_noSep hs]
    simp [resolve, h1, h2]
  · rw [urlPath_plain (p _ (by decide +kernel)), e3, splitPath_append _ _ s1, splitPath_append _ _ s2,
      splitPath_append _ _ s4, splitPath_noSep hs]
    simp [resolve, h1, h2]

theorem decimal_ne_dots (n : Nat) : Decimal.decimal n ≠ ['.'] ∧ Decimal.decimal n ≠ ['.', '.'] := by
  constructor <;>
  · intro h
    have := Decimal.decimal_isDigit n '.' (by rw [h]; simp)
    revert this; unfold Decimal.IsDigit; decide

theorem urlPath_id (n : Nat) :
    urlPath ("producer/submissions/".toList ++ Decimal.decimal n) =
      ["producer".toList, "submissions".toList, Decimal.decimal n] ∧
    urlPath ("producer/submissions/cancel/".toList ++ Decimal.decimal n) =
      ["producer".toList, "submissions".toList, "cancel".toList, Decimal.decimal n] := by
  have h := urlPath_tail (Decimal.decimal n) (fun c hc => plain_digit (Decimal.decimal_isDigit n c hc))
    (fun c hc => isSep_digit (Decimal.decimal_isDigit n c hc)) (decimal_ne_dots n).1 (decimal_ne_dots n).2
  exact ⟨h.1, h.2.1⟩

theorem decimal_ne_word (n : Nat) (w : List Char) (hw : ∃ c ∈ w, ¬ Decimal.IsDigit c) : Decimal.decimal n ≠ w := by
  rintro rfl
  obtain ⟨c, hc, hn⟩ := hw
  exact hn (Decimal.decimal_isDigit n c hc)

instance (c : Char) : Decidable (Decimal.IsDigit c) := inferInstanceAs (Decidable (_ ∧ _))

theorem route_four (post : Bool) (b c : Seg) (hc : c ≠ []) :
    route post ["producer".toList, "submissions".toList, b, c] =
      if b = "cancel".toList then Route.onlyIf post (.cancel c)
      else if b = "lookup_id_by_prefix".toList then .onlyIf (!post) (.lookupPrefix c) else .notFound := by
  rw [route.eq_3, if_neg]
  rintro (h | h | h)
  · exact h rfl
  · exact h rfl
  · exact hc h

theorem route_three (post : Bool) (b : Seg) :
    route post ["producer".toList, "submissions".toList, b] =
      if b = "count_completed".toList then Route.onlyIf (!post) .countCompleted
      else if b = "count".toList then .onlyIf (!post) .count
      else if b = "lookup_ids_by_strategic_metadata".toList then .onlyIf post .lookup
      else if b = [] then .notFound
      else .onlyIf (!post) (.status b) := by
  rw [route.eq_2, if_neg]
  rintro (h | h) <;> exact h rfl

theorem request_cancel (id : SubmissionId) : (request (.cancel id)).post = true ∧
    (request (.cancel id)).path = urlPath ("producer/submissions/cancel/".toList ++ Decimal.decimal id) :=
  ⟨rfl, rfl⟩

theorem request_get (id : SubmissionId) : (request (.get id)).post = false ∧
    (request (.get id)).path = urlPath ("producer/submissions/".toList ++ Decimal.decimal id) :=
  ⟨rfl, rfl⟩

theorem request_lookupPrefix (p : String) : (request (.lookupPrefix p)).post = false ∧
    (request (.lookupPrefix p)).path = urlPath ("producer/submissions/lookup_id_by_prefix/".toList ++ p.toList) :=
  ⟨rfl, rfl⟩

theorem request_insert (r : InsertSubmission) : (request (.insert r)).post = true ∧
    (request (.insert r)).path = urlPath "producer/submissions".toList ∧
    (request (.insert r)).body = some (encInsert r) := ⟨rfl, rfl, rfl⟩

theorem request_lookup (m : StrategicMetadata) : (request (.lookup m)).post = true ∧
    (request (.lookup m)).path = urlPath "producer/submissions/lookup_ids_by_strategic_metadata".toList ∧
    (request (.lookup m)).body = some (encMap m) := ⟨rfl, rfl, rfl⟩

theorem route_cancel (id : SubmissionId) :
    route (request (.cancel id)).post (request (.cancel id)).path = .cancel (Decimal.decimal id) := by
  rw [(request_cancel id).1, (request_cancel id).2, (urlPath_id id).2, route_four _ _ _ (Decimal.decimal_ne_nil id),
    if_pos rfl]
  rfl

theorem route_get (id : SubmissionId) :
    route (request (.get id)).post (request (.get id)).path = .status (Decimal.decimal id) := by
  rw [(request_get id).1, (request_get id).2, (urlPath_id id).1, route_three,
    if_neg (decimal_ne_word id "count_completed".toList (by decide +kernel)),
    if_neg (decimal_ne_word id "count".toList (by decide +kernel)),
    if_neg (decimal_ne_word id "lookup_ids_by_strategic_metadata".toList (by decide +kernel)),
    if_neg (Decimal.decimal_ne_nil id)]
  rfl

theorem route_lookupPrefix {p : String} (h : PlainPrefix p) :
    route (request (.lookupPrefix p)).post (request (.lookupPrefix p)).path = .lookupPrefix p.toList ∧
    String.ofList (percentDecode p.toList) = p := by
  obtain ⟨h0, h1, h2, hc⟩ := h
  have t : ∀ q : String, p ≠ q → p.toList ≠ q.toList := by
    intro q hq he
    apply hq
    rw [← String.ofList_toList (s := p), he, String.ofList_toList]
  have hp : ∀ c ∈ p.toList, PlainChar c := by
    intro c hm
    obtain ⟨hn, hs⟩ := hc c hm
    simp only [List.mem_cons, not_or] at hn
    exact ⟨hs, hn.1, hn.2.1⟩
  have hs : ∀ c ∈ p.toList, isSep c = false := by
    intro c hm
    obtain ⟨hn, _⟩ := hc c hm
    simp only [List.mem_cons, not_or] at hn
    simp [isSep, hn.2.2.1, hn.2.2.2.1]
  have hd1 : p.toList ≠ ['.'] := by have := t "." h1; simpa using this
  have hd2 : p.toList ≠ ['.', '.'] := by have := t ".." h2; simpa using this
  have hne : p.toList ≠ [] := by have := t "" h0; simpa using this
  refine ⟨?_, ?_⟩
  · rw [(request_lookupPrefix p).1, (request_lookupPrefix p).2, (urlPath_tail _ hp hs hd1 hd2).2.2,
      route_four _ _ _ hne, if_neg (by decide +kernel), if_pos rfl]
    rfl
  · rw [percentDecode_plain, String.ofList_toList]
    intro c hm
    obtain ⟨hn, _⟩ := hc c hm
    simp only [List.mem_cons, not_or] at hn
    exact hn.2.2.2.2.1

theorem route_insert (r : InsertSubmission) :
    route (request (.insert r)).post (request (.insert r)).path = .insert := by
  rw [(request_insert r).1, (request_insert r).2.1]
  decide +kernel

theorem route_count : route (request .count).post (request .count).path = .count := by decide +kernel

theorem route_version : route (request .version).post (request .version).path = .version := by decide +kernel

theorem route_lookup (m : StrategicMetadata) :
    route (request (.lookup m)).post (request (.lookup m)).path = .lookup := by
  rw [(request_lookup m).1, (request_lookup m).2.1]
  decide +kernel

/-! ## What the server does with each request -/

variable (max : Nat) (e : ServerEnv) (hist : List Op)

theorem handle_insert (r : InsertSubmission) (hc : e.connOk = true) :
    handle max e (request (.insert r)) hist =
      (insertAnswer (step (run hist) (.insert (insertArgs r e) e.now1 e.faults)).1,
        hist ++ [.insert (insertArgs r e) e.now1 e.faults]) := by
  have hb : (request (.insert r)).body.bind decInsert = some r := by simp [request]
  unfold handle
  rw [route_insert, hb]
  simp [hc]

theorem handle_insert_noConn (r : InsertSubmission) (hc : e.connOk = false) :
    handle max e (request (.insert r)) hist = (some serverError, hist) := by
  have hb : (request (.insert r)).body.bind decInsert = some r := by simp [request]
  unfold handle
  rw [route_insert, hb]
  simp [hc]

theorem pathId_decimal {n : Nat} (h : n < 2 ^ 63) : pathId (Decimal.decimal n) = some n := by
  simp [pathId, percentDecode_decimal, Decimal.parse_decimal, h]

theorem handle_cancel (id : SubmissionId) (hid : id < 2 ^ 63) (hc : e.connOk = true) :
    handle max e (request (.cancel id)) hist =
      (cancelAnswer (step (run hist) (.cancel id e.now1 e.now2 e.faults)).1,
        hist ++ [.cancel id e.now1 e.now2 e.faults]) := by
  unfold handle
  rw [route_cancel]
  simp only [pathId_decimal hid]
  simp [hc]

theorem handle_cancel_noConn (id : SubmissionId) (hid : id < 2 ^ 63) (hc : e.connOk = false) :
    handle max e (request (.cancel id)) hist = (some serverError, hist) := by
  unfold handle
  rw [route_cancel]
  simp only [pathId_decimal hid]
  simp [hc]

theorem handle_get (id : SubmissionId) (hid : id < 2 ^ 63) (hc : e.connOk = true) :
    handle max e (request (.get id)) hist =
      (readAnswer (encOpt encStatus) (submissionStatus id ⟨e.faults, run hist⟩).1, hist) := by
  unfold handle
  rw [route_get]
  simp only [pathId_decimal hid]
  simp [hc]

theorem handle_lookupPrefix {p : String} (h : PlainPrefix p) (hc : e.connOk = true) :
    handle max e (request (.lookupPrefix p)) hist =
      (readAnswer (encOpt encNat) (lookupIdByPrefix p ⟨e.faults, run hist⟩).1, hist) := by
  unfold handle
  rw [(route_lookupPrefix h).1]
  simp only [(route_lookupPrefix h).2]
  simp [hc]

theorem handle_lookup (m : StrategicMetadata) (hc : e.connOk = true) :
    handle max e (request (.lookup m)) hist =
      (lookupAnswer (lookupIdsByStrategicMetadata (lastOfEach m) max ⟨e.faults, run hist⟩).1, hist) := by
  have hb : (request (.lookup m)).body.bind decMap = some m := by simp [request]
  unfold handle
  rw [route_lookup, hb]
  simp [hc]

theorem handle_count (hc : e.connOk = true) :
    handle max e (request .count) hist = (readAnswer encNat (countSubmissions ⟨e.faults, run hist⟩).1, hist) := by
  unfold handle
  rw [route_count]
  simp [hc]

/-! ## Retries -/

/-- The loop from attempt `i` on. -/
theorem retrying_spec {σ ε α : Type} (cond : ε → Bool) (f : Nat → σ → Except ε α × σ) (st : Nat → σ)
    (hst : ∀ k, st (k + 1) = (f k (st k)).2) : ∀ d i, ∃ n, n ≤ d ∧
    retrying cond f d i (st i) = ((f (i + n) (st (i + n))).1, st (i + n + 1), i + n + 1) ∧
    (∀ k < n, ∃ e, (f (i + k) (st (i + k))).1 = .error e ∧ cond e = true) ∧
    (n = d ∨ ∀ e, (f (i + n) (st (i + n))).1 = .error e → cond e = false) := by
  intro d
  induction d with
  | zero =>
    intro i
    refine ⟨0, Nat.le_refl _, ?_, by simp, .inl rfl⟩
    unfold retrying
    have hs := hst i
    rcases hf : f i (st i) with ⟨r, s'⟩
    rw [hf] at hs
    simp only [Nat.add_zero]
    cases r with
    | ok a => simp [hs]
    | error x => simp [hs]
  | succ d ih =>
    intro i
    have hs := hst i
    rcases hf : f i (st i) with ⟨r, s'⟩
    rw [hf] at hs
    cases r with
    | ok a =>
      refine ⟨0, by omega, ?_, by simp, .inr ?_⟩
      · unfold retrying; simp [hf, hs]
      · intro e he; simp [hf] at he
    | error x =>
      by_cases hx : cond x = true
      · obtain ⟨n, hn, h1, h2, h3⟩ := ih (i + 1)
        have hi : ∀ k, i + 1 + k = i + (k + 1) := by intro k; omega
        refine ⟨n + 1, by omega, ?_, ?_, ?_⟩
        · unfold retrying
          simp only [hf, hx, if_true]
          simp only at hs
          rw [← hs, h1, hi]
        · intro k hk
          cases k with
          | zero => exact ⟨x, by simp [hf], hx⟩
          | succ k =>
            have := h2 k (by omega)
            rwa [hi] at this
        · rcases h3 with h3 | h3
          · exact .inl (by omega)
          · right; rwa [hi] at h3
      · refine ⟨0, by omega, ?_, by simp, .inr ?_⟩
        · unfold retrying; simp [hf, hs, hx]
        · intro e he
          simp [hf] at he
          subst he; simpa using hx

/-- The errors the client retries. -/
theorem call_spec (c : Call) (hc : c ≠ .version) (env : Nat → Attempt) :
    RetriesExactly (fun e => isEphemeral e = true) max c env hist := by
  obtain ⟨n, h1, h2, h3, h4⟩ := retrying_spec isEphemeral (fun i h => attempt max c (env i) h)
    (historyAfter max c env hist) (fun k => rfl) 100 0
  simp only [Nat.zero_add] at h2 h3 h4
  refine ⟨n, h1, ?_, h3, ?_⟩
  · unfold call
    cases c <;> first | exact h2 | exact absurd rfl hc
  · rcases h4 with h | h
    · exact .inl h
    · exact .inr fun e he => by simp [h e he]

theorem RetriesExactly.mono {T T' : ClientErr → Prop} {max : Nat} {c : Call} {env : Nat → Attempt} {hist : List Op}
    (h : RetriesExactly T max c env hist)
    (hT : ∀ k e, outcome max c env hist k = .error e → (T e ↔ T' e)) : RetriesExactly T' max c env hist := by
  obtain ⟨n, h1, h2, h3, h4⟩ := h
  refine ⟨n, h1, h2, ?_, ?_⟩
  · intro k hk
    obtain ⟨e, he, ht⟩ := h3 k hk
    exact ⟨e, he, (hT k e he).1 ht⟩
  · rcases h4 with h | h
    · exact .inl h
    · exact .inr fun e he ht => h e he ((hT n e he).2 ht)

theorem isEphemeral_iff (e : ClientErr) : isEphemeral e = true ↔
    ∃ x, e = .http x ∧ (x.connect = true ∨ x.timeout = true ∨ x.decode = true ∨
      ∃ s, x.status = some s ∧ 500 ≤ s ∧ s < 600) := by
  cases e with
  | http x =>
    simp only [isEphemeral, ClientErr.http.injEq, exists_eq_left']
    rcases x with ⟨a, b, c, d⟩
    cases a <;> cases b <;> cases c <;> cases d <;> simp
  | _ => simp [isEphemeral]

end Opsqueue.Http
