import Verif.Spec.HttpText
import Verif.Proofs.JsonText
import Verif.Proofs.Http
import Verif.Proofs.Wire

/-! # A call over texts is the call over trees -/

namespace Opsqueue.HttpText
open Wire Http SubmissionDb JsonText

/-! ## Numbers -/

theorem isI64_iff {n : Int} : isI64 n = true ↔ I64 n := by
  unfold isI64 I64
  simp

theorem fitsInsert_iff {r : InsertSubmission} : fitsInsert r = true ↔ InsertFits r := by
  unfold fitsInsert InsertFits MapFits
  simp only [Bool.and_eq_true, List.all_eq_true, isI64_iff, and_assoc]
  refine and_congr ?_ (and_congr Iff.rfl ?_)
  · cases r.chunkContents with
    | seeObjectStorage p n =>
      simp only [decide_eq_true_eq, ChunkContents.seeObjectStorage.injEq]
      exact ⟨fun h p' n' e => e.2 ▸ h, fun h => h p n ⟨rfl, rfl⟩⟩
    | direct cs => simp
  · cases r.chunkSize with
    | none => simp
    | some n => simp [isI64_iff]

theorem fitsMap_iff {m : StrategicMetadata} : (m.all fun kv => isI64 kv.2) = true ↔ MapFits m := by
  unfold MapFits
  simp only [List.all_eq_true, isI64_iff]

theorem whole_nat {n : Nat} (h : n < 2 ^ 63) : Whole (encNat n) := .num (by omega) (by simp; omega)

theorem whole_int {n : Int} (h : I64 n) : Whole (encInt n) := .num h.1 (by have := h.2; omega)

theorem whole_map {m : StrategicMetadata} (h : MapFits m) : Whole (encMap m) := by
  refine .obj ?_
  intro f hf
  obtain ⟨kv, hkv, rfl⟩ := List.mem_map.1 hf
  exact whole_int (h kv hkv)

theorem whole_bytes (b : Bytes) : Whole (encBytes b) := by
  refine .arr ?_
  intro x hx
  obtain ⟨u, _, rfl⟩ := List.mem_map.1 hx
  have := u.toNat_lt
  exact .num (by omega) (by omega)

theorem whole_opt {α : Type} {f : α → Json} {o : Option α} (h : ∀ a, o = some a → Whole (f a)) : Whole (encOpt f o) := by
  cases o with
  | none => exact .null
  | some a => exact h a rfl

theorem whole_fields {fs : List (String × Json)} (h : ∀ v ∈ fs.map (·.2), Whole v) : Whole (.obj fs) :=
  .obj fun f hf => h f.2 (List.mem_map.2 ⟨f, hf, rfl⟩)

theorem whole_insert {r : InsertSubmission} (h : InsertFits r) : Whole (encInsert r) := by
  obtain ⟨h1, h2, h3⟩ := h
  refine whole_fields ?_
  simp only [List.map_cons, List.map_nil, List.mem_cons, List.not_mem_nil, or_false]
  rintro v (rfl | rfl | rfl | rfl)
  · cases hc : r.chunkContents with
    | seeObjectStorage p n =>
      refine whole_fields ?_
      simp only [List.map_cons, List.map_nil, List.mem_singleton]
      rintro v rfl
      refine whole_fields ?_
      simp only [List.map_cons, List.map_nil, List.mem_cons, List.not_mem_nil, or_false]
      rintro v (rfl | rfl)
      · exact .str _
      · exact whole_nat (h1 p n hc)
    | direct cs =>
      refine whole_fields ?_
      simp only [List.map_cons, List.map_nil, List.mem_singleton]
      rintro v rfl
      refine whole_fields ?_
      simp only [List.map_cons, List.map_nil, List.mem_singleton]
      rintro v rfl
      refine .arr ?_
      intro x hx
      obtain ⟨o, _, rfl⟩ := List.mem_map.1 hx
      exact whole_opt fun b _ => whole_bytes b
  · exact whole_opt fun b _ => whole_bytes b
  · exact whole_map h2
  · exact whole_opt fun n hn => whole_int (h3 n hn)

theorem whole_status {s : SubmissionStatus} (h : StatusFits s) : Whole (encStatus s) := by
  cases s with
  | inProgress s =>
    obtain ⟨h1, h2, h3, h4, h5⟩ := h
    refine whole_fields ?_
    simp only [List.map_cons, List.map_nil, List.mem_singleton]
    rintro v rfl
    refine whole_fields ?_
    simp only [List.map_cons, List.map_nil, List.mem_cons, List.not_mem_nil, or_false]
    rintro v (rfl | rfl | rfl | rfl | rfl | rfl | rfl | rfl)
    · exact whole_nat h1
    · exact whole_opt fun b _ => .str _
    · exact whole_nat h2
    · exact whole_nat h3
    · exact whole_int h4
    · exact whole_opt fun b _ => whole_bytes b
    · exact whole_map h5
    · exact .str _
  | completed s =>
    obtain ⟨h1, h2, h4, h5⟩ := h
    refine whole_fields ?_
    simp only [List.map_cons, List.map_nil, List.mem_singleton]
    rintro v rfl
    refine whole_fields ?_
    simp only [List.map_cons, List.map_nil, List.mem_cons, List.not_mem_nil, or_false]
    rintro v (rfl | rfl | rfl | rfl | rfl | rfl | rfl | rfl)
    · exact whole_nat h1
    · exact whole_opt fun b _ => .str _
    · exact whole_nat h2
    · exact whole_int h4
    · exact whole_opt fun b _ => whole_bytes b
    · exact whole_map h5
    · exact .str _
    · exact .str _
  | failed s c =>
    obtain ⟨h1, h2, h3, h4, h5, h6, h7, h8⟩ := h
    refine whole_fields ?_
    simp only [List.map_cons, List.map_nil, List.mem_singleton]
    rintro v rfl
    refine .arr ?_
    simp only [List.mem_cons, List.not_mem_nil, or_false]
    rintro v (rfl | rfl)
    · refine whole_fields ?_
      simp only [List.map_cons, List.map_nil, List.mem_cons, List.not_mem_nil, or_false]
      rintro v (rfl | rfl | rfl | rfl | rfl | rfl | rfl | rfl | rfl | rfl)
      · exact whole_nat h1
      · exact whole_opt fun b _ => .str _
      · exact whole_nat h2
      · exact whole_opt fun b hb => whole_nat (h3 b hb)
      · exact whole_int h4
      · exact whole_opt fun b _ => whole_bytes b
      · exact whole_map h5
      · exact .str _
      · exact whole_nat h6
      · exact .str _
    · refine whole_fields ?_
      simp only [List.map_cons, List.map_nil, List.mem_cons, List.not_mem_nil, or_false]
      rintro v (rfl | rfl | rfl | rfl | rfl)
      · exact whole_nat h7
      · exact whole_nat h8
      · exact whole_opt fun b _ => whole_bytes b
      · exact .str _
      · exact .str _
  | cancelled s =>
    obtain ⟨h1, h2, h3, h5⟩ := h
    refine whole_fields ?_
    simp only [List.map_cons, List.map_nil, List.mem_singleton]
    rintro v rfl
    refine whole_fields ?_
    simp only [List.map_cons, List.map_nil, List.mem_cons, List.not_mem_nil, or_false]
    rintro v (rfl | rfl | rfl | rfl | rfl | rfl | rfl)
    · exact whole_nat h1
    · exact whole_opt fun b _ => .str _
    · exact whole_nat h2
    · exact whole_nat h3
    · exact whole_opt fun b _ => whole_bytes b
    · exact whole_map h5
    · exact .str _

/-! ## Calls -/

theorem parse_insert {r : InsertSubmission} (h : InsertFits r) : JsonText.parse (JsonText.print (encInsert r)) = some (encInsert r) :=
  JsonText.parse_print (whole_insert h)

theorem parse_map {m : StrategicMetadata} (h : MapFits m) : JsonText.parse (JsonText.print (encMap m)) = some (encMap m) :=
  JsonText.parse_print (whole_map h)

/-- The server understands the text of a request. -/
theorem handleText_request {max : Nat} {e : ServerEnv} {c : Call} {hist : List Op} (hfit : CallFits c)
    (hlen : utf8Length (requestText c).body ≤ bodyLimit) (hp : ∀ p, c = .lookupPrefix p → PlainPrefix p) :
    handleText max e (requestText c) hist = toText (handle max e (request c) hist) := by
  unfold handleText
  have e0 : (requestText c).post = (request c).post ∧ (requestText c).path = (request c).path := ⟨rfl, rfl⟩
  cases c with
  | insert r =>
    rw [e0.1, e0.2, route_insert]
    dsimp only
    unfold withJson
    rw [if_neg (by simp [requestText, request]), if_neg (by omega)]
    rw [show (requestText (.insert r)).body = JsonText.print (encInsert r) from rfl, parse_insert hfit]
    dsimp only
    rw [insert_rt]
    dsimp only
    rw [if_pos (fitsInsert_iff.2 hfit)]
    rfl
  | lookup m =>
    rw [e0.1, e0.2, route_lookup]
    dsimp only
    unfold withJson
    rw [if_neg (by simp [requestText, request]), if_neg (by omega)]
    rw [show (requestText (.lookup m)).body = JsonText.print (encMap m) from rfl, parse_map hfit]
    dsimp only
    rw [map_rt]
    dsimp only
    rw [if_pos (fitsMap_iff.2 hfit)]
    rfl
  | count => rw [e0.1, e0.2, route_count]; rfl
  | version => rw [e0.1, e0.2, route_version]; rfl
  | cancel id => rw [e0.1, e0.2, route_cancel]; rfl
  | get id => rw [e0.1, e0.2, route_get]; rfl
  | lookupPrefix p => rw [e0.1, e0.2, (route_lookupPrefix (hp p rfl)).1]; rfl

theorem received_toText {r : Response} (h : Whole r.body) :
    received ⟨r.status, JsonText.print r.body⟩ = r := by
  unfold received
  rw [JsonText.parse_print h]
  rfl

theorem attemptText_eq {max : Nat} {c : Call} {a : TextAttempt} {hist : List Op} (hfit : CallFits c)
    (hlen : utf8Length (requestText c).body ≤ bodyLimit) (hp : ∀ p, c = .lookupPrefix p → PlainPrefix p)
    (hans : ∀ r, (handle max a.server (request c) (hist ++ a.before)).1 = some r → Whole r.body) :
    attemptText max c a hist = attempt max c (asTree a) hist := by
  unfold attemptText attempt
  dsimp only
  rw [handleText_request hfit hlen hp]
  dsimp only [asTree]
  cases hnet : a.net with
  | ok =>
    dsimp only
    cases hh : (handle max a.server (request c) (hist ++ a.before)).1 with
    | none => simp [toText, hh]
    | some r =>
      simp only [toText, hh, Option.map_some]
      unfold interpretText
      rw [received_toText (hans r hh)]
  | noRequest e => rfl
  | noResponse e => rfl
  | answeredBy p r => rfl

theorem retrying_congr {σ ε α : Type} {cond : ε → Bool} {f g : Nat → σ → Except ε α × σ} {st : Nat → σ}
    (hst : ∀ k, st (k + 1) = (f k (st k)).2) (h : ∀ k, g k (st k) = f k (st k)) :
    ∀ d i, retrying cond g d i (st i) = retrying cond f d i (st i) := by
  intro d
  induction d with
  | zero => intro i; unfold retrying; rw [h i]
  | succ d ih =>
    intro i
    unfold retrying
    rw [h i]
    have hs := hst i
    generalize f i (st i) = x at hs
    obtain ⟨x, s'⟩ := x
    cases x with
    | ok a => rfl
    | error e =>
      dsimp only at hs ⊢
      rw [← hs, ih (i + 1)]

theorem callText_eq {max : Nat} {c : Call} {env : Nat → TextAttempt} {hist : List Op} (hfit : CallFits c)
    (hlen : utf8Length (requestText c).body ≤ bodyLimit) (hp : ∀ p, c = .lookupPrefix p → PlainPrefix p)
    (hans : ∀ k r, (handle max (env k).server (request c)
      (historyAfter max c (fun i => asTree (env i)) hist k ++ (env k).before)).1 = some r → Whole r.body) :
    callText max c env hist = call max c (fun i => asTree (env i)) hist := by
  unfold callText call
  exact retrying_congr (st := historyAfter max c (fun i => asTree (env i)) hist) (fun k => rfl)
    (fun k => attemptText_eq hfit hlen hp (hans k)) _ 0

/-! ## Bodies that are too long -/

theorem handleText_tooLong {max : Nat} {e : ServerEnv} {c : Call} {hist : List Op}
    (hlen : bodyLimit < utf8Length (requestText c).body) : handleText max e (requestText c) hist = (some ⟨413, []⟩, hist) := by
  have e0 : (requestText c).post = (request c).post ∧ (requestText c).path = (request c).path := ⟨rfl, rfl⟩
  unfold handleText
  cases c with
  | insert r =>
    rw [e0.1, e0.2, route_insert]
    dsimp only
    unfold withJson
    rw [if_neg (by simp [requestText, request]), if_pos hlen]
  | lookup r =>
    rw [e0.1, e0.2, route_lookup]
    dsimp only
    unfold withJson
    rw [if_neg (by simp [requestText, request]), if_pos hlen]
  | _ => simp [requestText, request, utf8Length, bodyLimit] at hlen

theorem utf8Length_append (a b : List Char) : utf8Length (a ++ b) = utf8Length a + utf8Length b := by
  simp [utf8Length]

theorem length_le_utf8Length (s : List Char) : s.length ≤ utf8Length s := by
  unfold utf8Length
  induction s with
  | nil => simp
  | cons c s ih =>
    have := Char.utf8Size_pos c
    simp only [List.map_cons, List.sum_cons, List.length_cons]
    omega

theorem print_num_pos (n : Int) : 1 ≤ (JsonText.print (.num n)).length := by
  rw [JsonText.print]
  cases n with
  | ofNat n =>
    have := Decimal.decimal_ne_nil n
    rw [printInt]
    exact List.length_pos_iff.2 this
  | negSucc n => simp [printInt]

theorem printElems_length (xs : List Json) (h : ∀ x ∈ xs, 1 ≤ (JsonText.print x).length) :
    2 * xs.length ≤ (printElems xs).length + 1 := by
  induction xs with
  | nil => simp
  | cons x xs ih =>
    have hx := h x (by simp)
    cases xs with
    | nil => simp [printElems]; omega
    | cons y ys =>
      have := ih fun z hz => h z (by simp [hz])
      rw [printElems]
      simp only [List.length_append, List.length_cons] at this ⊢
      omega

theorem print_bytes_length (b : Bytes) : 2 * b.length + 1 ≤ (JsonText.print (encBytes b)).length := by
  unfold encBytes encList
  rw [JsonText.print]
  have := printElems_length (b.map encU8) (by
    intro x hx
    obtain ⟨u, _, rfl⟩ := List.mem_map.1 hx
    exact print_num_pos _)
  simp only [List.length_map] at this
  simp only [List.length_append, List.length_cons, List.length_nil]
  omega

/-- How many bytes the contents of the chunks have. -/
theorem printElems_contents (cs : List Content) :
    2 * (cs.map fun c => (c.map List.length).getD 0).sum ≤ (printElems (cs.map (encOpt encBytes))).length := by
  have h1 : ∀ c : Content, 2 * (c.map List.length).getD 0 ≤ (JsonText.print (encOpt encBytes c)).length := by
    intro c
    cases c with
    | none => simp
    | some b => have := print_bytes_length b; simp only [encOpt, Option.map_some, Option.getD_some]; omega
  induction cs with
  | nil => simp
  | cons c cs ih =>
    have := h1 c
    cases cs with
    | nil => simpa [printElems] using this
    | cons d ds =>
      simp only [List.map_cons] at ih ⊢
      rw [printElems]
      simp only [List.length_append, List.length_cons, List.sum_cons] at ih ⊢
      omega

/-! ## How long a body is at most -/

theorem hexChar_size : ∀ n < 16, (hexChar n).utf8Size = 1 := by decide

theorem escape_length (c : Char) : utf8Length (escape c) ≤ 6 := by
  unfold escape
  split
  · decide
  split
  · decide
  split
  · decide
  split
  · decide
  split
  · decide
  split
  · decide
  split
  · decide
  split
  · rename_i h
    have h1 := hexChar_size (c.toNat / 16) (by omega)
    have h2 := hexChar_size (c.toNat % 16) (by omega)
    simp only [utf8Length, List.map_cons, List.map_nil, List.sum_cons, List.sum_nil, h1, h2]
    decide
  · have := Char.utf8Size_le_four c
    simp only [utf8Length, List.map_cons, List.map_nil, List.sum_cons, List.sum_nil]
    omega

theorem flatMap_escape_length (s : List Char) : utf8Length (s.flatMap escape) ≤ 6 * s.length := by
  induction s with
  | nil => simp [utf8Length]
  | cons c s ih =>
    have := escape_length c
    rw [List.flatMap_cons, utf8Length_append, List.length_cons]
    omega

theorem utf8Length_cons (c : Char) (s : List Char) : utf8Length (c :: s) = c.utf8Size + utf8Length s := by
  simp [utf8Length]

theorem printStr_length (s : String) : utf8Length (printStr s) ≤ 6 * s.toList.length + 2 := by
  have := flatMap_escape_length s.toList
  unfold printStr
  rw [utf8Length_append, utf8Length_cons, show utf8Length ['"'] = 1 from rfl, show Char.utf8Size '"' = 1 from rfl]
  omega

theorem digitChar_size : ∀ d < 10, (Decimal.digitChar d).utf8Size = 1 := by decide

theorem digits_length (k : Nat) : ∀ fuel n acc, n < 10 ^ (k + 1) →
    utf8Length (Decimal.digits fuel n acc) ≤ k + 1 + utf8Length acc := by
  induction k with
  | zero =>
    intro fuel n acc h
    cases fuel with
    | zero => simp [Decimal.digits]
    | succ f =>
      unfold Decimal.digits
      rw [if_pos (by omega), utf8Length_cons, digitChar_size _ (by omega)]
      omega
  | succ k ih =>
    intro fuel n acc h
    cases fuel with
    | zero => simp only [Decimal.digits]; omega
    | succ f =>
      unfold Decimal.digits
      dsimp only
      split
      · rw [utf8Length_cons, digitChar_size _ (by omega)]
        omega
      · have := ih f (n / 10) (Decimal.digitChar (n % 10) :: acc) (by rw [Nat.pow_succ] at h; omega)
        rw [utf8Length_cons, digitChar_size _ (by omega)] at this
        omega

theorem decimal_length {n : Nat} (k : Nat) (h : n < 10 ^ (k + 1)) : utf8Length (Decimal.decimal n) ≤ k + 1 := by
  have := digits_length k (n + 1) n [] h
  simpa [utf8Length, Decimal.decimal] using this

theorem print_int_length {n : Int} (h : I64 n) : utf8Length (JsonText.print (encInt n)) ≤ 20 := by
  unfold encInt
  rw [JsonText.print]
  obtain ⟨h1, h2⟩ := h
  cases n with
  | ofNat n =>
    have := decimal_length (n := n) 18 (by simp at h2; omega)
    rw [printInt]; omega
  | negSucc n =>
    have := decimal_length (n := n + 1) 18 (by simp at h1; omega)
    rw [printInt, utf8Length_cons, show Char.utf8Size '-' = 1 from rfl]; omega

theorem print_nat_length {n : Nat} (h : n < 2 ^ 63) : utf8Length (JsonText.print (encNat n)) ≤ 20 :=
  print_int_length (n := (n : Int)) ⟨by omega, by omega⟩

theorem printElems_bytes_length (b : Bytes) : utf8Length (printElems (b.map encU8)) ≤ 4 * b.length := by
  have h1 : ∀ u : UInt8, utf8Length (JsonText.print (encU8 u)) ≤ 3 := by
    intro u
    have := u.toNat_lt
    unfold encU8
    rw [JsonText.print]
    exact decimal_length (n := u.toNat) 2 (by omega)
  induction b with
  | nil => simp [printElems, utf8Length]
  | cons u b ih =>
    have := h1 u
    cases b with
    | nil =>
      simp only [List.map_cons, List.map_nil, List.length_cons, List.length_nil]
      rw [printElems]; omega
    | cons v b =>
      simp only [List.map_cons, List.length_cons] at ih ⊢
      rw [printElems, utf8Length_append, utf8Length_cons, show Char.utf8Size ',' = 1 from rfl]
      omega

theorem print_bytes_length_le (b : Bytes) : utf8Length (JsonText.print (encBytes b)) ≤ 4 * b.length + 2 := by
  have := printElems_bytes_length b
  unfold encBytes encList
  rw [JsonText.print, utf8Length_append, utf8Length_cons, show Char.utf8Size '[' = 1 from rfl, show utf8Length [']'] = 1 from rfl]
  omega

theorem printFields_map_length (m : StrategicMetadata) (h : MapFits m) :
    utf8Length (printFields (m.map fun kv => (kv.1, encInt kv.2))) ≤ (m.map fun kv => 6 * kv.1.toList.length + 24).sum := by
  induction m with
  | nil => simp [printFields, utf8Length]
  | cons kv m ih =>
    have hk := printStr_length kv.1
    have hv := print_int_length (h kv (by simp))
    have ih := ih fun x hx => h x (by simp [hx])
    cases m with
    | nil =>
      simp only [List.map_cons, List.map_nil, List.sum_cons, List.sum_nil]
      rw [printFields, utf8Length_append, utf8Length_cons, show Char.utf8Size ':' = 1 from rfl]
      omega
    | cons kv' m =>
      simp only [List.map_cons, List.sum_cons] at ih ⊢
      rw [printFields, utf8Length_append, utf8Length_append, utf8Length_cons, utf8Length_cons, show Char.utf8Size ':' = 1 from rfl,
        show Char.utf8Size ',' = 1 from rfl]
      omega

theorem print_map_length (m : StrategicMetadata) (h : MapFits m) :
    utf8Length (JsonText.print (encMap m)) ≤ (m.map fun kv => 6 * kv.1.toList.length + 24).sum + 2 := by
  have := printFields_map_length m h
  unfold encMap
  rw [JsonText.print, utf8Length_append, utf8Length_cons, show Char.utf8Size '{' = 1 from rfl, show utf8Length ['}'] = 1 from rfl]
  omega

theorem print_opt_length {α : Type} {f : α → Json} {o : Option α} {d : Nat} (hd : 4 ≤ d)
    (h : ∀ a, o = some a → utf8Length (JsonText.print (f a)) ≤ d) : utf8Length (JsonText.print (encOpt f o)) ≤ d := by
  cases o with
  | none => rw [encOpt, JsonText.print]; exact hd
  | some a => exact h a rfl

/-- The length of a request that names a prefix of the object store. -/
theorem objectStore_length {r : InsertSubmission} (hf : InsertFits r) {p : String} {n : Nat}
    (hc : r.chunkContents = .seeObjectStorage p n) :
    utf8Length (requestText (.insert r)).body ≤ 200 + 6 * p.toList.length + 4 * (r.metadata.map List.length).getD 0 +
      (r.strategic.map fun kv => 6 * kv.1.toList.length + 24).sum := by
  obtain ⟨h1, h2, h3⟩ := hf
  have k1 := printStr_length p
  have k2 := print_nat_length (h1 p n hc)
  have k3 : utf8Length (JsonText.print (encOpt encBytes r.metadata)) ≤ 4 * (r.metadata.map List.length).getD 0 + 4 := by
    cases r.metadata with
    | none => simp [encOpt, JsonText.print]; decide
    | some b => have := print_bytes_length_le b; simp only [encOpt, Option.map_some, Option.getD_some]; omega
  have k4 := print_map_length r.strategic h2
  have k5 : utf8Length (JsonText.print (encOpt encInt r.chunkSize)) ≤ 20 :=
    print_opt_length (by omega) fun a ha => print_int_length (h3 a ha)
  show utf8Length (JsonText.print (encInsert r)) ≤ _
  unfold encInsert
  rw [hc]
  simp only [encContents, JsonText.print, printFields, encStr, utf8Length_append, utf8Length_cons] at *
  have e1 : utf8Length (printStr "chunk_contents") = 16 := by decide +kernel
  have e2 : utf8Length (printStr "metadata") = 10 := by decide +kernel
  have e3 : utf8Length (printStr "strategic_metadata") = 20 := by decide +kernel
  have e4 : utf8Length (printStr "chunk_size") = 12 := by decide +kernel
  have e5 : utf8Length (printStr "SeeObjectStorage") = 18 := by decide +kernel
  have e6 : utf8Length (printStr "prefix") = 8 := by decide +kernel
  have e7 : utf8Length (printStr "count") = 7 := by decide +kernel
  simp only [e1, e2, e3, e4, e5, e6, e7, show Char.utf8Size '{' = 1 from rfl, show Char.utf8Size '}' = 1 from rfl,
    show Char.utf8Size ':' = 1 from rfl, show Char.utf8Size ',' = 1 from rfl, show utf8Length [] = 0 from rfl]
  omega

end Opsqueue.HttpText
