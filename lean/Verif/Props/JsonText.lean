import Verif.Proofs.HttpText
import Verif.Proofs.Fits
import Verif.Proofs.Times
import Verif.Proofs.Answers
import Verif.Props.Http

/-!
# C82, C83: the texts producer and server send each other
-/

namespace Opsqueue.HttpText
open Wire Http SubmissionDb JsonText

/-! ## C82: what is sent arrives as it was -/

/-- **C82, the parser.** What is read as JSON is what RFC 8259 says is JSON, with the tree it says. -/
theorem C82_parser_reads_json (s : List Char) (j : Json) : JsonText.parse s = some j ↔ Means s j :=
  JsonText.parse_iff

private theorem means_of {s t : List Char} (h : (JsonText.parse s).map JsonText.print = some t) :
    ∃ j, Means s j ∧ JsonText.print j = t := by
  cases hp : JsonText.parse s with
  | none => rw [hp] at h; cases h
  | some j =>
    rw [hp] at h
    exact ⟨j, (C82_parser_reads_json s j).1 hp, Option.some.inj h⟩

example : ∃ j, Means " [1, \"\\u00e9\"]".toList j ∧ JsonText.print j = "[1,\"é\"]".toList :=
  means_of (by decide +kernel)

/-- **C82, the texts.** What is written for a tree with 64-bit numbers is JSON, means that tree and nothing else, and is
read back as that tree. -/
theorem C82_written_is_read_back (j : Json) (h : Whole j) :
    Means (JsonText.print j) j ∧ (∀ j', Means (JsonText.print j) j' → j' = j) ∧
    JsonText.parse (JsonText.print j) = some j := by
  have hm : Means (JsonText.print j) j := ⟨[], JsonText.print j, [], by simp, by simp [Blank], by simp [Blank], print_says h⟩
  refine ⟨hm, fun j' hj' => means_unique hj' hm, JsonText.parse_print h⟩

example : Whole (.arr [.num (-5), .str "a\"b", .obj [("x", .null)]]) ∧
    JsonText.print (.arr [.num (-5), .str "a\"b", .obj [("x", .null)]]) = "[-5,\"a\\\"b\",{\"x\":null}]".toList :=
  ⟨.arr (by
    intro x hx
    simp only [List.mem_cons, List.not_mem_nil, or_false] at hx
    rcases hx with rfl | rfl | rfl
    · exact .num (by decide) (by decide)
    · exact .str _
    · exact .obj (by simp only [List.mem_singleton]; rintro f rfl; exact .null)), by decide +kernel⟩

/-- **C82, times.** A time is written as the RFC 3339 text of that moment, to the nanosecond, and that text is read as
that moment and no other. -/
theorem C82_times (t : Time) (text : String) :
    (encTime t = .str text ↔ Times.Says text.toList t) ∧ (Times.Says text.toList t → decTime (.str text) = some t) ∧
    ∀ t', encTime t' = encTime t → t' = t := by
  have h1 : encTime t = .str text ↔ Times.Says text.toList t := by
    rw [Rfc3339.says_iff]
    unfold encTime
    rw [Json.str.injEq]
    constructor
    · intro h; rw [← h]; simp
    · intro h; rw [← h]; simp
  refine ⟨h1, fun h => decTime_iff.2 (h1.2 h).symm, fun t' h => ?_⟩
  have : decTime (encTime t') = some t := decTime_iff.2 h
  rw [decTime_iff.2 rfl] at this
  exact Option.some.inj this

example : encTime 1709210096000000000 = .str "2024-02-29T12:34:56Z" := by
  have : Rfc3339.print 1709210096000000000 = "2024-02-29T12:34:56Z".toList := by decide +kernel
  unfold encTime
  rw [this]
  simp

/-- **C82, values.** An insert request and the status of a submission arrive at the other side as they were, as long as
their numbers have the bits of their types. -/
theorem C82_values_arrive :
    (∀ r, InsertFits r → (JsonText.parse (JsonText.print (encInsert r))).bind decInsert = some r) ∧
    (∀ m, MapFits m → (JsonText.parse (JsonText.print (encMap m))).bind decMap = some m) ∧
    (∀ s, StatusFits s → (JsonText.parse (JsonText.print (encStatus s))).bind decStatus = some s) := by
  refine ⟨fun r h => ?_, fun m h => ?_, fun s h => ?_⟩
  · rw [parse_insert h]; simp
  · rw [parse_map h]; simp
  · rw [JsonText.parse_print (whole_status h)]; simp

example : InsertFits { chunkContents := .seeObjectStorage "a/b" 3, metadata := none, strategic := [("x", -1)], chunkSize := some 2 } ∧
    StatusFits (.cancelled
      { id := 5, pfx := none, chunksTotal := 3, chunksDone := 1, metadata := some [1], strategic := [], cancelledAt := 7 }) := by
  refine ⟨⟨?_, ?_, ?_⟩, ?_⟩
  · intro p n h; cases h; decide
  · intro kv hkv; simp only [List.mem_singleton] at hkv; subst hkv; exact ⟨by decide, by decide⟩
  · intro n h; cases h; exact ⟨by decide, by decide⟩
  · exact ⟨by decide, by decide, by decide, by intro kv h; cases h⟩

/-- **C82, answers.** Whatever anybody asks, the numbers in the server's answer have at most 64 bits, so the text of the
answer says what the server means. -/
theorem C82_answers (max : Nat) (hmax : max < 2 ^ 64) (e : ServerEnv) (hid : e.id < 2 ^ 63) (q : HttpRequest)
    (hist : List Op) (hfresh : FreshIds hist) (ho : ∀ op ∈ hist, OpFits op) (r : Response)
    (h : (handle max e q hist).1 = some r) :
    Whole r.body ∧ JsonText.parse (JsonText.print r.body) = some r.body := by
  have hw := whole_handle hmax hid (fun _ => ⟨hfresh, ho⟩) h
  exact ⟨hw, JsonText.parse_print hw⟩

/-- **C82, calls.** A call of a producer whose request is not too long does what it would do if producer and server
exchanged the values themselves: same result, same effect, same number of attempts. So everything proved about calls
without regard to texts holds of calls with texts. -/
theorem C82_calls (max : Nat) (hmax : max < 2 ^ 64) (c : Call) (env : Nat → TextAttempt) (hist : List Op)
    (hfit : CallFits c) (hlen : utf8Length (requestText c).body ≤ bodyLimit)
    (hp : ∀ p, c = .lookupPrefix p → PlainPrefix p) (hothers : OthersFit env hist) :
    callText max c env hist = call max c (fun i => asTree (env i)) hist :=
  callText_eq hfit hlen hp (answers_fit hmax hothers)

/-- Others insert a submission before the call and another one during its first attempt. -/
example : CallFits .count ∧ utf8Length (requestText .count).body ≤ bodyLimit ∧
    OthersFit (fun k => if k = 0 then { before := [.insert { id := 2, contents := [none], strategic := [("a", -1)] } 6 []] } else {})
      [.insert { id := 1, contents := [some [1], none], chunkSize := 7 } 5 []] := by
  refine ⟨trivial, by decide +kernel, ?_, ?_, ?_, ?_⟩
  · intro op h
    simp only [List.mem_singleton] at h; subst h
    exact ⟨by decide, by decide, ⟨by decide, by decide⟩, by intro kv h; cases h⟩
  · intro k op h
    split at h
    · simp only [List.mem_singleton] at h; subst h
      refine ⟨by decide, by decide, ⟨by decide, by decide⟩, ?_⟩
      intro kv h; simp only [List.mem_singleton] at h; subst h; exact ⟨by decide, by decide⟩
    · cases h
  · intro k; split <;> decide
  · intro k
    cases k with
    | zero => decide
    | succ k =>
      rw [List.range_succ_eq_map]
      have : ((List.range k).map ((fun i => (if i = 0 then { before := [.insert { id := 2, contents := [none], strategic := [("a", -1)] } 6 []] } else {} : TextAttempt).before) ∘ Nat.succ)).flatten = [] := by
        simp
      simp only [List.map_cons, List.map_map, List.flatten_cons, this]
      decide

/-- **C82, the server and other people's JSON.** Whatever client wrote it, with whatever spacing, order of fields and
escapes: a body that means an insert request is that insert request, and its answer is the text of the answer. -/
theorem C82_any_json_will_do (max : Nat) (e : ServerEnv) (q : TextRequest) (hist : List Op) (j : Json)
    (r : InsertSubmission) (hq : route q.post q.path = .insert) (hj : q.isJson = true)
    (hlen : utf8Length q.body ≤ bodyLimit) (hm : Means q.body j) (hd : decInsert j = some r)
    (hf : InsertFits r) :
    (handleText max e q hist).2 = (handle max e (request (.insert r)) hist).2 ∧
    (handleText max e q hist).1 = (handle max e (request (.insert r)) hist).1.map fun a => ⟨a.status, JsonText.print a.body⟩ := by
  have h1 : handleText max e q hist = toText (handle max e (request (.insert r)) hist) := by
    unfold handleText
    rw [hq]
    dsimp only
    unfold withJson
    rw [if_neg (by simp [hj]), if_neg (by omega), (C82_parser_reads_json _ _).2 hm]
    dsimp only
    rw [hd]
    dsimp only
    rw [if_pos (fitsInsert_iff.2 hf)]
    unfold handle
    rw [hq, route_insert]
    dsimp only [request]
    simp only [Option.bind_some, hd, insert_rt]
  rw [h1]
  exact ⟨rfl, rfl⟩

private theorem means_insert {s : List Char} {c : ChunkContents} {m : StrategicMetadata}
    (h : ((JsonText.parse s).bind decInsert).map (fun r => (r.chunkContents, r.strategic)) = some (c, m)) :
    ∃ j r, Means s j ∧ decInsert j = some r ∧ r.chunkContents = c ∧ r.strategic = m := by
  cases hp : JsonText.parse s with
  | none => rw [hp] at h; cases h
  | some j =>
    rw [hp] at h
    cases hd : decInsert j with
    | none => simp [hd] at h
    | some r =>
      simp only [Option.bind_some, hd, Option.map_some, Option.some.injEq, Prod.mk.injEq] at h
      exact ⟨j, r, (C82_parser_reads_json _ _).1 hp, hd, h.1, h.2⟩

/-- Fields in another order, a field nobody asked for, in which half a surrogate pair does not matter. -/
example : ∃ j r, Means "{ \"chunk_contents\":{\"SeeObjectStorage\":{\"count\" :2, \"prefix\":\"a\"}},\n\"x\":[\"\\ud800\"]}".toList j ∧
    decInsert j = some r ∧ r.chunkContents = .seeObjectStorage "a" 2 ∧ r.strategic = [] :=
  means_insert (by decide +kernel)

/-- Fields by position. -/
example : ∃ j r, Means "[{\"SeeObjectStorage\":[\"a\",2]},null,{\"k\":1},null]".toList j ∧
    decInsert j = some r ∧ r.chunkContents = .seeObjectStorage "a" 2 ∧ r.strategic = [("k", 1)] :=
  means_insert (by decide +kernel)

/-- **C82, anything else.** A body that does not mean an insert request is refused with a status that says what is wrong
with it, and nothing is changed: 415 if it is not declared as JSON, 413 if it is too long, 400 or 422 if it is not
JSON or not an insert request. -/
theorem C82_other_bodies_are_refused (max : Nat) (e : ServerEnv) (q : TextRequest) (hist : List Op)
    (hq : route q.post q.path = .insert) :
    (q.isJson = false → handleText max e q hist = (some ⟨415, []⟩, hist)) ∧
    (q.isJson = true → bodyLimit < utf8Length q.body → handleText max e q hist = (some ⟨413, []⟩, hist)) ∧
    (q.isJson = true → utf8Length q.body ≤ bodyLimit → (∀ j, ¬ Means q.body j) →
      ∃ code, (code = 400 ∨ code = 422) ∧ handleText max e q hist = (some ⟨code, []⟩, hist)) ∧
    (q.isJson = true → utf8Length q.body ≤ bodyLimit → ∀ j, Means q.body j → (∀ r, decInsert j = some r → ¬ InsertFits r) →
      ∃ code, (code = 400 ∨ code = 422) ∧ handleText max e q hist = (some ⟨code, []⟩, hist)) := by
  unfold handleText
  rw [hq]
  dsimp only
  unfold withJson
  refine ⟨fun h => by rw [if_pos h], fun h h1 => by rw [if_neg (by simp [h]), if_pos h1], fun h h1 h2 => ?_,
    fun h h1 j hm h2 => ?_⟩
  · rw [if_neg (by simp [h]), if_neg (by omega)]
    cases hp : JsonText.parse q.body with
    | none => exact ⟨400, .inl rfl, rfl⟩
    | some j => exact absurd ((C82_parser_reads_json _ _).1 hp) (h2 j)
  · rw [if_neg (by simp [h]), if_neg (by omega), (C82_parser_reads_json _ _).2 hm]
    dsimp only
    refine ⟨422, .inr rfl, ?_⟩
    cases hd : decInsert j with
    | none => rfl
    | some r =>
      dsimp only
      rw [if_neg fun hf => h2 r hd (fitsInsert_iff.1 hf)]

example : (∃ c, route (request c).post (request c).path = .insert) ∧ decInsert (.obj []) = none :=
  ⟨⟨.insert { chunkContents := .direct [], metadata := none, strategic := [], chunkSize := none }, route_insert _⟩, by rfl⟩

/-! ## C83: any submission can be inserted -/

/-- The full statement: if nothing goes wrong on the way, inserting a submission whose numbers fit and whose names of
strategic metadata are distinct succeeds. -/
def C83_full : Prop := ∀ (max : Nat) (r : InsertSubmission) (env : Nat → TextAttempt) (hist : List Op),
  InsertFits r → (r.strategic.map (·.1)).Nodup → Smooth (env 0) → (env 0).server.id < 2 ^ 63 →
  FreshIds (hist ++ (env 0).before ++ [.insert (insertArgs r (env 0).server) (env 0).server.now1 []]) →
  (callText max (.insert r) env hist).1 = .ok (.inserted (env 0).server.id)

/-- **C83, what is missing.** This holds of requests of at most 2 MiB; longer ones are refused, see below. -/
theorem C83_short_requests_partial (max : Nat) (r : InsertSubmission) (env : Nat → TextAttempt) (hist : List Op)
    (hf : InsertFits r) (hs : Smooth (env 0)) (hid : (env 0).server.id < 2 ^ 63)
    (hfresh : FreshIds (hist ++ (env 0).before ++ [.insert (insertArgs r (env 0).server) (env 0).server.now1 []]))
    (hlen : utf8Length (requestText (.insert r)).body ≤ bodyLimit) :
    callText max (.insert r) env hist = (.ok (.inserted (env 0).server.id),
      hist ++ (env 0).before ++ [.insert (insertArgs r (env 0).server) (env 0).server.now1 []], 1) := by
  obtain ⟨hn, hc, hfl⟩ := hs
  have hh := handle_insert max (env 0).server (hist ++ (env 0).before) r hc
  rw [hfl, (C10_insert_faithful _ (insertArgs r (env 0).server) (env 0).server.now1 hfresh (lastOfEach_nodup _)
    _ _ (Prod.eta _).symm).1] at hh
  have ha : attemptText max (.insert r) (env 0) hist = _ := attemptText_eq hf hlen (by intro p h; cases h) (by
    intro a h
    rw [hh] at h
    cases h
    exact whole_nat hid)
  have hb := insert_call max r (fun i => asTree (env i)) hist ⟨by simp [asTree, hn], hc, hfl⟩ hfresh
  have h0 : attempt max (.insert r) (asTree (env 0)) hist = (.ok (.inserted (env 0).server.id),
      hist ++ (env 0).before ++ [.insert (insertArgs r (env 0).server) (env 0).server.now1 []]) := by
    unfold attempt
    dsimp only [asTree]
    rw [hn]
    dsimp only
    rw [hh]
    simp [insertAnswer, interpret, checked, Except.map, insertArgs]
  unfold callText retrying
  simp only [ha, h0]

/-- **C83, through the object store.** However many chunks a submission has, if their contents are in the object store
its request is short, unless the prefix and the metadata themselves are long. -/
theorem C83_object_store_is_short (r : InsertSubmission) (hf : InsertFits r) (p : String) (n : Nat)
    (hc : r.chunkContents = .seeObjectStorage p n)
    (h : 200 + 6 * p.toList.length + 4 * (r.metadata.map List.length).getD 0 +
      (r.strategic.map fun kv => 6 * kv.1.toList.length + 24).sum ≤ 2097152) :
    utf8Length (requestText (.insert r)).body ≤ bodyLimit :=
  Nat.le_trans (objectStore_length hf hc) h

/-- **C83, long requests.** Whatever goes right or wrong on the way, a call to insert whose request has more than 2 MiB
inserts nothing: the server's history has nothing but what others did. If the first attempt reaches the server and
its answer the client, the call fails at once, with status 413. -/
theorem C83_long_requests_are_refused (max : Nat) (r : InsertSubmission) (env : Nat → TextAttempt) (hist : List Op)
    (hlen : bodyLimit < utf8Length (requestText (.insert r)).body) :
    (∃ n, (callText max (.insert r) env hist).2 = (hist ++ ((List.range n).map fun i => (env i).before).flatten, n)) ∧
    ((env 0).net = .ok → callText max (.insert r) env hist = (.error (.http { status := some 413 }), hist ++ (env 0).before, 1)) := by
  have ha : ∀ i h, (attemptText max (.insert r) (env i) h).2 = h ++ (env i).before := by
    intro i h
    unfold attemptText
    dsimp only
    rw [handleText_tooLong hlen]
    dsimp only
    split
    · rfl
    · rfl
    · rfl
    · split <;> rfl
  constructor
  · obtain ⟨n, -, h1, -, -⟩ := retrying_spec isEphemeral (fun i h => attemptText max (.insert r) (env i) h)
      (fun k => hist ++ ((List.range k).map fun i => (env i).before).flatten)
      (by
        intro k
        rw [ha, List.range_succ, List.map_append, List.flatten_append, List.append_assoc]
        simp) 100 0
    refine ⟨n + 1, ?_⟩
    simp only [List.range_zero, List.map_nil, List.flatten_nil, List.append_nil, Nat.zero_add] at h1
    exact (congrArg Prod.snd h1 :)
  · intro hn
    have h0 : attemptText max (.insert r) (env 0) hist = (.error (.http { status := some 413 }), hist ++ (env 0).before) := by
      unfold attemptText
      dsimp only
      rw [hn, handleText_tooLong hlen]
      rfl
    unfold callText retrying
    simp only [h0]
    rfl

/-- **C83, which requests are too long.** All those that carry chunks of a total of 2^20 bytes or more. -/
theorem C83_a_mebibyte_of_chunks_is_too_long (r : InsertSubmission) (cs : List Content) (hc : r.chunkContents = .direct cs)
    (h : 2 ^ 20 ≤ (cs.map fun c => (c.map List.length).getD 0).sum) :
    bodyLimit < utf8Length (requestText (.insert r)).body := by
  have h1 := printElems_contents cs
  refine Nat.lt_of_lt_of_le ?_ (length_le_utf8Length _)
  show _ < (JsonText.print (encInsert r)).length
  unfold encInsert
  rw [hc]
  simp only [encContents, encList, JsonText.print, printFields, List.length_append, List.length_cons, bodyLimit]
  omega

theorem some_bytes (n : Nat) : ∃ b : Bytes, b.length = n := ⟨List.replicate n 0, List.length_replicate⟩

/-- **C83 is false of the code** as it stands. -/
theorem C83_refuted_by_a_long_submission : ¬ C83_full := by
  intro h
  obtain ⟨big, hbig⟩ := some_bytes (2 ^ 20)
  have h1 := h 1 { chunkContents := .direct [some big] } (fun _ => {}) []
    (by refine ⟨?_, ?_, ?_⟩ <;> simp [MapFits]) (by simp) ⟨rfl, rfl, rfl⟩ (by decide)
    (by simp [FreshIds, Op.insertId])
  have h2 := (C83_long_requests_are_refused 1 { chunkContents := .direct [some big] } (fun _ => {}) []
    (C83_a_mebibyte_of_chunks_is_too_long _ _ rfl (by rw [List.map_cons, List.map_nil, List.sum_cons]; simp only [Option.map_some, Option.getD_some, hbig]; omega))).2 rfl
  rw [h2] at h1
  cases h1

end Opsqueue.HttpText
