import Verif.Model.Carrier
import Verif.Props.Delivery
import Verif.Props.JsonText

/-!
# C104: the trace context of a submission reaches its consumers
-/

namespace Opsqueue.Carrier
open Wire (Json)
open JsonText (Means)

private theorem lastOfEach_distinct : ∀ m : CarrierMap, (m.map (·.1)).Nodup → lastOfEach m = m := by
  intro m
  induction m with
  | nil => intro _; rfl
  | cons kv m ih =>
    intro h
    simp only [List.map_cons, List.nodup_cons] at h
    have : m.any (·.1 == kv.1) = false := by
      rw [List.any_eq_false]
      intro x hx hk
      exact h.1 (by rw [← beq_iff_eq.1 hk]; exact List.mem_map_of_mem hx)
    simp [lastOfEach, this, ih h.2]

private theorem lookup_lastOfEach (k : String) : ∀ m : CarrierMap, (lastOfEach m).lookup k = m.reverse.lookup k := by
  intro m
  induction m with
  | nil => rfl
  | cons kv m ih =>
    obtain ⟨a, v⟩ := kv
    have hone : ([(a, v)] : CarrierMap).lookup k = if k = a then some v else none := by
      rw [List.lookup_cons]
      by_cases hk : k = a
      · subst hk; simp
      · have hb : (k == a) = false := by simp [hk]
        rw [hb, if_neg hk]; rfl
    have hstep : lastOfEach ((a, v) :: m) = if m.any (·.1 == a) then lastOfEach m else (a, v) :: lastOfEach m := rfl
    rw [List.reverse_cons, List.lookup_append, ← ih, hone, hstep]
    by_cases ha : m.any (·.1 == a) = true
    · rw [if_pos ha]
      by_cases hk : k = a
      · subst hk
        have hs : m.reverse.lookup k ≠ none := by
          intro hn
          rw [List.lookup_eq_none_iff] at hn
          obtain ⟨x, hx, hb⟩ := List.any_eq_true.1 ha
          have := hn x (List.mem_reverse.2 hx)
          rw [beq_iff_eq.1 hb] at this
          simp at this
        rw [ih]
        cases hr : m.reverse.lookup k with
        | none => exact absurd hr hs
        | some w => rfl
      · rw [if_neg hk, Option.or_none]
    · rw [if_neg ha]
      by_cases hk : k = a
      · subst hk
        have hn : m.reverse.lookup k = none := by
          rw [List.lookup_eq_none_iff]
          intro x hx
          have h1 : (x.1 == k) = false := by
            rw [Bool.eq_false_iff]
            exact fun hb => ha (List.any_eq_true.2 ⟨x, List.mem_reverse.1 hx, hb⟩)
          rw [beq_eq_false_iff_ne] at h1
          rw [bne_iff_ne]
          exact fun h => h1 h.symm
        rw [ih, hn, if_pos rfl, List.lookup_cons]
        simp
      · have hb : (k == a) = false := by simp [hk]
        rw [if_neg hk, Option.or_none, List.lookup_cons, hb]

private theorem read_written (m : CarrierMap) :
    (m.map fun kv => (kv.1, Json.str kv.2)).mapM readEntry = some m := by
  induction m with
  | nil => rfl
  | cons kv m ih => simp [List.mapM_cons, readEntry, ih]

/-- **C104, what is written is read back.** A dictionary of any strings, with every name once, is read back as it was. -/
theorem C104_written_is_read_back (m : CarrierMap) (hm : (m.map (·.1)).Nodup) : jsonToCarrier (contextToJson m) = m := by
  have hw : JsonText.Whole (.obj (m.map fun kv => (kv.1, Json.str kv.2))) := by
    refine .obj ?_
    intro f hf
    obtain ⟨kv, _, rfl⟩ := List.mem_map.1 hf
    exact .str _
  have hp := (HttpText.C82_written_is_read_back _ hw).2.2
  unfold jsonToCarrier contextToJson
  rw [String.toList_ofList, hp]
  show (((m.map fun kv => (kv.1, Json.str kv.2)).mapM readEntry).map lastOfEach).getD [] = m
  rw [read_written, Option.map_some, Option.getD_some, lastOfEach_distinct m hm]

/-- What OpenTelemetry writes, and any other strings. -/
example : (([("traceparent", "00-0af7651916cd43dd8448eb211c80319c-b7ad6b7169203331-01"), ("baggage", "a=\"é\"\n")] :
      CarrierMap).map (·.1)).Nodup ∧
    contextToJson [("baggage", "a=\"é\"\n")] = "{\"baggage\":\"a=\\\"é\\\"\\n\"}" := by decide +kernel

/-- **C104, other texts.** Whatever text there is in the database, the dictionary that a callback gets has the last value of each name
if the text is a JSON object of strings, and is empty otherwise. -/
theorem C104_any_text (s : String) (k : String) :
    (∀ m : CarrierMap, Means s.toList (.obj (m.map fun kv => (kv.1, .str kv.2))) →
      (jsonToCarrier s).lookup k = m.reverse.lookup k) ∧
    ((¬ ∃ m : CarrierMap, Means s.toList (.obj (m.map fun kv => (kv.1, .str kv.2)))) → jsonToCarrier s = []) := by
  constructor
  · intro m hm
    have hp := (HttpText.C82_parser_reads_json _ _).2 hm
    unfold jsonToCarrier
    rw [hp]
    show ((((m.map fun kv => (kv.1, Json.str kv.2)).mapM readEntry).map lastOfEach).getD []).lookup k = _
    rw [read_written, Option.map_some, Option.getD_some, lookup_lastOfEach]
  · intro hn
    unfold jsonToCarrier
    split
    · next fs hp =>
      have hm := (HttpText.C82_parser_reads_json _ _).1 hp
      cases hr : fs.mapM readEntry with
      | none => rfl
      | some m =>
        refine absurd ⟨m, ?_⟩ hn
        have : fs = m.map fun kv => (kv.1, Json.str kv.2) := by
          clear hp hm hn
          induction fs generalizing m with
          | nil => simp at hr; subst hr; rfl
          | cons f fs ih =>
            rw [List.mapM_cons] at hr
            obtain ⟨n, j⟩ := f
            cases j <;> simp only [readEntry] at hr
            case str v =>
              cases h1 : fs.mapM readEntry with
              | none => rw [h1] at hr; cases hr
              | some m' =>
                rw [h1] at hr
                have : m = (n, v) :: m' := (Option.some.inj hr).symm
                rw [this, ih m' h1]; rfl
            all_goals cases hr
        rw [← this]; exact hm
    · rfl

example : jsonToCarrier " {\"a\": \"1\", \"b\": \"2\", \"a\": \"3\"}" = [("b", "2"), ("a", "3")] ∧ jsonToCarrier "{\"a\": 1}" = [] ∧
    jsonToCarrier "" = [] ∧ jsonToCarrier "null" = [] := by decide +kernel

/-- **C104**: every callback gets the trace context that was recorded when the submission of its chunk was inserted. -/
theorem C104_reaches_the_callback (ttl m : Nat) (h : List Server.Action) (hf : FreshIds (Server.run ttl m h).calls)
    (c : Server.ConnId) (n : Nat) (vals : List (ChunkRow × Submission)) (hs : (c, n, vals) ∈ (Delivery.run ttl m h).sent)
    (chunk : ChunkRow) (sub : Submission) (hv : (chunk, sub) ∈ vals) :
    ∃ a now o, Op.insert a now o ∈ (Server.run ttl m h).calls ∧ a.id = chunk.submissionId ∧
      ∀ context : CarrierMap, (context.map (·.1)).Nodup → a.otel = contextToJson context → chunkCarrier sub = context := by
  obtain ⟨a, now, o, h1, h2, _, _, _, _, _, _, _, h3⟩ := C95_as_given ttl m h hf c n vals hs chunk sub hv
  refine ⟨a, now, o, h1, h2.symm, ?_⟩
  intro context hd he
  unfold chunkCarrier
  rw [h3, he]
  exact C104_written_is_read_back context hd

/-- A submission with a trace context, one chunk of which is handed out. -/
def exampleTraced : List Server.Action :=
  let v : Server.View := ⟨0, fun _ => false, fun _ => []⟩
  let a : SubmissionDb.InsertArgs := {
    id := 5, pfx := none, contents := [some [1]], metadata := none, strategic := [], chunkSize := 1,
    otel := contextToJson [("traceparent", "00-1-2-01")] }
  [.producer (.insert a 0 []), .notify,
   .connect 1, .request 1 ⟨0, 1, .oldest⟩ v, .row 1, .join 1]

example : FreshIds (Server.run 1000 3 exampleTraced).calls ∧
    (Delivery.run 1000 3 exampleTraced).sent.map (fun x => x.2.2.map fun p => (p.1.key, chunkCarrier p.2)) =
      [[(⟨5, 0⟩, [("traceparent", "00-1-2-01")])]] := by decide +kernel

/-- **C104, on the way to the server**: the insert request carries the context of the producer if all of its entries can be headers,
as all that OpenTelemetry writes can; otherwise it carries none of it, and the submission is inserted all the same. -/
theorem C104_request_headers (m : CarrierMap) :
    ((∀ kv ∈ m, isHeaderName kv.1 = true ∧ isHeaderValue kv.2 = true ∧ kv.1.toList.map Char.toLower = kv.1.toList) →
      requestHeaders m = m) ∧
    ((∃ kv ∈ m, isHeaderName kv.1 = false ∨ isHeaderValue kv.2 = false) → requestHeaders m = []) := by
  constructor
  · intro h
    unfold requestHeaders
    rw [if_pos]
    · have : ∀ l : CarrierMap, (∀ kv ∈ l, kv.1.toList.map Char.toLower = kv.1.toList) →
          (l.map fun kv => (String.ofList (kv.1.toList.map Char.toLower), kv.2)) = l := by
        intro l
        induction l with
        | nil => intro _; rfl
        | cons kv l ih =>
          intro hl
          rw [List.map_cons, ih (fun x hx => hl x (List.mem_cons_of_mem _ hx)), hl kv (List.mem_cons_self ..), String.ofList_toList]
      exact this m fun kv hkv => (h kv hkv).2.2
    · rw [List.all_eq_true]
      intro kv hkv
      rw [(h kv hkv).1, (h kv hkv).2.1]; rfl
  · rintro ⟨kv, hkv, hb⟩
    unfold requestHeaders
    rw [if_neg]
    intro ha
    have := List.all_eq_true.1 ha kv hkv
    rcases hb with hb | hb <;> simp [hb] at this

example : requestHeaders [("traceparent", "00-1-2-01"), ("baggage", "a=1")] = [("traceparent", "00-1-2-01"), ("baggage", "a=1")] ∧
    requestHeaders [("traceparent", "00-1-2-01"), ("my key", "a")] = [] := by decide +kernel

end Opsqueue.Carrier
