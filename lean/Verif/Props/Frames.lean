import Verif.Proofs.Frames
import Verif.Props.Messages
import Verif.Props.Delivery
import Verif.Props.JsonText

/-!
# C102: a message of any size arrives
-/

namespace Opsqueue.Frames
open Wire Messages
open HttpText (utf8Length requestText InsertFits)

/-- The full statement: the server gets every request and every report of a consumer, and a consumer gets every answer that the server
sends it, with the chunks of submissions that producers could insert. -/
def C102_full : Prop :=
  (∀ m, ClientCanSend m → strategyDepth m ≤ 126 → ServerGets m) ∧
  ∀ ttl maxRetries h c nonce vals, FreshIds (Server.run ttl maxRetries h).calls →
    FromRequests (Server.run ttl maxRetries h).calls → (c, nonce, vals) ∈ (Delivery.run ttl maxRetries h).sent →
    ServerCanSend (.sync nonce (some vals)) → ConsumerGets nonce vals

/-- **C102, what arrives.** A message of a consumer reaches the server exactly if it has at most 16 MiB, and so does an answer of the
server the consumer. -/
theorem C102_exactly :
    (∀ m, ClientCanSend m → strategyDepth m ≤ 126 → (ServerGets m ↔ (writeClient m).length ≤ 16777216)) ∧
    ∀ nonce vals, ServerCanSend (.sync nonce (some vals)) →
      (ConsumerGets nonce vals ↔ (writeServer (.sync nonce (some vals))).length ≤ 16777216) := by
  constructor
  · intro m h hd
    constructor
    · intro hg
      have hg := hg .dbError true
      by_cases hl : frameLimit < (writeClient m).length
      · rw [serverReceives, if_pos hl] at hg; cases hg
      · unfold frameLimit at hl; omega
    · intro hl f ok
      have := C65_client_messages_arrive m h hd (by omega) []
      rw [List.append_nil] at this
      rw [serverReceives, if_neg (by unfold frameLimit; omega), received, this]
  · intro nonce vals h
    constructor
    · intro hg
      have hg := hg (fun _ => true) true
      by_cases hl : frameLimit < (writeServer (.sync nonce (some vals))).length
      · rw [consumerReceives, if_pos hl] at hg; cases hg
      · unfold frameLimit at hl; omega
    · intro hl f ok
      have := C65_server_messages_arrive _ h (by omega) []
      rw [List.append_nil] at this
      rw [consumerReceives, if_neg (by unfold frameLimit; omega), this]
      rfl

/-- **C102, what is missing**: this holds of requests and reports whose texts and contents are not too long (`messageBytes`): of every
failure text of at most 16 MiB less 150 bytes, of every output of at most 8 MiB less 75 bytes, and of every report of an output that is
in the object store. -/
theorem C102_reports_partial (m : Conn.ClientMsg) (h : ClientCanSend m) (hd : strategyDepth m ≤ 126)
    (hl : messageBytes m ≤ 16777216) : ServerGets m :=
  (C102_exactly.1 m h hd).2 (Nat.le_trans (message_le m) hl)

example : ClientCanSend (.completeChunk 1 ⟨5, 6⟩ none) ∧ messageBytes (.completeChunk 1 ⟨5, 6⟩ none) = 150 ∧
    ClientCanSend (.failChunk 1 ⟨5, 6⟩ "café") ∧ messageBytes (.failChunk 1 ⟨5, 6⟩ "café") = 155 ∧
    messageBytes (.wantToReserve ⟨0, 5, .preferDistinct "a" .random⟩) = 158 := by
  refine ⟨⟨by decide, by decide, by decide⟩, by decide, ⟨by decide, by decide, by decide⟩, by decide, by decide⟩

/-- **C102, what is missing**: an answer arrives if what is in it is not too long in total. -/
theorem C102_answers_partial (nonce : Nat) (vals : List (ChunkRow × Submission)) (h : ServerCanSend (.sync nonce (some vals)))
    (hl : 100 + (vals.map pairBytes).sum ≤ 16777216) : ConsumerGets nonce vals :=
  (C102_exactly.2 nonce vals h).2 (Nat.le_trans (answer_le nonce vals) hl)

/-- Thousands of chunks, in the object store, of a submission with a few words about it. -/
example : pairBytes (⟨5, 0, none, 0⟩, ⟨5, some "some/prefix", 100000, 7, 50, some [1, 2, 3], [("company", 12)], "{}"⟩) = 444 ∧
    100 + 30000 * 444 ≤ 16777216 := by decide

/-- **C102, what is missing**: whatever was inserted (with requests of at most 2 MiB, more are refused: C83), and whatever else
happened, an answer of up to six chunks reaches the consumer. The Python loop asks for one at a time. -/
theorem C102_six_chunks_partial (ttl maxRetries : Nat) (h : List Server.Action) (c : Server.ConnId) (nonce : Nat)
    (vals : List (ChunkRow × Submission)) (hf : FreshIds (Server.run ttl maxRetries h).calls)
    (hr : FromRequests (Server.run ttl maxRetries h).calls) (hs : (c, nonce, vals) ∈ (Delivery.run ttl maxRetries h).sent)
    (hv : ServerCanSend (.sync nonce (some vals))) (h6 : vals.length ≤ 6) : ConsumerGets nonce vals := by
  refine (C102_exactly.2 nonce vals hv).2 ?_
  have h1 := (answer_length nonce vals).1
  have h2 : (vals.map fun p => (Cbor.write (encPair p)).length).sum ≤ (vals.map fun _ => 2582600).sum := by
    refine sum_le _ _ vals fun p hp => ?_
    obtain ⟨a, now, o, ha, -, g1, -, g2, -, -, g3, g4, g5⟩ := C95_as_given ttl maxRetries h hf c nonce vals hs p.1 p.2 hp
    obtain ⟨r, e, rfl, k1, k2, k3⟩ := hr a now o ha
    exact pair_of_request k1 k2 k3 (List.mem_of_getElem? g1) g2 g3 g4 g5
  have h3 : (vals.map fun _ => 2582600).sum = vals.length * 2582600 := by
    rw [List.map_const', List.sum_replicate_nat]
  omega

/-! ## What does not arrive -/

/-- **C102, long reports.** A failure text, or an output, of more than 16 MiB does not reach the server: the connection ends, and nothing
is reported. (So the failure is not counted: the chunk is handed out again, as often as it fails in this way.) -/
theorem C102_long_reports_are_lost (s : Conn.State) (hs : s.ended = none) (nonce : Nat) (id : ChunkId) (fetch : Conn.Fetch)
    (sendOk : Bool) :
    (∀ failure, 16777216 ≤ textBytes failure →
      Conn.step s (serverReceives (writeClient (.failChunk nonce id failure)) fetch sendOk) = { s with ended := some .websocket }) ∧
    ∀ output, 16777216 ≤ contentBytes output →
      Conn.step s (serverReceives (writeClient (.completeChunk nonce id output)) fetch sendOk) =
        { s with ended := some .websocket } := by
  have key : ∀ b : Bytes, 16777216 < b.length → Conn.step s (serverReceives b fetch sendOk) = { s with ended := some .websocket } := by
    intro b hb
    rw [serverReceives, if_pos (show frameLimit < b.length from hb)]
    simp [Conn.step, hs]
  exact ⟨fun f hf => key _ (Nat.lt_of_le_of_lt hf ((le_report nonce id).1 f)),
    fun o ho => key _ (Nat.lt_of_le_of_lt ho ((le_report nonce id).2 o))⟩

/-- **C102, long answers.** An answer with more than 16 MiB of contents and metadata (that of a submission counts once per chunk) does not
reach the consumer: its background task ends, and every call that waits for an answer fails. -/
theorem C102_long_answers_are_lost (s : Client.State) (hs : s.background = .running) (nonce : Nat)
    (vals : List (ChunkRow × Submission)) (sendOk : ChunkId → Bool) (sinkClosed : Bool)
    (hl : 16777216 < (vals.map fun p => contentBytes p.1.inputContent + contentBytes p.2.metadata).sum) :
    let s' := Client.step s (consumerReceives (writeServer (.sync nonce (some vals))) sendOk sinkClosed)
    s'.background = .returned ∧ s'.inFlight = [] ∧ s'.wire = s.wire ∧
    (∀ i n c, (n, i) ∈ s.inFlight → s.calls[i]? = some c → c.phase = .awaiting → c.slot = .empty →
      ∃ c', s'.calls[i]? = some c' ∧ c'.outcome = some .error) := by
  have hb : frameLimit < (writeServer (.sync nonce (some vals))).length := Nat.lt_of_lt_of_le hl (le_answer nonce vals)
  rw [consumerReceives, if_pos hb]
  have hstep : Client.step s (.readError sinkClosed) = Client.exit { s with missed := 0, sinkClosed } := by
    simp [Client.step, hs]
  rw [hstep]
  refine ⟨rfl, rfl, rfl, fun i n c hi hc hp he => ⟨c.dropSender, ?_, ?_⟩⟩
  · have hany : s.inFlight.any (fun e => e.2 = i) = true := List.any_eq_true.2 ⟨(n, i), hi, by simp⟩
    simp [Client.exit, Client.clear, List.getElem?_mapIdx, hc]
    intro hno
    exact absurd hi (hno n)
  · simp [Client.Call.dropSender, he, Client.Call.outcome, hp]

/-- A call waits for an answer that is too long. -/
example :
    let s := Client.run 3 [.call 40 .oldest, .send 0 true]
    s.background = .running ∧ (0, 0) ∈ s.inFlight ∧ ∃ c, s.calls[0]? = some c ∧ c.phase = .awaiting ∧ c.slot = .empty := by
  refine ⟨by decide, by decide, _, rfl, by decide, by decide⟩

/-! ## C102 is false of the code -/

/-- **C102 is false of reports**: a failure text of 16 MiB can be sent, and is not received. -/
theorem C102_refuted_by_a_report : ¬ ∀ m, ClientCanSend m → strategyDepth m ≤ 126 → ServerGets m := by
  intro h
  obtain ⟨big, hbig⟩ := HttpText.some_bytes 16777216
  have h1 := h (.completeChunk 0 ⟨1, 0⟩ (some big)) ⟨by decide, by decide, by decide⟩ (Nat.zero_le _)
  have h2 := (C102_exactly.1 (.completeChunk 0 ⟨1, 0⟩ (some big)) ⟨by decide, by decide, by decide⟩ (Nat.zero_le _)).1 h1
  have h3 := (le_report 0 ⟨1, 0⟩).2 (some big)
  rw [contentBytes, Option.map_some, Option.getD_some, hbig] at h3
  omega

/-- A submission of 34 chunks in the object store, with metadata. -/
def longRequest (md : Bytes) : InsertSubmission :=
  { chunkContents := .seeObjectStorage "p" 34, metadata := some md, strategic := [], chunkSize := none }

/-- It is inserted, and a consumer asks for 34 chunks. -/
def longHistory (md : Bytes) : List Server.Action :=
  let v : Server.View := ⟨0, fun _ => false, fun _ => []⟩
  [.producer (.insert (Http.insertArgs (longRequest md) { id := 5 }) 0 []), .notify, .connect 1, .request 1 ⟨0, 34, .oldest⟩ v] ++
    (List.replicate 34 [Server.Action.row 1, .join 1]).flatten

/-- What the server sends. -/
def longAnswer (md : Bytes) : List (ChunkRow × Submission) :=
  (List.range 34).map fun i => (⟨5, i, none, 0⟩, ⟨5, some "p", 34, 0, 1, some md, [], "{}"⟩)

theorem longHistory_sent (md : Bytes) : (Delivery.run 1000 3 (longHistory md)).sent = [(1, 0, longAnswer md)] := by
  cbv

theorem longHistory_calls (md : Bytes) : (Server.run 1000 3 (longHistory md)).calls =
    [.insert (Http.insertArgs (longRequest md) { id := 5 }) 0 []] := by
  cbv

/-- **C102 is false of answers**: a producer inserts a submission of 34 chunks with 500 kB of metadata, a consumer asks for 34 chunks. The
metadata is in the answer 34 times. -/
theorem C102_refuted_by_an_answer : ¬ ∀ ttl maxRetries h c nonce vals, FreshIds (Server.run ttl maxRetries h).calls →
    FromRequests (Server.run ttl maxRetries h).calls → (c, nonce, vals) ∈ (Delivery.run ttl maxRetries h).sent →
    ServerCanSend (.sync nonce (some vals)) → ConsumerGets nonce vals := by
  intro h
  obtain ⟨md, hmd⟩ := HttpText.some_bytes 500000
  have hsend : ServerCanSend (.sync 0 (some (longAnswer md))) := by
    refine ⟨by decide, fun chunks hc p hp => ?_⟩
    injection hc with hc
    subst hc
    obtain ⟨i, hi, rfl⟩ := List.mem_map.1 hp
    have hi := List.mem_range.1 hi
    have hi' : (i : Nat) < 2 ^ 63 := Nat.lt_trans hi (by decide)
    have h0 : (0 : Nat) < 2 ^ 63 := by decide
    have h5 : (5 : Nat) < 2 ^ 63 := by decide
    have h34 : (34 : Nat) < 2 ^ 63 := by decide
    have h1 : IsI64 1 := ⟨by decide, by decide⟩
    exact ⟨⟨h5, hi'⟩, h0, h5, h34, h0, h1, by intro kv hkv; cases hkv⟩
  have h1 := h 1000 3 (longHistory md) 1 0 (longAnswer md)
    (by rw [longHistory_calls]; simp [FreshIds, Op.insertId])
    (by
      rw [longHistory_calls]
      intro a now o ha
      have ha := List.mem_singleton.1 ha
      injection ha with ha
      subst ha
      have hf : InsertFits (longRequest md) := by
        refine ⟨fun p n hp => ?_, fun kv hkv => ?_, fun n hn => ?_⟩
        · cases hp; decide
        · cases hkv
        · cases hn
      refine ⟨longRequest md, { id := 5 }, rfl, hf, ?_, by decide⟩
      refine HttpText.C83_object_store_is_short _ hf "p" 34 rfl ?_
      have : ((longRequest md).metadata.map List.length).getD 0 = 500000 := hmd
      have h2 : ((longRequest md).strategic.map fun kv => 6 * kv.1.toList.length + 24).sum = 0 := rfl
      have h3 : "p".toList.length = 1 := by decide
      omega)
    (by rw [longHistory_sent]; simp) hsend
  have h2 := (C102_exactly.2 _ _ hsend).1 h1
  have h3 := le_answer 0 (longAnswer md)
  have h4 : (longAnswer md).map (fun p => contentBytes p.1.inputContent + contentBytes p.2.metadata) = (List.range 34).map fun _ => 500000 := by
    simp [longAnswer, contentBytes, hmd]
  rw [h4, List.map_const', List.sum_replicate_nat, List.length_range] at h3
  omega

/-- **C102 is false of the code** as it stands. -/
theorem C102_refuted : ¬ C102_full := fun h => C102_refuted_by_a_report h.1

/-- A consumer asks for two chunks of such a submission, and gets them. -/
example :
    let v : Server.View := ⟨0, fun _ => false, fun _ => []⟩
    let h := [.producer (.insert (Http.insertArgs (longRequest [7]) { id := 5 }) 0 []), .notify, .connect 1,
      .request 1 ⟨0, 2, .oldest⟩ v, .row 1, .join 1, .row 1, .join 1]
    FreshIds (Server.run 1000 3 h).calls ∧ FromRequests (Server.run 1000 3 h).calls ∧
    (1, 0, (longAnswer [7]).take 2) ∈ (Delivery.run 1000 3 h).sent ∧ ((longAnswer [7]).take 2).length ≤ 6 := by
  intro v h
  have hc : (Server.run 1000 3 h).calls = [.insert (Http.insertArgs (longRequest [7]) { id := 5 }) 0 []] := by cbv
  refine ⟨by rw [hc]; simp [FreshIds, Op.insertId], ?_, by decide +kernel, by decide⟩
  rw [hc]
  intro a now o ha
  have ha := List.mem_singleton.1 ha
  injection ha with ha
  subst ha
  have hf : InsertFits (longRequest [7]) := by
    refine ⟨fun p n hp => ?_, fun kv hkv => ?_, fun n hn => ?_⟩
    · cases hp; decide
    · cases hkv
    · cases hn
  exact ⟨longRequest [7], { id := 5 }, rfl, hf, HttpText.C83_object_store_is_short _ hf "p" 34 rfl (by decide), by decide⟩

end Opsqueue.Frames
