import Verif.Proofs.Messages
import Verif.Proofs.Documents

/-!
# C65: messages between consumer and server arrive as they were sent
-/

namespace Opsqueue.Messages

open Conn

/-- **C65**, from consumer to server: whatever request or report a consumer sends (any content, any failure text, any
strategy nested at most 126 deep), the server reads exactly that from the bytes, whatever follows them. -/
theorem C65_client_messages_arrive (m : ClientMsg) (h : ClientCanSend m) (hd : strategyDepth m ≤ 126)
    (hl : (writeClient m).length < 2 ^ 64) (more : Bytes) :
    readClient (writeClient m ++ more) = some m := by
  rw [readClient, writeClient, Cbor.read_write (plain_client h) _ _ hl, if_pos ((depth_client m).2 hd)]
  exact client_rt h hd

/-- A message with numbers of several sizes, arbitrary bytes and non-ASCII text; and a nested strategy. -/
example : ClientCanSend (.failChunk 70000 ⟨2 ^ 62 + 5, 300⟩ "niet gelukt: café ☕ \u0000") ∧
    readClient (writeClient (.failChunk 70000 ⟨2 ^ 62 + 5, 300⟩ "niet gelukt: café ☕ \u0000")) =
      some (.failChunk 70000 ⟨2 ^ 62 + 5, 300⟩ "niet gelukt: café ☕ \u0000") := by
  refine ⟨⟨by decide, by decide, by decide⟩, ?_⟩
  decide +kernel

/-- The bytes themselves, of a completed chunk and of a request (RFC 8949). -/
example : writeClient (.completeChunk 1 ⟨1000, 24⟩ (some [0, 255])) =
      [0xa2, 0x65, 0x6e, 0x6f, 0x6e, 0x63, 0x65, 0x01, 0x68, 0x63, 0x6f, 0x6e, 0x74, 0x65, 0x6e, 0x74, 0x73,
       0xa1, 0x6d, 0x43, 0x6f, 0x6d, 0x70, 0x6c, 0x65, 0x74, 0x65, 0x43, 0x68, 0x75, 0x6e, 0x6b,
       0xa2, 0x62, 0x69, 0x64,
       0xa2, 0x6d, 0x73, 0x75, 0x62, 0x6d, 0x69, 0x73, 0x73, 0x69, 0x6f, 0x6e, 0x5f, 0x69, 0x64, 0x19, 0x03, 0xe8,
       0x6b, 0x63, 0x68, 0x75, 0x6e, 0x6b, 0x5f, 0x69, 0x6e, 0x64, 0x65, 0x78, 0x18, 0x18,
       0x6e, 0x6f, 0x75, 0x74, 0x70, 0x75, 0x74, 0x5f, 0x63, 0x6f, 0x6e, 0x74, 0x65, 0x6e, 0x74,
       0x82, 0x00, 0x18, 0xff] ∧
    readClient (writeClient (.wantToReserve ⟨0, 5, .preferDistinct "a" (.preferDistinct "b" .random)⟩) ++ [1, 2, 3]) =
      some (.wantToReserve ⟨0, 5, .preferDistinct "a" (.preferDistinct "b" .random)⟩) := by
  refine ⟨?_, ?_⟩ <;> decide +kernel

/-- **C65**, from server to consumer: whatever the server sends (any chunks with their submissions, an empty answer, the
refusal of a limit of zero, a lost reservation, its configuration), the consumer reads exactly that. -/
theorem C65_server_messages_arrive (m : ServerMessage) (h : ServerCanSend m)
    (hl : (writeServer m).length < 2 ^ 64) (more : Bytes) :
    readServer (writeServer m ++ more) = some m := by
  rw [readServer, writeServer, Cbor.read_write (plain_server h) _ _ hl, if_pos (depth_server m)]
  exact server_rt h

/-- Two chunks of a submission with negative metadata. -/
def sample : ServerMessage := .sync (2 ^ 40) (some
  [(⟨7, 0, some [200, 1], 0⟩, ⟨7, some "p/é", 2, 1, -1, some [9], [("company", -5), ("ß", 2 ^ 62)], "{}"⟩),
   (⟨7, 1, none, 10⟩, ⟨7, none, 2, 1, 1, none, [], ""⟩)])

example : ServerCanSend sample ∧ readServer (writeServer sample) = some sample := by
  refine ⟨⟨by decide, fun chunks hc => ?_⟩, by decide +kernel⟩
  injection hc with hc
  subst hc
  simp [PairFits, IdFits, IsI64, ChunkRow.key]
  rintro a b (⟨_, rfl⟩ | ⟨_, rfl⟩) <;> omega

/-- **C65**: no two different messages have the same bytes (not even when one is followed by something). -/
theorem C65_messages_are_not_confused (m m' : ClientMsg) (h : ClientCanSend m) (h' : ClientCanSend m')
    (hl : (writeClient m).length < 2 ^ 64) (hl' : (writeClient m').length < 2 ^ 64)
    (hd : strategyDepth m ≤ 126) (hd' : strategyDepth m' ≤ 126) (more : Bytes)
    (heq : writeClient m ++ more = writeClient m') : m = m' ∧ more = [] := by
  have h1 := C65_client_messages_arrive m h hd hl more
  have h2 := C65_client_messages_arrive m' h' hd' hl' []
  rw [List.append_nil, ← heq, h1] at h2
  injection h2 with h2
  refine ⟨h2, ?_⟩
  subst h2
  exact List.append_cancel_left (as := writeClient m) (by simpa using heq)

/-- **C65**: a message that lost its end is refused, never read as something else (both directions). -/
theorem C65_cut_off_is_refused :
    (∀ m b, ClientCanSend m → (writeClient m).length < 2 ^ 64 → b <+: writeClient m → b ≠ writeClient m →
      readClient b = none) ∧
    (∀ m b, ServerCanSend m → (writeServer m).length < 2 ^ 64 → b <+: writeServer m → b ≠ writeServer m →
      readServer b = none) := by
  refine ⟨fun m b h hl hb hne => ?_, fun m b h hl hb hne => ?_⟩
  · rw [readClient, Cbor.read_cut (plain_client h) hl hb hne]; rfl
  · rw [readServer, Cbor.read_cut (plain_server h) hl hb hne]; rfl

example : (writeClient (.failChunk 1 ⟨2, 3⟩ "no")).length = 72 ∧
    [1, 8, 40, 71].all fun k => readClient ((writeClient (.failChunk 1 ⟨2, 3⟩ "no")).take k) = none := by
  refine ⟨?_, ?_⟩ <;> decide +kernel

/-- **C65**: a strategy nested more than 126 deep is refused (by the limit of 256 levels when reading CBOR). -/
theorem C65_too_deep_is_refused (m : ClientMsg) (h : ClientCanSend m) (hd : 126 < strategyDepth m)
    (hl : (writeClient m).length < 2 ^ 64) (more : Bytes) :
    readClient (writeClient m ++ more) = none := by
  rw [readClient, writeClient, Cbor.read_write (plain_client h) _ _ hl,
    if_neg (fun hc => by have := (depth_client m).1 hc; omega)]
  rfl

/-- `n` times `PreferDistinct`. -/
def tower : Nat → Strategy
  | 0 => .oldest
  | n + 1 => .preferDistinct "k" (tower n)

theorem tower_length (n : Nat) : (Cbor.write (encStrategy (tower n))).length = 7 + 39 * n := by
  have h1 : (Cbor.writeText "PreferDistinct").length = 15 := by decide +kernel
  have h2 : (Cbor.writeText "meta_key").length = 9 := by decide +kernel
  have h3 : (Cbor.writeText "underlying").length = 11 := by decide +kernel
  have h4 : (Cbor.writeText "k").length = 2 := by decide +kernel
  induction n with
  | zero => decide +kernel
  | succ n ih =>
    simp only [tower, encStrategy, Wire.encStr, Cbor.write, Cbor.writeFields, List.length_append, List.length_cons,
      List.length_nil, h1, h2, h3, h4, ih, Cbor.writeHead]
    simp
    omega

theorem request_length (t : Strategy) :
    (writeClient (.wantToReserve ⟨0, 1, t⟩)).length < 110 + (Cbor.write (encStrategy t)).length := by
  have h1 : (Cbor.writeText "nonce" ++ Cbor.writeText "contents" ++ Cbor.writeText "WantToReserveChunks" ++
    Cbor.writeText "max" ++ Cbor.writeText "strategy").length < 100 := by decide +kernel
  simp only [List.length_append] at h1
  simp only [writeClient, encClient, envelope, Wire.encNat, Cbor.write, Cbor.writeFields, List.length_append,
    List.length_cons, List.length_nil]
  generalize (Cbor.writeText "nonce").length = x1 at *
  generalize (Cbor.writeText "contents").length = x2 at *
  generalize (Cbor.writeText "WantToReserveChunks").length = x3 at *
  generalize (Cbor.writeText "max").length = x4 at *
  generalize (Cbor.writeText "strategy").length = x5 at *
  simp [Cbor.writeHead]
  omega

example : ClientCanSend (.wantToReserve ⟨0, 1, tower 127⟩) ∧ 126 < strategyDepth (.wantToReserve ⟨0, 1, tower 127⟩) ∧
    (writeClient (.wantToReserve ⟨0, 1, tower 127⟩)).length < 2 ^ 64 :=
  ⟨⟨by decide, by decide⟩, by decide +kernel,
    Nat.lt_trans (request_length _) (by rw [tower_length]; decide)⟩

/-- **C65**: whatever bytes arrive, everything the server makes of them is a message that a consumer can send:
no id of more than 63 bits, no limit or nonce of more than 64. -/
theorem C65_only_valid_messages_are_read (b : Bytes) (m : ClientMsg) (h : readClient b = some m) :
    ClientCanSend m ∧ strategyDepth m ≤ 126 := read_client_fits h

/-- **C65**: the server makes a message of the bytes it receives exactly if they begin with a CBOR tree that says so
(`SaysClient`, independent of the decoder): nothing else is taken for a message, and nothing well-formed is refused. -/
theorem C65_what_the_server_reads (b : Bytes) (m : ClientMsg) :
    readClient b = some m ↔ ∃ j rest, Cbor.read 256 b = some (j, rest) ∧ SaysClient j m := readClient_iff

/-- **C65**: the same for what a consumer makes of the bytes it receives. -/
theorem C65_what_the_consumer_reads (b : Bytes) (m : ServerMessage) :
    readServer b = some m ↔ ∃ j rest, Cbor.read 256 b = some (j, rest) ∧ SaysServer j m := readServer_iff

/-- A message in another order of fields, with a field nobody asks for, is read; an answer that is neither `Ok` nor `Err`
is not. -/
example : readServer (Cbor.write (.obj [("Sync", .obj [("contents", .obj [("ChunksReserved", .obj [("Ok", .arr [])])]),
      ("extra", .null), ("nonce", .num 5)])])) = some (.sync 5 (some [])) ∧
    readServer (Cbor.write (.obj [("Sync", .obj [("nonce", .num 5),
      ("contents", .obj [("ChunksReserved", .obj [("Maybe", .arr [])])])])])) = none := by
  refine ⟨?_, ?_⟩ <;> decide +kernel

/-- A chunk index of 2^63 has 64 bits and is refused, the one before it is not. -/
example : readClient (writeClient (.completeChunk 0 ⟨1, 2 ^ 63⟩ none)) = none ∧
    readClient (writeClient (.completeChunk 0 ⟨1, 2 ^ 63 - 1⟩ none)) = some (.completeChunk 0 ⟨1, 2 ^ 63 - 1⟩ none) := by
  refine ⟨?_, ?_⟩ <;> decide +kernel

/-- **C65**: a connection to which a consumer sends any series of messages (each with whatever happens in the server at that
moment) goes through exactly the states of a connection that is handed the messages themselves. -/
theorem C65_connection_acts_on_what_was_sent (maxMissable : Nat) (sent : List (ClientMsg × Fetch × Bool))
    (h : ∀ x ∈ sent, ClientCanSend x.1 ∧ strategyDepth x.1 ≤ 126 ∧ (writeClient x.1).length < 2 ^ 64) :
    Conn.run maxMissable (sent.map fun x => received (writeClient x.1) x.2.1 x.2.2) =
      Conn.run maxMissable (sent.map fun x => .recv x.1 x.2.1 x.2.2) := by
  congr 1
  refine List.map_congr_left fun x hx => ?_
  obtain ⟨h1, h2, h3⟩ := h x hx
  have := C65_client_messages_arrive x.1 h1 h2 h3 []
  rw [List.append_nil] at this
  rw [received, this]

/-- What is not a message ends the connection, and nothing is reported or sent. -/
theorem C65_unreadable_ends_the_connection (s : Conn.State) (b : Bytes) (f : Fetch) (ok : Bool) (hs : s.ended = none)
    (h : readClient b = none) :
    Conn.step s (received b f ok) = { s with missed := 0, ended := some .unreadable } := by
  rw [received, h]
  simp [Conn.step, hs, alive]

example : (Conn.run 3 [received (writeClient (.failChunk 1 ⟨2, 3⟩ "no")) .dbError true,
      received [0x82, 0x01] .dbError true]).reports = [.fail ⟨2, 3⟩ "no"] ∧
    (Conn.run 3 [received (writeClient (.failChunk 1 ⟨2, 3⟩ "no")) .dbError true,
      received [0x82, 0x01] .dbError true]).ended = some .unreadable := by
  refine ⟨?_, ?_⟩ <;> decide +kernel

end Opsqueue.Messages
