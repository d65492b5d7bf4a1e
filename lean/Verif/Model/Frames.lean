import Verif.Model.Messages
import Verif.Model.Client
import Verif.Model.Delivery
import Verif.Model.HttpText

/-!
# The size of messages between consumer and server

`Model/Messages.lean` has the bytes of messages of any size. tungstenite (a dependency, its source is not in /repo) sends each message
as one frame, and when reading refuses a frame of more than 16 MiB (`WebSocketConfig::max_frame_size`, by default 16 MiB;
`max_message_size` is 64 MiB, so of a message in one frame it is the first that counts). Nothing in /repo sets another limit: the server
uses axum's `WebSocketUpgrade` as it is (consumer/server/mod.rs 116-120), the client `connect_async` (consumer/client.rs 276).
There is no limit when sending (`max_write_buffer_size` is unlimited by default).
-/

namespace Opsqueue.Frames
open Messages

/-- tungstenite's default for `max_frame_size` (consumer/server/mod.rs 116-120, consumer/client.rs 276). -/
def frameLimit : Nat := 16777216

/-- What the bytes of a message are to the connection in the server: a frame that is too long is an error of the socket
(`ws_stream.recv()`, conn.rs 116-121), otherwise `handle_incoming_msg` (conn.rs 186-202). -/
def serverReceives (b : Bytes) (fetch : Conn.Fetch) (sendOk : Bool) : Conn.Event :=
  if frameLimit < b.length then .recvError else received b fetch sendOk

/-- What the bytes of a message are to the background task of a consumer (consumer/client.rs 355-428): a frame that is too long is an
error of the socket (363-371). `sendOk`, `sinkClosed`: as in `Model/Client.lean`. -/
def consumerReceives (b : Bytes) (sendOk : ChunkId → Bool) (sinkClosed : Bool) : Client.Event :=
  if frameLimit < b.length then .readError sinkClosed
  else match readServer b with
    | none => .unreadable
    | some (.sync nonce contents) => .sync nonce (contents.map (·.map (·.1.key))) sendOk
    | some (.expired id) => .expired id (sendOk id)
    | some (.init _) => .init

end Opsqueue.Frames
