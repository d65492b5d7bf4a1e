import Verif.Model.Heartbeat

/-!
# Vocabulary for statements about heartbeats in time
-/

namespace Opsqueue.Heartbeat

variable {σ ε : Type}

/-- A history of one end of a connection, from time `t0` on with heartbeat interval `p`: every event can
follow the ones before it. -/
def Fits (S : Side σ ε) (p t0 : Nat) (es : List (Entry ε)) : Prop :=
  ∀ pre e post, es = pre ++ e :: post → possible S (run S p t0 pre) e

/-- Up to time `T` the loop was never late by more than `δ`: while it runs, nothing happens later than `δ`
after the next tick was due. -/
def Prompt (S : Side σ ε) (p t0 δ : Nat) (es : List (Entry ε)) (T : Nat) : Prop :=
  (∀ pre e post, es = pre ++ e :: post → S.running (run S p t0 pre).inner →
    e.time ≤ (run S p t0 pre).deadline + δ) ∧
  (S.running (run S p t0 es).inner → T ≤ (run S p t0 es).deadline + δ)

/-- A frame of the consumer is received by the server. -/
def GotFromConsumer (e : Entry Conn.Event) : Prop :=
  e.event = .recvPing ∨ e.event = .recvPong ∨ e.event = .recvText ∨ e.event = .recvUnreadable ∨
  ∃ msg fetch sendOk, e.event = .recv msg fetch sendOk

/-- A frame of the server is received by the consumer. -/
def GotFromServer (e : Entry Client.Event) : Prop :=
  e.event = .ping ∨ e.event = .unreadable ∨ (∃ nonce contents ok, e.event = .sync nonce contents ok) ∨
  (∃ id ok, e.event = .expired id ok) ∨ e.event = .init

/-- From `t0` to `T` frames arrive at least once in every period of length `gap`. -/
def Often (gap t0 T : Nat) (arrivals : List Nat) : Prop :=
  ∀ x, t0 ≤ x → x + gap ≤ T → ∃ a ∈ arrivals, x < a ∧ a ≤ x + gap

/-- The frames of the consumer arrive at the server at the times `arrivals`, and are handled in that order,
none before it arrives. -/
def HandledInOrder (arrivals : List Nat) (es : List (Entry Conn.Event)) : Prop :=
  ∃ n, ∃ handled : List (Entry Conn.Event), handled.Sublist es ∧ (∀ e ∈ es, GotFromConsumer e → e ∈ handled) ∧
    handled.length = n ∧ n ≤ arrivals.length ∧
    ∀ (i : Nat) (e : Entry Conn.Event) (a : Nat), handled[i]? = some e → arrivals[i]? = some a →
      GotFromConsumer e ∧ a ≤ e.time

/-- A network that keeps the order and needs at most `lat` to deliver: `sent` and `got` are the frames sent
and received with their times, up to time `T`. -/
def Delivers {φ : Type} (lat T : Nat) (sent got : List (Nat × φ)) : Prop :=
  got.length ≤ sent.length ∧
  ∀ (i t : Nat) (f : φ), sent[i]? = some (t, f) →
    (∀ (t' : Nat) (g : φ), got[i]? = some (t', g) → g = f ∧ t ≤ t' ∧ t' ≤ t + lat) ∧
    (got[i]? = none → T ≤ t + lat)

/-- Both ends of a connection up to time `T`, with interval `p` and `max_missable_heartbeats = m`: the server
begins at `t0`, the consumer at `t1`; neither is ever late by more than `δ`, and handling an event takes the
server at most `δ`; frames take at most `lat`. The initialization message, which the server sends first, is
received before the consumer begins (client.rs 284-301). -/
structure Working (p m δ lat t0 t1 T : Nat) (ss : List (Entry Conn.Event)) (cs : List (Entry Client.Event)) : Prop where
  server_fits : Fits (server m) p t0 ss
  client_fits : Fits (client m) p t1 cs
  order : t0 ≤ t1
  quick : ∀ e ∈ ss, e.duration ≤ δ
  server_prompt : Prompt (server m) p t0 δ ss T
  client_prompt : Prompt (client m) p t1 δ cs T
  to_client : Delivers lat T (allSends (server m) p (serverSends p (server m)) (start (server m) t0) ss)
    (cs.filterMap clientReceives)
  to_server : Delivers lat T (allSends (client m) p (clientSends p (client m)) (start (client m) t1) cs)
    (ss.filterMap serverReceives)

end Opsqueue.Heartbeat
