import Verif.Proofs.Conn

/-!
# C37, C39: requests, responses and heartbeats on a connection
-/

namespace Opsqueue

open Conn

/-! ## C37 -/

/-- **C37** (accounting). Whatever happens on a connection, the reserve requests received on it are
exactly the ones answered so far plus the ones still waiting, counted with multiplicity per nonce; once
the connection has ended there may be one more, whose response could not be sent. `received` only
counts reserve requests, so no response is ever sent for a complete or fail message. -/
theorem C37_each_request_answered_or_waiting (m : Nat) (es : List Event) :
    let s := Conn.run m es
    ∃ lost : List Nat, (s.ended = none → lost = []) ∧ lost.length ≤ 1 ∧
      ∀ nonce, (received m es).count nonce =
        (answered s).count nonce + (stillWaiting s).count nonce + lost.count nonce :=
  book_run m es

/-- **C37** (as the client sees it). If the client never uses a nonce twice then no nonce is answered
twice, every response carries the nonce of a request, an answered request is not waiting any more,
and while the connection is open a request that is not answered is waiting. -/
theorem C37_at_most_one_response (m : Nat) (es : List Event) (hdistinct : (received m es).Nodup) :
    (answered (Conn.run m es)).Nodup ∧
    (∀ nonce ∈ answered (Conn.run m es), nonce ∈ received m es ∧ nonce ∉ stillWaiting (Conn.run m es)) ∧
    ((Conn.run m es).ended = none → ∀ nonce ∈ received m es,
      nonce ∈ answered (Conn.run m es) ∨ nonce ∈ stillWaiting (Conn.run m es)) := by
  obtain ⟨lost, hl, _, hc⟩ := book_run m es
  have h1 := List.nodup_iff_count.1 hdistinct
  refine ⟨List.nodup_iff_count.2 fun n => ?_, fun n hn => ⟨?_, fun hw => ?_⟩, fun ho n hn => ?_⟩
  · have := hc n; have := h1 n; omega
  · have := List.count_pos_iff.2 hn
    refine List.count_pos_iff.1 ?_
    rw [hc n]; omega
  · have := List.count_pos_iff.2 hn
    have := List.count_pos_iff.2 hw
    have := hc n; have := h1 n; omega
  · cases hl ho
    have hp := List.count_pos_iff.2 hn
    rw [hc n, List.count_nil] at hp
    by_cases ha : n ∈ answered (Conn.run m es)
    · exact Or.inl ha
    · rw [List.count_eq_zero.2 ha] at hp
      exact Or.inr (List.count_pos_iff.1 (by omega))

/-- **C37** (reports). Complete and fail messages are passed on in the order in which they arrive, each
once, and their arrival sends nothing to the client. -/
theorem C37_reports_get_no_response (m : Nat) (es : List Event) :
    (Conn.run m es).reports = whileOpen Event.report (init m) es ∧
    ∀ (msg : ClientMsg) (f : Fetch) (b : Bool), Event.requestNonce (.recv msg f b) = none →
      (Conn.run m (es ++ [.recv msg f b])).out = (Conn.run m es).out := by
  refine ⟨reports_run m es, fun msg f b h => ?_⟩
  rw [run_snoc]
  unfold Conn.step
  split
  · rfl
  · cases msg with
    | wantToReserve r => cases h
    | _ => rfl

/-- **C37** (contents). Every response was sent in answer to a request `r` with its nonce that had been
received, when the request was tried, first or again, on the open connection. It contains exactly the
chunks that this attempt reserved, at least one; it is empty only if the database failed, and an error if
and only if no chunks at all were asked for. -/
theorem C37_response_contents (m : Nat) (es : List Event) (nonce : Nat) (contents : Response)
    (h : .sync nonce contents ∈ (Conn.run m es).out) :
    ∃ pre e post r fetch, es = pre ++ e :: post ∧ (Conn.run m pre).ended = none ∧
      (e = .recv (.wantToReserve r) fetch true ∨
        (e = .retry fetch true ∧ (Conn.run m pre).retry.head? = some r)) ∧
      (∃ f b, .recv (.wantToReserve r) f b ∈ pre ++ [e]) ∧
      r.nonce = nonce ∧ (r.max = 0 ∧ contents = none ∨
        r.max ≠ 0 ∧ (fetch = .dbError ∧ contents = some [] ∨
          ∃ id ids, fetch = .chunks (id :: ids) ∧ contents = some (id :: ids))) := by
  obtain ⟨pre, e, post, r, fetch, h1, h2, h3, h4⟩ := sync_origin m es nonce contents h
  refine ⟨pre, e, post, r, fetch, h1, h2, h3, ?_, h4⟩
  rcases h3 with h3 | ⟨_, h3⟩
  · exact ⟨fetch, true, by rw [h3]; simp⟩
  · obtain ⟨f, b, h5⟩ := waiting_received m pre r (List.mem_append_right _ (List.mem_of_head? h3))
    exact ⟨f, b, List.mem_append_left _ h5⟩

/-- Two requests and a report; the first request waits, is woken up by an insert and answered after
the second one. -/
def connExample : List Event :=
  [.recv (.wantToReserve ⟨1, 5, .oldest⟩) (.chunks []) true,
   .recv (.wantToReserve ⟨2, 5, .newest⟩) (.chunks [⟨7, 0⟩]) true,
   .recv (.completeChunk 3 ⟨7, 0⟩ none) .dbError true,
   .wake 0, .retry (.chunks [⟨8, 0⟩, ⟨8, 1⟩]) true]

example : (received 3 connExample).Nodup := by decide +kernel
example : received 3 connExample = [1, 2] ∧ answered (Conn.run 3 connExample) = [2, 1] ∧
    stillWaiting (Conn.run 3 connExample) = [] ∧
    stillWaiting (Conn.run 3 (connExample.take 3)) = [1] ∧
    (Conn.run 3 connExample).reports = [.complete ⟨7, 0⟩ none] := by decide +kernel

example : (Conn.run 3 connExample).out =
    [.init 3, .sync 2 (some [⟨7, 0⟩]), .sync 1 (some [⟨8, 0⟩, ⟨8, 1⟩])] := by decide +kernel

/-! ## C39 -/

/-- **C39** (exactly when). With `max_missable_heartbeats = m`, a connection ends because of missed
heartbeats if and only if some tick happens while it is open and the `m + 1` ticks before it came
without anything received in between or since. -/
theorem C39_exactly_when (m : Nat) (es : List Event) :
    (Conn.run m es).ended = some .heartbeatFailure ↔
      ∃ pre post, es = pre ++ .tick :: post ∧ (Conn.run m pre).ended = none ∧
        List.replicate (m + 1) true <:+ beats pre :=
  (beat_run m es).ended

/-- **C39** (a live peer is kept). If the ticks and messages never contain `m + 2` consecutive ticks, the
connection is never closed for missed heartbeats. -/
theorem C39_live_peer_is_kept (m : Nat) (es : List Event)
    (halive : ¬ List.replicate (m + 2) true <:+: beats es) :
    (Conn.run m es).ended ≠ some .heartbeatFailure := by
  intro h
  obtain ⟨pre, post, rfl, _, hs⟩ := (C39_exactly_when m es).1 h
  refine halive ?_
  have : beats (pre ++ .tick :: post) = beats pre ++ [true] ++ beats post := by
    simp [beats, Event.beat]
  rw [this, List.replicate_succ']
  obtain ⟨t, ht⟩ := hs
  exact ⟨t, beats post, by rw [← ht]; simp⟩

/-- **C39** (a silent peer is detected). A connection on which nothing is received, and that is not ended
by a shutdown or a failed send, is open during the first `m + 1` ticks and ends with a heartbeat
failure at tick `m + 2`. Chunks that become available and expiry notices make no difference. -/
theorem C39_silent_peer_is_dropped (m : Nat) (es : List Event)
    (hsilent : ∀ e ∈ es, e = .tick ∨ (∃ i, e = .wake i) ∨ (∃ f, e = .retry f true) ∨
      ∃ id, e = .expired id true) :
    (Conn.run m es).ended = if es.count .tick < m + 2 then none else some .heartbeatFailure := by
  have hb := beat_run m es
  have hbeats : ∀ l : List Event, (∀ e ∈ l, e = .tick ∨ (∃ i, e = .wake i) ∨
      (∃ f, e = .retry f true) ∨ ∃ id, e = .expired id true) →
      beats l = List.replicate (l.count .tick) true := by
    intro l
    induction l with
    | nil => intro _; rfl
    | cons a l ih =>
      intro hl
      have := ih fun e he => hl e (List.mem_cons_of_mem _ he)
      unfold beats at this ⊢
      rw [List.filterMap_cons]
      rcases hl a List.mem_cons_self with rfl | ⟨i, rfl⟩ | ⟨f, rfl⟩ | ⟨id, rfl⟩
      · simp only [Event.beat, this, List.count_cons_self, List.replicate_succ]
      all_goals
        simp only [Event.beat, this]
        rw [List.count_cons_of_ne (by intro h; cases h)]
  have hsil : ∀ k, silent (List.replicate k true) = k := by
    intro k
    simp [silent]
  -- the connection only ends by heartbeat failure
  have hends : ∀ l : List Event, (∀ e ∈ l, e = .tick ∨ (∃ i, e = .wake i) ∨
      (∃ f, e = .retry f true) ∨ ∃ id, e = .expired id true) → ∀ s : Conn.State,
      (s.ended = none ∨ s.ended = some .heartbeatFailure) →
      ((l.foldl Conn.step s).ended = none ∨ (l.foldl Conn.step s).ended = some .heartbeatFailure) := by
    intro l
    induction l with
    | nil => intro _ s h; exact h
    | cons a l ih =>
      intro hl s hs
      refine ih (fun e he => hl e (List.mem_cons_of_mem _ he)) _ ?_
      unfold Conn.step
      split
      · exact hs
      · rcases hl a List.mem_cons_self with rfl | ⟨i, rfl⟩ | ⟨f, rfl⟩ | ⟨id, rfl⟩
        · dsimp only; unfold beatHeart; split
          · exact Or.inr rfl
          · exact hs
        · dsimp only; split <;> exact hs
        · dsimp only; split
          · exact hs
          · unfold reserve
            split
            · exact hs
            · split <;> exact hs
        · exact hs
  have hor := hends es hsilent (Conn.init m) (Or.inl rfl)
  by_cases hlt : es.count .tick < m + 2
  · rw [if_pos hlt]
    rcases hor with h | h
    · exact h
    · obtain ⟨pre, post, rfl, _, hs⟩ := hb.ended.1 h
      rw [hbeats pre fun e he => hsilent e (List.mem_append_left _ he), silent_iff, hsil] at hs
      rw [List.count_append, List.count_cons_self] at hlt
      omega
  · rw [if_neg hlt]
    rcases hor with h | h
    · have := hb.missed h
      rw [hbeats es hsilent, hsil] at this
      omega
    · exact h

/-- Eight ticks with a pong after every third one, with `m = 2`, and four ticks in silence. -/
def heartbeatExample : List Event :=
  [.tick, .tick, .tick, .recvPong, .tick, .tick, .tick, .recvPong, .expired ⟨1, 0⟩ true]

example : (Conn.run 2 heartbeatExample).ended = none := by decide +kernel
example : ¬ List.replicate 4 true <:+: beats heartbeatExample := by decide +kernel
example : (Conn.run 2 (heartbeatExample ++ [.tick, .tick, .tick])).ended = none ∧
    (Conn.run 2 (heartbeatExample ++ [.tick, .tick, .tick, .tick])).ended = some .heartbeatFailure := by
  decide +kernel

end Opsqueue
