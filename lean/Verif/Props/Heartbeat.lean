import Verif.Proofs.Heartbeat

/-!
# C87: how long it takes to notice that the other end is gone

`p` is the heartbeat interval and `m` is `max_missable_heartbeats`; both ends use the values of the server.
-/

namespace Opsqueue

open Heartbeat

/-- **C87** (the server does not give up early). When the server ends a connection because of missed
heartbeats, however slow the server itself was, at least `m + 1` intervals have passed since the connection
was made, and at least `m + 2` since any frame of the consumer was handled. -/
theorem C87_server_not_early (p m t0 : Nat) (pre : List (Entry Conn.Event)) (e : Entry Conn.Event)
    (hfits : Fits (server m) p t0 (pre ++ [e]))
    (hopen : (Heartbeat.run (server m) p t0 pre).inner.ended = none)
    (hend : (Heartbeat.run (server m) p t0 (pre ++ [e])).inner.ended = some .heartbeatFailure) :
    t0 + (m + 1) * p ≤ e.time ∧ ∀ e' ∈ pre, GotFromConsumer e' → e'.time + (m + 2) * p ≤ e.time := by
  obtain ⟨he, hm⟩ := server_end hopen hend
  obtain ⟨h1, h2⟩ := last_tick (server_laws m) hfits (server_running.2 hopen) (by rw [he]; rfl) hm
  exact ⟨h1, fun e' he' hg => h2 e' he' (server_recv.2 hg)⟩

/-- **C87** (the consumer does not give up early). The same on the side of the consumer. -/
theorem C87_consumer_not_early (p m t0 : Nat) (pre : List (Entry Client.Event)) (e : Entry Client.Event)
    (hfits : Fits (client m) p t0 (pre ++ [e]))
    (hopen : (Heartbeat.run (client m) p t0 pre).inner.background = .running)
    (hend : (Heartbeat.run (client m) p t0 (pre ++ [e])).inner.healthy = false) :
    t0 + (m + 1) * p ≤ e.time ∧ ∀ e' ∈ pre, GotFromServer e' → e'.time + (m + 2) * p ≤ e.time := by
  obtain ⟨he, hm⟩ := client_end hopen hend
  obtain ⟨h1, h2⟩ := last_tick (client_laws m) hfits (client_running.2 hopen) (by rw [he]; rfl) hm
  exact ⟨h1, fun e' he' hg => h2 e' he' (got_client hg)⟩

/-- **C87** (a dead consumer is noticed). As long as a connection is open on the server, and the server was
never late by more than `δ`, the consumer was heard from within the last `m + 2` intervals plus `δ`, or the
connection is younger than `m + 1` intervals plus `δ`. -/
theorem C87_server_notices (p m t0 δ T : Nat) (es : List (Entry Conn.Event))
    (hfits : Fits (server m) p t0 es) (hprompt : Prompt (server m) p t0 δ es T)
    (hopen : (Heartbeat.run (server m) p t0 es).inner.ended = none) :
    T ≤ t0 + (m + 1) * p + δ ∨ ∃ e ∈ es, GotFromConsumer e ∧ T ≤ e.time + (m + 2) * p + δ := by
  rcases recent (server_laws m) hfits hprompt (server_running.2 hopen) with h | ⟨e, he, hk, h⟩
  · exact .inl h
  · exact .inr ⟨e, he, server_recv.1 hk, h⟩

/-- **C87** (a dead server is noticed). The same on the side of the consumer. -/
theorem C87_consumer_notices (p m t0 δ T : Nat) (es : List (Entry Client.Event))
    (hfits : Fits (client m) p t0 es) (hprompt : Prompt (client m) p t0 δ es T)
    (hopen : (Heartbeat.run (client m) p t0 es).inner.background = .running) :
    T ≤ t0 + (m + 1) * p + δ ∨ ∃ e ∈ es, GotFromServer e ∧ T ≤ e.time + (m + 2) * p + δ := by
  rcases recent (client_laws m) hfits hprompt (client_running.2 hopen) with h | ⟨e, he, hk, h⟩
  · exact .inl h
  · exact .inr ⟨e, he, client_recv (client_running.2 hopen) he hk, h⟩

/-- **C87** (with the default configuration). A server that is never late by more than a second keeps a
connection open at most 51 seconds after it last heard from the consumer, and does not close it for that
reason before 50 seconds. -/
theorem C87_defaults (t0 T : Nat) (es : List (Entry Conn.Event))
    (hfits : Fits (server defaultMaxMissable) defaultInterval t0 es)
    (hprompt : Prompt (server defaultMaxMissable) defaultInterval t0 1000 es T)
    (hopen : (Heartbeat.run (server defaultMaxMissable) defaultInterval t0 es).inner.ended = none) :
    T ≤ t0 + 41000 ∨ ∃ e ∈ es, GotFromConsumer e ∧ T ≤ e.time + 51000 :=
  C87_server_notices defaultInterval defaultMaxMissable t0 1000 T es hfits hprompt hopen

/-! ### A consumer that is alive -/

/-- The full statement: a consumer whose frames arrive at least once per heartbeat interval is not dropped
for missed heartbeats. -/
def C87_full : Prop :=
  ∀ (p m t0 T : Nat) (es : List (Entry Conn.Event)) (arrivals : List Nat), 0 < p →
    Fits (server m) p t0 es → (∀ e ∈ es, e.time ≤ T) → HandledInOrder arrivals es → Often p t0 T arrivals →
    (Heartbeat.run (server m) p t0 es).inner.ended ≠ some .heartbeatFailure

/-- A server that needs 40 seconds to answer a request; then it finds four ticks due, and takes them before
it looks at the frames that have arrived in the meantime. -/
def stallHistory : List (Entry Conn.Event) :=
  [⟨0, 0, .tick⟩,
   ⟨5000, 40000, .recv (.wantToReserve ⟨0, 1, .oldest⟩) (.chunks [⟨1, 0⟩]) true⟩,
   ⟨45000, 0, .tick⟩, ⟨45000, 0, .tick⟩, ⟨45000, 0, .tick⟩]

/-- **C87** (refuted). If handling one request takes the server too long, ticks pile up (the timer catches
up on all of them), and the server may count them all as missed heartbeats before it reads the frames that
are waiting in the socket: with an interval of 10 seconds and `max_missable_heartbeats = 1` the connection in
the example is dropped, although a frame arrived every 10 seconds. -/
theorem C87_refuted_by_stall : ¬ C87_full := by
  intro h
  refine h 10000 1 0 45000 stallHistory [5000, 10000, 20000, 30000, 40000] (by decide)
    (fits_of _ _ _ _ (by decide +kernel)) (by decide +kernel) ?_ ?_ (by decide +kernel)
  · refine ⟨1, [⟨5000, 40000, .recv (.wantToReserve ⟨0, 1, .oldest⟩) (.chunks [⟨1, 0⟩]) true⟩],
      by simp [stallHistory], ?_, rfl, by decide, ?_⟩
    · intro e he hg
      simp only [stallHistory, List.mem_cons, List.not_mem_nil, or_false] at he
      rcases he with rfl | rfl | rfl | rfl | rfl <;> simp [GotFromConsumer] at hg ⊢
    · intro i e a h1 h2
      cases i with
      | zero => simp at h1 h2; subst h1; subst h2; simp [GotFromConsumer]
      | succ i => simp at h1
  · intro x _ hx
    by_cases h1 : x < 5000
    · exact ⟨5000, by simp, by omega, by omega⟩
    by_cases h2 : x < 10000
    · exact ⟨10000, by simp, by omega, by omega⟩
    by_cases h3 : x < 20000
    · exact ⟨20000, by simp, by omega, by omega⟩
    by_cases h4 : x < 30000
    · exact ⟨30000, by simp, by omega, by omega⟩
    · exact ⟨40000, by simp, by omega, by omega⟩

/-- **C87** (partial: a live consumer is kept). A consumer whose frames arrive at least once in every period
of length `gap`, and are handled within `ε` of their arrival, is not dropped for missed heartbeats if
`gap + ε < (m + 1) * p`. What is missing: `ε` depends on the load of the server. -/
theorem C87_live_consumer_is_kept_partial (p m t0 gap ε : Nat) (pre : List (Entry Conn.Event))
    (e : Entry Conn.Event) (arrivals : List Nat) (hbound : gap + ε < (m + 1) * p)
    (hfits : Fits (server m) p t0 (pre ++ [e]))
    (hopen : (Heartbeat.run (server m) p t0 pre).inner.ended = none)
    (hoften : Often gap t0 e.time arrivals)
    (hhandled : ∀ a ∈ arrivals, a + ε < e.time → ∃ e' ∈ pre, GotFromConsumer e' ∧ a ≤ e'.time) :
    (Heartbeat.run (server m) p t0 (pre ++ [e])).inner.ended ≠ some .heartbeatFailure := by
  intro hend
  obtain ⟨h1, h2⟩ := C87_server_not_early p m t0 pre e hfits hopen hend
  obtain ⟨a, ha, ha1, ha2⟩ := hoften (e.time - ε - 1 - gap) (by omega) (by omega)
  obtain ⟨e', he', hg, hle⟩ := hhandled a ha (by omega)
  have := h2 e' he' hg
  have h3 : (m + 2) * p = (m + 1) * p + p := Nat.succ_mul (m + 1) p
  omega

/-- **C87** (a consumer that answers is kept). A consumer from which a frame is handled within `d` of every
ping is not dropped for missed heartbeats, if the server is never late by more than `δ` and
`δ + d < (m + 1) * p`. -/
theorem C87_answering_consumer_is_kept (p m t0 δ d : Nat) (pre : List (Entry Conn.Event))
    (e : Entry Conn.Event) (hp : 0 < p) (hbound : δ + d < (m + 1) * p)
    (hfits : Fits (server m) p t0 (pre ++ [e]))
    (hopen : (Heartbeat.run (server m) p t0 pre).inner.ended = none)
    (hprompt : Prompt (server m) p t0 δ (pre ++ [e]) e.time)
    (hpong : ∀ ping ∈ pre, ping.event = .tick → ping.time + d < e.time →
      ∃ e' ∈ pre, GotFromConsumer e' ∧ ping.time ≤ e'.time) :
    (Heartbeat.run (server m) p t0 (pre ++ [e])).inner.ended ≠ some .heartbeatFailure := by
  intro hend
  obtain ⟨he, hm⟩ := server_end hopen hend
  have hr : (server m).running (Heartbeat.run (server m) p t0 pre).inner := server_running.2 hopen
  have hpr : Prompt (server m) p t0 δ pre e.time :=
    ⟨fun a x b h => hprompt.1 a x (b ++ [e]) (by simp [h]), fun hr => hprompt.1 pre e [] (by simp) hr⟩
  obtain ⟨hf1, hf2⟩ := hfits.snoc
  obtain ⟨x, hx, hk, hxt, hlast⟩ := first_tick (server_laws m) hp hf1 hpr hr (by omega)
  have hle := (timer (server_laws m) hf1 hr).le
  have hmm : (Heartbeat.run (server m) p t0 pre).inner.missed = m + 1 := by
    have : (Heartbeat.run (server m) p t0 pre).inner.missed ≤ m + 1 := hle
    omega
  have hxt' : x.time + (m + 1) * p ≤ (Heartbeat.run (server m) p t0 pre).deadline + δ := by
    have h := hxt
    simp only [hmm] at h
    exact h
  have hdl : (Heartbeat.run (server m) p t0 pre).deadline ≤ e.time := by
    simp only [possible, Bool.and_eq_true, Bool.or_eq_true, decide_eq_true_eq] at hf2
    rcases hf2.2 with h | h
    · exact absurd (by rw [he]; rfl) h
    · exact h
  have hxe : x.event = .tick := by
    revert hk
    cases hh : x.event <;> simp [server, serverKind]
  obtain ⟨e', he', hg, hle'⟩ := hpong x hx hxe (by omega)
  have := hlast e' he' (server_recv.2 hg)
  omega

/-- A consumer that answers two pings and then dies: with `p = 10000` and `m = 1` the server drops it 30 seconds
after the last pong, having been at most 2 seconds late. -/
def deadConsumer : List (Entry Conn.Event) :=
  [⟨0, 0, .tick⟩, ⟨100, 0, .recvPong⟩, ⟨10100, 3, .tick⟩, ⟨10200, 0, .recvPong⟩,
   ⟨20200, 0, .tick⟩, ⟨30300, 2000, .expired ⟨1, 0⟩ true⟩, ⟨32300, 0, .tick⟩, ⟨40200, 0, .tick⟩]

example : Fits (server 1) 10000 0 deadConsumer ∧ Prompt (server 1) 10000 0 2100 deadConsumer 40200 ∧
    (Heartbeat.run (server 1) 10000 0 (deadConsumer.take 7)).inner.ended = none ∧
    (Heartbeat.run (server 1) 10000 0 deadConsumer).inner.ended = some .heartbeatFailure :=
  ⟨fits_of _ _ _ _ (by decide +kernel), prompt_of _ _ _ _ _ _ (by decide +kernel), by decide +kernel, by decide +kernel⟩

/-- A consumer that answers every ping within 200 milliseconds, and a server that takes 25 seconds for one
request: what `C87_live_consumer_is_kept_partial` and `C87_answering_consumer_is_kept` ask for is met, at a time
when one more missed heartbeat would be fatal. -/
def liveConsumer : List (Entry Conn.Event) :=
  [⟨0, 0, .tick⟩, ⟨100, 0, .recvPong⟩, ⟨10100, 3, .tick⟩,
   ⟨10200, 25000, .recv (.wantToReserve ⟨0, 1, .oldest⟩) (.chunks [⟨1, 0⟩]) true⟩,
   ⟨35200, 0, .tick⟩, ⟨35200, 0, .tick⟩, ⟨35300, 0, .recvPong⟩]

example : Fits (server 1) 10000 0 (liveConsumer ++ [⟨45300, 0, .tick⟩]) ∧
    (Heartbeat.run (server 1) 10000 0 liveConsumer).inner.ended = none ∧
    (Heartbeat.run (server 1) 10000 0 (liveConsumer.take 6)).inner.missed = 2 ∧
    Prompt (server 1) 10000 0 15100 (liveConsumer ++ [⟨45300, 0, .tick⟩]) 45300 ∧
    (∀ ping ∈ liveConsumer, ping.event = .tick → ping.time + 200 < 45300 →
      ∃ e' ∈ liveConsumer, GotFromConsumer e' ∧ ping.time ≤ e'.time) := by
  refine ⟨fits_of _ _ _ _ (by decide +kernel), by decide +kernel, by decide +kernel,
    prompt_of _ _ _ _ _ _ (by decide +kernel), ?_⟩
  intro ping hping _ _
  refine ⟨⟨35300, 0, .recvPong⟩, by simp [liveConsumer], by simp [GotFromConsumer], ?_⟩
  simp only [liveConsumer, List.mem_cons, List.not_mem_nil, or_false] at hping
  rcases hping with rfl | rfl | rfl | rfl | rfl | rfl | rfl <;> decide

example : Often 15200 0 45300 [100, 10200, 20200, 35300] := by
  intro x _ hx
  by_cases h1 : x < 100
  · exact ⟨100, by simp, by omega, by omega⟩
  by_cases h2 : x < 10200
  · exact ⟨10200, by simp, by omega, by omega⟩
  by_cases h2 : x < 20200
  · exact ⟨20200, by simp, by omega, by omega⟩
  · exact ⟨35300, by simp, by omega, by omega⟩

/-- A consumer whose server dies. -/
def deadServer : List (Entry Client.Event) :=
  [⟨0, 0, .tick⟩, ⟨100, 0, .ping⟩, ⟨300, 0, .call 1 .oldest⟩, ⟨301, 0, .send 0 true⟩, ⟨310, 0, .sync 0 (some [⟨1, 0⟩]) fun _ => true⟩,
   ⟨10310, 0, .tick⟩, ⟨20310, 0, .tick⟩, ⟨30310, 0, .tick⟩]

example : Fits (client 1) 10000 0 deadServer ∧ Prompt (client 1) 10000 0 0 deadServer 30310 ∧
    (Heartbeat.run (client 1) 10000 0 (deadServer.take 7)).inner.background = .running ∧
    (Heartbeat.run (client 1) 10000 0 deadServer).inner.healthy = false :=
  ⟨fits_of _ _ _ _ (by decide +kernel), prompt_of _ _ _ _ _ _ (by decide +kernel), by decide +kernel, by decide +kernel⟩

end Opsqueue
