import Verif.Props.Heartbeat

/-!
# C88: a connection between a live server and a live consumer is kept

`p` is the heartbeat interval and `m` is `max_missable_heartbeats`.
-/

namespace Opsqueue

open Heartbeat

/-- **C88** (the server keeps a live consumer). Neither end is late by more than `δ` and frames take at most
`lat`; if `2 * (δ + lat) < (m + 1) * p`, the server never ends the connection because of missed heartbeats:
there is no moment `e.time` at which it does. -/
theorem C88_server_keeps_consumer (p m δ lat t0 t1 : Nat) (pre : List (Entry Conn.Event)) (e : Entry Conn.Event)
    (cs : List (Entry Client.Event)) (hp : 0 < p) (hbound : 2 * (δ + lat) < (m + 1) * p)
    (hw : Working p m δ lat t0 t1 e.time (pre ++ [e]) cs)
    (hopen : (Heartbeat.run (server m) p t0 pre).inner.ended = none) :
    (Heartbeat.run (server m) p t0 (pre ++ [e])).inner.ended ≠ some .heartbeatFailure := by
  intro hend
  obtain ⟨he, -⟩ := server_end hopen hend
  refine C87_answering_consumer_is_kept p m t0 δ (δ + 2 * lat) pre e hp (by omega) hw.server_fits hopen
    hw.server_prompt ?_ hend
  intro x hx hxe hlate
  obtain ⟨a, b, hab⟩ := List.append_of_mem hx
  have hopen' : (Heartbeat.run (server m) p t0 (a ++ [x])).inner.ended = none :=
    server_running.1 (running_prefix (server_laws m) (es' := b) (server_running.2 (by simpa [hab] using hopen)))
  have hsent := ping_sent (m := m) (p := p) (t0 := t0) (ss := pre ++ [e]) (pre := a) (post := b ++ [e])
    (by simp [hab]) hxe hopen'
  have hd := hw.quick x (by simp [hx])
  obtain ⟨t', hgot, h1, h2⟩ := delivered hw.to_client hsent (by omega)
  obtain ⟨c, hc, hc'⟩ := List.mem_filterMap.1 hgot
  obtain ⟨_, ht', hping⟩ := clientReceives_got hc'
  obtain ⟨a', b', hab'⟩ := List.append_of_mem hc
  have hpong := mem_allSends (client m) p t1 (clientSends p (client m)) hab' (x := (t', .pong))
    (by simp [clientSends, hping rfl, ht'])
  obtain ⟨t'', hgot', h3, h4⟩ := delivered hw.to_server hpong (by omega)
  obtain ⟨r, hr, hr'⟩ := List.mem_filterMap.1 hgot'
  obtain ⟨hg, hrt⟩ := serverReceives_got hr'
  rw [List.mem_append, List.mem_singleton] at hr
  rcases hr with hr | rfl
  · exact ⟨r, hr, hg, by omega⟩
  · simp [serverReceives, he] at hr'

/-- The full statement for the other end: under the same conditions, even with frames much faster than the
interval, the consumer never ends the connection because of missed heartbeats. -/
def C88_full : Prop :=
  ∀ (p m δ lat t0 t1 : Nat) (ss : List (Entry Conn.Event)) (pre : List (Entry Client.Event)) (e : Entry Client.Event),
    0 < p → 2 * (δ + lat) < p → Working p m δ lat t0 t1 e.time ss (pre ++ [e]) →
    (Heartbeat.run (server m) p t0 ss).inner.ended = none →
    (Heartbeat.run (client m) p t1 pre).inner.background = .running →
    (Heartbeat.run (client m) p t1 (pre ++ [e])).inner.healthy = true

/-- The chunks that the consumer of `busyConsumer` works on. -/
def busyChunks : List ChunkId := (List.range 20).map fun i => ⟨1, i⟩

/-- A consumer that reserves twenty chunks and completes one every five seconds; default configuration, frames
take 10 milliseconds. -/
def busyConsumer : List (Entry Client.Event) :=
  [⟨10, 0, .tick⟩, ⟨10, 0, .ping⟩, ⟨20, 0, .call 20 .oldest⟩, ⟨20, 0, .send 0 true⟩,
   ⟨40, 0, .sync 0 (some busyChunks) fun _ => true⟩,
   ⟨5040, 0, .complete ⟨1, 0⟩ none true⟩, ⟨10040, 0, .complete ⟨1, 1⟩ none true⟩, ⟨10040, 0, .tick⟩,
   ⟨15040, 0, .complete ⟨1, 2⟩ none true⟩, ⟨20040, 0, .complete ⟨1, 3⟩ none true⟩, ⟨20040, 0, .tick⟩,
   ⟨25040, 0, .complete ⟨1, 4⟩ none true⟩, ⟨30040, 0, .complete ⟨1, 5⟩ none true⟩, ⟨30040, 0, .tick⟩,
   ⟨35040, 0, .complete ⟨1, 6⟩ none true⟩, ⟨40040, 0, .complete ⟨1, 7⟩ none true⟩, ⟨40040, 0, .tick⟩,
   ⟨45040, 0, .complete ⟨1, 8⟩ none true⟩, ⟨50040, 0, .complete ⟨1, 9⟩ none true⟩]

/-- What the server sees of it. Every message resets its timer, so that it never sends another ping. -/
def busyServer : List (Entry Conn.Event) :=
  [⟨0, 0, .tick⟩, ⟨20, 0, .recvPong⟩,
   ⟨30, 0, .recv (.wantToReserve ⟨0, 20, .oldest⟩) (.chunks busyChunks) true⟩,
   ⟨5050, 0, .recv (.completeChunk 1 ⟨1, 0⟩ none) (.chunks []) true⟩,
   ⟨10050, 0, .recv (.completeChunk 2 ⟨1, 1⟩ none) (.chunks []) true⟩,
   ⟨15050, 0, .recv (.completeChunk 3 ⟨1, 2⟩ none) (.chunks []) true⟩,
   ⟨20050, 0, .recv (.completeChunk 4 ⟨1, 3⟩ none) (.chunks []) true⟩,
   ⟨25050, 0, .recv (.completeChunk 5 ⟨1, 4⟩ none) (.chunks []) true⟩,
   ⟨30050, 0, .recv (.completeChunk 6 ⟨1, 5⟩ none) (.chunks []) true⟩,
   ⟨35050, 0, .recv (.completeChunk 7 ⟨1, 6⟩ none) (.chunks []) true⟩,
   ⟨40050, 0, .recv (.completeChunk 8 ⟨1, 7⟩ none) (.chunks []) true⟩,
   ⟨45050, 0, .recv (.completeChunk 9 ⟨1, 8⟩ none) (.chunks []) true⟩]

theorem busy_working : Working defaultInterval defaultMaxMissable 0 10 0 10 50040 busyServer
    (busyConsumer ++ [⟨50040, 0, .tick⟩]) where
  order := by decide
  quick := by decide +kernel
  server_fits := fits_of _ _ _ _ (by decide +kernel)
  client_fits := fits_of _ _ _ _ (by decide +kernel)
  server_prompt := prompt_of _ _ _ _ _ _ (by decide +kernel)
  client_prompt := prompt_of _ _ _ _ _ _ (by decide +kernel)
  to_client := delivers_of _ _ _ _ (by decide +kernel)
  to_server := delivers_of _ _ _ _ (by decide +kernel)

/-- **C88** (refuted). With the default configuration, on a fast network and with both ends always on time, a
consumer that reserves twenty chunks and completes one every five seconds declares the server dead 50 seconds
after the reservation. The server does not answer a completed chunk, and it sends a ping only if it has received
nothing for 10 seconds; so a consumer that reports more often than that is sent nothing at all, while it
counts the intervals in which it receives nothing. -/
theorem C88_refuted_by_busy_consumer : ¬ C88_full := by
  intro h
  have := h defaultInterval defaultMaxMissable 0 10 0 10 busyServer busyConsumer ⟨50040, 0, .tick⟩ (by decide) (by decide)
    busy_working (by decide +kernel) (by decide +kernel)
  revert this
  decide +kernel

/-- **C88** (partial: the consumer keeps a server that is heard from). The consumer does not end the connection
because of missed heartbeats if in every period of length `window` the server sends it something, or has
a time of length `p + δ` in which it receives nothing (so that it sends a ping), and
`window + δ + lat < (m + 1) * p`. What is missing: a consumer that keeps reporting, without a pause of that
length and without being answered, is sent nothing. -/
theorem C88_consumer_keeps_server_partial (p m δ lat window t0 t1 : Nat) (ss : List (Entry Conn.Event))
    (pre : List (Entry Client.Event)) (e : Entry Client.Event) (hbound : window + δ + lat < (m + 1) * p)
    (hw : Working p m δ lat t0 t1 e.time ss (pre ++ [e]))
    (hserver : (Heartbeat.run (server m) p t0 ss).inner.ended = none)
    (hopen : (Heartbeat.run (client m) p t1 pre).inner.background = .running)
    (hpause : ∀ x, t1 ≤ x → x + window < e.time →
      (∃ frame ∈ allSends (server m) p (serverSends p (server m)) (start (server m) t0) ss,
        x < frame.1 ∧ frame.1 ≤ x + window) ∨
      (∃ y, x ≤ y ∧ y + p + δ ≤ x + window ∧
        ∀ e' ∈ ss, GotFromConsumer e' → ¬ (y < e'.time ∧ e'.time ≤ y + p + δ))) :
    (Heartbeat.run (client m) p t1 (pre ++ [e])).inner.healthy = true := by
  cases hend : (Heartbeat.run (client m) p t1 (pre ++ [e])).inner.healthy with
  | true => rfl
  | false =>
    exfalso
    obtain ⟨he, hm⟩ := client_end hopen hend
    have hr := client_running (m := m).2 hopen
    obtain ⟨hf1, hf2⟩ := hw.client_fits.snoc
    obtain ⟨i1, i2⟩ := timer (client_laws m) hf1 hr
    have hmm : (Heartbeat.run (client m) p t1 pre).inner.missed = m + 1 := by
      have : (Heartbeat.run (client m) p t1 pre).inner.missed ≤ m + 1 := i1
      omega
    have hdl : (Heartbeat.run (client m) p t1 pre).deadline ≤ e.time := by
      simp only [possible, Bool.and_eq_true, Bool.or_eq_true, decide_eq_true_eq] at hf2
      rcases hf2.2 with h | h
      · exact absurd (by rw [he]; rfl) h
      · exact h
    -- the moment since which the consumer has received nothing
    obtain ⟨x, hx1, hx2, hx3⟩ : ∃ x, t1 ≤ x ∧ x + (m + 1) * p ≤ e.time ∧
        ∀ e' ∈ pre, GotFromServer e' → e'.time ≤ x := by
      simp only [hmm] at i2
      rcases i2 with ⟨r, hr', _, hmax, hd⟩ | ⟨hno, hd⟩
      · have h3 : (m + 1 + 1) * p = (m + 1) * p + p := Nat.succ_mul (m + 1) p
        exact ⟨r.time, ((past hf1).2 r hr').2, by omega, fun e' he' hg => hmax e' he' (got_client hg)⟩
      · exact ⟨t1, Nat.le_refl _, by omega, fun e' he' hg => absurd (got_client hg) (hno e' he')⟩
    -- the server sends something after it
    obtain ⟨t, f, hsent, ht1, ht2⟩ : ∃ t f, (t, f) ∈ allSends (server m) p (serverSends p (server m))
        (start (server m) t0) ss ∧ x < t ∧ t ≤ x + window + δ := by
      rcases hpause x hx1 (by omega) with ⟨⟨t, f⟩, hs, h1, h2⟩ | ⟨y, hy1, hy2, hy3⟩
      · exact ⟨t, f, hs, h1, by simp only at h2; omega⟩
      · have ho := hw.order
        obtain ⟨a, k, b, hab, hk, hk1, hk2⟩ := tick_in_silence (server_laws m) hw.server_fits hw.server_prompt
          (server_running.2 hserver) (y := y) (by omega) (by omega) (by
            intro e' he' hke hlt
            have := hy3 e' he' (server_recv.1 hke)
            omega)
        have hopen' : (Heartbeat.run (server m) p t0 (a ++ [k])).inner.ended = none :=
          server_running.1 (running_prefix (server_laws m) (es' := b) (server_running.2 (by simpa [hab] using hserver)))
        have hke : k.event = .tick := by
          revert hk
          cases hh : k.event <;> simp [server, serverKind]
        have hq := hw.quick k (by rw [hab]; simp)
        exact ⟨_, _, ping_sent hab hke hopen', by omega, by omega⟩
    obtain ⟨t', hgot, h1, h2⟩ := delivered hw.to_client hsent (by omega)
    obtain ⟨c, hc, hc'⟩ := List.mem_filterMap.1 hgot
    obtain ⟨hg, hct, _⟩ := clientReceives_got hc'
    rw [List.mem_append, List.mem_singleton] at hc
    rcases hc with hc | rfl
    · have := hx3 c hc hg
      omega
    · simp [clientReceives, he] at hc'

/-- A consumer that takes 25 seconds for its first chunk, and then asks for another one. -/
def calmConsumer : List (Entry Client.Event) :=
  [⟨10, 0, .tick⟩, ⟨10, 0, .ping⟩, ⟨20, 0, .call 1 .oldest⟩, ⟨20, 0, .send 0 true⟩,
   ⟨40, 0, .sync 0 (some [⟨1, 0⟩]) fun _ => true⟩,
   ⟨10040, 0, .tick⟩, ⟨10041, 0, .ping⟩, ⟨20041, 0, .tick⟩, ⟨20062, 0, .ping⟩,
   ⟨25000, 0, .complete ⟨1, 0⟩ none true⟩, ⟨25000, 0, .call 1 .oldest⟩, ⟨25000, 0, .send 1 true⟩,
   ⟨25020, 0, .sync 2 (some [⟨1, 1⟩]) fun _ => true⟩]

@[inherit_doc calmConsumer] def calmServer : List (Entry Conn.Event) :=
  [⟨0, 0, .tick⟩, ⟨20, 0, .recvPong⟩,
   ⟨30, 0, .recv (.wantToReserve ⟨0, 1, .oldest⟩) (.chunks [⟨1, 0⟩]) true⟩,
   ⟨10031, 0, .tick⟩, ⟨10051, 0, .recvPong⟩, ⟨20052, 0, .tick⟩, ⟨20072, 0, .recvPong⟩,
   ⟨25010, 0, .recv (.completeChunk 1 ⟨1, 0⟩ none) (.chunks []) true⟩,
   ⟨25010, 0, .recv (.wantToReserve ⟨2, 1, .oldest⟩) (.chunks [⟨1, 1⟩]) true⟩,
   ⟨35010, 0, .tick⟩]

/-- What `C88_consumer_keeps_server_partial` and `C88_server_keeps_consumer` ask for is met. -/
example : Working 10000 3 1 10 0 10 35020 calmServer (calmConsumer ++ [⟨35020, 0, .tick⟩]) ∧
    (Heartbeat.run (server 3) 10000 0 calmServer).inner.ended = none ∧
    (Heartbeat.run (client 3) 10000 10 calmConsumer).inner.background = .running where
  left :=
    { order := by decide
      quick := by decide +kernel
      server_fits := fits_of _ _ _ _ (by decide +kernel)
      client_fits := fits_of _ _ _ _ (by decide +kernel)
      server_prompt := prompt_of _ _ _ _ _ _ (by decide +kernel)
      client_prompt := prompt_of _ _ _ _ _ _ (by decide +kernel)
      to_client := delivers_of _ _ _ _ (by decide +kernel)
      to_server := delivers_of _ _ _ _ (by decide +kernel) }
  right := ⟨by decide +kernel, by decide +kernel⟩

example : ∀ x, 10 ≤ x → x + 10100 < 35020 →
    ∃ frame ∈ allSends (server 3) 10000 (serverSends 10000 (server 3)) (start (server 3) 0) calmServer,
      x < frame.1 ∧ frame.1 ≤ x + 10100 := by
  intro x _ hx
  by_cases h1 : x < 30
  · exact ⟨(30, .sync 0 (some [⟨1, 0⟩])), by decide +kernel, by simp only; omega, by simp only; omega⟩
  by_cases h2 : x < 10031
  · exact ⟨(10031, .ping), by decide +kernel, by simp only; omega, by simp only; omega⟩
  by_cases h2 : x < 20052
  · exact ⟨(20052, .ping), by decide +kernel, by simp only; omega, by simp only; omega⟩
  · exact ⟨(25010, .sync 2 (some [⟨1, 1⟩])), by decide +kernel, by simp only; omega, by simp only; omega⟩

end Opsqueue
