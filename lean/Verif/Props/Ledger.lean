import Verif.Proofs.Ledger
import Verif.Props.Calls

/-!
# C34: the in-flight counts

The server is in the state after a history `h` of actions of any number of consumers and producers, the
completer and the clock.
-/

namespace Opsqueue
open Server
open Conn (Request Report)

/-- Full statement of C34: at any time at which nothing is half done (no chunk is just being reserved,
no report is being dealt with and no delayed removal is outstanding), the in-flight count of a metadata
value is the number of reserved chunks whose submission has that value. -/
def C34_full : Prop :=
  ∀ (ttl m : Nat) (h : List Action) (key : String) (v : Int),
    let s := Server.run ttl m h
    0 < ttl → FreshIds s.calls → (∀ c, fetchOf s c = none) → s.completing = none →
    s.reserver.pending = [] →
    CountIs (fun id => s.reserver.isReserved id = true ∧ HasValue s key v id) (inFlight s key v)

/-- A consumer is sent a chunk and disconnects. -/
def leakHistory : List Action :=
  [.connect 1,
   .producer (.insert { id := 1, contents := [none, none], strategic := [("customer", 7)] } 0 []), .notify,
   .request 1 ⟨0, 1, .oldest⟩ ⟨0, fun _ => false, fun _ => []⟩, .row 1, .join 1, .disconnect 1]

/-- **C34, refuted.** Giving chunks back at the end of a connection does not decrease the counts: here the
count is 1, although nothing is reserved. -/
theorem C34_refuted_by_disconnect : ¬ C34_full := by
  intro h
  have key := h 1000 3 leakHistory "customer" 7 (by decide) (by decide +kernel) ?_ (by decide +kernel)
    (by decide +kernel)
  · have hc : inFlight (Server.run 1000 3 leakHistory) "customer" 7 = 1 := by decide +kernel
    have hn : (Server.run 1000 3 leakHistory).reserver.cache = [] := by decide +kernel
    rw [hc] at key
    obtain ⟨l, _, h1, h2⟩ := key
    cases l with
    | nil => cases h2
    | cons id l =>
      obtain ⟨h3, _⟩ := (h1 id).1 List.mem_cons_self
      unfold Reserver.isReserved Reserver.lookup at h3
      rw [hn] at h3
      cases h3
  · intro c
    have hk : (Server.run 1000 3 leakHistory).conns = [(1, { live := false, answers := [(0, some [⟨1, 0⟩])] })] := by
      decide +kernel
    unfold fetchOf State.conn
    rw [hk]
    simp only [Map.get, List.find?_cons, List.find?_nil]
    split <;> rfl

/-- **C34, in the orderly course of events.** In a history all of whose actions are `Orderly`, including any
number of crashes of the server, the in-flight count of a metadata value is always the number of chunks in
the hands of consumers whose submission has that value. (Missing: connections that end while holding
chunks, expired reservations, requests failing half-way, reports on chunks the reporter does not hold,
failing metadata queries and cleanup, after which the counts may differ from the chunks in hand.) -/
theorem C34_orderly_partial (ttl m : Nat) (h : List Action) (ht : 0 < ttl)
    (hf : FreshIds (Server.run ttl m h).calls) (ho : OrderlyFrom (init ttl m) h) (key : String) (v : Int) :
    let s := Server.run ttl m h
    CountIs (fun id => InHand s id ∧ HasValue s key v id) (inFlight s key v) := by
  intro s
  have hc : Calm s := calm_exec (calm_init ttl m) ht rfl h ho hf
  have hd : DeadIdle s := deadIdle_exec (fun c k hk => by cases hk) h
  obtain ⟨out, o1, o2, o3⟩ := hc.ledger
  refine ⟨out.filter fun id => decide ((key, v) ∈ Stmt.strategicOf id.submissionId s.db),
    o1.sublist List.filter_sublist, ?_, (o3 key v).symm⟩
  intro id
  show _ ↔ InHand s id ∧ HasValue s key v id
  rw [List.mem_filter, o2, inHand_iff hc hd]
  refine and_congr_right fun _ => ?_
  unfold HasValue
  rw [strategicAt_eq]
  constructor
  · intro hh; exact ⟨_, rfl, of_decide_eq_true hh⟩
  · rintro ⟨md, h1, h2⟩; cases h1; exact decide_eq_true h2

/-- In an orderly history, whenever nothing is half done, the count is the number of reserved chunks, as
in `C34_full`. -/
theorem C34_orderly_quiet_partial (ttl m : Nat) (h : List Action) (ht : 0 < ttl)
    (hf : FreshIds (Server.run ttl m h).calls) (ho : OrderlyFrom (init ttl m) h)
    (hq : ∀ c, fetchOf (Server.run ttl m h) c = none)
    (hp : (Server.run ttl m h).reserver.pending = []) (key : String) (v : Int) :
    let s := Server.run ttl m h
    CountIs (fun id => s.reserver.isReserved id = true ∧ HasValue s key v id) (inFlight s key v) := by
  intro s
  obtain ⟨l, h1, h2, h3⟩ := C34_orderly_partial ttl m h ht hf ho key v
  refine ⟨l, h1, ?_, h3⟩
  intro id
  rw [h2]
  refine and_congr_left fun _ => ?_
  constructor
  · exact fun hh => hh.1
  · refine fun hh => ⟨hh, ?_, ?_⟩
    · intro c f hcf; rw [hq] at hcf; cases hcf
    · rw [hp]; exact List.not_mem_nil

/-- Two consumers take chunks of submissions of different customers; one is completed, one fails and is
given back, one consumer leaves after reporting everything. -/
def orderlyHistory : List Action :=
  [.connect 1, .connect 2,
   .producer (.insert { id := 1, contents := [none, none], strategic := [("customer", 7)] } 0 []), .notify,
   .producer (.insert { id := 2, contents := [none, none], strategic := [("customer", 7), ("kind", 0)] } 0 []),
   .notify,
   .request 1 ⟨0, 3, .oldest⟩ ⟨0, fun _ => false, fun _ => []⟩, .row 1, .join 1, .row 1, .join 1, .row 1, .join 1,
   .request 2 ⟨0, 1, .newest⟩ ⟨0, fun _ => false, fun _ => []⟩, .row 2, .row 2, .join 2,
   .report 1 (.complete ⟨1, 0⟩ none), .handle true 5 5 5 [], .release true, .tick (.advance 100),
   .report 2 (.fail ⟨2, 1⟩ "x"), .handle true 6 6 6 [], .release true, .disconnect 2]

example : OrderlyFrom (init 5000 3) orderlyHistory := orderlyFrom_of_test (by decide +kernel)

example :
    let s := Server.run 5000 3 orderlyHistory
    FreshIds s.calls ∧ inFlight s "customer" 7 = 2 ∧ inFlight s "kind" 0 = 1 ∧
    holder s ⟨1, 1⟩ = some 1 ∧ holder s ⟨2, 0⟩ = some 1 ∧ holder s ⟨2, 1⟩ = none ∧
    s.reserver.pending.map (·.1) = [⟨1, 0⟩] := by
  decide +kernel

end Opsqueue
