import Verif.Proofs.ConsumerGauges

/-!
# C96: the metrics about consumers and reservations

The state is the one after an arbitrary history `h` of connections, panics, requests, reports, producer calls, crashes and time.
-/

namespace Opsqueue
open ConsumerGauges

/-- Full statement of C96: the gauge of consumers is the number of open connections. -/
def C96_full : Prop :=
  ∀ (ttl m : Nat) (h : List Action), ∃ n, CountIs (Open (ConsumerGauges.run ttl m h)) n ∧ (ConsumerGauges.run ttl m h).consumers = n

/-- A submission is cancelled between the query of its chunk and that of the submission itself. -/
def examplePanic : List Action :=
  [.server (.producer (.insert { id := 5, contents := [some [1]] } 0 [])), .server (.connect 1),
   .server (.request 1 ⟨0, 1, .oldest⟩ ⟨0, fun _ => false, fun _ => []⟩), .server (.row 1),
   .server (.producer (.cancel 5 1 1 [])), .server (.join 1)]

/-- **C96, refuted**: after a panic the gauge is too high, here with nobody connected. -/
theorem C96_refuted_by_panic : ¬ C96_full := by
  intro h
  obtain ⟨n, ⟨l, _, h3, h2⟩, h4⟩ := h 1000 3 examplePanic
  have e : (ConsumerGauges.run 1000 3 examplePanic).consumers = 1 := by decide +kernel
  have hc : (ConsumerGauges.run 1000 3 examplePanic).server.conns.map (fun p => (p.1, p.2.live)) = [(1, false)] := by decide +kernel
  have hl : l = [] := by
    rw [List.eq_nil_iff_forall_not_mem]
    intro c hc'
    refine not_open_of_dead (fun p hp => ?_) c ((h3 c).1 hc')
    have := List.mem_map_of_mem (f := fun p : Server.ConnId × Server.ConnState => (p.1, p.2.live)) hp
    rw [hc] at this
    simp at this
    exact this.2
  rw [hl] at h2
  rw [← h2] at h4
  rw [e] at h4
  cases h4

/-- **C96, partial**: the gauge of consumers is the number of open connections and of panics since the process was started. So it
is never too low, and right if no task of a connection has panicked. Missing: panics are not counted. -/
theorem C96_consumers_partial (ttl m : Nat) (h : List Action) :
    ∃ n, CountIs (Open (ConsumerGauges.run ttl m h)) n ∧ (ConsumerGauges.run ttl m h).consumers = n + panicked ttl m h :=
  consumers_run ttl m h

/-- **C96**: the gauge of reserved chunks is the number of chunks that were reserved at the last pass of the maintenance, as long as
the process lives. -/
theorem C96_reserved (ttl m : Nat) (h h2 : List Action) (hp : ∀ a ∈ h2, a ≠ pass)
    (hd : ∀ p a q, h2 = p ++ a :: q → ¬ Dies (ConsumerGauges.run ttl m (h ++ pass :: p)) a) :
    ∃ n, CountIs (Reserved (ConsumerGauges.run ttl m (h ++ [pass]))) n ∧
      (ConsumerGauges.run ttl m (h ++ pass :: h2)).reserved = some n :=
  reserved_run ttl m h h2 hp hd

/-- **C96**: after the start of a process there is no number (`none`) until the first pass. -/
theorem C96_reserved_unknown (ttl m : Nat) (h h2 : List Action) (a : Action) (hd : Dies (ConsumerGauges.run ttl m h) a)
    (hp : ∀ b ∈ h2, b ≠ pass) : (ConsumerGauges.run ttl m (h ++ a :: h2)).reserved = none :=
  reserved_run_dead ttl m h a h2 hd hp

/-- **C96, refuted for "being worked on by the consumers"**: a chunk whose completion has been recorded counts, also when no
consumer is connected and the backlog is empty. -/
theorem C96_refuted_for_work : ∃ h : List Action,
    let s := ConsumerGauges.run 1000000 3 h
    s.reserved = some 1 ∧ s.consumers = 0 ∧ s.server.db.chunks = [] ∧ ∀ c, ¬ Open s c := by
  refine ⟨[.server (.producer (.insert { id := 5, contents := [some [1]] } 0 [])), .server (.connect 1),
   .server (.request 1 ⟨0, 1, .oldest⟩ ⟨0, fun _ => false, fun _ => []⟩), .server (.row 1), .server (.join 1),
   .server (.report 1 (.complete ⟨5, 0⟩ none)), .server (.handle true 1 1 1 []), .server (.release true),
   .server (.disconnect 1), pass], by decide +kernel, by decide +kernel, by decide +kernel, ?_⟩
  refine not_open_of_dead ?_
  decide +kernel

/-- **C96**: the counter of successful reservations counts each chunk that becomes reserved, one in a step, and nothing else. -/
theorem C96_succeeded (ttl m : Nat) (ht : 0 < ttl) (h : List Action) (a : Action) (hd : ¬ Dies (ConsumerGauges.run ttl m h) a) :
    let s := ConsumerGauges.run ttl m h
    let s' := ConsumerGauges.run ttl m (h ++ [a])
    (s'.succeeded = s.succeeded + 1 ∧
      ∃ id, ¬ Reserved s id ∧ Reserved s' id ∧ ∀ id', id' ≠ id → Reserved s' id' → Reserved s id') ∨
    (s'.succeeded = s.succeeded ∧ ∀ id, Reserved s' id → Reserved s id) :=
  succeeded_step ttl m ht h a hd

/-- **C96**: at no time are more chunks reserved than the counter of successful reservations says. -/
theorem C96_reserved_le (ttl m : Nat) (h : List Action) (n : Nat) (hn : CountIs (Reserved (ConsumerGauges.run ttl m h)) n) :
    n ≤ (ConsumerGauges.run ttl m h).succeeded :=
  reserved_le ttl m h n hn

/-- **C96**: the counter of failed reservations counts the chunks that the query offered although they were reserved: in such a
step nothing becomes reserved, and the chunk is not sent. -/
theorem C96_failed (ttl m : Nat) (h : List Action) (a : Action) (hd : ¬ Dies (ConsumerGauges.run ttl m h) a) :
    let s := ConsumerGauges.run ttl m h
    let s' := ConsumerGauges.run ttl m (h ++ [a])
    s'.failed = s.failed ∨ (s'.failed = s.failed + 1 ∧ s'.server.reserver = s.server.reserver ∧
      ∃ c f row rest, a = .server (.row c) ∧ Server.fetchOf s.server c = some f ∧ f.rows = row :: rest ∧ Reserved s row.key ∧
        Server.fetchOf s'.server c = some { f with rows := rest }) :=
  failed_step ttl m h a hd

/-- Two consumers, of which the second is offered what the first has; a pass; an expiry. -/
example :
    let v : Server.View := ⟨0, fun _ => false, fun _ => []⟩
    let h : List Action :=
      [.server (.producer (.insert { id := 5, contents := [some [1], some [2]] } 0 [])), .server (.connect 1), .server (.connect 2),
       .server (.request 1 ⟨0, 1, .oldest⟩ v), .server (.request 2 ⟨0, 2, .oldest⟩ v), .server (.row 1), .server (.row 2),
       .server (.row 2), .server (.join 1), .server (.join 2)]
    let s := ConsumerGauges.run 1000 3 (h ++ [pass])
    s.consumers = 2 ∧ s.succeeded = 2 ∧ s.failed = 1 ∧ s.reserved = some 2 ∧ panicked 1000 3 h = 0 ∧
    (ConsumerGauges.run 1000 3 (h ++ [.panic 1, pass])).consumers = 2 ∧ panicked 1000 3 (h ++ [.panic 1, pass]) = 1 ∧
    (ConsumerGauges.run 1000 3 (h ++ [.server (.tick (.advance 1000)), pass])).reserved = some 0 := by decide +kernel

end Opsqueue
