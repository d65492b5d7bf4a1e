import Verif.Proofs.Leftover

/-!
# C94: what the server keeps for consumers that have gone

The state is the one after an arbitrary history `h` of connections, requests, reports, producer calls,
crashes and time, together with the steps of the tasks that were left behind.
-/

namespace Opsqueue
open Leftover

/-- Full statement of C94: once nobody is connected, the server has no task left that works for a consumer. -/
def C94_full : Prop :=
  ∀ (ttl m : Nat) (h : List Action), NobodyConnected (Leftover.run ttl m h) → tasks (Leftover.run ttl m h) = 0

/-- **C94, refuted, without a bound**: `n` consumers that come and go while nothing is inserted leave `n` tasks
behind. -/
theorem C94_refuted_without_bound (ttl m n : Nat) :
    let h := (List.range n).flatMap visit
    NobodyConnected (Leftover.run ttl m h) ∧ tasks (Leftover.run ttl m h) = n ∧
      (∀ a ∈ h, a.produces = false) ∧ asked h = n := by
  exact visits ttl m n

/-- **C94, refuted**. -/
theorem C94_refuted_by_visit : ¬ C94_full := by
  intro h
  have h1 := C94_refuted_without_bound 1000 3 1
  have h2 := h 1000 3 _ h1.1
  rw [h1.2.1] at h2
  cases h2

/-- **C94, partial**: there are never more tasks than reserve requests that arrived. Missing: tasks end with
their connection. -/
theorem C94_one_task_per_request_partial (ttl m : Nat) (h : List Action) :
    tasks (Leftover.run ttl m h) ≤ asked h := tasks_le ttl m h

/-- **C94, partial**: an insert ends the tasks left behind before. After any insert's notification there are at
most as many tasks as reserve requests that were open at that moment, or whose task had not started waiting,
or that arrived since. Missing: tasks end with their connection. -/
theorem C94_insert_cleans_up_partial (ttl m : Nat) (h1 h2 : List Action)
    (hn : (Leftover.run ttl m h1).server.notifies ≠ 0) :
    tasks (Leftover.run ttl m (h1 ++ .server .notify :: h2)) ≤
      openRequests (Leftover.run ttl m h1) + (Leftover.run ttl m h1).fresh.length + asked h2 :=
  tasks_since ttl m h1 h2 hn

/-- **C94, partial**: the tasks left behind change nothing else: the server does what it does without them. -/
theorem C94_harmless (ttl m : Nat) (h : List Action) :
    (Leftover.run ttl m h).server = Server.run ttl m (serverPart h) := server_run ttl m h

/-- **C94, refuted, for how long**: whatever was left behind when nobody was connected stays, whatever happens, until the notification
of an insert or the end of the process. -/
theorem C94_refuted_until_an_insert (ttl m : Nat) (h1 h2 : List Action) (hc : NobodyConnected (Leftover.run ttl m h1))
    (hd : ∀ p b q, h2 = p ++ .server b :: q → dies (Leftover.run ttl m (h1 ++ p)).server b = false)
    (hn : .server .notify ∉ h2) : tasks (Leftover.run ttl m h1) ≤ tasks (Leftover.run ttl m (h1 ++ h2)) :=
  tasks_stay ttl m h1 h2 hc hd hn

/-- **C94**: nothing is left behind by the consumers of a process that has died. -/
theorem C94_restart_cleans_up (ttl m : Nat) (h : List Action) (a : Server.Action)
    (hd : dies (Leftover.run ttl m h).server a = true) : tasks (Leftover.run ttl m (h ++ [.server a])) = 0 :=
  tasks_dies ttl m h a hd

/-- Three visits, then an insert: the tasks are there before and gone after it. -/
example :
    let h := (List.range 3).flatMap visit ++
      [.server (.producer (.insert { id := 1, contents := [some [10]] } 0 []))]
    tasks (Leftover.run 1000 3 h) = 3 ∧ (Leftover.run 1000 3 h).server.notifies = 1 ∧
      openRequests (Leftover.run 1000 3 h) = 0 ∧
      tasks (Leftover.run 1000 3 (h ++ [.server .notify])) = 0 := by decide +kernel

/-- The task that has not started waiting at the time of the insert stays. -/
example :
    let h := [.server (.connect 1), .server (.request 1 ⟨0, 1, .oldest⟩ ⟨0, fun _ => false, fun _ => []⟩),
      .server (.row 1), .server (.disconnect 1),
      .server (.producer (.insert { id := 1, contents := [some [10]] } 0 []))]
    (Leftover.run 1000 3 h).fresh.length = 1 ∧ (Leftover.run 1000 3 h).server.notifies = 1 ∧
      tasks (Leftover.run 1000 3 (h ++ [.server .notify, .register 0])) = 1 := by decide +kernel

/-- The task that starts waiting after its connection has ended stays as well. -/
example :
    let h : List Action := [.server (.connect 1), .server (.request 1 ⟨0, 1, .oldest⟩ ⟨0, fun _ => false, fun _ => []⟩),
      .server (.row 1), .server (.disconnect 1)]
    (∀ p ∈ (Leftover.run 1000 3 h).server.conns, p.2.live = false) ∧
      tasks (Leftover.run 1000 3 h) = 1 ∧
      tasks (Leftover.run 1000 3 (h ++ [.register 0, .server (.connect 2), .server (.tick (.advance 100000)), .server (.disconnect 2)])) = 1 := by
  decide +kernel

/-- A crash of the process leaves nothing. -/
example :
    tasks (Leftover.run 1000 3 ((List.range 3).flatMap visit ++
      [.server (.producer (.insert { id := 1, contents := [some [10]] } 0 [.crash]))])) = 0 := by decide +kernel

end Opsqueue
