import Verif.Proofs.Reports
import Verif.Props.Calls

/-!
# C55: the order of reports

The server is in the state after an arbitrary history `h` of actions of any number of consumers and
producers, the completer and the clock. `(run … h).calls` are the database calls made so far.
-/

namespace Opsqueue
open Server
open Conn (Request Report)

/-- **C55, in order and at most once.** The reports that were carried out on the database are, in the
same order, some of those that arrived, each at most as often as it arrived. -/
theorem C55_in_order (ttl m : Nat) (h : List Action) :
    List.Sublist ((Server.run ttl m h).calls.filterMap Op.report?)
      ((acceptedFrom (init ttl m) h).map (·.2)) := by
  have h1 := reports_exec (init ttl m) h
  have h2 : List.Sublist ((Server.run ttl m h).calls.filterMap Op.report?) (Server.run ttl m h).reports :=
    List.sublist_append_left _ _
  exact h2.trans h1

/-- **C55, none lost.** If the server never crashed and the completer always got a database connection,
the reports carried out, followed by those in the mailbox, are exactly those that arrived. -/
theorem C55_none_lost (ttl m : Nat) (h : List Action) (hw : ∀ a ∈ h, a.noWriter = false)
    (hc : NeverCrashed (Server.run ttl m h).calls) :
    (acceptedFrom (init ttl m) h).map (·.2) =
      (Server.run ttl m h).calls.filterMap Op.report? ++ (Server.run ttl m h).queue.map (·.2) := by
  have := reports_exec_eq (init ttl m) h hw rfl hc
  exact this.symm

/-- Both consumers report several times, and twice on the same chunk; the server is still at work. -/
def reportHistory : List Action :=
  [.connect 1, .connect 2, .producer (.insert { id := 1, contents := [none, none, none] } 0 []), .notify,
   .request 1 ⟨0, 2, .oldest⟩ ⟨0, fun _ => false, fun _ => []⟩, .report 1 (.fail ⟨1, 2⟩ "busy"),
   .row 1, .join 1, .row 1, .join 1,
   .request 2 ⟨0, 2, .oldest⟩ ⟨0, fun _ => false, fun _ => []⟩, .row 2, .row 2, .row 2, .join 2, .row 2,
   .report 1 (.complete ⟨1, 0⟩ (some [1])), .report 2 (.fail ⟨1, 2⟩ "x"),
   .handle true 5 5 5 [], .report 1 (.fail ⟨1, 0⟩ "expired"), .handle true 6 6 6 [],
   .release true, .handle true 6 6 6 [], .release true, .report 2 (.fail ⟨1, 2⟩ "x"),
   .report 1 (.complete ⟨1, 1⟩ none), .handle true 7 7 7 [], .release true, .handle true 8 8 8 []]

example : (∀ a ∈ reportHistory, a.noWriter = false) ∧
    (acceptedFrom (init 1000 5) reportHistory).map (·.2) =
      [.complete ⟨1, 0⟩ (some [1]), .fail ⟨1, 2⟩ "x", .fail ⟨1, 0⟩ "expired", .fail ⟨1, 2⟩ "x",
       .complete ⟨1, 1⟩ none] ∧
    (Server.run 1000 5 reportHistory).queue = [(1, .complete ⟨1, 1⟩ none)] := by
  decide +kernel

/-- `reportHistory` is free of crashes. -/
example : NeverCrashed (Server.run 1000 5 reportHistory).calls := by
  have key : ∀ n < (Server.run 1000 5 reportHistory).calls.length, ∀ op,
      (Server.run 1000 5 reportHistory).calls[n]? = some op →
      (Opsqueue.step (Opsqueue.run ((Server.run 1000 5 reportHistory).calls.take n)) op).1.crashed = false := by
    have : ∀ n < (Server.run 1000 5 reportHistory).calls.length,
        ((Server.run 1000 5 reportHistory).calls[n]?).all (fun op =>
          !(Opsqueue.step (Opsqueue.run ((Server.run 1000 5 reportHistory).calls.take n)) op).1.crashed) := by
      decide +kernel
    intro n hn op hop
    have := this n hn
    rw [hop] at this
    simpa using this
  intro pre op post h
  have := key pre.length (by rw [h]; simp) op (by rw [h]; simp)
  rw [h] at this
  simpa using this

/-- **C55, late reports are harmless.** When the completer gets round to a report on a chunk that has
been completed already, be it a give-back after expiry or another completion, the database stays as it
is, whatever faults occur. -/
theorem C55_late_report_harmless (ttl m : Nat) (h : List Action) (c : ConnId) (r : Report)
    (rest : List (ConnId × Report)) (hq : (Server.run ttl m h).queue = (c, r) :: rest)
    (hf : FreshIds (Server.run ttl m h).calls) (hdone : CompletedIn (Server.run ttl m h).calls r.id)
    (w : Bool) (n1 n2 n3 : Time) (o : List Fault) :
    (Server.run ttl m (h ++ [.handle w n1 n2 n3 o])).db = (Server.run ttl m h).db := by
  have e1 : Server.run ttl m (h ++ [.handle w n1 n2 n3 o]) =
      Server.step (Server.run ttl m h) (.handle w n1 n2 n3 o) := exec_snoc _ _ _
  rw [e1]
  have hdb := db_run ttl m h
  have hn := hdone.not_key hf
  have hop : ∀ op, op.report? = some r → (Opsqueue.step (Server.run ttl m h).db op).2 =
      (Server.run ttl m h).db := by
    intro op hr
    have hi : op.insertId = none := by cases op <;> first | rfl | cases hr
    have he := effect_run (hf.add (op := op) hi)
    rw [run_snoc, ← hdb] at he
    rw [← hdb] at hn
    generalize (Opsqueue.step (Server.run ttl m h).db op).2 = db' at he
    generalize (Server.run ttl m h).db = db at he hn
    cases he with
    | none => rfl
    | complete ch s out t1 t2 o hc hs hid hl => cases hr; exact absurd (keys_of_mem hc) hn
    | completeLast ch s out t1 t2 o hc hs hid hl => cases hr; exact absurd (keys_of_mem hc) hn
    | retry ch failure m t1 t2 t3 o hc hrr => cases hr; exact absurd (keys_of_mem hc) hn
    | fail ch s failure m t1 t2 t3 o hc hs hid hrr => cases hr; exact absurd (keys_of_mem hc) hn
    | insert | insertEmpty | cancel | cleanup => cases hr
  generalize Server.run ttl m h = s at *
  simp only [Server.step]
  rcases handle_cases s w n1 n2 n3 o with h | ⟨c', r', queue, hcomp, hq', h⟩
  · rw [h]
  · rw [hq] at hq'
    cases hq'
    rcases h with ⟨hw, h⟩ | ⟨hw, h1, h2⟩
    · rw [h]
    · obtain ⟨g1, g2, g3, g4, g5⟩ := dbCall_spec { s with queue := rest } (reportOp s.maxRetries n1 n2 n3 o r)
      have := hop _ (report?_reportOp s.maxRetries n1 n2 n3 o r)
      cases hc : (dbCall { s with queue := rest } (reportOp s.maxRetries n1 n2 n3 o r)).1.crashed with
      | true => rw [h1 hc, g2]; exact this
      | false => rw [h2 hc]; show (dbCall _ _).2.db = _; rw [g2]; exact this

/-- In `reportHistory`, after the completer's first two messages, the give-back of chunk 0 is next. -/
example :
    let s := Server.run 1000 5 (reportHistory.take 23)
    s.queue = [(1, .fail ⟨1, 0⟩ "expired")] ∧ FreshIds s.calls ∧
    backlogCount (Opsqueue.run (s.calls.take 1)) ⟨1, 0⟩ = 1 ∧
    s.calls[1]?.map (Op.completes ⟨1, 0⟩) = some true ∧
    backlogCount (Opsqueue.run (s.calls.take 2)) ⟨1, 0⟩ = 0 ∧ s.db.chunks.length = 2 := by
  decide +kernel

end Opsqueue
