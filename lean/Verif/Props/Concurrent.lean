import Verif.Proofs.ConcurrentReads
import Verif.Props.Conservation

/-!
# C79: calls made at the same time act as if they were made one after the other
-/

namespace Opsqueue.Concurrent
open SubmissionDb

/-- **C79, the calls.** Each call of the model has code: a sequence of statements that, run without interruption, does the
same as the call, whatever faults strike. -/
theorem C79_every_call_has_code (op : Op) : ∃ code, Runs code op := ⟨codeOf op, runs_codeOf op⟩

/-- **C79.** Tasks run calls, statement by statement, while others call, wait, read, give up, are dropped, or the process dies
and is started again. At every moment what readers see is the outcome of a history of the calls that got the connection,
one after the other, in the order in which they got it; calls that were dropped or killed, or are still running, appear
there as killed at some statement. And each call that has returned has returned what it returns at its place in this
history. Its faults there are failing statements, and there are none if none of the statements failed. -/
theorem C79_serial (op : Nat → Op) (code : Nat → Code Out) (hc : ∀ i, Runs (code i) (op i)) (es : List Event) (s : State)
    (h : run code {} es = some s) :
    ∃ hist : List (Nat × List Fault),
      hist.map (·.1) = acquired es ∧
      s.seen = Opsqueue.run (calls op hist) ∧
      ∀ i r, (i, r) ∈ s.returned → ∃ pre o post, hist = pre ++ (i, o) :: post ∧
        (Opsqueue.step (Opsqueue.run (calls op pre)) (withFaults o (op i))).1 = r ∧
        (∀ f ∈ o, f = .ok ∨ f = .fail ∧ .statement true ∈ es) := by
  obtain ⟨past, act, hg⟩ := good_run hc es s h
  have ret : ∀ more i r, (i, r) ∈ s.returned → ∃ pre o post, past ++ more = pre ++ (i, o) :: post ∧
      (Opsqueue.step (Opsqueue.run (calls op pre)) (withFaults o (op i))).1 = r ∧
      (∀ f ∈ o, f = .ok ∨ f = .fail ∧ .statement true ∈ es) := by
    intro more i r hr
    obtain ⟨pre, o, post, h1, h2, h3⟩ := hg.returned i r hr
    exact ⟨pre, o, post ++ more, by rw [h1]; simp, h3, h2⟩
  cases ha : s.active with
  | none =>
    obtain ⟨-, h1, h2⟩ := hg.idle ha
    refine ⟨past, h1.symm, ?_, by simpa using ret []⟩
    rw [State.seen, ha]
    exact h2
  | some a =>
    obtain ⟨fs, -, h1, h2, h3⟩ := hg.busy a ha
    refine ⟨past ++ [(a.task, fs ++ [.crash])], by rw [h1]; simp, ?_, ret _⟩
    rw [State.seen, ha, run_calls_snoc, killed (hc a.task), h3]
    exact (exec_crash _ _).symm

/-- **C79, order.** The order of the history is that of the clock: no call occurs twice, calls return in this order, and a call
that has returned before another one was made comes before it. -/
theorem C79_real_time (code : Nat → Code Out) (es more : List Event) (s s' : State) (h : run code {} es = some s)
    (h' : run code {} (es ++ more) = some s') :
    (acquired (es ++ more)).Nodup ∧
    (s'.returned.map (·.1)).Sublist (acquired (es ++ more)) ∧
    ∀ i r j, (i, r) ∈ s.returned → .call j ∈ more → j ∈ acquired (es ++ more) →
      ∃ before between after, acquired (es ++ more) = before ++ i :: between ++ j :: after := by
  have ho := ordered_run es s h
  have ho' := ordered_run (es ++ more) s' h'
  refine ⟨ho'.nodup, ho'.returned, fun i r j hi hj hq => ?_⟩
  have e : acquired (es ++ more) = acquired es ++ acquired more := by simp [acquired]
  have hia : i ∈ acquired es := ho.returned.subset (List.mem_map_of_mem hi)
  have hnot : j ∉ s.called := by
    obtain ⟨m1, m2, hm⟩ := List.append_of_mem hj
    intro hjc
    have hrun : run code {} (es ++ m1 ++ .call j :: m2) = some s' := by rw [List.append_assoc, ← hm]; exact h'
    rw [run_append] at hrun
    cases h1 : run code {} (es ++ m1) with
    | none => rw [h1] at hrun; cases hrun
    | some s1 =>
      rw [h1] at hrun
      have hc1 : j ∈ s1.called := by
        clear hrun hm
        rw [run_append, h] at h1
        simp only [Option.bind_some] at h1
        revert h1 hjc
        generalize s = s0
        intro hjc
        induction m1 generalizing s0 with
        | nil => intro h; simp only [run, Option.some.injEq] at h; exact h ▸ hjc
        | cons e m1 ih =>
          intro h
          simp only [run] at h
          cases he : step code s0 e with
          | none => rw [he] at h; cases h
          | some s2 =>
            rw [he] at h
            refine ih s2 ?_ h
            exact called_step he j hjc
      simp only [Option.bind_some, run, step, hc1, if_true, Option.bind_none] at hrun
      cases hrun
  have hja : j ∈ acquired more := by
    rw [e] at hq
    rcases List.mem_append.mp hq with hq | hq
    · exact absurd (ho.acquired j hq) hnot
    · exact hq
  obtain ⟨a1, a2, ha⟩ := List.append_of_mem hia
  obtain ⟨b1, b2, hb⟩ := List.append_of_mem hja
  exact ⟨a1, a2 ++ b1, b2, by rw [e, ha, hb]; simp⟩

/-- **C79, what was proved of histories holds of concurrent executions.** Whatever is true after every history of calls with
fresh ids is true of what readers see at every moment. -/
theorem C79_seen (op : Nat → Op) (code : Nat → Code Out) (hc : ∀ i, Runs (code i) (op i)) (es : List Event) (s : State)
    (h : run code {} es = some s) (hf : ((acquired es).filterMap fun i => (op i).insertId).Nodup)
    (P : DB → Prop) (hP : ∀ ops, FreshIds ops → P (Opsqueue.run ops)) : P s.seen := by
  obtain ⟨hist, h1, h2, -⟩ := C79_serial op code hc es s h
  rw [h2]
  refine hP _ ?_
  rw [← h1] at hf
  exact fresh_calls hf

/-- **C79, status calls.** A status call reads several tables, each when its turn comes, while all this goes on: after the
events `e1` the submissions, after `e2` the completed ones, after `e3` the failed ones, after `e4` the failed chunk or
the cancelled ones. If it returns an answer (a status, or none), then at one of these moments an undisturbed
status call returns exactly this. (C14 says so for reads between whole calls; here they may come between the two
transactions of a call.) -/
theorem C79_status (op : Nat → Op) (code : Nat → Code Out) (hc : ∀ i, Runs (code i) (op i)) (e1 e2 e3 e4 : List Event)
    (s1 s2 s3 s4 : State) (h1 : run code {} e1 = some s1) (h2 : run code s1 e2 = some s2)
    (h3 : run code s2 e3 = some s3) (h4 : run code s3 e4 = some s4)
    (hf : ((acquired (e1 ++ e2 ++ e3 ++ e4)).filterMap fun i => (op i).insertId).Nodup) (id : SubmissionId)
    (r : Option SubmissionStatus) (h : statusReads id s1.seen s2.seen s3.seen s4.seen s4.seen = .ok r) :
    statusAt s1.seen id = .ok r ∨ statusAt s2.seen id = .ok r ∨
    statusAt s3.seen id = .ok r ∨ statusAt s4.seen id = .ok r := by
  obtain ⟨p1, a1, g1⟩ := good_run hc e1 s1 h1
  obtain ⟨m1, -, w1⟩ := was_now hc g1 (d := Opsqueue.run []) (m := 0) (.inl ⟨Nat.zero_le _, rfl⟩)
  obtain ⟨p2, a2, g2, k2⟩ := was_run hc e2 g1 h2
  obtain ⟨m2, l2, w2⟩ := was_now hc g2 (k2 _ _ w1)
  obtain ⟨p3, a3, g3, k3⟩ := was_run hc e3 g2 h3
  obtain ⟨m3, l3, w3⟩ := was_now hc g3 (k3 _ _ w2)
  obtain ⟨p4, a4, g4, k4⟩ := was_run hc e4 g3 h4
  obtain ⟨m4, l4, w4⟩ := was_now hc g4 (k4 _ _ w3)
  have hfr : FreshIds (calls op (upToNow p4 a4)) := fresh_calls (by rw [g4.acquired]; exact hf)
  exact status_almost hfr l2 l3 l4 (k4 _ _ (k3 _ _ (k2 _ _ w1))).almost (k4 _ _ (k3 _ _ w2)).almost
    (k4 _ _ w3).almost w4.almost h

/-- **C79, nobody keeps the connection.** However its statements fail or succeed, a task that has the connection comes to
its end after finitely many of them, and gives the connection back. -/
theorem C79_given_back (code : Nat → Code Out) (s : State) (a : Active) (ha : s.active = some a) (fails : Nat → Bool) :
    ∃ n s' r, run code s ((List.range n).map (fun k => .statement (fails k)) ++ [.return]) = some s' ∧
      s'.active = none ∧ s'.returned = s.returned ++ [(a.task, r)] := by
  obtain ⟨n, r, c', tr, h0, hn, hs⟩ := finishes a.code fails a.conn
  refine ⟨n, { s with db := c'.committed, active := none, returned := s.returned ++ [(a.task, r)] }, r, ?_, rfl, rfl⟩
  have mid : ∀ m ≤ n, run code s ((List.range m).map (fun k => .statement (fails k))) =
      some { s with active := some ⟨a.task, (tr m).1, (tr m).2⟩ } := by
    intro m
    induction m with
    | zero =>
      intro _
      rw [h0]
      simp only [List.range_zero, List.map_nil, run]
      rw [← ha]
    | succ m ih =>
      intro hm
      rw [List.range_succ, List.map_append, run_append, ih (by omega)]
      simp only [List.map_cons, List.map_nil, Option.bind_some, run, step, hs m (by omega)]
  rw [run_append, mid n (Nat.le_refl n), hn]
  rfl

/-! ## A concrete run -/

/-- An empty submission, one with a chunk, and a cancellation of it. -/
def exampleOps : Nat → Op
  | 0 => .insert { id := 7, contents := [] } 10 []
  | 1 => .insert { id := 8, contents := [some [1]] } 11 []
  | _ => .cancel 8 12 13 []

/-- Call 1 gets the connection first, though it was made last; call 2 fails at its first statement; call 0 is seen between its
two transactions. -/
def exampleEvents : List Event :=
  [.call 0, .call 1, .acquire 1, .statement false, .statement false, .call 2, .statement false, .statement false, .return,
   .acquire 2, .statement false, .statement true, .statement false, .return,
   .acquire 0, .statement false, .statement false, .statement false]

example : ∀ i, Runs (codeOf (exampleOps i)) (exampleOps i) := fun i => runs_codeOf _

example : (run (fun i => codeOf (exampleOps i)) {} exampleEvents).map (fun s => (s.returned, s.active.isSome)) =
    some ([(1, .inserted (.ok 8)), (2, .cancelled (.err (.err (.L .io))))], true) ∧
    (run (fun i => codeOf (exampleOps i)) {} exampleEvents).map (fun s => s.seen.submissions.map (·.id)) = some [8, 7] ∧
    acquired exampleEvents = [1, 2, 0] := by
  decide +kernel

/-- A status call that begins before call 0 and ends in its middle. -/
example : (run (fun i => codeOf (exampleOps i)) {} (exampleEvents.take 14)).map (fun s => s.seen.submissions.map (·.id)) =
      some [8] ∧
    ((run (fun i => codeOf (exampleOps i)) {} (exampleEvents.take 14)).bind fun s1 =>
      (run (fun i => codeOf (exampleOps i)) s1 (exampleEvents.drop 14)).map fun s4 =>
        decide (statusReads 7 s1.seen s1.seen s1.seen s4.seen s4.seen = .ok none ∧
          statusAt s4.seen 7 ≠ .ok none)) = some true := by
  decide +kernel

end Opsqueue.Concurrent
