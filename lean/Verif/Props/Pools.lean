import Verif.Proofs.Pools

/-!
# C80: calls that wait for a connection to the database get it in turn
-/

namespace Opsqueue.Pools

/-- A server with two connections for reading: a fetch has one and asks for another, a status call has the other one and
another status call waits; an insert has the connection for writing, two cancellations wait for it. -/
def busy : Option State :=
  run 2 {} [.call 0 (.fetch [(0, true)] 0), .run 0, .grant .reader, .call 1 (.status 3), .run 1, .grant .reader,
    .call 2 (.status 3), .run 2, .run 0,
    .call 3 (.insert 9), .run 3, .grant .writer, .call 4 (.cancel 2), .run 4, .call 5 (.cancel 2), .run 5]

/-- **C80, in turn.** A task that asked for a connection of a pool after another one that is still waiting does not get one
before it. -/
theorem C80_in_turn (max : Nat) (s s' : State) (es : List Event) (p : Pool) (i j : Nat) (hr : Reachable max s)
    (hj : j ∉ s.waiting p) (hw : waitsDuring max p i s es) (hes : run max s es = some s') :
    s'.taken.count (j, p) ≤ s.taken.count (j, p) :=
  turn_run es s s' hr.inv hes hw fun hm => hj ((List.takeWhile_sublist _).subset hm)

/-- Task 4 waits, task 6 comes later and asks. -/
example : ∃ s s', Reachable 2 s ∧ 6 ∉ s.waiting .writer ∧
    waitsDuring 2 .writer 4 s [.call 6 (.insert 1), .run 6, .run 3] ∧
    run 2 s [.call 6 (.insert 1), .run 6, .run 3] = some s' ∧ s'.waiting .writer = [4, 5, 6] := by
  refine ⟨busy.get (by decide +kernel), _, ⟨_, (Option.some_get _).symm⟩, by decide +kernel, ?_, rfl, rfl⟩
  refine ⟨by decide +kernel, fun s h => ?_⟩
  cases h
  refine ⟨by decide +kernel, fun s h => ?_⟩
  cases h
  refine ⟨by decide +kernel, fun s h => ?_⟩
  cases h
  show 4 ∈ State.waiting _ _
  decide +kernel

/-- **C80, bounded wait.** While a task waits for a connection of a pool, whatever else happens and whoever else calls, the
connections of that pool see no more steps than those who have one, or have waited longer, have left. -/
theorem C80_bounded_wait (max : Nat) (s : State) (p : Pool) (i : Nat) (hr : Reachable max s) (es : List Event)
    (hw : waitsDuring max p i s es) : movesIn max p s es ≤ ((s.before p i).map s.steps).sum := by
  rw [← left_blocks]
  exact moves_bounded es s hr.inv hw

/-- The second cancellation waits for at most 17 steps: 12 of the insert (10 statements, giving back, its end) and 5 of the
first cancellation. The fetch is not among those it waits for. -/
example : ∃ s, Reachable 2 s ∧ 5 ∈ s.waiting .writer ∧ (s.before .writer 5).map (·.id) = [3, 4] ∧
    ((s.before .writer 5).map s.steps).sum = 17 := by
  refine ⟨busy.get (by decide +kernel), ⟨_, (Option.some_get _).symm⟩, ?_, ?_, ?_⟩ <;> decide +kernel

/-- The property: whenever a call waits for a connection, something goes on with the connections of the pool. -/
def C80_full (max : Nat) : Prop :=
  ∀ s p i, Reachable max s → i ∈ s.waiting p → ∃ e, moves p s e = true ∧ (step max s e).isSome

/-- **C80, the connection for writing.** Whenever a call waits for it, whoever has it can go on, or it can be handed out: calls
that write never wait for each other in a circle. With `C80_bounded_wait`: each of them gets it. -/
theorem C80_writer_goes_on (max : Nat) (s : State) (i : Nat) (hr : Reachable max s) (hi : i ∈ s.waiting .writer) :
    ∃ e, moves .writer s e = true ∧ (step max s e).isSome :=
  goes_on hr.inv hi (by intro h; cases h)

example : ∃ s, Reachable 2 s ∧ 5 ∈ s.waiting .writer := by
  refine ⟨busy.get (by decide +kernel), ⟨_, (Option.some_get _).symm⟩, ?_⟩
  decide +kernel

/-- **C80, the connections for reading.** As long as there are more of them than fetches at that moment, whenever a call waits for
one, somebody who has one can go on, or one can be handed out. Missing: as many fetches as connections, or more
(`C80_refuted_fetches_block_each_other`). -/
theorem C80_reader_goes_on_partial (max : Nat) (s : State) (i : Nat) (hr : Reachable max s) (hi : i ∈ s.waiting .reader)
    (hf : s.fetches < max) : ∃ e, moves .reader s e = true ∧ (step max s e).isSome :=
  goes_on hr.inv hi fun _ => hf

example : ∃ s, Reachable 2 s ∧ 2 ∈ s.waiting .reader ∧ 0 ∈ s.waiting .reader ∧ s.fetches < 2 ∧ s.used .reader = 2 := by
  refine ⟨busy.get (by decide +kernel), ⟨_, (Option.some_get _).symm⟩, ?_, ?_, ?_, ?_⟩ <;> decide +kernel

/-- **C80, everybody finishes.** If there are more connections for reading than fetches, then whatever the server does next in
whichever order, it does finitely many steps, the number of which is known, and stops only when all calls have ended.
Missing: as in `C80_reader_goes_on_partial`. -/
theorem C80_all_finish_partial (max : Nat) (s : State) (hr : Reachable max s) (hf : s.fetches < max) (es : List Event)
    (s' : State) (ho : ∀ e ∈ es, e.own = true) (hes : run max s es = some s') :
    es.length ≤ (s.tasks.map s.steps).sum ∧
    ((∀ e : Event, e.own = true → step max s' e = none) → s'.tasks = []) := by
  have h := own_run es s s' hr.inv hes ho
  exact ⟨by omega, fun hn => nobody_left (inv_run hr.inv hes) (by omega) hn⟩

/-- In the example 39 steps are left, and after a schedule of this length nobody is there any more. -/
example : busy.map (fun s => (decide (s.fetches < 2), (s.tasks.map s.steps).sum,
    (run 2 s ([.run 1, .run 1, .run 1, .run 1, .run 1, .grant .reader, .run 2, .run 2, .run 2, .run 2, .run 2, .grant .reader,
      .run 0, .run 0, .run 0, .run 0, .run 0] ++ List.replicate 12 (.run 3) ++ [.grant .writer, .run 4, .run 4, .run 4, .run 4,
      .grant .writer, .run 5, .run 5, .run 5, .run 5])).map (·.tasks))) = some (true, 39, some []) := by decide +kernel

/-- **C80, refuted.** For every size of the pool: as many fetches as there are connections for reading, each of which has found a
chunk, wait for each other. A status call waits with them. Whatever happens, nobody of them gets a connection, until one of
them gives up. (The documentation of `--max-read-pool-size` advises to have as many connections as consumers.) -/
theorem C80_refuted_fetches_block_each_other (max : Nat) :
    ∃ s, Reachable max s ∧ s.tasks.map (·.call) = List.replicate max aFetch ++ [.status 1] ∧
      ∀ es s', (∀ i, .leave i ∉ es) → run max s es = some s' → ∀ t ∈ s.tasks, t.id ∈ s'.waiting .reader := by
  refine ⟨blocked max, blocked_reachable max, ?_, ?_⟩
  · simp [blocked, begun, Function.comp_def, List.map_const']
  · intro es s' hl hes t ht
    refine (stuck_run es (blocked max) s' (blocked_reachable max).inv (blocked_stuck max) hes hl).2 _ ?_
    simp only [blocked, if_true, List.mem_range]
    simp only [blocked, begun, List.mem_append, List.mem_map, List.mem_singleton, List.mem_range] at ht
    rcases ht with ⟨j, hj, rfl⟩ | rfl
    · simp only; omega
    · simp

/-- So the property is false of every server. -/
theorem C80_refuted (max : Nat) : ¬ C80_full max := by
  intro h
  obtain ⟨e, hm, he⟩ := h (blocked max) .reader max (blocked_reachable max) (by simp [blocked])
  have hk := blocked_stuck max
  have hi := (blocked_reachable max).inv
  cases e with
  | call _ _ => cases hm
  | leave _ => cases hm
  | grant p =>
    simp only [moves, decide_eq_true_eq] at hm
    subst hm
    simp only [step] at he
    split at he
    · cases he
    · rw [hk.full] at he
      simp [Pool.size] at he
  | run i =>
    simp only [moves, decide_eq_true_eq] at hm
    have hw := hk.wait i hm
    obtain ⟨t, ht, rfl, a, hd⟩ := hi.asks _ _ hw
    have hf : (blocked max).tasks.find? (·.id = t.id) = some t := find?_key_of_mem (key := Task.id) hi.nodup ht
    simp only [step, hf, hd, hw, if_true] at he
    cases he

/-- With one connection for reading a single fetch that finds a chunk waits for itself. -/
example : (run 1 {} [.call 0 aFetch, .run 0, .grant .reader, .run 0]).map
    (fun s => (s.waiting .reader, (step 1 s (.run 0)).isSome, (step 1 s (.grant .reader)).isSome)) =
      some ([0], false, false) := by decide +kernel

/-- **C80** (what there is to wait for). At any time at most one task has the connection for writing, and at most as many
connections for reading are taken as the server was told to keep; and that many can be. -/
theorem C80_pool_sizes (max : Nat) : (∀ s, Reachable max s →
      (∀ i j, (i, Pool.writer) ∈ s.taken → (j, Pool.writer) ∈ s.taken → i = j) ∧ s.taken.countP (·.2 = .reader) ≤ max) ∧
    ∃ s, Reachable max s ∧ s.taken.countP (·.2 = .reader) = max := by
  refine ⟨fun s hr => ⟨fun i j hi hj => ?_, hr.inv.used .reader⟩, blocked max, blocked_reachable max, (blocked_stuck max).full⟩
  have hu : s.taken.countP (·.2 = .writer) ≤ 1 := hr.inv.used .writer
  by_cases hij : i = j
  · exact hij
  · exfalso
    have h1 : [(i, Pool.writer), (j, Pool.writer)].length ≤ (s.taken.filter (·.2 = .writer)).length := by
      refine length_le_of_nodup_subset (by simpa using hij) ?_
      intro x hx
      simp only [List.mem_cons, List.not_mem_nil, or_false] at hx
      rcases hx with rfl | rfl <;> simp [hi, hj]
    rw [← List.countP_eq_length_filter] at h1
    simp only [List.length_cons, List.length_nil] at h1
    omega

/-- Somebody has the connection for writing. -/
example : ∃ s, Reachable 2 s ∧ (3, Pool.writer) ∈ s.taken := by
  refine ⟨busy.get (by decide +kernel), ⟨_, (Option.some_get _).symm⟩, by decide +kernel⟩

end Opsqueue.Pools
