import Verif.Proofs.Scaling

/-!
# C97: the backlog gauges are not out of date for long

A server is started on a database that has any history `ops`; `a` and `b` are what happens then, of the calls of everybody and of
the steps of the periodic calculation, in any order. During `b` nothing goes wrong with the calculations. `age p` is 5 seconds, and
the lateness of a timer, and the duration of two calculations.
-/

namespace Opsqueue.Scaling

/-- The full claim: after so long, each gauge shows what was left to do at a moment that is at most `age p` ago. -/
def C97_full : Prop :=
  ∀ (p : Pace) (ops : List Op) (a b : List Event) (sa s : State),
    run p (fresh (Opsqueue.run ops) 0) a = some sa → run p sa b = some s → FreshIds (ops ++ calls (a ++ b)) →
    sa.cancelled = false → Undisturbed p sa b → age p < elapsed b →
    (∃ pre post n, a ++ b = pre ++ post ∧ elapsed post ≤ age p ∧ ChunksIn (Opsqueue.run (ops ++ calls pre)) n ∧
      s.mon.metrics.chunksBacklog = n) ∧
    (∃ pre post k, a ++ b = pre ++ post ∧ elapsed post ≤ age p ∧ OperationsIn (Opsqueue.run (ops ++ calls pre)) k ∧
      s.mon.metrics.operationsBacklog = k)

/-- The gauge of operations: it shows exactly how many operations were left at some moment that is at most `age p` ago. -/
theorem C97_operations_are_recent {p : Pace} {ops : List Op} {a b : List Event} {sa s : State}
    (ha : run p (fresh (Opsqueue.run ops) 0) a = some sa) (hb : run p sa b = some s) (hf : FreshIds (ops ++ calls (a ++ b)))
    (hc : sa.cancelled = false) (hu : Undisturbed p sa b) (hl : age p < elapsed b) :
    ∃ pre post k, a ++ b = pre ++ post ∧ elapsed post ≤ age p ∧ OperationsIn (Opsqueue.run (ops ++ calls pre)) k ∧
      s.mon.metrics.operationsBacklog = k := by
  have hr : run p (fresh (Opsqueue.run ops) 0) (a ++ b) = some s := by rw [run_append, ha]; exact hb
  obtain ⟨hc', -, h2⟩ := shown_run ha hc hr hf hu
  obtain ⟨ht, hn, -⟩ := run_basics hr
  have hd := (now_le_due ht hc').2
  rw [elapsed_append] at hn
  rcases h2 with ⟨pre, mid, u, e1, e2, e3, e4⟩ | h2
  · obtain ⟨-, un, udb⟩ := run_basics e2
    refine ⟨pre, .read true :: mid, _, e1, ?_, opsIn_run (ops := ops ++ calls pre) ?_, by rw [e3, udb]⟩
    · have := congrArg elapsed e1
      rw [elapsed_append, elapsed_append] at this
      omega
    · rw [e1, calls_append, ← List.append_assoc] at hf
      exact FreshIds.prefix hf
  · omega

/-- The gauge of chunks: it shows how many chunks were left at some moment that is at most `age p` ago, less the chunks that
failed since the gauge was set after that. Missing: exactly how many there were. -/
theorem C97_chunks_are_recent_partial {p : Pace} {ops : List Op} {a b : List Event} {sa s : State}
    (ha : run p (fresh (Opsqueue.run ops) 0) a = some sa) (hb : run p sa b = some s) (hf : FreshIds (ops ++ calls (a ++ b)))
    (hc : sa.cancelled = false) (hu : Undisturbed p sa b) (hl : age p < elapsed b) :
    ∃ pre mid post n v, a ++ b = pre ++ mid ++ post ∧ elapsed (mid ++ post) ≤ age p ∧
      ChunksIn (Opsqueue.run (ops ++ calls pre)) n ∧
      run p (fresh (Opsqueue.run ops) 0) (pre ++ mid) = some v ∧
      v.mon.metrics.chunksFailed ≤ s.mon.metrics.chunksFailed ∧
      s.mon.metrics.chunksBacklog = n - ((s.mon.metrics.chunksFailed : Int) - v.mon.metrics.chunksFailed) := by
  have hr : run p (fresh (Opsqueue.run ops) 0) (a ++ b) = some s := by rw [run_append, ha]; exact hb
  obtain ⟨hc', h1, -⟩ := shown_run ha hc hr hf hu
  obtain ⟨ht, hn, -⟩ := run_basics hr
  have hd := (now_le_due ht hc').1
  rw [elapsed_append] at hn
  rcases h1 with ⟨pre, mid, post, u, v, e1, e2, e3, e4, e5, e6⟩ | h1
  · obtain ⟨-, un, udb⟩ := run_basics e2
    have e1' : a ++ b = pre ++ (.read true :: mid ++ [.set]) ++ post := by rw [e1]; simp
    refine ⟨pre, .read true :: mid ++ [.set], post, _, v, e1', ?_, chunksIn_run (ops := ops ++ calls pre) ?_, ?_, e5,
      by rw [e4, udb]⟩
    · have := congrArg elapsed e1'
      rw [List.append_assoc, elapsed_append, elapsed_append] at this
      omega
    · rw [e1', List.append_assoc, calls_append, ← List.append_assoc] at hf
      exact FreshIds.prefix hf
    · rw [← List.append_assoc]
      simpa using e3
  · omega

/-- When nobody calls anything for that long, both gauges are exactly right, and so an idle queue shows zero. -/
theorem C97_settles {p : Pace} {ops : List Op} {a b : List Event} {sa s : State}
    (ha : run p (fresh (Opsqueue.run ops) 0) a = some sa) (hb : run p sa b = some s) (hf : FreshIds (ops ++ calls (a ++ b)))
    (hc : sa.cancelled = false) (hu : Undisturbed p sa b) (hl : age p < elapsed b) (hq : calls b = []) :
    ∃ n k, ChunksIn s.mon.db n ∧ s.mon.metrics.chunksBacklog = n ∧ OperationsIn s.mon.db k ∧ s.mon.metrics.operationsBacklog = k := by
  have hr : run p (fresh (Opsqueue.run ops) 0) (a ++ b) = some s := by rw [run_append, ha]; exact hb
  have hdb := (run_basics hr).2.2
  have hca : calls (a ++ b) = calls a := by rw [calls_append, hq, List.append_nil]
  obtain ⟨pre, mid, post, n, v, e1, e2, e3, e4, -, e6⟩ := C97_chunks_are_recent_partial ha hb hf hc hu hl
  obtain ⟨pre', post', k, f1, f2, f3, f4⟩ := C97_operations_are_recent ha hb hf hc hu hl
  refine ⟨n, k, ?_, ?_, ?_, f4⟩
  · rw [List.append_assoc] at e1
    obtain ⟨b', g1, g2⟩ := within e1 (by omega)
    rw [hdb, hca]
    have : calls b' = [] := by
      rw [g2, calls_append] at hq; exact (List.append_eq_nil_iff.1 hq).1
    rwa [g1, calls_append, this, List.append_nil] at e3
  · rw [List.append_assoc] at e1
    obtain ⟨b', g1, g2⟩ := within e1 (by omega)
    have hv : run p sa (b' ++ mid) = some v := by
      rw [g1, List.append_assoc, run_append, ha] at e4; exact e4
    rw [g2, ← List.append_assoc] at hu hb hq
    have hu' := (undisturbed_append hv).1 hu
    have hvs : run p v post = some s := by
      rw [run_append, hv] at hb; exact hb
    have := chunksFailed_run hvs hu'.2 (by rw [calls_append] at hq; exact (List.append_eq_nil_iff.1 hq).2)
    rw [e6, this]; omega
  · obtain ⟨b', g1, g2⟩ := within f1 (by omega)
    rw [hdb, hca]
    have : calls b' = [] := by
      rw [g2, calls_append] at hq; exact (List.append_eq_nil_iff.1 hq).1
    rwa [g1, calls_append, this, List.append_nil] at f3

/-! The full claim fails: a chunk that fails takes its whole submission out of the backlog, and one off the gauge. -/

/-- A submission of three chunks of ten operations. -/
def three : Op := .insert { id := 1, contents := [some [1], some [2], some [3]], chunkSize := 10 } 1 []

/-- A submission of one chunk of seven operations. -/
def one : Op := .insert { id := 2, contents := [some [4]], chunkSize := 7 } 1 []

/-- A chunk of it fails for good. -/
def fails : Op := .fail ⟨1, 1⟩ "x" 0 2 2 2 []

/-- Calculations that take 30 ms, and timers that are exact. -/
def pace : Pace := ⟨30, 0⟩

/-- A round of the loop in which nothing else happens. -/
def round : List Event :=
  [.tick 5000, .wake, .connected true, .tick 10, .read true, .set, .tick 10, .read true, .set]

/-- A decidable form of `Undisturbed`. -/
def undisturbed (p : Pace) (s : State) : List Event → Bool
  | [] => true
  | e :: es =>
    (match e with
      | .call op => !(Opsqueue.step s.mon.db op).1.crashed
      | .connected ok => ok
      | .read ok => ok
      | .cancel => false
      | .notice => false
      | .restart => false
      | _ => true) &&
    match step p s e with
    | some s' => undisturbed p s' es
    | none => true

theorem undisturbed_spec {p : Pace} {h : List Event} : ∀ {s : State}, undisturbed p s h = true → Undisturbed p s h := by
  induction h with
  | nil => intro s _; trivial
  | cons e h ih =>
    intro s hu
    simp only [undisturbed, Bool.and_eq_true] at hu
    refine ⟨?_, ?_⟩
    · have := hu.1
      cases e <;> simp_all
    · intro s' hs
      have := hu.2
      rw [hs] at this
      exact ih this

/-- Two rounds; in the second one a chunk fails after the gauge of chunks is set. -/
def busy : List Event := round ++ [.tick 5000, .wake, .connected true, .read true, .set, .call fails, .tick 20]

/-- What there is after that. -/
def shown : State := ((run pace (fresh (Opsqueue.run [three]) 0) busy).getD {})

/-- The gauge of chunks shows two, when there were three and then none. -/
theorem C97_refuted_a_failed_chunk : ¬ C97_full := by
  intro h
  have := (h pace [three] [] busy _ shown rfl (by decide +kernel) (by decide +kernel) (by decide +kernel)
    (undisturbed_spec (by decide +kernel)) (by decide +kernel)).1
  obtain ⟨pre, post, n, e, -, ⟨ids, hi, hn⟩, hs⟩ := this
  have hg : shown.mon.metrics.chunksBacklog = 2 := by decide +kernel
  have hpre : calls pre = [] ∨ calls pre = [fails] := by
    have := congrArg calls e
    rw [calls_append, calls_append] at this
    have hb : calls [] ++ calls busy = [fails] := by decide +kernel
    rw [hb] at this
    cases hp : calls pre with
    | nil => exact .inl rfl
    | cons x xs =>
      rw [hp] at this
      simp only [List.cons_append, List.cons.injEq, List.nil_eq, List.append_eq_nil_iff] at this
      exact .inr (by rw [← this.1, this.2.1])
  rcases hpre with hp | hp <;> rw [hp] at hi hn
  · have := backlog_sum (inv_run (by decide +kernel)) hi
    rw [← hn, show (Opsqueue.run ([three] ++ [])).chunks.length = 3 by decide +kernel] at this
    omega
  · have := backlog_sum (inv_run (by decide +kernel)) hi
    rw [← hn, show (Opsqueue.run ([three] ++ [fails])).chunks.length = 0 by decide +kernel] at this
    omega

/-- For five seconds after the start the gauges show nothing of what is in the database. -/
theorem C97_nothing_is_shown_at_first {p : Pace} {ops : List Op} {h : List Event} {s : State}
    (hr : run p (fresh (Opsqueue.run ops) 0) h = some s) (hf : FreshIds (ops ++ calls h)) (hl : elapsed h < 5000) :
    s.mon.metrics.operationsBacklog = 0 ∧ s.mon.metrics.chunksBacklog ≤ 0 := by
  have := first_seconds hr hf hl
  exact ⟨this.2.1, by omega⟩

/-! The hypotheses are met: a second submission arrives between the two queries of the first round, in which the gauges are set
to what was read before and after; then nothing happens for two more rounds. -/

/-- The first round. -/
def arrival : List Event :=
  [.tick 5000, .wake, .connected true, .tick 10, .read true, .call one, .set, .tick 10, .read true, .set]

/-- The state after it. -/
def afterArrival : State := (run pace (fresh (Opsqueue.run [three]) 0) arrival).getD {}

example : afterArrival.mon.metrics.chunksBacklog = 3 ∧ afterArrival.mon.metrics.operationsBacklog = 37 := by decide +kernel

example : ∃ s, run pace (fresh (Opsqueue.run [three]) 0) arrival = some afterArrival ∧
    run pace afterArrival (round ++ round) = some s ∧ FreshIds ([three] ++ calls (arrival ++ (round ++ round))) ∧
    afterArrival.cancelled = false ∧ Undisturbed pace afterArrival (round ++ round) ∧ age pace < elapsed (round ++ round) ∧
    calls (round ++ round) = [] ∧ s.mon.metrics.chunksBacklog = 4 ∧ s.mon.metrics.operationsBacklog = 37 :=
  ⟨(run pace afterArrival (round ++ round)).getD {}, by decide +kernel, by decide +kernel, by decide +kernel, by decide +kernel,
    undisturbed_spec (by decide +kernel), by decide +kernel, by decide +kernel, by decide +kernel, by decide +kernel⟩

/-- With a busy queue, and a failed chunk. -/
example : run pace (fresh (Opsqueue.run [three]) 0) busy = some shown ∧ FreshIds ([three] ++ calls ([] ++ busy)) ∧
    Undisturbed pace (fresh (Opsqueue.run [three]) 0) busy ∧ age pace < elapsed busy ∧
    shown.mon.metrics.chunksBacklog = 2 ∧ shown.mon.metrics.chunksFailed = 1 ∧ shown.mon.metrics.operationsBacklog = 30 :=
  ⟨by decide +kernel, by decide +kernel, undisturbed_spec (by decide +kernel), by decide +kernel, by decide +kernel,
    by decide +kernel, by decide +kernel⟩

/-- A server that is started with a backlog shows none at first. -/
example : ((run pace (fresh (Opsqueue.run [three]) 0) [.tick 4000]).map fun s =>
    (s.mon.db.chunks.length, s.mon.metrics.chunksBacklog, s.mon.metrics.operationsBacklog)) = some (3, 0, 0) := by decide +kernel

end Opsqueue.Scaling
