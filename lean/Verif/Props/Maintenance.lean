import Verif.Proofs.Maintenance
import Verif.Props.Reserver

/-!
# C92: reservations end in time

The server has been running for any time (`h0`), and its loop of maintenance is as fast as `p` says. Nothing has asked it to
stop so far.
-/

namespace Opsqueue.Maintenance
open Reserver
variable {κ ν σ : Type} [DecidableEq κ]

/-- **C92** (nothing lingers). A reservation is gone `ttl` and a little after it was made, and a delayed removal is carried out a
little after it falls due, at the latest. -/
theorem C92_nothing_lingers (p : Pace) (ttl : Nat) (h : List (Event κ ν σ)) (s : State κ ν σ)
    (hrun : run p (init ttl) h = some s) (hc : s.cancelled = false) :
    (∀ k e, s.reserver.cache.get k = some e → s.reserver.now ≤ e.reservedAt + ttl + late p) ∧
    (∀ q ∈ s.reserver.pending, s.reserver.now ≤ q.2 + late p) := by
  have hi := inv_run (inv_init p ttl) hrun
  have hr := hi.recent hc
  have htt : s.reserver.ttl = ttl := by rw [run_reserver hrun]; exact ttl_exec _ _
  refine ⟨fun k e he => ?_, fun q hq => ?_⟩
  · have := hi.fresh k e he
    rw [htt] at this
    omega
  · have := hi.removals q hq
    omega

variable [DecidableEq ν]

/-- **C92** (notices). A consumer `c` that has reserved `key` and neither finishes nor gives it back in time is told that its
reservation has expired: not before `ttl` has passed, at the latest a little later, and once. -/
theorem C92_told_in_time (p : Pace) (ttl : Nat) (h0 h : List (Event κ ν σ)) (key : κ) (v : ν) (c : σ)
    (s0 s : State κ ν σ) (hpos : 0 < ttl)
    (hrun0 : run p (init ttl) h0 = some s0)
    (hrun : run p s0 (.use (.tryReserve key v c) :: h) = some s)
    (hok : (s0.reserver.tryReserve key v c).1 = some v)
    (huniq : ∀ op ∈ trace (h0 ++ h), ¬ op.uses v)
    (hheld : ¬ ReleasedWithin ttl key (s0.reserver.tryReserve key v c).2 (trace h))
    (hc : s.cancelled = false) :
    (s.reserver.now < s0.reserver.now + ttl → s.reserver.noticesOf v = []) ∧
    (s0.reserver.now + ttl + late p ≤ s.reserver.now → s.reserver.noticesOf v = [(c, v)]) := by
  have hr0 : s0.reserver = (Reserver.new ttl).exec (trace h0) := run_reserver hrun0
  have hstep : step p s0 (.use (.tryReserve key v c)) = some { s0 with reserver := (s0.reserver.tryReserve key v c).2 } := rfl
  simp only [run, hstep, Option.bind_some] at hrun
  have hr := run_reserver hrun
  have h25 := C25_notices ttl (trace h0) (trace h) key v c (by rw [← hr0]; exact hok)
    (by rw [trace, trace, ← List.filterMap_append]; exact huniq)
  rw [← hr0] at h25
  dsimp only at h25
  rw [← show s.reserver = _ from hr] at h25
  obtain ⟨-, h2, h3, -⟩ := h25
  have hn1 : (s0.reserver.tryReserve key v c).2.now = s0.reserver.now := by
    have := now_step s0.reserver (.tryReserve key v c)
    exact this
  have hnow : s.reserver.now = s0.reserver.now + elapsed (trace h) := by
    rw [hr, now_exec, ← hn1]
  refine ⟨fun hlt => h2 (by omega), fun hge => ?_⟩
  have hi0 := inv_run (inv_init p ttl) hrun0
  have hi1 := inv_step hi0 hstep
  have hi := inv_run hi1 hrun
  have hrec := hi.recent hc
  rcases swept_cases hrun with he | ⟨a, b, s1, rfl, ha, hs1⟩
  · exfalso
    have := hi0.past
    have : s.swept = s0.swept := he
    omega
  · refine h3 (trace a) (trace b) (by simp [trace, Event.op?]) ?_ hheld
    have h4 := run_reserver ha
    have : s1.reserver.now = s0.reserver.now + elapsed (trace a) := by
      rw [h4, now_exec, ← hn1]
    omega

/-- A pass of at most 2 ms, timers late by at most 1 ms: 15 ms. -/
example : late ⟨2, 1⟩ = 15 := rfl

/-- One round of the loop: a pass of 2 ms, and a sleep of 10 ms that takes 11 ms. -/
def round : List (Event Nat Nat String) := [.sweep, .tick 2, .done, .tick 11, .wake]

/-- A reservation of 20 ms, made just after the first pass has looked, that expires just after the second one has looked, is
noticed by the third: after 26 ms. -/
def slowConsumer : List (Event Nat Nat String) :=
  [.tick 2, .done, .tick 11, .wake, .sweep, .tick 2, .done, .tick 11, .wake]

example : ((run ⟨2, 1⟩ (init 20) [.sweep]).bind fun s0 => run ⟨2, 1⟩ s0 (.use (.tryReserve 7 70 "a") :: slowConsumer)).any
      (fun s => decide (s.reserver.now = 26 ∧ s.reserver.notices = [] ∧ s.cancelled = false ∧
        (step ⟨2, 1⟩ s .sweep).any (fun s' => decide (s'.reserver.notices = [("a", 70)] ∧ s'.reserver.cache = [])))) = true ∧
    ¬ ReleasedWithin 20 7 (((init 20 : State Nat Nat String).reserver).tryReserve 7 70 "a").2 (trace slowConsumer) := by
  refine ⟨by decide +kernel, ?_⟩
  rintro ⟨h1, op, h2, he, hlt, hrel⟩
  have h : ∀ op ∈ trace slowConsumer, op = .runPendingTasks ∨ ∃ d, op = .advance d := by
    intro op hop
    simp [trace, slowConsumer, Event.op?] at hop
    rcases hop with rfl | rfl | rfl | rfl | rfl <;> simp
  rcases h op (by rw [he]; simp) with rfl | ⟨d, rfl⟩
  · have hp : ∀ hs : List (Reserver.Op Nat Nat String), (∀ op ∈ hs, op = .runPendingTasks ∨ ∃ d, op = .advance d) →
        ∀ r : Reserver Nat Nat String, r.pending = [] → (r.exec hs).pending = [] := by
      intro hs
      induction hs with
      | nil => intro _ r hr; exact hr
      | cons op hs ih =>
        intro ho r hr
        refine ih (fun op h => ho op (List.mem_cons_of_mem _ h)) _ ?_
        rcases ho op List.mem_cons_self with rfl | ⟨d, rfl⟩
        · rw [List.eq_nil_iff_forall_not_mem]
          intro q hq
          have := (pending_runPendingTasks r q hq).1
          rw [hr] at this; cases this
        · exact hr
    have := hp h1 (fun op ho => h op (by rw [he]; simp [ho])) _ (show (((init 20 : State Nat Nat String).reserver).tryReserve 7 70 "a").2.pending = [] from rfl)
    simp [Reserver.Op.releases, due, this] at hrel
  · simp [Reserver.Op.releases] at hrel

/-- The bound cannot be improved: a reservation of 14 ms is not noticed before 29 ms have passed. -/
example : (run ⟨2, 1⟩ (init 14 : State Nat Nat String) ([.use (.tryReserve 7 70 "a")] ++ round ++ round ++ [.tick 2])).any
    (fun s => decide (s.reserver.now = 14 + late ⟨2, 1⟩ - 1 ∧ s.reserver.notices = [])) = true := by decide +kernel

omit [DecidableEq ν] in
/-- **C92** (finished reservations). The reservation of a chunk that is finished with a delay (it was completed, or has failed for
good) is gone a second and a little later, at the latest, and the key can be reserved, unless that has happened already. -/
theorem C92_released_in_time (p : Pace) (ttl : Nat) (h0 h : List (Event κ ν σ)) (key : κ) (s0 s : State κ ν σ)
    (hrun0 : run p (init ttl) h0 = some s0)
    (hrun : run p s0 (.use (.finish key true) :: h) = some s)
    (hres : s0.reserver.isReserved key = true)
    (hnew : NeverReserved key (s0.reserver.finish key true).2 (trace h))
    (hc : s.cancelled = false) (ht : s0.reserver.now + 1000 + late p < s.reserver.now) :
    s.reserver.isReserved key = false ∧ ∀ v c, (s.reserver.tryReserve key v c).1 = some v := by
  have hstep : step p s0 (.use (.finish key true)) = some { s0 with reserver := (s0.reserver.finish key true).2 } := rfl
  have hrun' : run p (init ttl) (h0 ++ .use (.finish key true) :: h) = some s := by
    rw [run_append, hrun0]; exact hrun
  simp only [run, hstep, Option.bind_some] at hrun
  have hr := run_reserver hrun
  have hfin : (s0.reserver.finish key true).2 = s0.reserver.schedule key := by
    unfold Reserver.finish
    unfold isReserved at hres
    cases hl : s0.reserver.lookup key with
    | none => rw [hl] at hres; cases hres
    | some e => rfl
  have hmem : (key, s0.reserver.now + removalDelay) ∈ (s0.reserver.finish key true).2.pending := by
    rw [hfin]; simp [schedule]
  have hout : (key, s0.reserver.now + removalDelay) ∉ s.reserver.pending := by
    intro hm
    have := (C92_nothing_lingers p ttl _ s hrun' hc).2 _ hm
    unfold removalDelay at this
    dsimp only at this
    omega
  have hg := (removed_exec (r := (s0.reserver.finish key true).2) (.inl hmem) (trace h) hnew).resolve_left
    (by rw [← show s.reserver = _ from hr]; exact hout)
  rw [← show s.reserver = _ from hr] at hg
  have hl : s.reserver.lookup key = none := by unfold Reserver.lookup; rw [hg]; rfl
  exact ⟨by unfold isReserved; rw [hl]; rfl, fun v c => by rw [tryReserve_some hl]⟩

/-- A chunk is completed at once; its reservation is gone 1002 ms later. -/
example : ((run ⟨2, 1⟩ (init 600000) [.sweep, .tick 2, .done, .use (.tryReserve 7 70 "a")]).bind fun s0 =>
      run ⟨2, 1⟩ s0 (.use (.finish 7 true) :: (List.replicate 76 [.tick 11, .wake, .sweep, .tick 2, .done]).flatten)).any
    (fun s => decide (s.reserver.now = 990 ∧ s.reserver.isReserved 7 = true)) = true ∧
  ((run ⟨2, 1⟩ (init 600000) [.sweep, .tick 2, .done, .use (.tryReserve 7 70 "a")]).bind fun s0 =>
      run ⟨2, 1⟩ s0 (.use (.finish 7 true) :: (List.replicate 79 [.tick 11, .wake, .sweep, .tick 2, .done]).flatten)).any
    (fun s => decide (s.reserver.now = 1029 ∧ s.reserver.isReserved 7 = false ∧ s.reserver.pending = [])) = true := by
  decide +kernel

/-- Once the server has been asked to stop, the loop ends, and nobody is told any more. -/
example : ((run ⟨2, 1⟩ (init 20) [.sweep, .done, .use (.tryReserve 7 70 "a"), .cancel, .notice, .tick 1000] :
      Option (State Nat Nat String)).any fun s => decide (s.reserver.now = 1000 ∧ s.reserver.notices = [])) = true := by
  decide +kernel

end Opsqueue.Maintenance
