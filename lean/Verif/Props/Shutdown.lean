import Verif.Model.Shutdown
import Verif.Props.Progress
import Verif.Proofs.EndToEnd

/-!
# C84: the server can be stopped
-/

namespace Opsqueue.Shutdown
open Server (ConnId Action answersTo)
open Conn (Request Report)

/-! ## Helpers -/

theorem run_snoc (lag ttl m : Nat) (h : List Event) (e : Event) :
    run lag ttl m (h ++ [e]) = step lag (run lag ttl m h) e := by
  simp [run, List.foldl_append]

theorem reborn_eq (s : Server.State) : reborn s = Server.step s (.producer (.cleanup 0 [.crash])) := rfl

/-- What the event is for the server. -/
theorem srv_step (lag : Nat) (s : State) (e : Event) :
    (step lag s e).srv = s.srv ∨ ∃ a, (step lag s e).srv = Server.step s.srv a := by
  cases e with
  | act a =>
    simp only [step]
    split
    · split <;> exact .inr ⟨a, rfl⟩
    · exact .inl rfl
  | stop => simp only [step]; split <;> exact .inl rfl
  | completerStops =>
    simp only [step]
    split
    · split <;> exact .inl rfl
    · exact .inl rfl
  | closes c =>
    simp only [step]
    split
    · split
      · exact .inr ⟨.disconnect c, rfl⟩
      · exact .inl rfl
    · exact .inl rfl
  | pass d =>
    simp only [step]
    split
    · split <;> exact .inl rfl
    · exact .inl rfl
  | exit =>
    simp only [step]
    split
    · split <;> exact .inl rfl
    · exact .inl rfl
  | killed => exact .inl rfl
  | start =>
    simp only [step]
    split
    · exact .inr ⟨_, reborn_eq _⟩
    · exact .inl rfl

/-! ## C84 -/

/-- **C84, nothing worse than a crash.** However often a server is asked to stop, killed and started again, and whatever it
is in the middle of: it is in a state that a server could also be in that is never asked to stop, only loses
connections and crashes now and then. So everything proved of those holds. -/
theorem C84_nothing_worse_than_a_crash (lag ttl m : Nat) (evs : List Event) :
    ∃ h, (run lag ttl m evs).srv = Server.run ttl m h := by
  induction evs using snoc_induction with
  | nil => exact ⟨[], rfl⟩
  | snoc evs e ih =>
    obtain ⟨h, ih⟩ := ih
    rw [run_snoc]
    rcases srv_step lag (run lag ttl m evs) e with h1 | ⟨a, h1⟩
    · exact ⟨h, by rw [h1, ih]⟩
    · refine ⟨h ++ [a], ?_⟩
      rw [h1, ih]
      simp [Server.run, Server.exec, List.foldl_append]

/-- The process dies in the middle of the database call that belongs to this event. -/
def DiesDuring (lag : Nat) (s : State) : Event → Prop
  | .act a => ∃ op, (step lag s (.act a)).srv.calls = s.srv.calls ++ [op] ∧ (Opsqueue.step s.srv.db op).1.crashed = true
  | _ => False

theorem calls_restart (s : Server.State) (db : DB) : (s.restart db).calls = s.calls := rfl

theorem dbCall_calls (s : Server.State) (op : Op) : (Server.dbCall s op).2.calls = s.calls ++ [op] := by
  unfold Server.dbCall
  dsimp only
  split <;> rfl

/-- `crashes` says whether the process dies in the middle of a database call. -/
theorem crashes_iff (s : Server.State) (a : Action) :
    crashes s a = true ↔ ∃ op, (Server.step s a).calls = s.calls ++ [op] ∧ (Opsqueue.step s.db op).1.crashed = true := by
  have none' : ∀ (x : Server.State), x.calls = s.calls →
      ¬ ∃ op, x.calls = s.calls ++ [op] ∧ (Opsqueue.step s.db op).1.crashed = true := by
    rintro x hx ⟨op, h, -⟩
    rw [hx] at h
    simpa using congrArg List.length h
  have one : ∀ (x : Server.State) (op : Op), x.calls = s.calls ++ [op] →
      ((∃ op, x.calls = s.calls ++ [op] ∧ (Opsqueue.step s.db op).1.crashed = true) ↔
        (Opsqueue.step s.db op).1.crashed = true) := by
    intro x op hx
    constructor
    · rintro ⟨op', h, h'⟩
      rw [hx] at h
      simp at h
      exact h ▸ h'
    · exact fun h => ⟨op, hx, h⟩
  cases a with
  | handle w n1 n2 n3 o =>
    rw [show Server.step s (.handle w n1 n2 n3 o) = Server.handle s w n1 n2 n3 o from rfl]
    cases hc : s.completing with
    | some x =>
      have e1 : crashes s (.handle w n1 n2 n3 o) = false := by simp [crashes, hc]
      have e2 : Server.handle s w n1 n2 n3 o = s := by simp [Server.handle, hc]
      rw [e1, e2]; exact iff_of_false (by simp) (none' s rfl)
    | none =>
      cases hq : s.queue with
      | nil =>
        have e1 : crashes s (.handle w n1 n2 n3 o) = false := by simp [crashes, hq]
        have e2 : Server.handle s w n1 n2 n3 o = s := by simp [Server.handle, hq]
        rw [e1, e2]; exact iff_of_false (by simp) (none' s rfl)
      | cons x queue =>
        cases w with
        | false =>
          have e1 : crashes s (.handle false n1 n2 n3 o) = false := by simp [crashes, hc, hq]
          have e2 : (Server.handle s false n1 n2 n3 o).calls = s.calls := by simp [Server.handle, hc, hq]
          rw [e1]; exact iff_of_false (by simp) (none' _ e2)
        | true =>
          have e1 : crashes s (.handle true n1 n2 n3 o) =
              (Opsqueue.step s.db (Server.reportOp s.maxRetries n1 n2 n3 o x.2)).1.crashed := by simp [crashes, hc, hq]
          have e2 : (Server.handle s true n1 n2 n3 o).calls =
              s.calls ++ [Server.reportOp s.maxRetries n1 n2 n3 o x.2] := by
            simp only [Server.handle, hc, hq, if_true]
            split <;> exact dbCall_calls { s with completing := none, queue } _
          rw [e1, one _ _ e2]
  | producer call =>
    have e2 : (Server.step s (.producer call)).calls = s.calls ++ [call.op] := by
      simp only [Server.step, Server.producerCall]
      split
      · rename_i h; have := dbCall_calls s call.op; rw [h] at this; exact this
      · rename_i h; have := dbCall_calls s call.op; rw [h] at this; exact this
    rw [one _ _ e2]; rfl
  | _ =>
    simp only [crashes, Bool.false_eq_true, false_iff]
    apply none'
    rcases Server.calls_step s _ with h | ⟨_, h, -⟩ | ⟨_, _, _, _, _, _, _, _, h, -⟩
    · exact h
    · cases h
    · cases h

/-- **C84, stopping takes half a second.** If the server is asked to stop at some time, then at every later moment
until it has ended the clock shows at most 500 ms (and the lateness of a timer) more. It does not end before the 500 ms
are over, unless it is killed or dies during a database call (and is started again). -/
theorem C84_stopping_takes_half_a_second (lag ttl m : Nat) (evs : List Event) (t : Nat)
    (h : (run lag ttl m evs).phase = .stopping t) :
    (run lag ttl m evs).clock ≤ t + 500 + lag ∧ t ≤ (run lag ttl m evs).clock ∧
    ∀ e, let s := run lag ttl m evs
      let s' := step lag s e
      (s'.phase = .stopping t ∧ ¬ DiesDuring lag s e ∧ e ≠ .killed) ∨
      (s'.phase = .running ∧ s'.completer = true ∧ DiesDuring lag s e) ∨
      (s'.phase = .ended ∧ (e = .killed ∨ e = .exit ∧ t + 500 ≤ s.clock)) := by
  refine ⟨?_, ?_, fun e => ?_⟩
  · induction evs using snoc_induction generalizing t with
    | nil => cases h
    | snoc evs e ih =>
      rw [run_snoc] at h ⊢
      cases e <;> simp only [step] at h ⊢ <;> (repeat' split at h) <;> (repeat' split) <;> simp_all <;> omega
  · induction evs using snoc_induction generalizing t with
    | nil => cases h
    | snoc evs e ih =>
      rw [run_snoc] at h ⊢
      cases e <;> simp only [step] at h ⊢ <;> (repeat' split at h) <;> (repeat' split) <;> simp_all <;> omega
  · cases e with
    | act a =>
      dsimp only [DiesDuring]
      by_cases hp : possible (run lag ttl m evs) a = true
      · by_cases hc : crashes (run lag ttl m evs).srv a = true
        · right; left
          simp only [step, hp, hc, if_true]
          exact ⟨trivial, trivial, (crashes_iff _ a).1 hc⟩
        · left
          simp only [step, hp, hc, if_true]
          exact ⟨h, fun hx => hc ((crashes_iff _ a).2 hx), by simp⟩
      · left
        simp only [step, hp]
        refine ⟨h, ?_, by simp⟩
        rintro ⟨op, hx, -⟩
        simp at hx
    | _ => simp only [step, h, DiesDuring] <;> (repeat' split) <;> simp_all

example : (run 7 1000 5 [.pass 40, .stop, .pass 507]).phase = .stopping 40 ∧
    (run 7 1000 5 [.pass 40, .stop, .pass 507]).clock = 547 ∧ (run 7 1000 5 [.pass 40, .stop, .pass 507, .exit]).phase = .ended := by
  decide +kernel

/-- **C84, what a stopping server still does.** It takes no new connections. For those it has and for producers it goes on as
before, except that reports have no effect once the completer has stopped. -/
theorem C84_stopping_server_still_serves (lag : Nat) (s : State) (t : Nat) (h : s.phase = .stopping t) :
    (∀ c, step lag s (.act (.connect c)) = s) ∧
    (∀ a, (∀ c, a ≠ .connect c) → s.completer = true → (step lag s (.act a)).srv = Server.step s.srv a) ∧
    (∀ a, (∀ c, a ≠ .connect c) → (∀ w n1 n2 n3 o, a ≠ .handle w n1 n2 n3 o) → (∀ b, a ≠ .release b) → (∀ c r, a ≠ .report c r) →
      (step lag s (.act a)).srv = Server.step s.srv a) := by
  refine ⟨fun c => by simp [step, possible, h], fun a hc hs => ?_, fun a hc h1 h2 h3 => ?_⟩
  · have : possible s a = true := by
      cases a with
      | connect c => exact absurd rfl (hc c)
      | _ => simp [possible, h, hs]
    simp only [step, this, if_true]
    split <;> rfl
  · have : possible s a = true := by
      cases a with
      | connect c => exact absurd rfl (hc c)
      | handle w n1 n2 n3 o => exact absurd rfl (h1 w n1 n2 n3 o)
      | release b => exact absurd rfl (h2 b)
      | report c r => exact absurd rfl (h3 c r)
      | _ => simp [possible, h]
    simp only [step, this, if_true]
    split <;> rfl

/-- A server that stops answers the producer that inserts a submission; after its end it does not. -/
example : (run 7 1000 5 [.stop, .act (.producer (.insert { id := 1, contents := [some [1]] } 10 []))]).srv.db.chunks.length = 1 ∧
    (run 7 1000 5 [.stop, .pass 500, .exit, .act (.producer (.insert { id := 1, contents := [some [1]] } 10 []))]).srv.db.chunks = [] := by
  decide +kernel

/-- **C84, an ended server does nothing** until it is started again. -/
theorem C84_ended_server_does_nothing (lag : Nat) (s : State) (evs : List Event) (h : s.phase = .ended) (hn : .start ∉ evs) :
    (evs.foldl (step lag) s).srv = s.srv ∧ (evs.foldl (step lag) s).phase = .ended := by
  induction evs generalizing s with
  | nil => exact ⟨rfl, h⟩
  | cons e evs ih =>
    have hstep : (step lag s e).srv = s.srv ∧ (step lag s e).phase = .ended := by
      cases e with
      | act a =>
        have : possible s a = false := by cases a <;> simp [possible, h]
        simp [step, this, h]
      | start => simp at hn
      | _ => simp [step, h]
    have := ih (step lag s e) hstep.2 (fun hm => hn (List.mem_cons_of_mem _ hm))
    exact ⟨this.1.trans hstep.1, this.2⟩

/-- A report to the completer was carried out: one of these database calls is that of the report. -/
def CarriedOut (calls : List Op) (r : Report) : Prop :=
  ∃ m t1 t2 t3 o, Server.reportOp m t1 t2 t3 o r ∈ calls

/-- Nothing goes wrong. -/
def Calm : Event → Prop
  | .killed | .start => False
  | .act (.handle writerOk _ _ _ o) => writerOk = true ∧ o = []
  | .act (.producer (.insert _ _ o)) | .act (.producer (.cancel _ _ _ o)) | .act (.producer (.cleanup _ o)) => o = []
  | _ => True

/-- The full statement about reports: those that had arrived when the server was asked to stop are carried out before it ends, if
nothing goes wrong. -/
def C84_full : Prop := ∀ (lag ttl m : Nat) (evs evs' : List Event),
  (run lag ttl m evs).phase = .running → (∀ e ∈ evs', Calm e) →
  (run lag ttl m (evs ++ .stop :: evs')).phase = .ended →
  ∀ c r, (c, r) ∈ (run lag ttl m evs).srv.queue →
    CarriedOut ((run lag ttl m (evs ++ .stop :: evs')).srv.calls.drop (run lag ttl m evs).srv.calls.length) r

/-- A consumer reserves the one chunk there is and reports it as complete. -/
def reported : List Event :=
  [ .act (.producer (.insert { id := 1, contents := [some [1]] } 10 [])), .act .notify, .act (.connect 1),
    .act (.request 1 ⟨0, 3, .oldest⟩ ⟨0, fun _ => false, fun _ => []⟩), .act (.row 1), .act (.join 1), .act (.row 1),
    .act (.report 1 (.complete ⟨1, 0⟩ (some [9]))) ]

/-- **C84, reports: false of the code.** The completer may notice that the server stops before it looks at the reports that
wait: they are lost, although the consumer's call has returned without an error. -/
theorem C84_refuted_a_report_is_lost : ¬ C84_full := by
  intro h
  obtain ⟨m, t1, t2, t3, o, h1⟩ := h 0 1000 5 reported [.completerStops, .closes 1, .pass 500, .exit] (by decide +kernel)
    (by simp [Calm]) (by decide +kernel) 1 (.complete ⟨1, 0⟩ (some [9])) (by decide +kernel)
  rw [show ((run 0 1000 5 (reported ++ .stop :: [.completerStops, .closes 1, .pass 500, .exit])).srv.calls.drop
    (run 0 1000 5 reported).srv.calls.length) = [] from by decide +kernel] at h1
  cases h1

/-- **C84, what is true of reports.** Once the completer has stopped, no report has any effect until the server is
started again: the database changes only by calls of producers and the cleanup. Missing: that reports that had
arrived are carried out. -/
theorem C84_lost_reports_have_no_effect_partial (lag : Nat) (s : State) (evs : List Event) (hs : s.completer = false)
    (hp : ∀ e ∈ evs, (∀ call, e ≠ .act (.producer call)) ∧ e ≠ .start) :
    (evs.foldl (step lag) s).srv.db = s.srv.db ∧ (evs.foldl (step lag) s).srv.calls = s.srv.calls := by
  induction evs generalizing s with
  | nil => exact ⟨rfl, rfl⟩
  | cons e evs ih =>
    have key : (step lag s e).srv.db = s.srv.db ∧ (step lag s e).srv.calls = s.srv.calls ∧ (step lag s e).completer = false := by
      obtain ⟨hp1, hp2⟩ := hp e (by simp)
      have quiet : ∀ a, (∀ call, a ≠ Action.producer call) → (∀ w t1 t2 t3 o, a ≠ Action.handle w t1 t2 t3 o) →
          (Server.step s.srv a).db = s.srv.db ∧ (Server.step s.srv a).calls = s.srv.calls := by
        intro a h1 h2
        have hc : (Server.step s.srv a).calls = s.srv.calls := by
          rcases Server.calls_step s.srv a with h | ⟨call, h, -⟩ | h
          · exact h
          · exact absurd h (h1 call)
          · obtain ⟨w, t1, t2, t3, o, c, r, q, h, -⟩ := h
            exact absurd h (h2 _ _ _ _ _)
        obtain ⟨ops, h4, h3⟩ := Server.db_exec s.srv [a]
        rw [show Server.exec s.srv [a] = Server.step s.srv a from rfl] at h3 h4
        rw [hc] at h3
        have : ops = [] := by simpa using h3
        subst this
        exact ⟨h4, hc⟩
      cases e with
      | act a =>
        simp only [step]
        split
        · rename_i hposs
          have h2 : ∀ w t1 t2 t3 o, a ≠ Action.handle w t1 t2 t3 o := by
            intro w t1 t2 t3 o h
            subst h
            simp [possible, hs] at hposs
          have h1 : ∀ call, a ≠ Action.producer call := fun call h => hp1 call (by rw [h])
          have hcr : crashes s.srv a = false := by
            cases a <;> first | rfl | exact absurd rfl (h1 _) | exact absurd rfl (h2 _ _ _ _ _)
          rw [if_neg (by simp [hcr])]
          exact ⟨(quiet a h1 h2).1, (quiet a h1 h2).2, hs⟩
        · exact ⟨rfl, rfl, hs⟩
      | stop => simp only [step]; split <;> exact ⟨rfl, rfl, hs⟩
      | completerStops =>
        simp only [step]
        split
        · split
          · exact ⟨rfl, rfl, rfl⟩
          · exact ⟨rfl, rfl, hs⟩
        · exact ⟨rfl, rfl, hs⟩
      | closes c =>
        simp only [step]
        split
        · split
          · have := quiet (.disconnect c) (by intro _ h; cases h) (by intro _ _ _ _ _ h; cases h)
            exact ⟨this.1, this.2, hs⟩
          · exact ⟨rfl, rfl, hs⟩
        · exact ⟨rfl, rfl, hs⟩
      | pass d =>
        simp only [step]
        split
        · split <;> exact ⟨rfl, rfl, hs⟩
        · exact ⟨rfl, rfl, hs⟩
      | exit =>
        simp only [step]
        split
        · split <;> exact ⟨rfl, rfl, hs⟩
        · exact ⟨rfl, rfl, hs⟩
      | killed => exact ⟨rfl, rfl, hs⟩
      | start => exact absurd rfl hp2
    obtain ⟨k1, k2, k3⟩ := key
    obtain ⟨h1, h2⟩ := ih (step lag s e) k3 fun e he => hp e (by simp [he])
    exact ⟨h1.trans k1, h2.trans k2⟩

example : (run 0 1000 5 (reported ++ [.stop, .completerStops])).completer = false ∧
    (run 0 1000 5 (reported ++ [.stop, .completerStops])).srv.queue ≠ [] := by decide +kernel

/-- **C84, the work is offered again.** Whatever happened before, after the server has been started again a consumer that
asks for enough chunks gets every chunk that was in the database when it ended, among them those whose reports were lost. -/
theorem C84_work_is_offered_again (lag ttl m : Nat) (evs : List Event) (c : ConnId) (r : Request)
    (offset n : Nat) (ht : 0 < ttl) (hf : FreshIds (run lag ttl m evs).srv.calls) (hc : (run lag ttl m evs).srv.conns.get c = none)
    (he : (run lag ttl m evs).phase = .ended) :
    let s := run lag ttl m evs
    let s0 := (step lag s .start).srv
    let s1 := Server.exec s0 [.connect c]
    let s2 := Server.exec s1 (.request c r (s1.view offset) :: Server.undisturbed c n)
    s.srv.db.chunks.length ≤ r.max → s.srv.db.chunks.length < n → s.srv.db.chunks ≠ [] →
    ∃ ids : List ChunkId, answersTo s2 c = [(r.nonce, some ids)] ∧ ids.Nodup ∧
      ∀ id, id ∈ ids ↔ ∃ row, chunkAt s.srv.db id = .ok row := by
  intro s s0 s1 s2 hmax hn hne
  obtain ⟨h, hh⟩ := C84_nothing_worse_than_a_crash lag ttl m evs
  have e0 : s0 = reborn s.srv := by
    show (step lag s .start).srv = _
    simp only [step]
    rw [if_pos he]
  have e1 : s1 = Server.run ttl m (h ++ [.producer (.cleanup 0 [.crash]), .connect c]) := by
    show Server.exec s0 [.connect c] = _
    rw [e0, reborn_eq, show s.srv = Server.run ttl m h from hh]
    simp [Server.run, Server.exec, List.foldl_append]
  have hc0 : s0.conns.get c = none := by
    rw [e0]
    exact (Server.get_restart s.srv s.srv.db c).trans (by rw [hc]; rfl)
  have e2 : s1 = s0.setConn c {} := by
    show Server.step s0 (.connect c) = _
    simp only [Server.step, hc0]
  have hcalls : s1.calls = s.srv.calls ++ [.cleanup 0 [.crash]] := by rw [e2, e0]; rfl
  have hdb : s1.db = s.srv.db := by rw [e2, e0]; rfl
  have := offers_everything ttl m _ c r offset n s1 e1 ht (by rw [e1]; exact Server.db_run _ _ _)
    (by
      rw [hcalls]
      unfold FreshIds
      rw [List.filterMap_append, show List.filterMap Op.insertId [.cleanup 0 [.crash]] = [] from rfl, List.append_nil]
      exact hf)
    (by rw [e2, Server.get_setConn, if_pos rfl]) (by intro id; rw [e2, e0]; rfl)
  rw [hdb] at this
  obtain ⟨ids, h1, h2, h3, -⟩ := this hmax hn hne
  exact ⟨ids, h1, h2, h3⟩

example : (run 0 1000 5 (reported ++ [.stop, .completerStops, .closes 1, .pass 500, .exit])).phase = .ended ∧
    (run 0 1000 5 (reported ++ [.stop, .completerStops, .closes 1, .pass 500, .exit])).srv.db.chunks.length = 1 := by
  decide +kernel

end Opsqueue.Shutdown
