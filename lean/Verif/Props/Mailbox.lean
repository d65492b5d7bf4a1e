import Verif.Proofs.Mailbox

/-!
# C98: the completer's mailbox

A history is any interleaving of the steps of the connections, of the completer, of producers and of the clock. The mailbox holds
up to `cap` messages; in the server that is 1024 (`capacity`).
-/

namespace Opsqueue.Mailbox
open Server (ConnId ConnState)
open Conn (Report)

/-- With the mailbox bounded, the server does nothing that it does not do with one without bound; so what is proved of
`Server.run` (C23 and others) holds of it. -/
theorem C98_as_if_without_bound (cap ttl m : Nat) (h : List Action) :
    ∃ h', (run cap ttl m h).server = Server.run ttl m h' :=
  server_run cap ttl m h

/-- There are never more than 1024 reports in the mailbox, and at most one more of each connection waits. -/
theorem C98_bounded (ttl m : Nat) (h : List Action) :
    let s := run capacity ttl m h
    s.server.queue.length ≤ 1024 ∧ ((s.granted ++ s.waiting).map (·.1)).Nodup ∧
      ∀ c ∈ (s.granted ++ s.waiting).map (·.1), ∃ k, s.server.conn c = some k := by
  have g := good_run capacity ttl m h
  refine ⟨?_, g.nodup, ?_⟩
  · have := g.room
    have hc : capacity = 1024 := rfl
    omega
  · intro c hc
    obtain ⟨p, hp, rfl⟩ := List.mem_map.1 hc
    obtain ⟨k, hk, -⟩ := g.idle p hp
    exact ⟨k, hk⟩

/-- A report that comes in on an open connection that is neither fetching nor held up with an earlier report is read. -/
theorem C98_reports_are_read (cap ttl m : Nat) (h : List Action) (c : ConnId) (k : ConnState) (r : Report)
    (hk : (run cap ttl m h).server.conn c = some k) (hf : k.fetching = none)
    (hb : ∀ p ∈ (run cap ttl m h).granted ++ (run cap ttl m h).waiting, p.1 ≠ c) :
    (run cap ttl m (h ++ [.server (.report c r)])).seen = (run cap ttl m h).seen ++ [(c, r)] := by
  have hb' : busy (run cap ttl m h) c = false := by
    cases hc : busy (run cap ttl m h) c with
    | false => rfl
    | true =>
      obtain ⟨p, hp, e⟩ := busy_iff.1 hc
      exact absurd e (hb p hp)
  rw [run_snoc]
  simp only [step, hb', hk, hf]
  simp only [Bool.false_eq_true, if_false, Option.isSome_none, send]
  split <;> rfl

/-- None is lost, none is doubled and those of one consumer are not reordered: of each connection, the reports that were read are
those that the completer has taken, then those in the mailbox, then the one that waits. -/
theorem C98_nothing_is_lost (cap ttl m : Nat) (h : List Action) (c : ConnId) :
    let s := run cap ttl m h
    of c s.seen = of c s.taken ++ of c s.server.queue ++ of c (s.granted ++ s.waiting) :=
  (good_run cap ttl m h).order c

/-- First in, first out: the `i`-th message in the mailbox is the `i`-th that is taken out from then on. -/
theorem C98_in_turn (cap ttl m : Nat) (h1 h2 : List Action) (hl : Lives cap (run cap ttl m h1) h2) (i : Nat)
    (hi : i < (run cap ttl m h1).server.queue.length)
    (ht : i < (takenSince (run cap ttl m h1) (run cap ttl m (h1 ++ h2))).length) :
    (takenSince (run cap ttl m h1) (run cap ttl m (h1 ++ h2)))[i] = (run cap ttl m h1).server.queue[i] := by
  obtain ⟨new, o1, ⟨entered, o2⟩, -, -⟩ := onward (good_run cap ttl m h1) hl
  have e : run cap ttl m (h1 ++ h2) = exec cap (run cap ttl m h1) h2 := exec_append cap _ h1 h2
  have en : takenSince (run cap ttl m h1) (run cap ttl m (h1 ++ h2)) = new := by
    unfold takenSince
    rw [e, o1, List.drop_left]
  have hn : i < new.length := by rw [en] at ht; exact ht
  have h1' : (new ++ (exec cap (run cap ttl m h1) h2).server.queue)[i]? = some new[i] := by
    rw [List.getElem?_append_left hn, List.getElem?_eq_getElem hn]
  have h2' : ((run cap ttl m h1).server.queue ++ entered)[i]? = some (run cap ttl m h1).server.queue[i] := by
    rw [List.getElem?_append_left hi, List.getElem?_eq_getElem hi]
  rw [o2, h1'] at h2'
  simp only [en]
  exact Option.some.inj h2'

/-- Who waits for room gets it in turn: the report that is the `i`-th to wait waits no more once the completer has taken out more
than `i` messages; then it has got room, is in the mailbox, or was taken out itself. -/
theorem C98_room_in_turn (cap ttl m : Nat) (h1 h2 : List Action) (hl : Lives cap (run cap ttl m h1) h2) (i : Nat)
    (hi : i < (run cap ttl m h1).waiting.length)
    (ht : i < (takenSince (run cap ttl m h1) (run cap ttl m (h1 ++ h2))).length) :
    (run cap ttl m h1).waiting[i] ∈ (run cap ttl m (h1 ++ h2)).granted ∨
    (run cap ttl m h1).waiting[i] ∈ (run cap ttl m (h1 ++ h2)).server.queue ∨
    (run cap ttl m h1).waiting[i] ∈ takenSince (run cap ttl m h1) (run cap ttl m (h1 ++ h2)) := by
  obtain ⟨new, o1, -, -, o4⟩ := onward (good_run cap ttl m h1) hl
  have e : run cap ttl m (h1 ++ h2) = exec cap (run cap ttl m h1) h2 := exec_append cap _ h1 h2
  have en : takenSince (run cap ttl m h1) (run cap ttl m (h1 ++ h2)) = new := by
    unfold takenSince
    rw [e, o1, List.drop_left]
  rw [en] at ht ⊢
  rw [e]
  refine o4 _ (List.mem_append_right _ ?_)
  rw [List.mem_take_iff_getElem]
  exact ⟨i, by omega, rfl⟩

/-- Nobody waits while there is room. -/
theorem C98_no_needless_wait (cap ttl m : Nat) (h : List Action) (hw : (run cap ttl m h).waiting ≠ []) :
    (run cap ttl m h).server.queue.length + (run cap ttl m h).granted.length = cap :=
  (good_run cap ttl m h).full hw

/-- As long as the completer takes nothing out, a connection whose report waits goes on waiting, whatever happens at its other end:
it is not closed, and so the chunks of a consumer that has gone stay reserved. -/
theorem C98_held_up (cap ttl m : Nat) (h1 h2 : List Action) (hl : Lives cap (run cap ttl m h1) h2)
    (ht : (run cap ttl m (h1 ++ h2)).taken = (run cap ttl m h1).taken) (x : ConnId × Report)
    (hx : x ∈ (run cap ttl m h1).waiting) :
    x ∈ (run cap ttl m (h1 ++ h2)).waiting ∧ ∃ k, (run cap ttl m (h1 ++ h2)).server.conn x.1 = some k := by
  obtain ⟨new, o1, -, ⟨later, o3⟩, -⟩ := onward (good_run cap ttl m h1) hl
  have e : run cap ttl m (h1 ++ h2) = exec cap (run cap ttl m h1) h2 := exec_append cap _ h1 h2
  rw [← e] at o1 o3
  have hn : new = [] := by
    rw [o1] at ht
    simpa using ht
  have hw : x ∈ (run cap ttl m (h1 ++ h2)).waiting := by
    rw [o3, hn]
    exact List.mem_append_left _ hx
  obtain ⟨k, hk, -⟩ := (good_run cap ttl m (h1 ++ h2)).idle x (List.mem_append_right _ hw)
  exact ⟨hw, k, hk⟩

/-- A report that has got room enters the mailbox, behind those in it, when its task is run. -/
theorem C98_enters (cap ttl m : Nat) (h : List Action) (x : ConnId × Report) (hx : x ∈ (run cap ttl m h).granted) :
    let s := run cap ttl m h
    let s' := run cap ttl m (h ++ [.enter x.1])
    s'.server.queue = s.server.queue ++ [x] ∧ x ∉ s'.granted ++ s'.waiting := by
  have g := good_run cap ttl m h
  have g' := good_run cap ttl m (h ++ [.enter x.1])
  have hn := g.nodup
  rw [List.map_append, List.nodup_append] at hn
  dsimp only
  rw [run_snoc] at g' ⊢
  rcases step_cases cap (run cap ttl m h) (.enter x.1) with e | ⟨y, -, l1, l2, ha, hg, hl, -, e⟩ | ⟨c, r, k, ha, -⟩ | ⟨b, ha, -⟩
  · exfalso
    cases hf : (run cap ttl m h).granted.find? (fun p => p.1 == x.1) with
    | none => simpa using List.find?_eq_none.1 hf x hx
    | some y =>
      simp only [step, hf] at e
      have := congrArg (fun s => s.granted.length) e
      simp only [List.length_eraseP] at this
      have hpos := List.length_pos_of_mem hx
      rw [if_pos (List.any_eq_true.2 ⟨x, hx, by simp⟩)] at this
      omega
  · have hxy : x.1 = y.1 := by simpa using ha
    have hy : x = y := by
      rw [hg] at hx hn
      simp only [List.map_append, List.map_cons, List.nodup_append, List.nodup_cons] at hn
      rcases List.mem_append.1 hx with hx | hx
      · exact absurd hxy (hl x hx)
      · rcases List.mem_cons.1 hx with hx | hx
        · exact hx
        · exact absurd (List.mem_map.2 ⟨x, hx, hxy⟩) hn.1.2.1.1
    subst hy
    obtain ⟨k, hk, hi⟩ := g.idle x (List.mem_append_left _ hx)
    refine ⟨by rw [e, report_step hk hi], ?_⟩
    have hp : ((l1 ++ x :: l2) ++ (run cap ttl m h).waiting).Perm (x :: ((l1 ++ l2) ++ (run cap ttl m h).waiting)) := by
      simp only [List.append_assoc, List.cons_append]
      exact List.perm_middle
    have hnd := (hp.map (·.1)).nodup_iff.1 (by rw [← hg]; exact g.nodup)
    simp only [List.map_cons, List.nodup_cons] at hnd
    rw [e]
    intro hm
    exact hnd.1 (List.mem_map.2 ⟨x, hm, rfl⟩)
  · cases ha
  · cases ha

/-- The completer, when it has nothing else to do, takes out what is first in the mailbox, and deals with it as with a mailbox
without bound. -/
theorem C98_is_taken (cap ttl m : Nat) (h : List Action) (x : ConnId × Report) (q : List (ConnId × Report)) (works : Bool)
    (n1 n2 n3 : Time) (o : List Fault) (hc : (run cap ttl m h).server.completing = none)
    (hq : (run cap ttl m h).server.queue = x :: q)
    (hd : Leftover.dies (run cap ttl m h).server (.handle works n1 n2 n3 o) = false) :
    let s := run cap ttl m h
    let s' := run cap ttl m (h ++ [.server (.handle works n1 n2 n3 o)])
    s'.taken = s.taken ++ [x] ∧ s'.server = Server.step s.server (.handle works n1 n2 n3 o) ∧ s'.server.queue = q := by
  have ht : takes (run cap ttl m h).server (.handle works n1 n2 n3 o) = some x := by simp [takes, hc, hq]
  have hq' := queue_live hd (by intro c r e; cases e)
  rw [ht, hq] at hq'
  dsimp only at hq' ⊢
  rw [run_snoc]
  have : step cap (run cap ttl m h) (.server (.handle works n1 n2 n3 o)) =
      grant { run cap ttl m h with
        server := Server.step (run cap ttl m h).server (.handle works n1 n2 n3 o)
        taken := (run cap ttl m h).taken ++ [x] } := by
    simp only [step, hd, ht]
    rfl
  rw [this]
  unfold grant
  split <;> exact ⟨rfl, rfl, hq'⟩

/-- Nobody else is held up: each step, of a connection that is not held up with a report, of a producer, of the completer or of the
clock, has the same effect as with a mailbox without bound. -/
theorem C98_others_go_on (cap ttl m : Nat) (h : List Action) (a : Server.Action) (hr : ∀ c r, a ≠ .report c r)
    (hb : ∀ p ∈ (run cap ttl m h).granted ++ (run cap ttl m h).waiting, doer a ≠ some p.1) :
    (run cap ttl m (h ++ [.server a])).server = Server.step (run cap ttl m h).server a := by
  rw [run_snoc]
  have hs : step cap (run cap ttl m h) (.server a) = if (doer a).any (busy (run cap ttl m h)) then run cap ttl m h
      else if Leftover.dies (run cap ttl m h).server a then { server := Server.step (run cap ttl m h).server a }
      else match takes (run cap ttl m h).server a with
        | none => { run cap ttl m h with server := Server.step (run cap ttl m h).server a }
        | some x => grant { run cap ttl m h with
            server := Server.step (run cap ttl m h).server a, taken := (run cap ttl m h).taken ++ [x] } := by
    cases a <;> first | rfl | exact absurd rfl (hr _ _)
  have hn : ¬ (doer a).any (busy (run cap ttl m h)) = true := by
    intro ha
    obtain ⟨c, h1, h2⟩ := (Option.any_eq_true _ _).1 ha
    obtain ⟨p, hp, e⟩ := busy_iff.1 h2
    exact hb p hp (by rw [h1, e])
  rw [hs, if_neg hn]
  split
  · rfl
  · split
    · rfl
    · unfold grant; split <;> rfl

/-! Two consumers and a mailbox for a single message: the second report waits, its connection does nothing else meanwhile. The
completer takes the first message out, which gives room. -/

/-- Two connections, each with a report. -/
def crowd : List Action :=
  [.server (.connect 1), .server (.connect 2), .server (.report 1 (.complete ⟨7, 0⟩ none)), .enter 1,
   .server (.report 2 (.fail ⟨7, 1⟩ "x")), .server (.disconnect 2), .server (.report 1 (.complete ⟨7, 2⟩ none))]

/-- The completer takes a message out. -/
def take : List Action := [.server (.handle true 1 1 1 []), .server (.release true)]

example : (run 1 1000 3 crowd).waiting = [(2, .fail ⟨7, 1⟩ "x"), (1, .complete ⟨7, 2⟩ none)] ∧
    (run 1 1000 3 crowd).server.queue = [(1, .complete ⟨7, 0⟩ none)] ∧
    ((run 1 1000 3 crowd).server.conn 2).isSome = true ∧
    (run 1 1000 3 (crowd ++ take)).granted = [(2, .fail ⟨7, 1⟩ "x")] ∧
    (run 1 1000 3 (crowd ++ take)).taken = [(1, .complete ⟨7, 0⟩ none)] ∧
    (takenSince (run 1 1000 3 crowd) (run 1 1000 3 (crowd ++ take))).length = 1 := by decide +kernel

/-- The one that got room goes in; a third connection goes about its business meanwhile. -/
example : (2, Report.fail ⟨7, 1⟩ "x") ∈ (run 1 1000 3 (crowd ++ take)).granted ∧
    (run 1 1000 3 (crowd ++ take ++ [.enter 2])).server.queue = [(2, .fail ⟨7, 1⟩ "x")] ∧
    (run 1 1000 3 crowd).server.completing = none ∧
    Leftover.dies (run 1 1000 3 crowd).server (.handle true 1 1 1 []) = false ∧
    ((run 1 1000 3 (crowd ++ [.server (.connect 3)])).server.conn 3).isSome = true := by decide +kernel

theorem crowd_lives : Lives 1 (run 1 1000 3 crowd) take := by
  intro p a q e
  match p with
  | [] =>
    simp only [take, List.nil_append, List.cons.injEq, Action.server.injEq] at e
    rw [← e.1]; decide +kernel
  | [b] =>
    simp only [take, List.cons_append, List.nil_append, List.cons.injEq, Action.server.injEq] at e
    rw [← e.2.1]; rfl
  | b :: b' :: p => simp [take] at e

/-- While the completer is stuck, the end of a connection that waits goes unnoticed. -/
example : Lives 1 (run 1 1000 3 crowd) [.server (.disconnect 2)] ∧
    (run 1 1000 3 (crowd ++ [.server (.disconnect 2)])).taken = (run 1 1000 3 crowd).taken ∧
    ((run 1 1000 3 (crowd ++ [.server (.disconnect 2)])).server.conn 2).isSome = true := by
  refine ⟨fun p a q e => ?_, by decide +kernel, by decide +kernel⟩
  match p with
  | [] =>
    simp only [List.nil_append, List.cons.injEq, Action.server.injEq] at e
    rw [← e.1]; rfl
  | b :: p => simp at e

/-- With room for two, the scheduler may let the later report in first, if it is of another connection. -/
example : (run 2 1000 3 [.server (.connect 1), .server (.connect 2), .server (.report 1 (.complete ⟨7, 0⟩ none)),
    .server (.report 2 (.fail ⟨7, 1⟩ "x")), .enter 2, .enter 1]).server.queue =
    [(2, .fail ⟨7, 1⟩ "x"), (1, .complete ⟨7, 0⟩ none)] := by decide +kernel

end Opsqueue.Mailbox
