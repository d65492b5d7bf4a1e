import Verif.Proofs.Recovery

/-!
# C86: a consumer recovers from the loss of its connection
-/

namespace Opsqueue.Recovery

open Reconnect (Result Phase)

/-- C86, in full: a call over a connection from which nothing more will be read comes to an end by its own steps, whatever
has happened; it does not wait for anything else. -/
def C86_full : Prop :=
  ∀ (es : List Event) (i c : Nat) (cl : Client.State) (b : Bool), (run es).outer.calls[i]? = some (.busy c) →
    (run es).conns[c]? = some cl → cl.background ≠ .running →
    (exec (run es) [.request i, .send i b, .finish i]).outer.calls[i]? ≠ some (.busy c)

/-- A first call, up to the point where it is about to use its connection. -/
def opening (op : Op) : List Event :=
  [.call op, .check 0, .connect 0 (some 2), .store 0, .load 0]

/-- What a call that hangs looks like. -/
def Hangs (s : State) : Prop :=
  s.outer.calls[0]? = some (.busy 0) ∧ (∃ max st, s.jobs[0]? = some ⟨.reserve max st, some 0⟩) ∧
  ∃ cl k, s.conns[0]? = some cl ∧ cl.background ≠ .running ∧ cl.healthy = true ∧ cl.calls[0]? = some k ∧ k.phase = .awaiting ∧
    k.slot = .empty

theorem hangs_step {s : State} (hw : W s) (h : Hangs s) (e : Event) (he : ∀ b, e ≠ .drop 0 b) : Hangs (step s e) := by
  obtain ⟨hb, ⟨max, st, hj⟩, cl, k, hc, hr, hh, hk, hp, hs⟩ := h
  have hlt := (List.getElem?_eq_some_iff.mp hb).1
  have hjlt := (List.getElem?_eq_some_iff.mp hj).1
  have hcon := connOf_busy hb hc
  -- the connection
  have hcl : ∀ ce, (∀ b, ce ≠ .abandon 0 b) → ∃ cl' k', Client.step cl ce = cl' ∧ cl'.background ≠ .running ∧ cl'.healthy = true ∧
      cl'.calls[0]? = some k' ∧ k'.phase = .awaiting ∧ k'.slot = .empty := by
    intro ce hce
    obtain ⟨k', h1, -, h3, h4⟩ := Client.step_call ce hk
    refine ⟨_, k', rfl, by rw [Client.step_stopped hr]; exact hr, by rw [Client.healthy_stopped hr]; exact hh, h1, ?_, ?_⟩
    · rcases h4 with h4 | h4 | h4 | ⟨b, h4⟩
      · rw [h4, hp]
      · exact absurd h4 (hce _)
      · exact absurd h4 (hce _)
      · subst h4
        rw [Client.send_call hk, if_neg (by rw [hp]; simp)] at h1
        cases h1; exact hp
    · rcases h3 with h3 | ⟨h3, -⟩ | ⟨h3, -⟩
      · rw [h3, hs]
      · exact absurd h3 hr
      · exact absurd h3 hr
  have hon : ∀ d ce, (∀ b, ce ≠ .abandon 0 b) ∨ d ≠ 0 → ∃ cl' k', (onConn s d ce).conns[0]? = some cl' ∧ cl'.background ≠ .running ∧
      cl'.healthy = true ∧ cl'.calls[0]? = some k' ∧ k'.phase = .awaiting ∧ k'.slot = .empty := by
    intro d ce hce
    rw [getElem?_onConn]
    by_cases hd : d = 0
    · subst hd
      obtain ⟨cl', k', h1, h2⟩ := hcl ce (hce.resolve_right (by simp))
      exact ⟨cl', k', by rw [if_pos rfl, hc]; simp [h1], h2⟩
    · exact ⟨cl, k, by rw [if_neg hd]; exact hc, hr, hh, hk, hp, hs⟩
  have hsame : ∃ cl' k', s.conns[0]? = some cl' ∧ cl'.background ≠ .running ∧
      cl'.healthy = true ∧ cl'.calls[0]? = some k' ∧ k'.phase = .awaiting ∧ k'.slot = .empty := ⟨cl, k, hc, hr, hh, hk, hp, hs⟩
  -- the reconnecting client
  have hout : ∀ oe : Reconnect.Event, (∀ r, oe ≠ .finish 0 r) → oe ≠ .drop 0 →
      (Reconnect.step s.outer oe).calls[0]? = some (.busy 0) := by
    intro oe h1 h2
    cases oe with
    | call => simp only [Reconnect.step]; rw [List.getElem?_append_left hlt]; exact hb
    | _ => simp only [Reconnect.step, Reconnect.goto] <;> grind
  cases e with
  | call op =>
    refine ⟨hout .call (by simp) (by simp), ⟨max, st, ?_⟩, hsame⟩
    show (s.jobs ++ [_])[0]? = _
    rw [List.getElem?_append_left hjlt]; exact hj
  | check i => exact ⟨hout (.check i) (by simp) (by simp), ⟨max, st, hj⟩, hsame⟩
  | store i => exact ⟨hout (.store i) (by simp) (by simp), ⟨max, st, hj⟩, hsame⟩
  | load i => exact ⟨hout (.load i) (by simp) (by simp), ⟨max, st, hj⟩, hsame⟩
  | reset i => exact ⟨hout (.reset i) (by simp) (by simp), ⟨max, st, hj⟩, hsame⟩
  | connect i m =>
    cases m with
    | none => exact ⟨hout (.connect i false) (by simp) (by simp), ⟨max, st, hj⟩, hsame⟩
    | some m =>
      simp only [step]
      split
      · refine ⟨hout (.connect i true) (by simp) (by simp), ⟨max, st, hj⟩, cl, k, ?_, hr, hh, hk, hp, hs⟩
        show (s.conns ++ [_])[0]? = _
        rw [List.getElem?_append_left (List.getElem?_eq_some_iff.mp hc).1]; exact hc
      · exact ⟨hb, ⟨max, st, hj⟩, hsame⟩
  | request i =>
    simp only [step]
    split
    · rename_i d cl1 max1 st1 hc1 hj1
      have hi0 : i ≠ 0 := by rintro rfl; rw [hj] at hj1; simp at hj1
      refine ⟨hb, ⟨max, st, ?_⟩, hon d _ (.inl (by simp))⟩
      show (s.jobs.set i _)[0]? = _
      rw [List.getElem?_set_ne hi0]; exact hj
    · exact ⟨hb, ⟨max, st, hj⟩, hsame⟩
  | send i ok =>
    simp only [step]
    split
    · exact ⟨hb, ⟨max, st, hj⟩, hon _ _ (.inl (by simp))⟩
    · rename_i hc1 hj1
      have hi0 : i ≠ 0 := by rintro rfl; rw [hj] at hj1; simp at hj1
      exact ⟨hout (.finish i _) (by intro r h; cases h; exact hi0 rfl) (by simp), ⟨max, st, hj⟩, hon _ _ (.inl (by simp))⟩
    · rename_i hc1 hj1
      have hi0 : i ≠ 0 := by rintro rfl; rw [hj] at hj1; simp at hj1
      exact ⟨hout (.finish i _) (by intro r h; cases h; exact hi0 rfl) (by simp), ⟨max, st, hj⟩, hon _ _ (.inl (by simp))⟩
    · exact ⟨hb, ⟨max, st, hj⟩, hsame⟩
  | finish i =>
    simp only [step]
    split
    · rename_i d cl1 max1 st1 j1 hc1 hj1
      split
      · rename_i o ho
        have hi0 : i ≠ 0 := by
          rintro rfl
          rw [hcon] at hc1; cases hc1
          rw [hj] at hj1; cases hj1
          rw [hk] at ho
          simp [Client.Call.outcome, hp, hs] at ho
        exact ⟨hout (.finish i _) (by intro r h; cases h; exact hi0 rfl) (by simp), ⟨max, st, hj⟩, hsame⟩
      · exact ⟨hb, ⟨max, st, hj⟩, hsame⟩
    · exact ⟨hb, ⟨max, st, hj⟩, hsame⟩
  | drop i sent =>
    have hi0 : i ≠ 0 := by rintro rfl; exact he sent rfl
    have ho := hout (.drop i) (by simp) (by intro h; cases h; exact hi0 rfl)
    simp only [step]
    split
    · rename_i d cl1 max1 st1 j1 hc1 hj1
      obtain ⟨hb1, -⟩ := connOf_some hc1
      refine ⟨ho, ⟨max, st, hj⟩, hon d _ ?_⟩
      by_cases hd : d = 0
      · left
        subst hd
        rintro b hab
        cases hab
        exact hi0 (hw.inj i 0 0 0 _ _ hb1 hb hj1 hj)
      · exact .inr hd
    · exact ⟨ho, ⟨max, st, hj⟩, hon _ _ (.inl (by simp))⟩
    · exact ⟨ho, ⟨max, st, hj⟩, hon _ _ (.inl (by simp))⟩
    · exact ⟨ho, ⟨max, st, hj⟩, hsame⟩
  | incoming d e =>
    cases e with
    | cancelled =>
      simp only [step]
      split
      · exact ⟨hb, ⟨max, st, hj⟩, hsame⟩
      · exact ⟨hb, ⟨max, st, hj⟩, hon _ _ (.inl (by simp))⟩
    | _ =>
      simp only [step]
      split
      · split
        · exact ⟨hb, ⟨max, st, hj⟩, hon _ _ (.inl (by simp [Incoming.event]))⟩
        · exact ⟨hout (.unhealthy d) (by simp) (by simp), ⟨max, st, hj⟩, hon _ _ (.inl (by simp [Incoming.event]))⟩
      · exact ⟨hb, ⟨max, st, hj⟩, hon _ _ (.inl (by simp [Incoming.event]))⟩

theorem hangs_run (es more : List Event) (h : Hangs (run es)) (he : ∀ b, Event.drop 0 b ∉ more) : Hangs (run (es ++ more)) := by
  induction more using snoc_induction with
  | nil => simpa using h
  | snoc more e ih =>
    rw [← List.append_assoc, run_snoc]
    refine hangs_step (w_run _) (ih fun b hm => he b (by simp [hm])) e ?_
    rintro b rfl
    exact he b (by simp)

theorem hangs_spec {s : State} (h : Hangs s) : s.outer.calls[0]? = some (.busy 0) ∧ (s.conns[0]?.map Client.State.healthy) = some true := by
  obtain ⟨hb, -, cl, k, hc, -, hh, -⟩ := h
  exact ⟨hb, by rw [hc]; simp [hh]⟩

/-- **C86** does not hold in full: after an error in reading that leaves the socket open, a call waits for a response nobody will
read. It waits forever, while the client says it is healthy, unless the caller gives it up. -/
theorem C86_refuted_read_error : ¬ C86_full ∧ ∀ more, (∀ b, Event.drop 0 b ∉ more) →
    let s := run (opening (.reserve 1 .oldest) ++ [.incoming 0 (.readError false), .request 0, .send 0 true] ++ more)
    s.outer.calls[0]? = some (.busy 0) ∧ (s.conns[0]?.map Client.State.healthy) = some true := by
  constructor
  · intro h
    exact h (opening (.reserve 1 .oldest) ++ [.incoming 0 (.readError false), .request 0, .send 0 true]) 0 0 _ true (by decide +kernel) rfl (by decide +kernel)
      (by decide +kernel)
  · intro more hm
    exact hangs_spec (hangs_run _ more ⟨by decide +kernel, ⟨_, _, rfl⟩, _, _, rfl, by decide +kernel, by decide +kernel, rfl, by decide +kernel, by decide +kernel⟩ hm)

/-- **C86** does not hold in full: after a message that cannot be read, likewise. -/
theorem C86_refuted_unreadable : ¬ C86_full ∧ ∀ more, (∀ b, Event.drop 0 b ∉ more) →
    let s := run (opening (.reserve 1 .oldest) ++ [.request 0, .send 0 true, .incoming 0 .unreadable] ++ more)
    s.outer.calls[0]? = some (.busy 0) ∧ (s.conns[0]?.map Client.State.healthy) = some true := by
  constructor
  · intro h
    exact h (opening (.reserve 1 .oldest) ++ [.request 0, .send 0 true, .incoming 0 .unreadable]) 0 0 _ true (by decide +kernel) rfl (by decide +kernel)
      (by decide +kernel)
  · intro more hm
    exact hangs_spec (hangs_run _ more ⟨by decide +kernel, ⟨_, _, rfl⟩, _, _, rfl, by decide +kernel, by decide +kernel, rfl, by decide +kernel, by decide +kernel⟩ hm)

/-- **C86** (no call hangs), for connections that are lost as a whole. At any time, whatever else is going on, a call that uses
such a connection comes to an end by its own steps: it fails, unless it had its response already. Missing: connections that
stay half open (see above). -/
theorem C86_no_hang_partial (es : List Event) (i c : Nat) (b : Bool) (hbusy : (run es).outer.calls[i]? = some (.busy c))
    (hlost : Lost (run es) c) :
    let after := exec (run es) [.request i, .send i b, .finish i]
    after.outer.calls[i]? = some (.ending .failed) ∨
    ∃ op j cl k r, (run es).jobs[i]? = some ⟨op, some j⟩ ∧ (run es).conns[c]? = some cl ∧ cl.calls[j]? = some k ∧
      k.outcome = some (.response r) ∧
      after.outer.calls[i]? = some (match r with | some _ => .returned .ok | none => .ending .misused) := by
  dsimp only
  have hil := (List.getElem?_eq_some_iff.mp hbusy).1
  rcases own_end (w_run es) hbusy hlost b with h | ⟨op, j, cl, k, r, h1, h2, h3, h4, h5⟩
  · left
    rw [h]
    simp only [Reconnect.step, hbusy, Reconnect.goto]
    rw [List.getElem?_set_self hil]
  · refine .inr ⟨op, j, cl, k, r, h1, h2, h3, h4, ?_⟩
    rw [h5]
    simp only [Reconnect.step, hbusy, Reconnect.goto]
    rw [List.getElem?_set_self hil]
    cases r <;> rfl

/-- The hypotheses of C86 are met by a call that waits for a response when the server closes the connection; it fails. -/
def waiting : List Event := opening (.reserve 1 .oldest) ++ [.request 0, .send 0 true]

theorem waiting_lost : Lost (run (waiting ++ [.incoming 0 .closed])) 0 :=
  ⟨_, rfl, by decide +kernel, by decide +kernel⟩

example : (run (waiting ++ [.incoming 0 .closed])).outer.calls[0]? = some (.busy 0) ∧
    (exec (run (waiting ++ [.incoming 0 .closed])) [.request 0, .send 0 true, .finish 0]).outer.calls[0]? =
      some (.ending .failed) := by decide +kernel

/-- A call whose response has come before the connection is lost returns it. -/
example : (exec (run (waiting ++ [.incoming 0 (.sync 0 (some [⟨7, 0⟩]) fun _ => true), .incoming 0 .closed]))
    [.request 0, .send 0 true, .finish 0]).outer.calls[0]? = some (.returned .ok) := by decide +kernel

/-- **C86** (a lost connection stays lost). -/
theorem C86_lost_for_good (es more : List Event) (c : Nat) (h : Lost (run es) c) : Lost (run (es ++ more)) c := by
  have : run (es ++ more) = exec (run es) more := by simp [run, exec]
  rw [this]; exact lost_exec h more

/-- **C86** (what a lost connection costs). After the connection is lost, as long as calls are made one at a time, at most one
call that starts later ends over it, and that one fails. -/
theorem C86_costs_one_call (es before mid mid' post post' : List Event) (e e' : Event) (c i i' : Nat) (r r' : Result)
    (hone : OneAtATime es) (h : es = before ++ mid ++ e :: post) (h' : es = before ++ mid' ++ e' :: post')
    (hlost : Lost (run before) c) (hi : (run before).outer.calls.length ≤ i) (hi' : (run before).outer.calls.length ≤ i')
    (hend : Ends (before ++ mid) e i c r) (hend' : Ends (before ++ mid') e' i' c r') :
    r = .failed ∧ mid = mid' := by
  have fails : ∀ (mid : List Event) (e : Event) (i : Nat) (r : Result), (run before).outer.calls.length ≤ i →
      Ends (before ++ mid) e i c r → r = .failed := by
    intro mid e i r hi hend
    have hl : Lost (run (before ++ mid)) c := C86_lost_for_good before mid c hlost
    obtain ⟨cl0, hc0, h1, h2⟩ := hl
    obtain ⟨cl, hc, ⟨ok, -, hr⟩ | ⟨-, op, j, k, o, hj, hk, ho, hr⟩⟩ := ends_cases hend
    · rw [hc] at hc0; cases hc0
      rw [h2] at hr
      simpa using hr
    · have hp := noWait_run before mid hlost i j op cl k hi hend.1 hj hc hk
      have : o = .error := by
        unfold Client.Call.outcome at ho
        split at ho
        · cases ho; rfl
        · exact absurd ‹k.phase = _› hp
        · exact absurd ‹k.phase = _› hp
        · cases ho
      rw [hr, this]; rfl
  refine ⟨fails mid e i r hi hend, ?_⟩
  have key : ∀ (mid mid' post post' : List Event) (e e' : Event) (i i' : Nat) (r r' : Result),
      es = before ++ mid ++ e :: post → es = before ++ mid' ++ e' :: post' → (run before).outer.calls.length ≤ i →
      Ends (before ++ mid) e i c r → Ends (before ++ mid') e' i' c r' → ¬ mid.length < mid'.length := by
    intro mid mid' post post' e e' i i' r r' h h' hi hend hend' hlt
    obtain ⟨k, hk⟩ : ∃ k, mid' = mid ++ e :: k := by
      have he := h.symm.trans h'
      rw [List.append_assoc, List.append_assoc] at he
      have he := List.append_cancel_left he
      rcases List.append_eq_append_iff.mp he with ⟨k, h1, h2⟩ | ⟨k, h1, h2⟩
      · cases k with
        | nil => rw [h1] at hlt; simp at hlt
        | cons x k => cases h2; exact ⟨k, h1⟩
      · rw [h1] at hlt; simp at hlt; omega
    have hr := fails mid e i r hi hend
    subst hr
    have hone1 : OneAtATime (before ++ mid ++ [e]) := by
      rw [h] at hone
      have : before ++ mid ++ e :: post = before ++ mid ++ [e] ++ post := by simp
      rw [this] at hone
      exact hone.prefix
    have hone2 : OneAtATime (before ++ mid ++ [e] ++ k) := by
      rw [h', hk] at hone
      have : before ++ (mid ++ e :: k) ++ e' :: post' = before ++ mid ++ [e] ++ k ++ e' :: post' := by simp
      rw [this] at hone
      exact hone.prefix
    have hdoom : Reconnect.Doomed (run (before ++ mid ++ [e])).outer c := by
      have hg := good_run hone1
      have hs := (good_run hone1.prefix).busy i c hend.1
      rcases hend.2 with h2 | h2
      · right
        refine ⟨i, _, h2, ?_⟩
        rw [run_snoc]
        rcases outer_effect (run (before ++ mid)) e with he | ⟨oe, he, -⟩
        · rw [he]; exact hs
        · rw [he]
          rw [run_snoc, he] at h2
          have hb := hend.1
          have hil := (List.getElem?_eq_some_iff.mp hb).1
          cases oe <;> simp only [Reconnect.step, Reconnect.goto] at h2 ⊢ <;> grind
      · exfalso
        rw [run_snoc] at h2
        rcases outer_effect (run (before ++ mid)) e with he | ⟨oe, he, -⟩
        · rw [he, hend.1] at h2; simp at h2
        · rw [he] at h2
          have hb := hend.1
          have hil := (List.getElem?_eq_some_iff.mp hb).1
          cases oe <;> simp only [Reconnect.step, Reconnect.goto] at h2 <;> grind
    have h3 := doomed_run k hone2 hdoom
    have h4 := hend'.1
    have heq : before ++ mid' = before ++ mid ++ [e] ++ k := by rw [hk]; simp
    rw [heq] at h4
    exact Reconnect.doomed_not_busy (good_run hone2) h3 i' h4
  have k1 := key mid mid' post post' e e' i i' r r' h h' hi hend hend'
  have k2 := key mid' mid post' post e' e i' i r' r h' h hi' hend' hend
  have hl : mid.length = mid'.length := by omega
  have he := h.symm.trans h'
  rw [List.append_assoc, List.append_assoc] at he
  exact (List.append_inj (List.append_cancel_left he) hl).1

/-- **C86** (no false alarms). A call fails only if its message could not be sent or nothing more is read from its
connection. -/
theorem C86_failures_are_real (pre : List Event) (e : Event) (i c : Nat) (h : Ends pre e i c .failed) :
    .send i false ∈ pre ++ [e] ∨ ∃ cl, (run pre).conns[c]? = some cl ∧ cl.background ≠ .running := by
  obtain ⟨cl, hc, ⟨ok, rfl, hr⟩ | ⟨-, op, j, k, o, hj, hk, ho, hr⟩⟩ := ends_cases h
  · cases ok with
    | false => exact .inl (by simp)
    | true =>
      refine .inr ⟨cl, hc, ?_⟩
      obtain ⟨m, ces, rfl⟩ := (w_run pre).ran c cl hc
      have : (Client.run m ces).sinkClosed = true := by
        cases hs : (Client.run m ces).sinkClosed with
        | true => rfl
        | false => rw [hs] at hr; simp at hr
      exact (Client.real_run m ces).sink this
  · have he : o = .error := by
      cases o with
      | error => rfl
      | response r => cases r <;> simp [resultOf] at hr
    subst he
    rcases sendFailed_run pre i j op c cl k h.1 hj hc hk with h1 | h1 | h1
    · exact .inl (by simp [h1])
    · exact .inr ⟨cl, hc, h1⟩
    · refine .inr ⟨cl, hc, ?_⟩
      obtain ⟨m, ces, rfl⟩ := (w_run pre).ran c cl hc
      obtain ⟨k0, hk0, hp⟩ := (w_run pre).inner i j c op _ h.1 hj hc
      rw [hk] at hk0; cases hk0
      unfold Client.Call.outcome at ho
      split at ho
      · exact absurd ‹k.phase = _› h1
      · cases ho
      · exact ((Client.real_run m ces).dropped j k hk ‹_›).resolve_right (by simp [Client.Call.gone, h1, hp])
      · cases ho

/-- Two calls after the server has closed the connection: the first fails, the second connects again. -/
def outage : List Event :=
  waiting ++ [.incoming 0 (.sync 0 (some [⟨7, 0⟩]) fun _ => true), .finish 0, .incoming 0 .closed] ++
  [.call (.complete ⟨7, 0⟩ none), .check 1, .load 1, .send 1 true, .reset 1] ++
  [.call (.reserve 3 .newest), .check 2, .connect 2 none, .connect 2 none, .connect 2 (some 2), .store 2, .load 2, .request 2,
   .send 2 true, .incoming 1 (.sync 0 (some [⟨7, 0⟩]) fun _ => true), .finish 2]

theorem oneAtATime_of {es : List Event}
    (h : ∀ n ≤ es.length, (match es[n]? with | some (.call _) => true | _ => false) = true →
      ((run (es.take n)).outer.calls.all Phase.over) = true) : OneAtATime es := by
  rintro pre op post rfl p hp
  have := h pre.length (by simp) (by simp)
  rw [List.take_left' rfl, List.all_eq_true] at this
  exact this p hp

/-- The hypotheses of C86 are met by the second of these calls. -/
example : OneAtATime outage ∧ Lost (run (outage.take 10)) 0 ∧ Ends (outage.take 13) (.send 1 true) 1 0 .failed ∧
    (run outage).outer.calls = [.returned .ok, .returned .failed, .returned .ok] ∧ (run outage).outer.slot = some 1 :=
  ⟨oneAtATime_of (by decide +kernel), ⟨_, rfl, by decide +kernel, by decide +kernel⟩, ⟨by decide +kernel, by decide +kernel⟩, by decide +kernel,
   by decide +kernel⟩

/-- **C86** (`is_healthy`). The answer is `true` exactly when there is a connection that has not missed too many heartbeats. -/
theorem C86_is_healthy (es : List Event) : isHealthy (run es) = Reconnect.isHealthy (run es).outer := by
  have hw := w_run es
  unfold isHealthy Reconnect.isHealthy
  cases hs : (run es).outer.slot with
  | none => rfl
  | some c =>
    dsimp only
    have hlt := hw.slot c hs
    rw [hw.health c _ (List.getElem?_eq_getElem hlt), List.getElem?_eq_getElem hlt]
    rfl

/-- **C86** (a new connection). Whatever has happened, when the client is not healthy the next call tries to connect until it
succeeds, and then uses a new connection on which nothing has happened. -/
theorem C86_new_connection (es : List Event) (op : Op) (k m : Nat) (h : isHealthy (run es) = false) :
    let n := (run es).outer.calls.length
    let after := exec (run es) ([.call op, .check n] ++ List.replicate k (.connect n none) ++
      [.connect n (some m), .store n, .load n])
    after.outer.calls[n]? = some (.busy (run es).conns.length) ∧ after.outer.slot = some (run es).conns.length ∧
    after.conns = (run es).conns ++ [Client.init m] ∧ isHealthy after = true := by
  dsimp only
  have hw := w_run es
  rw [C86_is_healthy] at h
  generalize run es = s at *
  have h1 : exec s [.call op, .check s.outer.calls.length] =
      { s with outer := { s.outer with calls := s.outer.calls ++ [.connecting] }, jobs := s.jobs ++ [{ op }] } := by
    have h' : Reconnect.isHealthy { s.outer with calls := s.outer.calls ++ [.begun] } = false := h
    simp [exec, step, outerStep, Reconnect.step, Reconnect.goto, h']
  have h2 : ∀ k (s : State) n, exec s (List.replicate k (.connect n none)) = s := by
    intro k s n
    induction k with
    | zero => rfl
    | succ k ih =>
      rw [List.replicate_succ]
      show exec (step s _) _ = s
      have : step s (.connect n none) = s := by simp [step, outerStep, Reconnect.step]
      rw [this, ih]
  have happ : ∀ (s : State) (a b : List Event), exec s (a ++ b) = exec (exec s a) b := by
    intro s a b; simp [exec]
  rw [happ, happ, h1, h2]
  have hl := hw.len
  simp [exec, step, outerStep, Reconnect.step, Reconnect.goto, hl, isHealthy, Client.init]

/-- The hypothesis of C86 is met before the first call, and after the failed call of `outage`. -/
example : isHealthy (run []) = false ∧ isHealthy (run (outage.take 15)) = false := by decide +kernel

/-- **C86** (recovery). When the connection the client has is lost without being noticed by its missing heartbeats, the next
call, whatever it is, fails without waiting for anything, and then the client is not healthy, so that the one after it
connects again (`C86_new_connection`). -/
theorem C86_recovers (es : List Event) (c : Nat) (op : Op) (b : Bool) (hslot : (run es).outer.slot = some c)
    (hlost : Lost (run es) c) (hhealthy : isHealthy (run es) = true) :
    let n := (run es).outer.calls.length
    let after := exec (run es) [.call op, .check n, .load n, .request n, .send n b, .finish n, .reset n]
    after.outer.calls[n]? = some (.returned .failed) ∧ after.outer.slot = none ∧ isHealthy after = false := by
  dsimp only
  have hw := w_run es
  rw [C86_is_healthy] at hhealthy
  generalize run es = s at *
  have h1 : exec s [.call op, .check s.outer.calls.length, .load s.outer.calls.length] =
      { s with outer := { s.outer with calls := s.outer.calls ++ [.busy c] }, jobs := s.jobs ++ [{ op }] } := by
    have h' : Reconnect.isHealthy { slot := some c, healthy := s.outer.healthy, calls := s.outer.calls ++ [.begun] } = true := by
      rw [← hhealthy]; simp [Reconnect.isHealthy, hslot]
    simp [exec, step, outerStep, Reconnect.step, Reconnect.goto, h', hslot]
  have h2 : exec s [.call op, .check s.outer.calls.length, .load s.outer.calls.length, .request s.outer.calls.length,
      .send s.outer.calls.length b, .finish s.outer.calls.length, .reset s.outer.calls.length] =
      step (exec (exec s [.call op, .check s.outer.calls.length, .load s.outer.calls.length])
        [.request s.outer.calls.length, .send s.outer.calls.length b, .finish s.outer.calls.length])
        (.reset s.outer.calls.length) := rfl
  have hw1 : W (exec s [.call op, .check s.outer.calls.length, .load s.outer.calls.length]) :=
    w_step (w_step (w_step hw (.call op)) (.check s.outer.calls.length)) (.load s.outer.calls.length)
  have hl1 := lost_exec hlost [.call op, .check s.outer.calls.length, .load s.outer.calls.length]
  rw [h2]
  rw [h1] at hw1 hl1 ⊢
  have hjob := hw.jobs
  have hbusy : (s.outer.calls ++ [Phase.busy c])[s.outer.calls.length]? = some (.busy c) := by simp
  rcases own_end hw1 (i := s.outer.calls.length) hbusy hl1 b with h | ⟨op', j, cl, k, r, hj, -⟩
  · simp only [step, outerStep, h]
    simp [Reconnect.step, Reconnect.goto, isHealthy]
  · exfalso
    simp only at hj
    rw [← hjob] at hj
    simp at hj

/-- The hypotheses of C86 are met when the server has closed the connection. -/
example : (run (outage.take 10)).outer.slot = some 0 ∧ Lost (run (outage.take 10)) 0 ∧ isHealthy (run (outage.take 10)) = true :=
  ⟨by decide +kernel, ⟨_, rfl, by decide +kernel, by decide +kernel⟩, by decide +kernel⟩

end Opsqueue.Recovery
