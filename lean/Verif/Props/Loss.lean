import Verif.Props.Recovery

/-!
# C86: a connection that is in use is lost only for a reason
-/

namespace Opsqueue.Recovery
open Reconnect (Phase held)

theorem not_held_step {s : Reconnect.State} (e : Reconnect.Event) {c : Nat} (hc : c < s.healthy.length) (h : ¬ held s c) :
    ¬ held (Reconnect.step s e) c := by
  have h1 : s.slot ≠ some c := fun h' => h (.inl h')
  have h2 : Phase.busy c ∉ s.calls := fun h' => h (.inr (.inl h'))
  have h3 : Phase.connected c ∉ s.calls := fun h' => h (.inr (.inr h'))
  have set : ∀ (i : Nat) (p : Phase), p ≠ .busy c → p ≠ .connected c →
      Phase.busy c ∉ s.calls.set i p ∧ Phase.connected c ∉ s.calls.set i p := by
    intro i p hb hc
    exact ⟨fun hm => (List.mem_or_eq_of_mem_set hm).elim h2 (fun e => hb e.symm),
      fun hm => (List.mem_or_eq_of_mem_set hm).elim h3 (fun e => hc e.symm)⟩
  have fin : ∀ s' : Reconnect.State, s'.slot ≠ some c → Phase.busy c ∉ s'.calls ∧ Phase.connected c ∉ s'.calls → ¬ held s' c :=
    fun s' a b hh => hh.elim a (fun hh => hh.elim b.1 b.2)
  cases e with
  | call => exact fin _ h1 ⟨by simpa [Reconnect.step] using h2, by simpa [Reconnect.step] using h3⟩
  | check i =>
    simp only [Reconnect.step]
    split
    · refine fin _ h1 (set _ _ ?_ ?_) <;> split <;> simp
    · exact h
  | connect i ok =>
    simp only [Reconnect.step]
    split
    · exact fin _ h1 (set _ _ (by simp) (by simp; omega))
    · exact h
  | store i =>
    simp only [Reconnect.step]
    split
    · rename_i d hd
      refine fin _ ?_ (set _ _ (by simp) (by simp))
      intro he
      have : d = c := by simpa using he
      subst this
      exact h3 (List.mem_of_getElem? hd)
    · exact h
  | load i =>
    simp only [Reconnect.step]
    split
    · split
      · rename_i d hd
        refine fin _ h1 (set _ _ ?_ (by simp))
        intro he
        have : d = c := by simpa using he
        subst this
        exact h1 hd
      · exact fin _ h1 (set _ _ (by simp) (by simp))
    · exact h
  | finish i r =>
    simp only [Reconnect.step]
    split
    · refine fin _ h1 (set _ _ ?_ ?_) <;> cases r <;> simp
    · exact h
  | reset i =>
    simp only [Reconnect.step]
    split
    · exact fin _ (by simp) (set _ _ (by simp) (by simp))
    · exact h
  | drop i =>
    simp only [Reconnect.step]
    split
    · exact fin _ h1 (set _ _ (by simp) (by simp))
    · exact fin _ h1 (set _ _ (by simp) (by simp))
    · exact h
  | unhealthy d => exact fin _ h1 ⟨h2, h3⟩

/-- Steps of callers do not end the background task. -/
def Caller : Client.Event → Prop
  | .call .. | .send .. | .abandon .. | .complete .. | .fail .. => True
  | _ => False

theorem caller_background (s : Client.State) (e : Client.Event) (h : Caller e) :
    (Client.step s e).background = s.background := by
  cases e <;> first | (cases h; done) | skip
  · rfl
  · simp only [Client.step, Client.update, Client.put_eq]
  · simp only [Client.step, Client.update, Client.put_eq]
  · rfl
  · rfl

theorem outer_step (s : State) (e : Event) :
    (step s e).outer = s.outer ∨ ∃ re, (step s e).outer = Reconnect.step s.outer re := by
  cases e with
  | call op => exact .inr ⟨.call, rfl⟩
  | check i => exact .inr ⟨.check i, rfl⟩
  | connect i m =>
    cases m with
    | none => exact .inr ⟨.connect i false, rfl⟩
    | some m =>
      simp only [step]
      split
      · exact .inr ⟨.connect i true, rfl⟩
      · exact .inl rfl
  | store i => exact .inr ⟨.store i, rfl⟩
  | load i => exact .inr ⟨.load i, rfl⟩
  | request i =>
    simp only [step]
    split
    · exact .inl rfl
    · exact .inl rfl
  | send i ok =>
    simp only [step]
    split
    · exact .inl rfl
    · exact .inr ⟨.finish i _, show _ = Reconnect.step _ _ by unfold report; rfl⟩
    · exact .inr ⟨.finish i _, show _ = Reconnect.step _ _ by unfold report; rfl⟩
    · exact .inl rfl
  | finish i =>
    simp only [step]
    split
    · split
      · exact .inr ⟨.finish i _, show _ = Reconnect.step _ _ by unfold outerStep; rfl⟩
      · exact .inl rfl
    · exact .inl rfl
  | reset i => exact .inr ⟨.reset i, rfl⟩
  | drop i sent =>
    right
    refine ⟨.drop i, ?_⟩
    simp only [step]
    split <;> rfl
  | incoming c x =>
    cases x with
    | cancelled =>
      simp only [step]
      split <;> exact .inl rfl
    | _ =>
      simp only [step]
      split
      · split
        · exact .inl rfl
        · exact .inr ⟨.unhealthy c, rfl⟩
      · exact .inl rfl

theorem ended_on {s : State} {d : Nat} {ce : Client.Event} {c : Nat} {cl' : Client.State}
    (hc : (onConn s d ce).conns[c]? = some cl') :
    ∃ cl, s.conns[c]? = some cl ∧ (cl' = cl ∨ (d = c ∧ cl' = Client.step cl ce)) := by
  rw [getElem?_onConn] at hc
  split at hc
  · rename_i hd
    obtain ⟨cl, h1, h2⟩ := Option.map_eq_some_iff.1 hc
    exact ⟨cl, h1, .inr ⟨hd, h2.symm⟩⟩
  · exact ⟨cl', hc, .inl rfl⟩

theorem ended_caller {s : State} {d : Nat} {ce : Client.Event} {c : Nat} {cl' : Client.State}
    (hc : (onConn s d ce).conns[c]? = some cl') (hcall : Caller ce) (hb : cl'.background ≠ .running) :
    ∃ cl, s.conns[c]? = some cl ∧ cl.background ≠ .running := by
  obtain ⟨cl, h1, rfl | ⟨-, rfl⟩⟩ := ended_on hc
  · exact ⟨_, h1, hb⟩
  · rw [caller_background _ _ hcall] at hb
    exact ⟨_, h1, hb⟩

/-- What ends the background task of a connection. -/
theorem ended_by (s : State) (e : Event) {c : Nat} {cl' : Client.State} (hc : (step s e).conns[c]? = some cl')
    (hb : cl'.background ≠ .running) :
    ∃ cl, s.conns[c]? = some cl ∧ (cl.background ≠ .running ∨
      ∃ x, e = .incoming c x ∧ cl' = Client.step cl x.event ∧ (x = .cancelled → ¬ held s.outer c)) := by
  have same : s.conns[c]? = some cl' → ∃ cl, s.conns[c]? = some cl ∧ (cl.background ≠ .running ∨
      ∃ x, e = .incoming c x ∧ cl' = Client.step cl x.event ∧ (x = .cancelled → ¬ held s.outer c)) :=
    fun h => ⟨cl', h, .inl hb⟩
  have caller : ∀ {d ce}, (onConn s d ce).conns[c]? = some cl' → Caller ce → ∃ cl, s.conns[c]? = some cl ∧
      (cl.background ≠ .running ∨ ∃ x, e = .incoming c x ∧ cl' = Client.step cl x.event ∧ (x = .cancelled → ¬ held s.outer c)) :=
    fun h hcall => (ended_caller h hcall hb).imp fun _ h => ⟨h.1, .inl h.2⟩
  cases e with
  | call op => exact same hc
  | check i => exact same hc
  | connect i m =>
    cases m with
    | none => exact same hc
    | some m =>
      simp only [step] at hc
      split at hc
      · dsimp only at hc
        rw [List.getElem?_append] at hc
        split at hc
        · exact same hc
        · rw [List.getElem?_singleton] at hc
          split at hc
          · cases hc; exact absurd rfl hb
          · cases hc
      · exact same hc
  | store i => exact same hc
  | load i => exact same hc
  | request i =>
    simp only [step] at hc
    split at hc
    · exact caller hc trivial
    · exact same hc
  | send i ok =>
    simp only [step] at hc
    split at hc
    · exact caller hc trivial
    · exact caller hc trivial
    · exact caller hc trivial
    · exact same hc
  | finish i =>
    simp only [step] at hc
    split at hc
    · split at hc
      · exact same hc
      · exact same hc
    · exact same hc
  | reset i => exact same hc
  | drop i sent =>
    simp only [step] at hc
    split at hc
    · exact caller hc trivial
    · exact caller hc trivial
    · exact caller hc trivial
    · exact same hc
  | incoming d x =>
    have go : ∀ {x}, (onConn s d x.event).conns[c]? = some cl' → (x = .cancelled → ¬ held s.outer d) →
        ∃ cl, s.conns[c]? = some cl ∧ (cl.background ≠ .running ∨
          ∃ y, Event.incoming d x = .incoming c y ∧ cl' = Client.step cl y.event ∧ (y = .cancelled → ¬ held s.outer c)) := by
      intro x h hx
      obtain ⟨cl, h1, rfl | ⟨rfl, rfl⟩⟩ := ended_on h
      · exact ⟨_, h1, .inl hb⟩
      · exact ⟨cl, h1, .inr ⟨x, rfl, rfl, hx⟩⟩
    cases x with
    | cancelled =>
      simp only [step] at hc
      split at hc
      · exact same hc
      · rename_i hn
        exact go hc fun _ => hn
    | _ =>
      simp only [step] at hc
      refine go ?_ (fun h => by cases h)
      split at hc
      · split at hc <;> exact hc
      · exact hc

/-- What an incoming event is when it ends the background task of a connection in the state `cl`: the connection is closed by
the other side, an error in reading, a message that cannot be read, a response nobody has asked for, or the heartbeat after
too many in which nothing was received. -/
def Fatal (cl : Client.State) : Incoming → Prop
  | .closed | .readError _ | .unreadable => True
  | .sync n _ _ => cl.inFlight.get n = none
  | .tick => cl.maxMissable < cl.missed
  | _ => False

theorem fatal_of {cl : Client.State} (hr : cl.background = .running) {x : Incoming} (hx : x ≠ .cancelled)
    (hb : (Client.step cl x.event).background ≠ .running) : Fatal cl x := by
  have hr' : ¬ cl.background ≠ .running := fun h => h hr
  cases x with
  | cancelled => exact absurd rfl hx
  | tick =>
    simp only [Incoming.event, Client.step, if_neg hr'] at hb
    split at hb
    · assumption
    · exact absurd hr hb
  | closed => trivial
  | readError b => trivial
  | ping =>
    simp only [Incoming.event, Client.step, if_neg hr'] at hb
    exact absurd hr hb
  | unreadable => trivial
  | sync n r ok =>
    simp only [Incoming.event, Client.step, if_neg hr'] at hb
    unfold Client.deliver at hb
    cases h : cl.inFlight.get n with
    | none => exact h
    | some i =>
      exfalso
      dsimp only at hb
      rw [h] at hb
      dsimp only at hb
      split at hb
      · exact hb (by rw [(Client.side_giveBack _ _ _).background]; exact hr)
      · exact hb hr
  | expired id ok =>
    simp only [Incoming.event, Client.step, if_neg hr'] at hb
    exact absurd hr hb
  | init =>
    simp only [Incoming.event, Client.step, if_neg hr'] at hb
    exact absurd hr hb

/-- **C86** (a connection in use is lost only for a reason). Whenever the background task of a connection that the client
has, or that a call uses, has ended, something has happened on that connection that ends it. In particular, it is not the
client itself that has closed it. -/
theorem C86_loss_has_a_reason (es : List Event) (c : Nat) (cl : Client.State) (hheld : held (run es).outer c)
    (hc : (run es).conns[c]? = some cl) (hb : cl.background ≠ .running) :
    ∃ pre x post cl0, es = pre ++ .incoming c x :: post ∧ (run pre).conns[c]? = some cl0 ∧
      cl0.background = .running ∧ Fatal cl0 x := by
  suffices h : ¬ held (run es).outer c ∨ ∃ pre x post cl0, es = pre ++ .incoming c x :: post ∧
      (run pre).conns[c]? = some cl0 ∧ cl0.background = .running ∧ Fatal cl0 x from h.resolve_left (fun h => h hheld)
  clear hheld
  induction es using snoc_induction generalizing cl with
  | nil => simp [run, exec] at hc
  | snoc es e ih =>
    have hs : run (es ++ [e]) = step (run es) e := by simp [run, exec]
    rw [hs] at hc ⊢
    have later : ∀ cl1, (run es).conns[c]? = some cl1 → ¬ held (run es).outer c → ¬ held (step (run es) e).outer c := by
      intro cl1 h1 h
      have hlt : c < (run es).outer.healthy.length := by
        rw [← (w_run es).len]
        exact (List.getElem?_eq_some_iff.1 h1).1
      rcases outer_step (run es) e with h' | ⟨re, h'⟩
      · rw [h']; exact h
      · rw [h']; exact not_held_step re hlt h
    obtain ⟨cl1, h1, h2⟩ := ended_by (run es) e hc hb
    by_cases hr : cl1.background = .running
    · obtain ⟨x, rfl, rfl, hx⟩ := h2.resolve_left (fun h => h hr)
      by_cases hxc : x = .cancelled
      · exact .inl (later cl1 h1 (hx hxc))
      · exact .inr ⟨es, x, [], cl1, rfl, h1, hr, fatal_of hr hxc hb⟩
    · rcases ih cl1 h1 hr with h | ⟨pre, x, post, cl0, rfl, h3⟩
      · exact .inl (later cl1 h1 h)
      · exact .inr ⟨pre, x, post ++ [e], cl0, by simp, h3⟩

/-- The server closes the connection while a call waits for its answer: the connection is still in use, its task has ended,
and the reason is there. -/
example : held (run (waiting ++ [.incoming 0 .closed])).outer 0 ∧
    (run (waiting ++ [.incoming 0 .closed])).conns[0]?.any (fun cl => decide (cl.background ≠ .running)) := by
  refine ⟨?_, by decide +kernel⟩
  unfold held; decide +kernel

/-- A client that the first heartbeats find silent does not lose its connection by that. -/
example : (run (waiting ++ [.incoming 0 .tick])).conns[0]?.any
    (fun cl => decide (cl.background = .running ∧ cl.missed = 1)) := by decide +kernel

end Opsqueue.Recovery
