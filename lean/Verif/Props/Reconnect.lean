import Verif.Proofs.Reconnect

/-!
# C85: a consumer's connection is kept as long as it works, and replaced when it does not
-/

namespace Opsqueue.Reconnect

/-- C85, in full: however many calls run at the same time, none panics, and a connection is given up only when it has
failed. Chunks are reserved for a connection, so giving one up gives all of them back. -/
def C85_full : Prop :=
  ∀ es : List Event, .panicked ∉ (run es).calls ∧
    ∀ more c, held (run es) c → ¬ held (run (es ++ more)) c → Failed (es ++ more) c

/-- One whole call that succeeds over a connection that is there. -/
def again (i : Nat) : List Event := [.call, .check i, .load i, .finish i .ok]

/-- One whole call that succeeds after connecting. -/
def first (i : Nat) : List Event := [.call, .check i, .connect i true, .store i, .load i, .finish i .ok]

instance (s : State) (c : Nat) : Decidable (held s c) := by unfold held; infer_instance

theorem not_failed {es : List Event} {c : Nat} (h1 : (run es).healthy[c]? ≠ some false)
    (h2 : ∀ n i, es[n]? = some (.finish i .failed) → (run (es.take n)).calls[i]? ≠ some (.busy c)) : ¬ Failed es c := by
  rintro (h | ⟨pre, i, post, rfl, h⟩)
  · exact h1 h
  · exact h2 pre.length i (by simp) (by simpa using h)

/-- **C85** does not hold in full: asking for zero chunks gives up a connection nothing is wrong with, and with it all chunks
reserved before. -/
theorem C85_refuted_misuse : ¬ C85_full := by
  intro h
  refine absurd ((h (first 0)).2 [.call, .check 1, .load 1, .finish 1 .misused, .reset 1] 0 (by decide +kernel) (by decide +kernel)) ?_
  refine not_failed (by decide +kernel) fun n i => ?_
  rcases n with _|_|_|_|_|_|_|_|_|_|_|n <;> simp [first]

/-- **C85** does not hold in full: call 1 is late to notice that connection 0 has failed and gives up connection 1, which
call 2 has made since and nothing is wrong with. -/
theorem C85_refuted_late_failure : ¬ C85_full := by
  intro h
  refine absurd ((h (first 0 ++ [.call, .check 1, .load 1, .call, .check 2, .load 2, .finish 1 .failed, .reset 1] ++ first 3)).2
    [.finish 2 .failed, .reset 2] 1 (by decide +kernel) (by decide +kernel)) ?_
  refine not_failed (by decide +kernel) fun n i => ?_
  rcases n with _|_|_|_|_|_|_|_|_|_|_|_|_|_|_|_|_|_|_|_|_|_|n <;> simp [first] <;> rintro rfl <;> decide +kernel

/-- **C85** does not hold in full: two calls that both find no connection both make one; the later replaces the earlier, over
which a call has succeeded. -/
theorem C85_refuted_two_connect : ¬ C85_full := by
  intro h
  refine absurd ((h [.call, .call, .check 0, .check 1, .connect 0 true, .connect 1 true, .store 0, .load 0, .finish 0 .ok]).2
    [.store 1] 0 (by decide +kernel) (by decide +kernel)) ?_
  refine not_failed (by decide +kernel) fun n i => ?_
  rcases n with _|_|_|_|_|_|_|_|_|_|n <;> simp

/-- **C85** does not hold in full: a call panics when another gives up the connection between its check and its use. -/
theorem C85_refuted_panic : ¬ C85_full := by
  intro h
  exact absurd (h (first 0 ++ [.call, .check 1, .load 1, .call, .check 2, .finish 1 .failed, .reset 1, .load 2])).1
    (by decide +kernel)

/-- **C85**, partial: with one call at a time no call panics, and a connection is given up only when it has failed or a
call over it was misused. Missing: concurrent calls, and misuse. -/
theorem C85_one_at_a_time_partial (es : List Event) (hone : OneAtATime es) :
    .panicked ∉ (run es).calls ∧
    ∀ pre more c, es = pre ++ more → held (run pre) c → ¬ held (run es) c → Failed es c ∨ Misused es c := by
  refine ⟨fun h => ?_, ?_⟩
  · obtain ⟨i, hi⟩ := List.getElem?_of_mem h
    exact (good_run hone).calm i hi
  · rintro pre more c rfl hold hnot
    obtain ⟨a, e, b, rfl, h1, h2⟩ := lost_at hold hnot
    have hone' : OneAtATime ((pre ++ a ++ [e]) ++ b) := by simpa using hone
    have := lost_blamed hone'.prefix c h1 h2
    have heq : pre ++ (a ++ e :: b) = (pre ++ a ++ [e]) ++ b := by simp
    rw [heq]
    exact this.elim (fun h => .inl (h.append b)) (fun h => .inr (h.append b))

theorem oneAtATime_of {es : List Event}
    (h : ∀ n < es.length, es[n]? = some .call → ∀ p ∈ (run (es.take n)).calls, p.over = true) : OneAtATime es := by
  rintro pre post rfl p hp
  exact h pre.length (by simp) (by simp) p (by simpa using hp)

/-- Three calls one at a time: the first connects, the second fails, the third connects again. -/
def thrice : List Event := first 0 ++ [.call, .check 1, .load 1, .finish 1 .failed, .reset 1] ++ first 2

/-- The hypotheses of C85 are met: connection 0 is given up, after having failed, and no call panics. -/
example : OneAtATime thrice ∧ thrice = first 0 ++ thrice.drop 6 ∧ held (run (first 0)) 0 ∧ ¬ held (run thrice) 0 ∧
    Failed thrice 0 ∧ (run thrice).calls = [.returned .ok, .returned .failed, .returned .ok] := by
  refine ⟨oneAtATime_of (by decide +kernel), by decide +kernel, by decide +kernel, by decide +kernel, .inr ?_, by decide +kernel⟩
  exact ⟨thrice.take 9, 1, thrice.drop 10, by decide +kernel, by decide +kernel⟩

/-- **C85** (which connection a call uses). With one call at a time, the call that begins after `pre` uses the connection
that is there if it is healthy, and else one made since; in the latter case the one that was there has been found unhealthy. -/
theorem C85_connection_used (pre post : List Event) (hone : OneAtATime (pre ++ .call :: post)) (c : Nat)
    (hbusy : (run (pre ++ .call :: post)).calls[(run pre).calls.length]? = some (.busy c)) :
    ((run pre).slot = some c ∧ (run pre).healthy[c]? = some true) ∨
    ((run pre).healthy.length ≤ c ∧
      ∀ p, (run pre).slot = some p → (run (pre ++ .call :: post)).healthy[p]? = some false) :=
  (uses_run hone).2.late c (.inr hbusy) ((good_run hone).busy _ c hbusy)

/-- The hypotheses of C85 are met: a call over the connection that is there, and one over a new connection after the old one
was found unhealthy. -/
example : OneAtATime (first 0 ++ .call :: [.check 1, .load 1]) ∧
    (run (first 0 ++ .call :: [.check 1, .load 1])).calls[1]? = some (.busy 0) ∧
    OneAtATime (first 0 ++ .call :: [.unhealthy 0, .check 1, .connect 1 false, .connect 1 true, .store 1, .load 1]) ∧
    (run (first 0 ++ .call :: [.unhealthy 0, .check 1, .connect 1 false, .connect 1 true, .store 1, .load 1])).calls[1]? =
      some (.busy 1) :=
  ⟨oneAtATime_of (by decide +kernel), by decide +kernel, oneAtATime_of (by decide +kernel), by decide +kernel⟩

/-- **C85** (after an error). With one call at a time, after a call that returned an error no connection is kept, so the
next call makes a new one; after a call that succeeded, there is one. -/
theorem C85_after_a_call (es : List Event) (hone : OneAtATime es) (r : Result)
    (hlast : (run es).calls.getLast? = some (.returned r)) : (run es).slot = none ↔ r ≠ .ok := by
  rw [List.getLast?_eq_getElem?] at hlast
  have hg := good_run hone
  have hlt := (List.getElem?_eq_some_iff.mp hlast).1
  have hl : (run es).calls.length - 1 + 1 = (run es).calls.length := by omega
  constructor
  · rintro hs rfl
    exact hg.succeeded _ hlast hl hs
  · intro hr
    exact hg.refused _ r hlast hr hl

/-- The hypotheses of C85 are met by a call that succeeds and by one that fails. -/
example : OneAtATime (first 0) ∧ (run (first 0)).calls.getLast? = some (.returned .ok) ∧ (run (first 0)).slot = some 0 ∧
    OneAtATime (thrice.take 11) ∧ (run (thrice.take 11)).calls.getLast? = some (.returned .failed) ∧
    (run (thrice.take 11)).slot = none :=
  ⟨oneAtATime_of (by decide +kernel), by decide +kernel, by decide +kernel, oneAtATime_of (by decide +kernel), by decide +kernel,
    by decide +kernel⟩

/-- **C85** (what a lost connection costs). With one call at a time, at most one call over each connection ends with an
error. -/
theorem C85_one_error_per_connection (es : List Event) (hone : OneAtATime es) (c : Nat) (pre pre' post post' : List Event)
    (i i' : Nat) (r r' : Result) (h : es = pre ++ .finish i r :: post) (h' : es = pre' ++ .finish i' r' :: post')
    (hr : r ≠ .ok) (hr' : r' ≠ .ok) (hb : (run pre).calls[i]? = some (.busy c)) (hb' : (run pre').calls[i']? = some (.busy c)) :
    pre = pre' := by
  have key : ∀ (pre pre' post post' : List Event) (i i' : Nat) (r r' : Result), es = pre ++ .finish i r :: post →
      es = pre' ++ .finish i' r' :: post' → r ≠ .ok → (run pre).calls[i]? = some (.busy c) →
      (run pre').calls[i']? = some (.busy c) → ¬ pre.length < pre'.length := by
    intro pre pre' post post' i i' r r' h h' hr hb hb' hlt
    obtain ⟨k, hp⟩ : ∃ k, pre' = pre ++ .finish i r :: k := by
      have e := h.symm.trans h'
      rcases List.append_eq_append_iff.mp e with ⟨k, h1, h2⟩ | ⟨k, h1, h2⟩
      · cases k with
        | nil => rw [h1] at hlt; simp at hlt
        | cons x k => cases h2; exact ⟨k, h1⟩
      · rw [h1] at hlt; simp at hlt; omega
    have hone' : OneAtATime pre' := by
      rw [h'] at hone
      exact hone.prefix
    rw [hp] at hone' hb'
    exact doomed_not_busy (good_run hone') (doomed_after _ hone' hr hb) i' hb'
  have h1 := key pre pre' post post' i i' r r' h h' hr hb hb'
  have h2 := key pre' pre post' post i' i r' r h' h hr' hb' hb
  have hl : pre.length = pre'.length := by omega
  have e := h.symm.trans h'
  exact (List.append_inj e hl).1

/-- The hypotheses of C85 are met by the failed call of `thrice`. -/
example : OneAtATime thrice ∧ thrice = thrice.take 9 ++ .finish 1 .failed :: thrice.drop 10 ∧
    (run (thrice.take 9)).calls[1]? = some (.busy 0) :=
  ⟨oneAtATime_of (by decide +kernel), by decide +kernel, by decide +kernel⟩

/-- **C85** (given up for good). Whatever runs at the same time, a connection that was given up is not used again. -/
theorem C85_given_up_for_good (es more : List Event) (c : Nat) (hmade : c < (run es).healthy.length)
    (hgone : ¬ held (run es) c) : ¬ held (run (es ++ more)) c := by
  have : c < (run (es ++ more)).healthy.length ∧ ¬ held (run (es ++ more)) c := by
    induction more using snoc_induction with
    | nil => simpa using ⟨hmade, hgone⟩
    | snoc more e ih =>
      rw [← List.append_assoc, run_snoc]
      exact ⟨Nat.lt_of_lt_of_le ih.1 (healthy_length_step _ e), gone_step ih.1 ih.2 e⟩
  exact this.2

/-- The hypotheses of C85 are met by the connection that is given up in `thrice`. -/
example : 0 < (run (thrice.take 11)).healthy.length ∧ ¬ held (run (thrice.take 11)) 0 := by decide +kernel

/-- **C85** (outages). A call that finds no healthy connection tries until it gets one, however often that fails, and then
makes its request over the new connection, whatever the state of the client. -/
theorem C85_outage (s : State) (i n : Nat) (hi : s.calls[i]? = some .connecting) :
    (exec s (List.replicate n (.connect i false) ++ [.connect i true, .store i, .load i])).calls[i]? = some (.busy s.healthy.length) := by
  have hlt := (List.getElem?_eq_some_iff.mp hi).1
  have h0 : exec s (List.replicate n (.connect i false)) = s := by
    induction n with
    | zero => rfl
    | succ n ih => simpa [List.replicate_succ, exec, step] using ih
  have happ : ∀ a b, exec s (a ++ b) = exec (exec s a) b := fun a b => by simp [exec]
  rw [happ, h0]
  have hi' : s.calls[i] = .connecting := by
    rw [List.getElem?_eq_getElem hlt] at hi; exact Option.some.inj hi
  simp [exec, step, goto, hi', hlt, List.getElem?_set]

/-- The hypotheses of C85 are met by an outage in which nine attempts fail. -/
example : (run [.call, .check 0]).calls[0]? = some .connecting ∧
    (exec (run [.call, .check 0]) (List.replicate 9 (.connect 0 false) ++ [.connect 0 true, .store 0, .load 0])).calls = [.busy 0] := by
  decide +kernel

/-- **C85** (panics). Whatever runs at the same time, a call panics only after a call has given up the connection. -/
theorem C85_panics_after_an_error (es : List Event) (h : .panicked ∈ (run es).calls) :
    ∃ i r, r ≠ .ok ∧ Event.finish i r ∈ es := by
  refine Classical.byContradiction fun hno => ?_
  have hok : ∀ i r, Event.finish i r ∈ es → r = .ok :=
    fun i r hm => Classical.byContradiction fun hr => hno ⟨i, r, hr, hm⟩
  clear hno
  obtain ⟨i, hi⟩ := List.getElem?_of_mem h
  exact (calm_run es hok).2.2 i hi

/-- The hypothesis of C85 is met: see `C85_refuted_panic`. -/
example : .panicked ∈ (run (first 0 ++ [.call, .check 1, .load 1, .call, .check 2, .finish 1 .failed, .reset 1, .load 2])).calls := by
  decide +kernel

/-- **C85** (no leak). Whatever runs at the same time, when all calls are over at most one connection is left. -/
theorem C85_no_leak (es : List Event) (hover : ∀ p ∈ (run es).calls, p.over = true) (c d : Nat)
    (hc : held (run es) c) (hd : held (run es) d) : c = d := by
  have key : ∀ c, held (run es) c → (run es).slot = some c := by
    rintro c (h | h | h)
    · exact h
    · exact absurd (hover _ h) (by simp [Phase.over])
    · exact absurd (hover _ h) (by simp [Phase.over])
  exact Option.some.inj ((key c hc).symm.trans (key d hd))

/-- The hypotheses of C85 are met after two calls that each made a connection: only the second is left. -/
example : (∀ p ∈ (run [.call, .call, .check 0, .check 1, .connect 0 true, .connect 1 true, .store 0, .load 0, .finish 0 .ok,
      .store 1, .load 1, .finish 1 .ok]).calls, p.over = true) ∧
    held (run [.call, .call, .check 0, .check 1, .connect 0 true, .connect 1 true, .store 0, .load 0, .finish 0 .ok,
      .store 1, .load 1, .finish 1 .ok]) 1 ∧
    ¬ held (run [.call, .call, .check 0, .check 1, .connect 0 true, .connect 1 true, .store 0, .load 0, .finish 0 .ok,
      .store 1, .load 1, .finish 1 .ok]) 0 := by
  decide +kernel

end Opsqueue.Reconnect
