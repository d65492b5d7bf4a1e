import Verif.Model.Watchdog

/-!
# C71: what the health endpoint says
-/

namespace Opsqueue.Watchdog

/-- How much time passes in a piece of history. -/
def elapsed (es : List Event) : Nat := (es.map fun | .tick d => d | _ => 0).sum

/-- The event is the end of a health check. -/
def Event.isCheck : Event → Bool
  | .checked _ => true
  | _ => false

theorem elapsed_append (a b : List Event) : elapsed (a ++ b) = elapsed a + elapsed b := by
  simp [elapsed]

theorem run_append (p : Pace) (a b : List Event) : ∀ (s : State), run p s (a ++ b) = (run p s a).bind (run p · b) := by
  induction a with
  | nil => intro s; rfl
  | cons e a ih =>
    intro s
    show (step p s e).bind (run p · (a ++ b)) = ((step p s e).bind (run p · a)).bind _
    cases step p s e with
    | none => rfl
    | some s' => exact ih s'

theorem run_snoc {p : Pace} {a : List Event} {e : Event} {s s' : State} (h : run p s (a ++ [e]) = some s') :
    ∃ m, run p s a = some m ∧ step p m e = some s' := by
  rw [run_append] at h
  obtain ⟨m, h1, h2⟩ := Option.bind_eq_some_iff.1 h
  refine ⟨m, h1, ?_⟩
  simp only [run] at h2
  cases h3 : step p m e with
  | none => rw [h3] at h2; cases h2
  | some x => rw [h3] at h2; exact h2

theorem snoc_cases {P : List Event → Prop} (h0 : P []) (h1 : ∀ a e, P a → P (a ++ [e])) (l : List Event) : P l := by
  have : ∀ l : List Event, P l.reverse := by
    intro l
    induction l with
    | nil => exact h0
    | cons e l ih => rw [List.reverse_cons]; exact h1 _ _ ih
  simpa using this l.reverse

/-- The last check of a history that ends healthy. -/
def Recent (p : Pace) (h : List Event) (s : State) : Prop :=
  ∃ pre post, h = pre ++ .checked true :: post ∧ (∀ e ∈ post, e.isCheck = false ∧ e ≠ .notice) ∧
    match s.phase with
    | .sleeping t => s.now = t + elapsed post ∧ elapsed post ≤ 10000 + p.lag
    | .checking t => t ≤ s.now ∧ s.now ≤ t + p.check ∧ elapsed post ≤ 10000 + p.lag + (s.now - t)
    | .stopped => False

theorem recent (p : Pace) (h : List Event) : ∀ s, run p {} h = some s → s.healthy = true → Recent p h s := by
  induction h using snoc_cases with
  | h0 => intro s h; cases h; intro h; cases h
  | h1 a e ih =>
  intro s' hr hh
  obtain ⟨s, h1, h2⟩ := run_snoc hr
  cases e with
  | checked ok =>
    simp only [step] at h2
    split at h2
    · cases h2
      simp only at hh
      subst hh
      exact ⟨a, [], by simp, by simp, by simp [elapsed]⟩
    · cases h2
  | notice =>
    simp only [step] at h2
    split at h2
    · cases h2; cases hh
    · cases h2
  | cancel =>
    simp only [step] at h2
    cases h2
    obtain ⟨pre, post, e1, h3, h4⟩ := ih s h1 hh
    refine ⟨pre, post ++ [.cancel], by simp [e1], ?_, ?_⟩
    · intro e he
      rcases List.mem_append.1 he with he | he
      · exact h3 e he
      · rw [List.mem_singleton.1 he]; exact ⟨rfl, by simp⟩
    · rw [elapsed_append, show elapsed [.cancel] = 0 from rfl]
      exact h4
  | wake =>
    simp only [step] at h2
    split at h2
    · rename_i t ht
      split at h2
      · cases h2
        obtain ⟨pre, post, e1, h3, h4⟩ := ih s h1 hh
        refine ⟨pre, post ++ [.wake], by simp [e1], ?_, ?_⟩
        · intro e he
          rcases List.mem_append.1 he with he | he
          · exact h3 e he
          · rw [List.mem_singleton.1 he]; exact ⟨rfl, by simp⟩
        · rw [elapsed_append, show elapsed [.wake] = 0 from rfl]
          rw [ht] at h4
          simp only at h4 ⊢
          omega
      · cases h2
    · cases h2
  | tick d =>
    have hs : s' = { s with now := s.now + d } ∧ ∀ t, deadline p s = some t → s.now + d ≤ t := by
      simp only [step] at h2
      split at h2
      · rename_i hd; cases h2; exact ⟨rfl, by rw [hd]; intro t h; cases h⟩
      · rename_i t hd
        split at h2
        · rename_i hle; cases h2; exact ⟨rfl, by rw [hd]; intro t' h; cases h; exact hle⟩
        · cases h2
    obtain ⟨rfl, hd⟩ := hs
    obtain ⟨pre, post, e1, h3, h4⟩ := ih s h1 hh
    refine ⟨pre, post ++ [.tick d], by simp [e1], ?_, ?_⟩
    · intro e he
      rcases List.mem_append.1 he with he | he
      · exact h3 e he
      · rw [List.mem_singleton.1 he]; exact ⟨rfl, by simp⟩
    · rw [elapsed_append, show elapsed [.tick d] = d from by simp [elapsed]]
      unfold deadline at hd
      cases hp : s.phase with
      | stopped => rw [hp] at h4; exact h4
      | checking t =>
        rw [hp] at h4 hd
        have := hd _ rfl
        simp only at h4 ⊢
        omega
      | sleeping t =>
        rw [hp] at h4 hd
        simp only at h4 ⊢
        refine ⟨by omega, ?_⟩
        cases hc : s.cancelled with
        | none => rw [hc] at hd; have := hd _ rfl; omega
        | some c => rw [hc] at hd; have := hd _ rfl; omega

/-- **C71.** "pong" means that the latest health check to finish was a success, that the server had not noticed a shutdown
since, and that this was at most ten seconds plus the duration of a check (plus lateness of timers) ago. -/
theorem C71_pong_means_recently_checked (p : Pace) (h : List Event) (s : State) (hr : run p {} h = some s)
    (hp : ping s = (200, "pong")) :
    ∃ pre post, h = pre ++ .checked true :: post ∧ (∀ e ∈ post, e.isCheck = false ∧ e ≠ .notice) ∧
      elapsed post ≤ 10000 + p.lag + p.check := by
  have hh : s.healthy = true := by
    unfold ping at hp
    split at hp
    · assumption
    · simp at hp
  obtain ⟨pre, post, e1, h2, h3⟩ := recent p h s hr hh
  refine ⟨pre, post, e1, h2, ?_⟩
  cases hph : s.phase with
  | stopped => rw [hph] at h3; exact absurd h3 id
  | checking t => rw [hph] at h3; simp only at h3; omega
  | sleeping t => rw [hph] at h3; simp only at h3; omega

/-- **C71.** It does say "pong" if the latest check to finish was a success, unless a shutdown has begun. -/
theorem C71_pong_if_checked (p : Pace) (pre post : List Event) (s : State)
    (hr : run p {} (pre ++ .checked true :: post) = some s) (hpost : ∀ e ∈ post, e.isCheck = false)
    (hc : .cancel ∉ pre ++ .checked true :: post) : ping s = (200, "pong") := by
  have hnc : ∀ (h : List Event) (s : State), run p {} h = some s → .cancel ∉ h → s.cancelled = none := by
    intro h
    induction h using snoc_cases with
    | h0 => intro s hr _; cases hr; rfl
    | h1 a e ih =>
      intro s' hr hn
      obtain ⟨s, h1, h2⟩ := run_snoc hr
      have := ih s h1 (fun h => hn (List.mem_append_left _ h))
      cases e with
      | cancel => exact absurd (List.mem_append_right _ (List.mem_singleton.2 rfl)) hn
      | _ => simp only [step] at h2; (repeat' split at h2) <;> cases h2 <;> exact this
  suffices h : s.healthy = true by simp [ping, h]
  revert s
  induction post using snoc_cases with
  | h0 =>
    intro s hr
    obtain ⟨s0, h1, h2⟩ := run_snoc hr
    simp only [step] at h2
    split at h2
    · cases h2; rfl
    · cases h2
  | h1 b e ih =>
    intro s' hr
    have e1 : pre ++ Event.checked true :: (b ++ [e]) = (pre ++ .checked true :: b) ++ [e] := by simp
    rw [e1] at hr hc
    obtain ⟨s, h1, h2⟩ := run_snoc hr
    have hcl : .cancel ∉ pre ++ .checked true :: b := fun h => hc (List.mem_append_left _ h)
    have hh := ih (fun e he => hpost e (List.mem_append_left _ he)) hcl s h1
    have hn := hnc _ s h1 hcl
    have he := hpost e (List.mem_append_right _ (List.mem_singleton.2 rfl))
    cases e with
    | checked ok => cases he
    | notice =>
      simp only [step] at h2
      split at h2
      · rename_i h3; rw [hn] at h3; cases h3
      · cases h2
    | _ => simp only [step] at h2; (repeat' split at h2) <;> cases h2 <;> exact hh

/-- **C71.** A server whose checks do not succeed any more says so after that time at the latest, and keeps saying so. In
particular it does so before its first check. -/
theorem C71_failure_is_shown (p : Pace) (pre post : List Event) (s : State) (hr : run p {} (pre ++ post) = some s)
    (hno : .checked true ∉ post) (hlong : 10000 + p.lag + p.check < elapsed post ∨ .checked true ∉ pre) :
    ping s = (503, "unhealthy") := by
  by_cases hh : s.healthy = true
  · exfalso
    obtain ⟨a, b, e1, -, h3⟩ := C71_pong_means_recently_checked p _ s hr (by simp [ping, hh])
    have hm : Event.checked true ∈ pre ++ post := by rw [e1]; simp
    rcases hlong with hlong | hno2
    · -- the check is in `pre`, so all of `post` comes after it
      rcases List.append_eq_append_iff.1 e1 with ⟨c, rfl, hc⟩ | ⟨c, rfl, hc⟩
      · exact hno (by rw [hc]; simp)
      · cases c with
        | nil => exact hno (by simp only [List.nil_append] at hc; rw [← hc]; simp)
        | cons x c =>
          obtain ⟨-, rfl⟩ := List.cons_eq_cons.1 hc
          rw [show c.append post = c ++ post from rfl, elapsed_append] at h3
          omega
    · rcases List.mem_append.1 hm with hm | hm
      · exact hno2 hm
      · exact hno hm
  · simp [ping, hh]

/-- Where the watchdog can be after the token was cancelled at `c`. -/
theorem after_cancel (p : Pace) (hl : p.lag < 10000) (h : List Event) : ∀ s, run p {} h = some s →
    (s.phase = .stopped → s.healthy = false) ∧
    (∀ t, s.phase = .sleeping t → t ≤ s.now ∧ s.now ≤ t + 10000 + p.lag ∧
      ∀ c, s.cancelled = some c → (t ≤ c → s.now ≤ c + p.lag) ∧ (c ≤ t → t ≤ c + p.lag + p.check ∧ s.now ≤ t + p.lag)) ∧
    (∀ t, s.phase = .checking t → t ≤ s.now ∧ s.now ≤ t + p.check ∧
      ∀ c, s.cancelled = some c → t ≤ c + p.lag) ∧
    (∀ c, s.cancelled = some c → c ≤ s.now) := by
  induction h using snoc_cases with
  | h0 => intro s h; cases h; simp
  | h1 a e ih =>
  intro s' hr
  obtain ⟨s, h1, h2⟩ := run_snoc hr
  obtain ⟨i1, i2, i3, i4⟩ := ih s h1
  cases e with
  | checked ok =>
    simp only [step] at h2
    split at h2
    · rename_i t ht
      cases h2
      obtain ⟨j1, j2, j3⟩ := i3 t ht
      refine ⟨fun h => (by cases h), fun t' h => ?_, fun t' h => (by cases h), i4⟩
      cases h
      refine ⟨Nat.le_refl _, by simp only; omega, fun c hc => ?_⟩
      have := j3 c hc
      have := i4 c hc
      exact ⟨fun h => by simp only at h ⊢; omega, fun h => by simp only at h ⊢; omega⟩
    · cases h2
  | notice =>
    simp only [step] at h2
    split at h2
    · cases h2
      exact ⟨fun _ => rfl, fun t h => (by cases h), fun t h => (by cases h), i4⟩
    · cases h2
  | cancel =>
    simp only [step] at h2
    cases h2
    refine ⟨i1, fun t ht => ?_, fun t ht => ?_, fun c hc => ?_⟩
    · obtain ⟨j1, j2, j3⟩ := i2 t ht
      refine ⟨j1, j2, fun c hc => ?_⟩
      cases hcc : s.cancelled with
      | some c' => rw [hcc] at hc; cases hc; exact j3 _ hcc
      | none =>
        rw [hcc] at hc
        have : s.now = c := by simpa using hc
        simp only
        omega
    · obtain ⟨j1, j2, j3⟩ := i3 t ht
      refine ⟨j1, j2, fun c hc => ?_⟩
      cases hcc : s.cancelled with
      | some c' => rw [hcc] at hc; cases hc; exact j3 _ hcc
      | none =>
        rw [hcc] at hc
        have : s.now = c := by simpa using hc
        omega
    · cases hcc : s.cancelled with
      | some c' => rw [hcc] at hc; cases hc; exact i4 _ hcc
      | none =>
        rw [hcc] at hc
        have : s.now = c := by simpa using hc
        simp only
        omega
  | wake =>
    simp only [step] at h2
    split at h2
    · rename_i t ht
      split at h2
      · rename_i hle
        cases h2
        obtain ⟨j1, j2, j3⟩ := i2 t ht
        refine ⟨fun h => (by cases h), fun t' h => (by cases h), fun t' h => ?_, i4⟩
        cases h
        refine ⟨Nat.le_refl _, Nat.le_add_right _ _, fun c hc => ?_⟩
        have := j3 c hc
        omega
      · cases h2
    · cases h2
  | tick d =>
    have hs : s' = { s with now := s.now + d } ∧ ∀ t, deadline p s = some t → s.now + d ≤ t := by
      simp only [step] at h2
      split at h2
      · rename_i hd; cases h2; exact ⟨rfl, by rw [hd]; intro t h; cases h⟩
      · rename_i t hd
        split at h2
        · rename_i hle; cases h2; exact ⟨rfl, by rw [hd]; intro t' h; cases h; exact hle⟩
        · cases h2
    obtain ⟨rfl, hd⟩ := hs
    unfold deadline at hd
    refine ⟨i1, fun t ht => ?_, fun t ht => ?_, fun c hc => ?_⟩
    · simp only at ht
      obtain ⟨j1, j2, j3⟩ := i2 t ht
      rw [ht] at hd
      cases hcc : s.cancelled with
      | none =>
        rw [hcc] at hd
        have := hd _ rfl
        exact ⟨by simp only; omega, by simp only; omega, fun c hc => by cases hc⟩
      | some c' =>
        rw [hcc] at hd
        have := hd _ rfl
        refine ⟨by simp only; omega, by simp only; omega, fun c hc => ?_⟩
        cases hc
        have := j3 c' hcc
        simp only
        omega
    · simp only at ht
      obtain ⟨j1, j2, j3⟩ := i3 t ht
      rw [ht] at hd
      have := hd _ rfl
      exact ⟨by simp only; omega, by simp only; omega, j3⟩
    · have := i4 c hc
      simp only
      omega

theorem now_run (p : Pace) (h : List Event) : ∀ (s s' : State), run p s h = some s' → s'.now = s.now + elapsed h := by
  induction h with
  | nil => intro s s' h; cases h; rfl
  | cons e h ih =>
    intro s s' hr
    obtain ⟨m, h1, h2⟩ := Option.bind_eq_some_iff.1 hr
    have := ih m s' h2
    have hm : m.now = s.now + elapsed [e] := by
      cases e <;> simp only [step] at h1 <;> (repeat' split at h1) <;> cases h1 <;> simp [elapsed]
    have := elapsed_append [e] h
    simp only [List.singleton_append] at this
    omega

theorem cancelled_kept (p : Pace) (h : List Event) : ∀ (s s' : State) (c : Nat), run p s h = some s' →
    s.cancelled = some c → s'.cancelled = some c := by
  induction h with
  | nil => intro s s' c h hc; cases h; exact hc
  | cons e h ih =>
    intro s s' c hr hc
    obtain ⟨m, h1, h2⟩ := Option.bind_eq_some_iff.1 hr
    refine ih m s' c h2 ?_
    cases e <;> simp only [step] at h1 <;> (repeat' split at h1) <;> cases h1 <;> simp_all

/-- **C71.** Once a shutdown has begun, the server stops saying "pong" after the duration of a check (plus lateness of
timers) at the latest: traffic is sent elsewhere. -/
theorem C71_shutdown_is_shown (p : Pace) (hl : p.lag < 10000) (pre post : List Event) (s : State)
    (hr : run p {} (pre ++ .cancel :: post) = some s) (hlong : 2 * p.lag + p.check < elapsed post) :
    ping s = (503, "unhealthy") := by
  have e1 : pre ++ Event.cancel :: post = (pre ++ [.cancel]) ++ post := by simp
  have hr0 := hr
  rw [e1, run_append] at hr
  obtain ⟨m, h1, h2⟩ := Option.bind_eq_some_iff.1 hr
  obtain ⟨m0, h3, h4⟩ := run_snoc h1
  simp only [step] at h4
  obtain ⟨c, hc, hcm⟩ : ∃ c, m.cancelled = some c ∧ c ≤ m.now := by
    obtain ⟨-, -, -, i4⟩ := after_cancel p hl _ m h1
    cases h4
    cases hcc : m0.cancelled with
    | some c => exact ⟨c, by simp [hcc], i4 c (by simp [hcc])⟩
    | none => exact ⟨m0.now, by simp [hcc], Nat.le_refl _⟩
  have hn := now_run p post m s h2
  have hcs := cancelled_kept p post m s c h2 hc
  obtain ⟨i1, i2, i3, i4⟩ := after_cancel p hl _ s hr0
  cases hp : s.phase with
  | stopped => simp [ping, i1 hp]
  | sleeping t =>
    exfalso
    have := (i2 t hp).2.2 c hcs
    rcases Nat.le_total t c with hle | hle
    · have := this.1 hle; omega
    · have := this.2 hle; omega
  | checking t =>
    exfalso
    have := i3 t hp
    have := this.2.2 c hcs
    omega

/-- A server that starts, is healthy, breaks, and is shut down. -/
def exampleLife : List Event :=
  [.tick 3, .checked true, .tick 10001, .wake, .tick 4, .checked true, .tick 10000, .wake, .tick 5]

example : (run ⟨5, 2⟩ {} exampleLife).map ping = some (200, "pong") ∧
    (run ⟨5, 2⟩ {} (exampleLife ++ [.checked false, .tick 10002])).map ping = some (503, "unhealthy") ∧
    (run ⟨5, 2⟩ {} (exampleLife ++ [.cancel, .checked true, .tick 2, .notice, .tick 100])).map ping =
      some (503, "unhealthy") ∧
    (run ⟨5, 2⟩ {} (exampleLife ++ [.checked true, .tick 5000, .cancel, .tick 2, .notice])).map ping =
      some (503, "unhealthy") ∧
    run ⟨5, 2⟩ {} (exampleLife ++ [.checked true, .tick 5000, .cancel, .tick 3]) = none ∧
    run ⟨5, 2⟩ {} (exampleLife ++ [.tick 1]) = none := by decide +kernel

/-- **C71, what a comment promises** (the one at `check_health`: "this handles the case where for whatever reason some other
thing holds the write lock"): the check fails while submissions cannot be inserted because of a lock. -/
def C71_lock_is_noticed : Prop := ∀ locked, succeeds locked checkHealth = true → succeeds locked insertion = true

/-- It is false: the check only reads, and readers are not held up by the lock. -/
theorem C71_refuted_write_lock : ¬ C71_lock_is_noticed := by
  intro h
  exact absurd (h true (by decide)) (by decide)

end Opsqueue.Watchdog
