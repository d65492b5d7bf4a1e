import Verif.Spec.Reconnect
import Verif.Proofs.Invariant

/-!
# Proofs about the reconnecting consumer client
-/

namespace Opsqueue.Reconnect

theorem run_snoc (es : List Event) (e : Event) : run (es ++ [e]) = step (run es) e := by
  simp [run, exec]

/-- What holds in every state reached with one call at a time. -/
structure Good (s : State) : Prop where
  known : ∀ c, s.slot = some c → c < s.healthy.length
  last : ∀ (i : Nat) (p : Phase), s.calls[i]? = some p → p.over = false → i + 1 = s.calls.length
  busy : ∀ (i c : Nat), s.calls[i]? = some (Phase.busy c) → s.slot = some c
  ready : ∀ i : Nat, s.calls[i]? = some Phase.ready → s.slot ≠ none
  connecting : ∀ i : Nat, s.calls[i]? = some Phase.connecting → ∀ c, s.slot = some c → s.healthy[c]? = some false
  connected : ∀ i d : Nat, s.calls[i]? = some (Phase.connected d) →
    d < s.healthy.length ∧ ∀ c, s.slot = some c → s.healthy[c]? = some false
  succeeded : ∀ i : Nat, s.calls[i]? = some (Phase.returned .ok) → i + 1 = s.calls.length → s.slot ≠ none
  refused : ∀ (i : Nat) (r : Result), s.calls[i]? = some (Phase.returned r) → r ≠ .ok → i + 1 = s.calls.length → s.slot = none
  calm : ∀ i : Nat, s.calls[i]? ≠ some Phase.panicked
  unhappy : ∀ i : Nat, s.calls[i]? ≠ some (Phase.ending .ok)

theorem good_nil : Good {} := by constructor <;> simp

theorem good_step {s : State} (h : Good s) (e : Event) (hc : e = .call → ∀ p ∈ s.calls, p.over = true) : Good (step s e) := by
  obtain ⟨h1, h2, h3, h4, h5, h6, h7, h8, h9, h10⟩ := h
  have hlt : ∀ {i p}, s.calls[i]? = some p → i < s.calls.length := fun h => (List.getElem?_eq_some_iff.mp h).1
  cases e with
  | call =>
    have hc := hc rfl
    have key : ∀ {i p}, (step s .call).calls[i]? = some p → (i = s.calls.length ∧ p = .begun) ∨ (s.calls[i]? = some p ∧ p.over = true) := by
      intro i p h
      simp only [step, List.getElem?_append] at h
      split at h
      · exact .inr ⟨h, hc p (List.mem_of_getElem? h)⟩
      · have : i = s.calls.length := by
          by_cases hi : i - s.calls.length = 0
          · omega
          · simp [List.getElem?_cons, hi] at h
        subst this; simp at h; exact .inl ⟨rfl, h.symm⟩
    have hlen : (step s .call).calls.length = s.calls.length + 1 := by simp [step]
    constructor
    · exact h1
    · intro i p hi ho; rcases key hi with ⟨rfl, _⟩ | ⟨_, h'⟩
      · rw [hlen]
      · simp [h'] at ho
    · intro i c hi; rcases key hi with ⟨_, h'⟩ | ⟨_, h'⟩ <;> simp [Phase.over] at h'
    · intro i hi; rcases key hi with ⟨_, h'⟩ | ⟨_, h'⟩ <;> simp [Phase.over] at h'
    · intro i hi; rcases key hi with ⟨_, h'⟩ | ⟨_, h'⟩ <;> simp [Phase.over] at h'
    · intro i d hi; rcases key hi with ⟨_, h'⟩ | ⟨_, h'⟩ <;> simp [Phase.over] at h'
    · intro i hi hl; rcases key hi with ⟨_, h'⟩ | ⟨h', _⟩
      · simp at h'
      · have := hlt h'; omega
    · intro i r hi _ hl; rcases key hi with ⟨_, h'⟩ | ⟨h', _⟩
      · simp at h'
      · have := hlt h'; omega
    · intro i hi; rcases key hi with ⟨_, h'⟩ | ⟨h', _⟩
      · simp at h'
      · exact h9 i h'
    · intro i hi; rcases key hi with ⟨_, h'⟩ | ⟨h', _⟩
      · simp at h'
      · exact h10 i h'
  | unhealthy c =>
    simp only [step]
    constructor <;> simp only [List.length_set]
    · exact h1
    · exact h2
    · exact h3
    · exact h4
    · intro i hi d hd; have := h5 i hi d hd; rw [List.getElem?_set]; split <;> grind
    · intro i d hi; refine ⟨(h6 i d hi).1, fun d hd => ?_⟩
      have := (h6 i _ hi).2 d hd; rw [List.getElem?_set]; split <;> grind
    · exact h7
    · exact h8
    · exact h9
    · exact h10
  | check j =>
    simp only [step]
    split
    case isFalse => exact ⟨h1, h2, h3, h4, h5, h6, h7, h8, h9, h10⟩
    case isTrue hj =>
      have := h2 j _ hj rfl
      unfold goto isHealthy
      constructor <;> simp only [List.length_set] <;> grind [Phase.over]
  | connect j ok =>
    simp only [step]
    split
    case isFalse => exact ⟨h1, h2, h3, h4, h5, h6, h7, h8, h9, h10⟩
    case isTrue hj =>
      have := h2 j _ hj.1 rfl
      unfold goto
      constructor <;> simp only [List.length_set, List.length_append] <;> grind [Phase.over]
  | store j =>
    simp only [step]
    split
    · rename_i d hj
      have := h2 j _ hj rfl
      unfold goto
      constructor <;> simp only [List.length_set] <;> grind [Phase.over]
    · exact ⟨h1, h2, h3, h4, h5, h6, h7, h8, h9, h10⟩
  | load j =>
    simp only [step]
    split
    case isFalse => exact ⟨h1, h2, h3, h4, h5, h6, h7, h8, h9, h10⟩
    case isTrue hj =>
      have := h2 j _ hj rfl
      split
      · unfold goto
        constructor <;> simp only [List.length_set] <;> grind [Phase.over]
      · exact absurd ‹s.slot = none› (h4 j hj)
  | finish j r =>
    simp only [step]
    split
    · rename_i d hj
      have := h2 j _ hj rfl
      unfold goto
      constructor <;> simp only [List.length_set] <;> cases r <;> grind [Phase.over]
    · exact ⟨h1, h2, h3, h4, h5, h6, h7, h8, h9, h10⟩
  | reset j =>
    simp only [step]
    split
    · rename_i r hj
      have := h2 j _ hj rfl
      unfold goto
      constructor <;> simp only [List.length_set] <;> grind [Phase.over]
    · exact ⟨h1, h2, h3, h4, h5, h6, h7, h8, h9, h10⟩
  | drop j =>
    simp only [step]
    split
    · rename_i hj
      have := h2 j _ hj rfl
      unfold goto
      constructor <;> simp only [List.length_set] <;> grind [Phase.over]
    · rename_i d hj
      have := h2 j _ hj rfl
      unfold goto
      constructor <;> simp only [List.length_set] <;> grind [Phase.over]
    · exact ⟨h1, h2, h3, h4, h5, h6, h7, h8, h9, h10⟩

theorem OneAtATime.prefix {pre post : List Event} (h : OneAtATime (pre ++ post)) : OneAtATime pre := by
  intro a b hab p hp
  exact h a (b ++ post) (by rw [hab]; simp) p hp

theorem good_run {es : List Event} (h : OneAtATime es) : Good (run es) := by
  induction es using snoc_induction with
  | nil => exact good_nil
  | snoc es e ih =>
    rw [run_snoc]
    refine good_step (ih h.prefix) e ?_
    rintro rfl
    exact h es [] rfl

theorem healthy_step {s : State} {c : Nat} (h : s.healthy[c]? = some false) (e : Event) :
    (step s e).healthy[c]? = some false := by
  cases e <;> simp only [step, goto] <;> (repeat' split) <;> grind

theorem Failed.snoc {es : List Event} {c : Nat} (h : Failed es c) (e : Event) : Failed (es ++ [e]) c := by
  rcases h with h | ⟨pre, i, post, rfl, h⟩
  · left; rw [run_snoc]; exact healthy_step h e
  · exact .inr ⟨pre, i, post ++ [e], by simp, h⟩

theorem Misused.snoc {es : List Event} {c : Nat} (h : Misused es c) (e : Event) : Misused (es ++ [e]) c := by
  rcases h with ⟨pre, i, post, rfl, h⟩
  exact ⟨pre, i, post ++ [e], by simp, h⟩

/-- When a call is about to give up the connection, something was wrong with it. -/
theorem ending_blamed {es : List Event} (h : OneAtATime es) (i : Nat) (r : Result) (c : Nat)
    (hi : (run es).calls[i]? = some (.ending r)) (hc : (run es).slot = some c) : Failed es c ∨ Misused es c := by
  induction es using snoc_induction generalizing i r c with
  | nil => simp [run, exec] at hi
  | snoc es e ih =>
    have hg := good_run h.prefix
    have ih := ih h.prefix
    have carry : Failed es c ∨ Misused es c → Failed (es ++ [e]) c ∨ Misused (es ++ [e]) c :=
      fun h => h.elim (fun h => .inl (h.snoc e)) (fun h => .inr (h.snoc e))
    by_cases hold : (run es).calls[i]? = some (.ending r) ∧ (run es).slot = some c
    · exact carry (ih i r c hold.1 hold.2)
    · rw [run_snoc] at hi hc
      cases e with
      | finish j q =>
        by_cases hb : ∃ d, (run es).calls[j]? = some (.busy d)
        · obtain ⟨d, hd⟩ := hb
          have hs := hg.busy j d hd
          have : c = d := by
            simp only [step, hd, goto] at hc
            rw [hs] at hc; exact (Option.some.inj hc).symm
          subst this
          cases q with
          | ok =>
            exfalso
            simp only [step, hd, goto] at hi hc
            grind
          | failed => exact .inl (.inr ⟨es, j, [], rfl, hd⟩)
          | misused => exact .inr ⟨es, j, [], rfl, hd⟩
        · exfalso
          simp only [step] at hi hc
          grind
      | store j =>
        exfalso
        have hl := fun d => hg.last j (.connected d)
        have hl' := hg.last i (.ending r)
        simp only [step, goto] at hi hc
        grind [Phase.over]
      | _ => exfalso; simp only [step, goto] at hi hc; grind

/-- A connection is lost in a step only when something was wrong with it. -/
theorem lost_blamed {es : List Event} {e : Event} (h : OneAtATime (es ++ [e])) (c : Nat)
    (hold : held (run es) c) (hnot : ¬ held (run (es ++ [e])) c) :
    Failed (es ++ [e]) c ∨ Misused (es ++ [e]) c := by
  have hg := good_run h.prefix
  have carry : Failed es c ∨ Misused es c → Failed (es ++ [e]) c ∨ Misused (es ++ [e]) c :=
    fun h => h.elim (fun h => .inl (h.snoc e)) (fun h => .inr (h.snoc e))
  rw [run_snoc] at hnot
  have hslot : (run es).slot = some c ∨ ∃ i : Nat, (run es).calls[i]? = some (Phase.connected c) := by
    rcases hold with h | h | h
    · exact .inl h
    · obtain ⟨i, hi⟩ := List.getElem?_of_mem h; exact .inl (hg.busy i c hi)
    · obtain ⟨i, hi⟩ := List.getElem?_of_mem h; exact .inr ⟨i, hi⟩
  have hkeep : ∀ d, (step (run es) e).slot = some d → d ≠ c := fun d hd hdc => hnot (.inl (hdc ▸ hd))
  have hconn : ∀ i : Nat, (step (run es) e).calls[i]? ≠ some (.connected c) :=
    fun i hi => hnot (.inr (.inr (List.mem_of_getElem? hi)))
  rcases hslot with hs | ⟨i, hi⟩
  · by_cases hreset : ∃ j, e = .reset j
    · obtain ⟨j, rfl⟩ := hreset
      by_cases hj : ∃ r, (run es).calls[j]? = some (.ending r)
      · obtain ⟨r, hj⟩ := hj
        exact carry (ending_blamed h.prefix j r c hj hs)
      · exfalso
        simp only [step, goto] at hkeep
        grind
    · by_cases hstore : ∃ j, e = .store j
      · obtain ⟨j, rfl⟩ := hstore
        by_cases hj : ∃ d, (run es).calls[j]? = some (.connected d)
        · obtain ⟨d, hj⟩ := hj
          exact carry (.inl (.inl ((hg.connected j d hj).2 c hs)))
        · exfalso
          simp only [step, goto] at hkeep
          grind
      · exfalso
        cases e <;> simp only [step, goto] at hkeep <;> grind
  · exfalso
    have hconn := hconn i
    have hlt := (List.getElem?_eq_some_iff.mp hi).1
    have hother : ∀ (j : Nat) (p : Phase), (run es).calls[j]? = some p → p.over = false → j = i := by
      intro j p hj hp
      have h1 := hg.last j p hj hp
      have h2 := hg.last i _ hi rfl
      omega
    cases e <;> simp only [step, goto] at hkeep hconn <;> grind [Phase.over]

/-- A lost connection was held until some step. -/
theorem lost_at {es more : List Event} {c : Nat} (hold : held (run es) c) (hnot : ¬ held (run (es ++ more)) c) :
    ∃ pre e post, more = pre ++ e :: post ∧ held (run (es ++ pre)) c ∧ ¬ held (run (es ++ pre ++ [e])) c := by
  induction more using snoc_induction with
  | nil => simp at hnot; exact absurd hold hnot
  | snoc more e ih =>
    by_cases hm : held (run (es ++ more)) c
    · exact ⟨more, e, [], rfl, hm, by simpa using hnot⟩
    · obtain ⟨pre, e', post, rfl, h1, h2⟩ := ih hm
      exact ⟨pre, e', post ++ [e], by simp, h1, h2⟩

theorem Failed.append {es : List Event} {c : Nat} (h : Failed es c) (more : List Event) : Failed (es ++ more) c := by
  induction more using snoc_induction with
  | nil => simpa using h
  | snoc more e ih => rw [← List.append_assoc]; exact ih.snoc e

theorem Misused.append {es : List Event} {c : Nat} (h : Misused es c) (more : List Event) : Misused (es ++ more) c := by
  rcases h with ⟨pre, i, post, rfl, h⟩
  exact ⟨pre, i, post ++ more, by simp, h⟩

/-- Which connection the call that began after `pre` is on its way to use. -/
structure Uses (s0 s : State) (i : Nat) : Prop where
  len : s0.healthy.length ≤ s.healthy.length
  mono : ∀ c : Nat, s0.healthy[c]? = some false → s.healthy[c]? = some false
  early : s.calls[i]? = some Phase.begun ∨ s.calls[i]? = some Phase.connecting → s.slot = s0.slot
  connecting : s.calls[i]? = some Phase.connecting → ∀ p, s0.slot = some p → s.healthy[p]? = some false
  connected : ∀ c, s.calls[i]? = some (Phase.connected c) →
    s0.healthy.length ≤ c ∧ s.slot = s0.slot ∧ ∀ p, s0.slot = some p → s.healthy[p]? = some false
  late : ∀ c, s.calls[i]? = some Phase.ready ∨ s.calls[i]? = some (Phase.busy c) → s.slot = some c →
    (s0.slot = some c ∧ s0.healthy[c]? = some true) ∨
    (s0.healthy.length ≤ c ∧ ∀ p, s0.slot = some p → s.healthy[p]? = some false)

theorem uses_step {s0 s : State} {i : Nat} (hg0 : Good s0) (hg : Good s) (hi : i < s.calls.length) (h : Uses s0 s i) (e : Event) :
    Uses s0 (step s e) i := by
  obtain ⟨h1, h2, h3, h4, h5, h6⟩ := h
  have hother : ∀ (j : Nat) (p q : Phase), s.calls[j]? = some p → p.over = false → s.calls[i]? = some q → q.over = false → j = i := by
    intro j p q hj hp hq hq'
    have a := hg.last j p hj hp
    have b := hg.last i q hq hq'
    omega
  have h2' : ∀ c : Nat, s0.healthy[c]? = some false → (step s e).healthy[c]? = some false := fun c hc => healthy_step (h2 c hc) e
  have hmono : ∀ c : Nat, s.healthy[c]? = some false → (step s e).healthy[c]? = some false := fun c hc => healthy_step hc e
  have h1' : s0.healthy.length ≤ (step s e).healthy.length := by
    cases e <;> simp only [step, goto] <;> (repeat' split) <;> first | exact h1 | (simp; omega)
  have hbusy := hg.busy i
  have hknown := hg0.known
  have hover : (∀ q, s.calls[i]? = some q → q.over = true) → ∀ q, (step s e).calls[i]? = some q → q.over = true := by
    intro ho q hq
    cases e <;> simp only [step, goto] at hq <;> grind [Phase.over]
  by_cases ho : ∀ q, s.calls[i]? = some q → q.over = true
  · have ho := hover ho
    constructor
    · exact h1'
    · exact h2'
    · intro h; rcases h with h | h <;> exact absurd (ho _ h) (by simp [Phase.over])
    · intro h; exact absurd (ho _ h) (by simp [Phase.over])
    · intro c h; exact absurd (ho _ h) (by simp [Phase.over])
    · intro c h; rcases h with h | h <;> exact absurd (ho _ h) (by simp [Phase.over])
  have hq : ∃ q, s.calls[i]? = some q ∧ q.over = false := by
    refine ⟨s.calls[i], List.getElem?_eq_getElem hi, ?_⟩
    cases hx : (s.calls[i]).over with
    | false => rfl
    | true =>
      refine absurd (fun q hq => ?_) ho
      rw [List.getElem?_eq_getElem hi] at hq
      cases hq; exact hx
  clear ho hover
  obtain ⟨q, hq, hqo⟩ := hq
  have hother : ∀ (j : Nat) (p : Phase), s.calls[j]? = some p → p.over = false → j = i ∧ p = q := by
    intro j p hj hp
    have := hother j p q hj hp hq hqo
    subst this
    rw [hq] at hj; cases hj; exact ⟨rfl, rfl⟩
  cases e with
  | call =>
    constructor <;> first | assumption | (simp only [step]; grind)
  | unhealthy d =>
    constructor <;> first | assumption | (simp only [step]; grind)
  | check j =>
    by_cases hj : s.calls[j]? = some .begun
    · obtain ⟨rfl, rfl⟩ := hother j _ hj rfl
      have hs : s.slot = s0.slot := h3 (.inl hq)
      have hk := hg.known
      have hfalse : ∀ p, s.slot = some p → s.healthy[p]? = some true ∨ s.healthy[p]? = some false := by
        intro p hp
        rw [List.getElem?_eq_getElem (hk p hp)]
        cases s.healthy[p]'(hk p hp) <;> simp
      have hfalse0 : ∀ p, s0.slot = some p → s0.healthy[p]? = some true ∨ s0.healthy[p]? = some false := by
        intro p hp
        rw [List.getElem?_eq_getElem (hknown p hp)]
        cases s0.healthy[p]'(hknown p hp) <;> simp
      constructor <;> first | assumption | (simp only [step, goto, isHealthy]; grind)
    · simp only [step, if_neg hj]; exact ⟨h1, h2, h3, h4, h5, h6⟩
  | connect j ok =>
    by_cases hj : s.calls[j]? = some .connecting ∧ ok
    · obtain ⟨rfl, rfl⟩ := hother j _ hj.1 rfl
      simp only [step, goto, if_pos hj] at *
      constructor <;> first | assumption | (dsimp only; grind)
    · simp only [step, if_neg hj]; exact ⟨h1, h2, h3, h4, h5, h6⟩
  | store j =>
    by_cases hj : ∃ d, s.calls[j]? = some (.connected d)
    · obtain ⟨d, hj⟩ := hj
      obtain ⟨rfl, rfl⟩ := hother j _ hj rfl
      simp only [step, goto, hj] at *
      constructor <;> first | assumption | (dsimp only; grind)
    · have : step s (.store j) = s := by simp only [step]; grind
      rw [this]; exact ⟨h1, h2, h3, h4, h5, h6⟩
  | load j =>
    by_cases hj : s.calls[j]? = some .ready
    · obtain ⟨rfl, rfl⟩ := hother j _ hj rfl
      cases hs : s.slot with
      | none => exact absurd hs (hg.ready j hj)
      | some c =>
        simp only [step, goto, if_pos hj, hs] at *
        constructor <;> first | assumption | (dsimp only; grind)
    · simp only [step, if_neg hj]; exact ⟨h1, h2, h3, h4, h5, h6⟩
  | finish j r =>
    by_cases hj : ∃ d, s.calls[j]? = some (.busy d)
    · obtain ⟨d, hj⟩ := hj
      obtain ⟨rfl, rfl⟩ := hother j _ hj rfl
      cases r <;> simp only [step, goto, hj] at * <;>
        (constructor <;> first | assumption | (dsimp only; grind))
    · have : step s (.finish j r) = s := by simp only [step]; grind
      rw [this]; exact ⟨h1, h2, h3, h4, h5, h6⟩
  | reset j =>
    by_cases hj : ∃ d, s.calls[j]? = some (.ending d)
    · obtain ⟨d, hj⟩ := hj
      obtain ⟨rfl, rfl⟩ := hother j _ hj rfl
      simp only [step, goto, hj] at *
      constructor <;> first | assumption | (dsimp only; grind)
    · have : step s (.reset j) = s := by simp only [step]; grind
      rw [this]; exact ⟨h1, h2, h3, h4, h5, h6⟩
  | drop j =>
    by_cases hj : s.calls[j]? = some .connecting ∨ ∃ d, s.calls[j]? = some (.busy d)
    · rcases hj with hj | ⟨d, hj⟩ <;> obtain ⟨rfl, rfl⟩ := hother j _ hj rfl <;>
        simp only [step, goto, hj] at * <;>
        (constructor <;> first | assumption | (dsimp only; grind))
    · have : step s (.drop j) = s := by simp only [step]; grind
      rw [this]; exact ⟨h1, h2, h3, h4, h5, h6⟩

theorem length_step (s : State) (e : Event) : s.calls.length ≤ (step s e).calls.length := by
  cases e <;> simp only [step, goto] <;> (repeat' split) <;> simp

theorem uses_run {pre post : List Event} (h : OneAtATime (pre ++ .call :: post)) :
    (run pre).calls.length < (run (pre ++ .call :: post)).calls.length ∧
    Uses (run pre) (run (pre ++ .call :: post)) (run pre).calls.length := by
  induction post using snoc_induction with
  | nil =>
    rw [run_snoc]
    refine ⟨by simp [step], ?_⟩
    constructor <;> simp [step]
  | snoc post e ih =>
    have h' : OneAtATime ((pre ++ .call :: post) ++ [e]) := by simpa using h
    obtain ⟨hl, hu⟩ := ih h'.prefix
    have : pre ++ .call :: (post ++ [e]) = (pre ++ .call :: post) ++ [e] := by simp
    rw [this, run_snoc]
    exact ⟨Nat.lt_of_lt_of_le hl (length_step _ e), uses_step (good_run (OneAtATime.prefix (post := .call :: post ++ [e]) (by simpa using h))) (good_run h'.prefix) hl hu e⟩

/-- As long as no call ends with an error, no connection is given up without another. -/
theorem calm_run (es : List Event) (h : ∀ i r, Event.finish i r ∈ es → r = .ok) :
    (∀ (i : Nat) (r : Result), (run es).calls[i]? ≠ some (.ending r)) ∧
    (∀ i : Nat, (run es).calls[i]? = some .ready → (run es).slot ≠ none) ∧
    (∀ i : Nat, (run es).calls[i]? ≠ some .panicked) := by
  induction es using snoc_induction with
  | nil => simp [run, exec]
  | snoc es e ih =>
    obtain ⟨h1, h2, h3⟩ := ih fun i r hm => h i r (by simp [hm])
    rw [run_snoc]
    cases e with
    | finish j r =>
      have : r = .ok := h j r (by simp)
      subst this
      refine ⟨?_, ?_, ?_⟩ <;> simp only [step, goto] <;> grind
    | check j => refine ⟨?_, ?_, ?_⟩ <;> simp only [step, goto, isHealthy] <;> grind
    | _ => refine ⟨?_, ?_, ?_⟩ <;> simp only [step, goto] <;> grind

theorem healthy_length_step (s : State) (e : Event) : s.healthy.length ≤ (step s e).healthy.length := by
  cases e <;> simp only [step, goto] <;> (repeat' split) <;> simp

theorem held_iff (s : State) (c : Nat) :
    held s c ↔ s.slot = some c ∨ ∃ i : Nat, s.calls[i]? = some (.busy c) ∨ s.calls[i]? = some (.connected c) := by
  unfold held
  constructor
  · rintro (h | h | h)
    · exact .inl h
    · obtain ⟨i, h⟩ := List.getElem?_of_mem h; exact .inr ⟨i, .inl h⟩
    · obtain ⟨i, h⟩ := List.getElem?_of_mem h; exact .inr ⟨i, .inr h⟩
  · rintro (h | ⟨i, h | h⟩)
    · exact .inl h
    · exact .inr (.inl (List.mem_of_getElem? h))
    · exact .inr (.inr (List.mem_of_getElem? h))

/-- A connection that was given up does not come back. -/
theorem gone_step {s : State} {c : Nat} (hc : c < s.healthy.length) (hn : ¬ held s c) (e : Event) : ¬ held (step s e) c := by
  rw [held_iff] at hn ⊢
  have h1 : s.slot ≠ some c := fun h => hn (.inl h)
  have h2 : ∀ i : Nat, s.calls[i]? ≠ some (.busy c) := fun i h => hn (.inr ⟨i, .inl h⟩)
  have h3 : ∀ i : Nat, s.calls[i]? ≠ some (.connected c) := fun i h => hn (.inr ⟨i, .inr h⟩)
  clear hn
  rintro (h | ⟨i, h | h⟩) <;> cases e <;> simp only [step, goto] at h <;> grind

/-- Connection `c` is about to be given up because of an error, or has been given up. -/
def Doomed (s : State) (c : Nat) : Prop :=
  (c < s.healthy.length ∧ ¬ held s c) ∨ ∃ (i : Nat) (r : Result), s.calls[i]? = some (.ending r) ∧ s.slot = some c

theorem doomed_not_busy {s : State} (hg : Good s) {c : Nat} (h : Doomed s c) (i : Nat) : s.calls[i]? ≠ some (.busy c) := by
  intro hi
  rcases h with ⟨-, h⟩ | ⟨j, r, hj, hs⟩
  · exact h (.inr (.inl (List.mem_of_getElem? hi)))
  · have h1 := hg.last i _ hi rfl
    have h2 := hg.last j _ hj rfl
    have : i = j := by omega
    subst this
    rw [hi] at hj; cases hj

theorem doomed_step {s : State} (hg : Good s) {c : Nat} (h : Doomed s c) (e : Event)
    (hc : e = .call → ∀ p ∈ s.calls, p.over = true) : Doomed (step s e) c := by
  rcases h with ⟨h1, h2⟩ | ⟨j, r, hj, hs⟩
  · exact .inl ⟨Nat.lt_of_lt_of_le h1 (healthy_length_step s e), gone_step h1 h2 e⟩
  · have hother : ∀ (i : Nat) (p : Phase), s.calls[i]? = some p → p.over = false → i = j ∧ p = .ending r := by
      intro i p hi hp
      have h1 := hg.last i _ hi hp
      have h2 := hg.last j _ hj rfl
      have : i = j := by omega
      subst this
      rw [hi] at hj; exact ⟨rfl, Option.some.inj hj⟩
    have hlt := (List.getElem?_eq_some_iff.mp hj).1
    by_cases he : e = .reset j
    · subst he
      left
      refine ⟨Nat.lt_of_lt_of_le (hg.known c hs) (healthy_length_step s _), ?_⟩
      rw [held_iff]
      simp only [step, hj, goto]
      rintro (h | ⟨i, h | h⟩)
      · cases h
      · have := hother i (.busy c); grind [Phase.over]
      · have := hother i (.connected c); grind [Phase.over]
    · right
      refine ⟨j, r, ?_⟩
      cases e with
      | call => exact absurd (hc rfl _ (List.mem_of_getElem? hj)) (by simp [Phase.over])
      | _ => simp only [step, goto] <;> grind [Phase.over]

theorem doomed_after {pre : List Event} {i : Nat} {r : Result} {c : Nat} (post : List Event)
    (hone : OneAtATime (pre ++ .finish i r :: post)) (hr : r ≠ .ok) (hb : (run pre).calls[i]? = some (.busy c)) :
    Doomed (run (pre ++ .finish i r :: post)) c := by
  induction post using snoc_induction with
  | nil =>
    have hs := (good_run hone.prefix).busy i c hb
    have hlt := (List.getElem?_eq_some_iff.mp hb).1
    rw [run_snoc]
    right
    refine ⟨i, r, ?_⟩
    cases r with
    | ok => exact absurd rfl hr
    | _ => simp only [step, hb, goto]; simp [hs, hlt]
  | snoc post e ih =>
    have heq : pre ++ .finish i r :: (post ++ [e]) = (pre ++ .finish i r :: post) ++ [e] := by simp
    rw [heq] at hone ⊢
    rw [run_snoc]
    refine doomed_step (good_run hone.prefix) (ih hone.prefix) e ?_
    rintro rfl
    exact hone _ [] rfl

end Opsqueue.Reconnect
