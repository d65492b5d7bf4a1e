import Verif.Spec.Recovery
import Verif.Proofs.Reconnect
import Verif.Proofs.Client

/-!
# Lemmas about a consumer client and its connections
-/

namespace Opsqueue.Client

/-- A connection that is lost as a whole has no call that waits. -/
def LostOk (s : State) : Prop :=
  s.background = .returned → s.sinkClosed = true → ∀ (i : Nat) c, s.calls[i]? = some c → c.slot = .empty →
    c.phase = .sending ∨ c.phase = .sendFailed ∨ c.phase = .abandoned

theorem put_sink (s : State) (i : Nat) (b : Bool) : (put s i b).sinkClosed = s.sinkClosed := by rw [put_eq]
theorem put_healthy (s : State) (i : Nat) (b : Bool) : (put s i b).healthy = s.healthy := by rw [put_eq]
theorem put_calls (s : State) (i : Nat) (b : Bool) : (put s i b).calls = s.calls := by rw [put_eq]

theorem sink_stopped {s : State} (h : s.background ≠ .running) (e : Event) : (step s e).sinkClosed = s.sinkClosed := by
  cases e
  case call => rfl
  case send => simp only [step, update, put_sink]
  case abandon => simp only [step, update, put_sink]
  case complete => rfl
  case fail => rfl
  all_goals (simp only [step]; rw [if_pos h])

theorem healthy_stopped {s : State} (h : s.background ≠ .running) (e : Event) : (step s e).healthy = s.healthy := by
  cases e
  case call => rfl
  case send => simp only [step, update, put_healthy]
  case abandon => simp only [step, update, put_healthy]
  case complete => rfl
  case fail => rfl
  all_goals (simp only [step]; rw [if_pos h])

theorem lostOk_step {rs : List Nat} {s : State} (hg : Good rs s) (h : LostOk s) (e : Event) : LostOk (step s e) := by
  by_cases hb : s.background = .returned
  · have hb' : s.background ≠ .running := by rw [hb]; simp
    cases hs : s.sinkClosed with
    | false =>
      intro _ h2
      rw [sink_stopped hb', hs] at h2
      cases h2
    | true =>
      have hc : Closed s := ⟨fun _ => hs, fun h1 => h h1 hs⟩
      by_cases he : e = .readError false
      · subst he
        simp only [step]; rw [if_pos hb']; exact h
      · intro h1 _; exact (closed_step hg hc e he).none h1
  · have hc : Closed s := ⟨fun h => absurd h hb, fun h => absurd h hb⟩
    by_cases he : e = .readError false
    · subst he
      intro h1 h2
      by_cases hr : s.background = .running
      · simp only [step] at h2; rw [if_neg (not_not_intro hr)] at h2; cases h2
      · rw [step_stopped hr] at h1; exact absurd h1 hb
    · intro h1 _; exact (closed_step hg hc e he).none h1

theorem lostOk_run (m : Nat) (es : List Event) : LostOk (run m es) := by
  induction es using snoc_induction with
  | nil => intro h; cases h
  | snoc es e ih => rw [run_snoc]; exact lostOk_step (good_run m es) ih e

/-- The steps of callers leave the health flag alone. -/
theorem healthy_call (s : State) (max : Nat) (st : Strategy) : (step s (.call max st)).healthy = s.healthy := rfl
theorem healthy_send (s : State) (i : Nat) (b : Bool) : (step s (.send i b)).healthy = s.healthy := by
  simp only [step, update, put_healthy]
theorem healthy_abandon (s : State) (i : Nat) (b : Bool) : (step s (.abandon i b)).healthy = s.healthy := by
  simp only [step, update, put_healthy]
theorem healthy_cancelled (s : State) : (step s .cancelled).healthy = s.healthy := by
  simp only [step]; split <;> rfl

theorem healthy_mono (s : State) (e : Event) (h : (step s e).healthy = true) : s.healthy = true := by
  by_cases hr : s.background = .running
  · cases e
    case call => exact h
    case send => rwa [healthy_send] at h
    case abandon => rwa [healthy_abandon] at h
    case complete => exact h
    case fail => exact h
    case sync n r ok =>
      simp only [step] at h
      rw [if_neg (not_not_intro hr)] at h
      rwa [(deliver_fields _ _ _ _).2.2] at h
    all_goals
      simp only [step] at h
      rw [if_neg (not_not_intro hr)] at h
      first
      | exact h
      | (split at h <;> first | (cases h; done) | exact h)
  · rwa [healthy_stopped hr] at h

theorem send_call {s : State} {j : Nat} {k : Call} (hk : s.calls[j]? = some k) (b : Bool) :
    (step s (.send j b)).calls[j]? = some (if k.phase = .sending then
      { k with phase := if b && !s.sinkClosed then .awaiting else .sendFailed } else k) := by
  simp only [step]
  rw [update_get, put_calls, hk]
  simp

theorem not_awaiting_step {s : State} (hs : s.sinkClosed = true) {j : Nat} {k k' : Call} (hk : s.calls[j]? = some k)
    (hp : k.phase ≠ .awaiting) (e : Event) (hk' : (step s e).calls[j]? = some k') : k'.phase ≠ .awaiting := by
  obtain ⟨c', h1, -, -, h4⟩ := step_call e hk
  rw [hk'] at h1; cases h1
  rcases h4 with h4 | rfl | rfl | ⟨b, rfl⟩
  · rw [h4]; exact hp
  · simp only [step] at hk'
    rw [update_get, put_calls, hk] at hk'
    simp only [if_true, Option.map_some, Option.some.injEq] at hk'
    subst hk'
    split
    · simp
    · exact hp
  · simp only [step] at hk'
    rw [update_get, put_calls, hk] at hk'
    simp only [if_true, Option.map_some, Option.some.injEq] at hk'
    subst hk'
    split
    · simp
    · exact hp
  · rw [send_call hk] at hk'
    cases hk'
    split
    · simp [hs]
    · exact hp

theorem lost_step {s : State} (h1 : s.background = .returned) (h2 : s.sinkClosed = true) (e : Event) :
    (step s e).background = .returned ∧ (step s e).sinkClosed = true := by
  have hr : s.background ≠ .running := by rw [h1]; simp
  exact ⟨by rw [step_stopped hr, h1], by rw [sink_stopped hr, h2]⟩

theorem giveBack_sink (s : State) (ids : List ChunkId) (ok : ChunkId → Bool) :
    (giveBack s ids ok).sinkClosed = s.sinkClosed := by
  unfold giveBack
  induction ids generalizing s with
  | nil => rfl
  | cons id ids ih => exact ih _

theorem deliver_sink (s : State) (n : Nat) (r : Conn.Response) (ok : ChunkId → Bool) :
    (deliver s n r ok).sinkClosed = s.sinkClosed := by
  unfold deliver
  split
  · rfl
  · dsimp only
    split
    · exact giveBack_sink _ _ _
    · rfl

theorem update_length (s : State) (i : Nat) (f : Call → Call) : (update s i f).calls.length = s.calls.length := by
  simp [update]

theorem deliver_length (s : State) (n : Nat) (r : Conn.Response) (ok : ChunkId → Bool) :
    (deliver s n r ok).calls.length = s.calls.length := by
  unfold deliver
  split
  · rfl
  · dsimp only
    split
    · rw [giveBack_calls, update_length]
    · rw [update_length]

theorem exit_length (s : State) : (exit s).calls.length = s.calls.length := by simp [exit, clear]

/-- Only a call makes a call. -/
theorem calls_new (s : State) (e : Event) :
    (step s e).calls.length = s.calls.length ∨ ∃ max st, e = .call max st := by
  cases e
  case call max st => exact .inr ⟨max, st, rfl⟩
  all_goals left
  case send => simp only [step, update_length, put_calls]
  case abandon => simp only [step, update_length, put_calls]
  case complete => rfl
  case fail => rfl
  all_goals
    simp only [step]
    split
    · rfl
    · first
      | rfl
      | exact exit_length _
      | exact deliver_length _ _ _ _
      | (split
         · exact exit_length _
         · rfl)

/-- As long as messages are read, the sender of a response is dropped only when there is no receiver. -/
theorem dropped_gone {s : State} {i : Nat} {k k' : Call} (hk : s.calls[i]? = some k) (he : k.slot = .empty)
    (hr : s.background = .running) (e : Event) (hb : (step s e).background = .running)
    (hk' : (step s e).calls[i]? = some k') (hd : k'.slot = .dropped) : k'.gone = true := by
  obtain ⟨c', h1, -, h3, -⟩ := step_call e hk
  rw [hk'] at h1; cases h1
  cases e
  case sync n r ok =>
    simp only [step] at hk' hb
    rw [if_neg (not_not_intro hr)] at hk' hb
    unfold deliver at hk' hb
    cases hg : Map.get s.inFlight n with
    | none => simp only [hg] at hb; cases hb
    | some j =>
      simp only [hg] at hk'
      split at hk'
      · rename_i hgone
        rw [giveBack_calls, update_get] at hk'
        replace hk' : (if j = i then s.calls[i]?.map Call.dropSender else s.calls[i]?) = some k' := hk'
        split at hk'
        · rename_i hji; subst hji
          rw [hk] at hk' hgone
          cases hk'
          have : k.gone = true := by simpa using hgone
          simp only [Call.gone, dropSender_phase]
          simpa [Call.gone] using this
        · rw [hk] at hk'; cases hk'; rw [he] at hd; cases hd
      · rw [update_get] at hk'
        replace hk' : (if j = i then s.calls[i]?.map (fun c => { c with slot := .value r }) else s.calls[i]?) = some k' := hk'
        split at hk'
        · rw [hk] at hk'; cases hk'; cases hd
        · rw [hk] at hk'; cases hk'; rw [he] at hd; cases hd
  case call max st =>
    simp only [step, begin] at hk'
    rw [List.getElem?_append_left (List.getElem?_eq_some_iff.mp hk).1, hk] at hk'
    cases hk'; rw [he] at hd; cases hd
  case send j b =>
    simp only [step] at hk'
    rw [update_get, put_calls, hk] at hk'
    split at hk'
    · simp only [Option.map_some, Option.some.injEq] at hk'
      subst hk'
      split at hd
      · simp only [he] at hd; cases hd
      · rw [he] at hd; cases hd
    · cases hk'; rw [he] at hd; cases hd
  case abandon j b =>
    simp only [step] at hk'
    rw [update_get, put_calls, hk] at hk'
    split at hk'
    · simp only [Option.map_some, Option.some.injEq] at hk'
      subst hk'
      split at hd
      · simp only [he] at hd; cases hd
      · rw [he] at hd; cases hd
    · cases hk'; rw [he] at hd; cases hd
  case complete => rw [show (step s _).calls = s.calls from rfl, hk] at hk'; cases hk'; rw [he] at hd; cases hd
  case fail => rw [show (step s _).calls = s.calls from rfl, hk] at hk'; cases hk'; rw [he] at hd; cases hd
  case cancelled => simp only [step] at hb; rw [if_neg (not_not_intro hr)] at hb; cases hb
  case closed => simp only [step] at hb; rw [if_neg (not_not_intro hr)] at hb; cases hb
  case readError b => simp only [step] at hb; rw [if_neg (not_not_intro hr)] at hb; cases hb
  case tick =>
    simp only [step] at hk' hb
    rw [if_neg (not_not_intro hr)] at hk' hb
    split at hb
    · cases hb
    · rename_i hm
      rw [if_neg hm] at hk'
      replace hk' : s.calls[i]? = some k' := hk'
      rw [hk] at hk'; cases hk'; rw [he] at hd; cases hd
  all_goals
    simp only [step] at hk'
    rw [if_neg (not_not_intro hr)] at hk'
    replace hk' : s.calls[i]? = some k' := hk'
    rw [hk] at hk'; cases hk'; rw [he] at hd; cases hd

/-- Signs of a lost connection are genuine. -/
structure Real (s : State) : Prop where
  sink : s.sinkClosed = true → s.background ≠ .running
  dropped : ∀ (i : Nat) k, s.calls[i]? = some k → k.slot = .dropped → s.background ≠ .running ∨ k.gone = true

theorem gone_step {s : State} {i : Nat} {k k' : Call} (hk : s.calls[i]? = some k) (hg : k.gone = true) (e : Event)
    (hk' : (step s e).calls[i]? = some k') : k'.gone = true := by
  have hph : k.phase = .sendFailed ∨ k.phase = .abandoned := by simpa [Call.gone] using hg
  obtain ⟨c', h1, -, -, h4⟩ := step_call e hk
  rw [hk'] at h1; cases h1
  have hab : ∀ b, e = .abandon i b → k'.gone = true := by
    rintro b rfl
    simp only [step] at hk'
    rw [update_get, put_calls, hk] at hk'
    simp only [if_true, Option.map_some, Option.some.injEq] at hk'
    subst hk'
    split
    · simp [Call.gone]
    · exact hg
  rcases h4 with h4 | h4 | h4 | ⟨b, rfl⟩
  · simp only [Call.gone, h4]; simpa [Call.gone] using hg
  · exact hab _ h4
  · exact hab _ h4
  · rw [send_call hk, if_neg (by rcases hph with h | h <;> rw [h] <;> simp)] at hk'
    cases hk'; exact hg

theorem background_mono {s : State} (e : Event) (h : (step s e).background = .running) : s.background = .running := by
  cases hb : s.background with
  | running => rfl
  | _ => rw [step_stopped (by rw [hb]; simp), hb] at h; cases h

theorem real_step {s : State} (h : Real s) (e : Event) : Real (step s e) := by
  constructor
  · intro hs hb
    have hr := background_mono e hb
    have h0 : s.sinkClosed = false := by
      cases hc : s.sinkClosed with
      | false => rfl
      | true => exact absurd hr (h.sink hc)
    cases e
    case call => rw [show (step s _).sinkClosed = s.sinkClosed from rfl, h0] at hs; cases hs
    case send => simp only [step, update, put_sink, h0] at hs; cases hs
    case abandon => simp only [step, update, put_sink, h0] at hs; cases hs
    case complete => rw [show (step s _).sinkClosed = s.sinkClosed from rfl, h0] at hs; cases hs
    case fail => rw [show (step s _).sinkClosed = s.sinkClosed from rfl, h0] at hs; cases hs
    case sync n r ok =>
      simp only [step] at hs hb
      rw [if_neg (not_not_intro hr)] at hs
      rw [deliver_sink, h0] at hs; cases hs
    case tick =>
      simp only [step] at hs hb
      rw [if_neg (not_not_intro hr)] at hs hb
      split at hb
      · cases hb
      · rename_i hm
        rw [if_neg hm] at hs
        rw [show ({ s with missed := s.missed + 1 } : State).sinkClosed = s.sinkClosed from rfl, h0] at hs; cases hs
    case cancelled => simp only [step] at hb; rw [if_neg (not_not_intro hr)] at hb; cases hb
    case closed => simp only [step] at hb; rw [if_neg (not_not_intro hr)] at hb; cases hb
    case readError b => simp only [step] at hb; rw [if_neg (not_not_intro hr)] at hb; cases hb
    all_goals
      simp only [step] at hs
      rw [if_neg (not_not_intro hr)] at hs
      have hs : s.sinkClosed = true := hs
      rw [h0] at hs; cases hs
  · intro i k' hk' hd
    by_cases hb : (step s e).background = .running
    · right
      have hr := background_mono e hb
      by_cases hlt : i < s.calls.length
      · have hk : s.calls[i]? = some s.calls[i] := List.getElem?_eq_getElem hlt
        obtain ⟨c', h1, -, h3, -⟩ := step_call e hk
        rw [hk'] at h1; cases h1
        rcases h3 with h3 | ⟨-, h3, h4⟩ | ⟨-, n, r, ok, -, -, h3⟩
        · rw [hd] at h3
          exact gone_step hk ((h.dropped i _ hk h3.symm).resolve_left (not_not_intro hr)) e hk'
        · exact dropped_gone hk h3 hr e hb hk' hd
        · rw [h3] at hd; cases hd
      · exfalso
        have hnew : ∀ k, (step s e).calls[i]? = some k → k.slot = .empty := by
          intro k hk
          have hl := (List.getElem?_eq_some_iff.mp hk).1
          rcases calls_new s e with hl2 | ⟨max, st, rfl⟩
          · omega
          · simp only [step, begin] at hk
            rw [List.getElem?_append_right (by omega)] at hk
            rw [List.getElem?_singleton] at hk
            split at hk
            · cases hk; rfl
            · cases hk
        rw [hnew _ hk'] at hd; cases hd
    · exact .inl hb

theorem real_run (m : Nat) (es : List Event) : Real (run m es) := by
  induction es using snoc_induction with
  | nil => exact ⟨(fun h => by cases h), (fun i k hk => by simp [run, init] at hk)⟩
  | snoc es e ih => rw [run_snoc]; exact real_step ih e

theorem calls_length_step (s : State) (e : Event) : s.calls.length ≤ (step s e).calls.length := by
  rcases Nat.eq_zero_or_pos s.calls.length with h | h
  · omega
  · have hl : s.calls[s.calls.length - 1]? = some s.calls[s.calls.length - 1] := List.getElem?_eq_getElem (by omega)
    obtain ⟨c', h1, -⟩ := step_call e hl
    have := (List.getElem?_eq_some_iff.mp h1).1
    omega

end Opsqueue.Client

namespace Opsqueue.Recovery

open Reconnect (Result Phase)

/-- What holds in every run. -/
structure W (s : State) : Prop where
  len : s.conns.length = s.outer.healthy.length
  health : ∀ (c : Nat) cl, s.conns[c]? = some cl → s.outer.healthy[c]? = some cl.healthy
  ran : ∀ (c : Nat) cl, s.conns[c]? = some cl → ∃ m ces, cl = Client.run m ces
  jobs : s.jobs.length = s.outer.calls.length
  slot : ∀ c, s.outer.slot = some c → c < s.conns.length
  conn : ∀ (i c : Nat), s.outer.calls[i]? = some (Phase.connected c) → c < s.conns.length
  busy : ∀ (i c : Nat), s.outer.calls[i]? = some (Phase.busy c) → c < s.conns.length
  early : ∀ (i : Nat) (p : Phase) (job : Job), s.outer.calls[i]? = some p → s.jobs[i]? = some job →
    p = .begun ∨ p = .connecting ∨ (∃ c, p = .connected c) ∨ p = .ready → job.inner = none
  kind : ∀ (i j : Nat) (op : Op), s.jobs[i]? = some ⟨op, some j⟩ → ∃ max st, op = .reserve max st
  inner : ∀ (i j c : Nat) (op : Op) (cl : Client.State), s.outer.calls[i]? = some (Phase.busy c) →
    s.jobs[i]? = some ⟨op, some j⟩ → s.conns[c]? = some cl → ∃ k, cl.calls[j]? = some k ∧ k.phase ≠ .abandoned
  inj : ∀ (i i' j c : Nat) (op op' : Op), s.outer.calls[i]? = some (Phase.busy c) →
    s.outer.calls[i']? = some (Phase.busy c) → s.jobs[i]? = some ⟨op, some j⟩ → s.jobs[i']? = some ⟨op', some j⟩ → i = i'

theorem w_nil : W {} := by
  constructor <;> simp

/-- Steps of the reconnecting client that neither start a call nor make a connection nor change a flag. -/
def Plain : Reconnect.Event → Prop
  | .call | .connect _ true | .unhealthy _ => False
  | _ => True

theorem w_outer {s : State} (h : W s) (e : Reconnect.Event) (he : Plain e) : W (outerStep s e) := by
  obtain ⟨h1, h2, h3, h4, h5, h6, h7, h8, h9, h10, h11⟩ := h
  unfold outerStep
  cases e with
  | call => cases he
  | unhealthy => cases he
  | connect i ok =>
    cases ok with
    | true => cases he
    | false =>
      simp only [Reconnect.step]
      exact ⟨by simpa using h1, by simpa using h2, by simpa using h3, by simpa using h4, by simpa using h5, by simpa using h6,
        by simpa using h7, by simpa using h8, by simpa using h9, by simpa using h10, by simpa using h11⟩
  | check i =>
    simp only [Reconnect.step]
    split
    case isFalse => exact ⟨h1, h2, h3, h4, h5, h6, h7, h8, h9, h10, h11⟩
    case isTrue hi =>
      unfold Reconnect.goto
      constructor <;> dsimp only <;> grind
  | store i =>
    simp only [Reconnect.step]
    split
    · unfold Reconnect.goto
      constructor <;> dsimp only <;> grind
    · exact ⟨h1, h2, h3, h4, h5, h6, h7, h8, h9, h10, h11⟩
  | load i =>
    simp only [Reconnect.step]
    split
    case isFalse => exact ⟨h1, h2, h3, h4, h5, h6, h7, h8, h9, h10, h11⟩
    case isTrue hi =>
      have hnone : ∀ op j, s.jobs[i]? ≠ some ⟨op, some j⟩ := by
        intro op j hj
        exact absurd (h8 i _ _ hi hj (by simp)) (by simp)
      split
      · unfold Reconnect.goto
        constructor <;> dsimp only
        · exact h1
        · exact h2
        · exact h3
        · simpa using h4
        · exact h5
        · grind
        · grind
        · grind
        · exact h9
        · intro i' j c op cl hb hj hc
          by_cases hii : i = i'
          · subst hii; exact absurd hj (hnone _ _)
          · rw [List.getElem?_set_ne hii] at hb; exact h10 i' j c op cl hb hj hc
        · intro a b j c op op' ha hb hja hjb
          by_cases hia : i = a
          · subst hia; exact absurd hja (hnone _ _)
          · by_cases hib : i = b
            · subst hib; exact absurd hjb (hnone _ _)
            · rw [List.getElem?_set_ne hia] at ha; rw [List.getElem?_set_ne hib] at hb
              exact h11 a b j c op op' ha hb hja hjb
      · unfold Reconnect.goto
        constructor <;> dsimp only <;> grind
  | finish i r =>
    simp only [Reconnect.step]
    split
    · unfold Reconnect.goto
      constructor <;> dsimp only <;> cases r <;> grind
    · exact ⟨h1, h2, h3, h4, h5, h6, h7, h8, h9, h10, h11⟩
  | reset i =>
    simp only [Reconnect.step]
    split
    · unfold Reconnect.goto
      constructor <;> dsimp only <;> grind
    · exact ⟨h1, h2, h3, h4, h5, h6, h7, h8, h9, h10, h11⟩
  | drop i =>
    simp only [Reconnect.step]
    split
    · unfold Reconnect.goto
      constructor <;> dsimp only <;> grind
    · unfold Reconnect.goto
      constructor <;> dsimp only <;> grind
    · exact ⟨h1, h2, h3, h4, h5, h6, h7, h8, h9, h10, h11⟩

theorem getElem?_onConn (s : State) (c d : Nat) (e : Client.Event) :
    (onConn s c e).conns[d]? = if c = d then s.conns[d]?.map (Client.step · e) else s.conns[d]? := by
  unfold onConn
  rw [List.getElem?_modify]
  split
  · rfl
  · simp

theorem ran_step {cl : Client.State} (h : ∃ m ces, cl = Client.run m ces) (e : Client.Event) :
    ∃ m ces, Client.step cl e = Client.run m ces := by
  obtain ⟨m, ces, rfl⟩ := h
  exact ⟨m, ces ++ [e], (Client.run_snoc m ces e).symm⟩

/-- Something happens on a connection that gives up no call that uses it; the flags become `hl`. -/
theorem w_onConn_flags {s : State} (h : W s) (c : Nat) (e : Client.Event) (hl : List Bool)
    (hlen' : hl.length = s.outer.healthy.length)
    (hh : ∀ (d : Nat) (cl : Client.State), (onConn s c e).conns[d]? = some cl → hl[d]? = some cl.healthy)
    (ha : ∀ (i j : Nat) (op : Op) (b : Bool), s.outer.calls[i]? = some (.busy c) → s.jobs[i]? = some ⟨op, some j⟩ →
      e ≠ .abandon j b) : W { onConn s c e with outer := { s.outer with healthy := hl } } := by
  obtain ⟨h1, h2, h3, h4, h5, h6, h7, h8, h9, h10, h11⟩ := h
  have hlen : (onConn s c e).conns.length = s.conns.length := by simp [onConn]
  constructor <;> dsimp only
  · rw [hlen, h1, hlen']
  · exact hh
  · intro d cl hd
    rw [getElem?_onConn] at hd
    split at hd
    · obtain ⟨cl0, hc0, rfl⟩ := Option.map_eq_some_iff.mp hd
      exact ran_step (h3 _ _ hc0) e
    · exact h3 d cl hd
  · exact h4
  · intro d hd; rw [hlen]; exact h5 d hd
  · intro i d hd; rw [hlen]; exact h6 i d hd
  · intro i d hd; rw [hlen]; exact h7 i d hd
  · exact h8
  · exact h9
  · intro i j d op cl hb hj hd
    rw [getElem?_onConn] at hd
    split at hd
    · rename_i hcd; subst hcd
      obtain ⟨cl0, hc0, rfl⟩ := Option.map_eq_some_iff.mp hd
      obtain ⟨k, hk, hp⟩ := h10 i j c op cl0 hb hj hc0
      obtain ⟨k', hk', -, -, hp'⟩ := Client.step_call e hk
      refine ⟨k', hk', ?_⟩
      rcases hp' with hp' | hp' | hp' | ⟨b, hp'⟩
      · rw [hp']; exact hp
      · exact absurd hp' (ha i j op _ hb hj)
      · exact absurd hp' (ha i j op _ hb hj)
      · subst hp'
        simp only [Client.step] at hk'
        rw [Client.update_get, Client.put_calls, hk] at hk'
        simp only [if_true, Option.map_some, Option.some.injEq] at hk'
        subst hk'
        split
        · split <;> simp
        · exact hp
    · exact h10 i j d op cl hb hj hd
  · exact h11

/-- Something happens on a connection that does not change its flag and gives up no call that uses it. -/
theorem w_onConn {s : State} (h : W s) (c : Nat) (e : Client.Event)
    (hh : ∀ cl, s.conns[c]? = some cl → (Client.step cl e).healthy = cl.healthy)
    (ha : ∀ (i j : Nat) (op : Op) (b : Bool), s.outer.calls[i]? = some (.busy c) → s.jobs[i]? = some ⟨op, some j⟩ →
      e ≠ .abandon j b) : W (onConn s c e) := by
  refine w_onConn_flags h c e s.outer.healthy rfl ?_ ha
  intro d cl hd
  rw [getElem?_onConn] at hd
  split at hd
  · rename_i hcd; subst hcd
    obtain ⟨cl0, hc0, rfl⟩ := Option.map_eq_some_iff.mp hd
    rw [hh _ hc0]; exact h.health _ _ hc0
  · exact h.health d cl hd

theorem w_incoming {s : State} (h : W s) (c : Nat) (e : Client.Event) (ha : ∀ j b, e ≠ .abandon j b) :
    W (match (onConn s c e).conns[c]? with
      | some cl => if cl.healthy then onConn s c e else outerStep (onConn s c e) (.unhealthy c)
      | none => onConn s c e) := by
  split
  · rename_i cl hcl
    rw [getElem?_onConn] at hcl
    simp only [if_true] at hcl
    obtain ⟨cl0, hc0, rfl⟩ := Option.map_eq_some_iff.mp hcl
    split
    · rename_i hhe
      refine w_onConn h c e ?_ (fun _ j _ b _ _ => ha j b)
      intro cl hcl'
      rw [hc0] at hcl'; cases hcl'
      rw [hhe, Client.healthy_mono _ _ hhe]
    · rename_i hhe
      refine w_onConn_flags h c e (s.outer.healthy.set c false) (by simp) ?_ (fun _ j _ b _ _ => ha j b)
      intro d cl hd
      rw [getElem?_onConn] at hd
      split at hd
      · rename_i hcd; subst hcd
        rw [hc0] at hd
        simp only [Option.map_some, Option.some.injEq] at hd
        subst hd
        have := (List.getElem?_eq_some_iff.mp hc0).1
        have hl := h.len
        rw [List.getElem?_set_self (by omega)]
        simpa using hhe
      · rename_i hcd
        rw [List.getElem?_set_ne hcd]; exact h.health d cl hd
  · rename_i hnone
    refine w_onConn h c e ?_ (fun _ j _ b _ _ => ha j b)
    intro cl hcl
    rw [getElem?_onConn] at hnone
    simp [hcl] at hnone

theorem connOf_some {s : State} {i c : Nat} {cl : Client.State} (h : connOf s i = some (c, cl)) :
    s.outer.calls[i]? = some (.busy c) ∧ s.conns[c]? = some cl := by
  unfold connOf at h
  split at h
  · rename_i d hd
    obtain ⟨cl', hc, he⟩ := Option.map_eq_some_iff.mp h
    cases he
    exact ⟨hd, hc⟩
  · cases h

theorem connOf_busy {s : State} {i c : Nat} {cl : Client.State} (h : s.outer.calls[i]? = some (.busy c))
    (hc : s.conns[c]? = some cl) : connOf s i = some (c, cl) := by
  unfold connOf
  rw [h]
  simp [hc]

theorem w_step {s : State} (h : W s) (e : Event) : W (step s e) := by
  cases e with
  | call op =>
    obtain ⟨h1, h2, h3, h4, h5, h6, h7, h8, h9, h10, h11⟩ := h
    simp only [step, outerStep, Reconnect.step]
    constructor <;> dsimp only <;> grind
  | check i => exact w_outer h _ trivial
  | store i => exact w_outer h _ trivial
  | load i => exact w_outer h _ trivial
  | reset i => exact w_outer h _ trivial
  | connect i m =>
    cases m with
    | none => exact w_outer h _ trivial
    | some m =>
      simp only [step]
      split
      case isFalse => exact h
      case isTrue hi =>
        obtain ⟨h1, h2, h3, h4, h5, h6, h7, h8, h9, h10, h11⟩ := h
        have hrun : Client.init m = Client.run m [] := rfl
        have hhe : (Client.init m).healthy = true := rfl
        simp only [outerStep, Reconnect.step, hi, Reconnect.goto]
        constructor <;> dsimp only
        · simp [h1]
        · simp only [and_self, if_true]; grind
        · grind
        all_goals grind
  | request i =>
    simp only [step]
    split
    · rename_i c cl max st hc hj
      obtain ⟨hb, hcl⟩ := connOf_some hc
      have hw := w_onConn h c (.call max st) (fun _ _ => rfl) (by intros; simp)
      obtain ⟨h1, h2, h3, h4, h5, h6, h7, h8, h9, h10, h11⟩ := hw
      have hcl' : (onConn s c (.call max st)).conns[c]? = some (Client.step cl (.call max st)) := by
        rw [getElem?_onConn]; simp [hcl]
      have hnew : (Client.step cl (.call max st)).calls[cl.calls.length]? =
          some { request := ⟨cl.nextNonce, max, st⟩ } := by
        simp [Client.step, Client.begin]
      have hout : (onConn s c (.call max st)).outer = s.outer := rfl
      have hjobs : (onConn s c (.call max st)).jobs = s.jobs := rfl
      rw [hjobs] at h4 h8 h9 h10 h11
      have hlt := (List.getElem?_eq_some_iff.mp hj).1
      constructor <;> dsimp only
      · exact h1
      · exact h2
      · exact h3
      · simpa using h4
      · exact h5
      · exact h6
      · exact h7
      · intro i' p job hp hj' hphase
        rw [List.getElem?_set] at hj'
        split at hj'
        · subst i'
          rw [hout, hb] at hp; cases hp
          simp at hphase
        · exact h8 i' p job hp hj' hphase
      · intro i' j op hj'
        rw [List.getElem?_set] at hj'
        split at hj'
        · grind
        · exact h9 i' j op hj'
      · intro i' j d op cl' hb' hj' hd
        rw [List.getElem?_set] at hj'
        split at hj'
        · subst i'
          rw [hout, hb] at hb'; cases hb'
          rw [hcl'] at hd; cases hd
          simp only [hlt, if_true, Option.some.injEq, Job.mk.injEq] at hj'
          obtain ⟨-, rfl⟩ := hj'
          exact ⟨_, hnew, by simp⟩
        · exact h10 i' j d op cl' hb' hj' hd
      · have hne : ∀ (b j : Nat) (op : Op), s.outer.calls[b]? = some (.busy c) → s.jobs[b]? = some ⟨op, some j⟩ →
            j ≠ cl.calls.length := by
          intro b j op hbb hjb
          obtain ⟨k, hk, -⟩ := h.inner b j c op cl hbb hjb hcl
          have := (List.getElem?_eq_some_iff.mp hk).1
          omega
        intro a b j d op op' hpa hpb hja hjb
        rw [hout] at hpa hpb
        rw [List.getElem?_set] at hja hjb
        by_cases hia : i = a
        · by_cases hib : i = b
          · omega
          · subst hia
            rw [hb] at hpa; cases hpa
            rw [if_neg hib] at hjb
            simp only [hlt, if_true, Option.some.injEq, Job.mk.injEq] at hja
            exact absurd hja.2.symm (hne b j op' hpb hjb)
        · rw [if_neg hia] at hja
          by_cases hib : i = b
          · subst hib
            rw [hb] at hpb; cases hpb
            simp only [hlt, if_true, Option.some.injEq, Job.mk.injEq] at hjb
            exact absurd hjb.2.symm (hne a j op hpa hja)
          · rw [if_neg hib] at hjb
            exact h11 a b j d op op' hpa hpb hja hjb
    · exact h
  | send i ok =>
    simp only [step]
    split
    · exact w_onConn h _ _ (fun _ _ => Client.healthy_send _ _ _) (by intros; simp)
    · exact w_outer (w_onConn h _ _ (fun _ _ => rfl) (by intros; simp)) _ trivial
    · exact w_outer (w_onConn h _ _ (fun _ _ => rfl) (by intros; simp)) _ trivial
    · exact h
  | finish i =>
    simp only [step]
    split
    · split
      · exact w_outer h _ trivial
      · exact h
    · exact h
  | drop i sent =>
    have hd := w_outer h (.drop i) trivial
    simp only [step]
    split
    · rename_i c cl max st j hc hj
      obtain ⟨hb, hcl⟩ := connOf_some hc
      have heq : outerStep (onConn s c (.abandon j sent)) (.drop i) = onConn (outerStep s (.drop i)) c (.abandon j sent) := rfl
      rw [heq]
      refine w_onConn hd c _ (fun _ _ => Client.healthy_abandon _ _ _) ?_
      rintro i' j' op b hb' hj' he
      cases he
      simp only [outerStep, Reconnect.step, hb, Reconnect.goto] at hb' hj'
      rw [List.getElem?_set] at hb'
      split at hb'
      · split at hb' <;> simp at hb'
      · rename_i hne
        exact hne (h.inj i i' j c _ op hb hb' hj hj')
    · rename_i c cl id output inner hc hj
      exact w_onConn hd c (.complete id output sent) (fun _ _ => rfl) (by intros; simp)
    · rename_i c cl id failure inner hc hj
      exact w_onConn hd c (.fail id failure sent) (fun _ _ => rfl) (by intros; simp)
    · exact hd
  | incoming c e =>
    cases e with
    | cancelled =>
      simp only [step]
      split
      · exact h
      · exact w_onConn h _ _ (fun _ _ => Client.healthy_cancelled _) (by intros; simp)
    | _ => exact w_incoming h c _ (by intros; simp [Incoming.event])

theorem run_snoc (es : List Event) (e : Event) : run (es ++ [e]) = step (run es) e := by
  simp [run, exec]

theorem w_run (es : List Event) : W (run es) := by
  induction es using snoc_induction with
  | nil => exact w_nil
  | snoc es e ih => rw [run_snoc]; exact w_step ih e

/-- What a step does to a connection. -/
theorem conn_effect (s : State) (e : Event) {c : Nat} {cl : Client.State} (hc : s.conns[c]? = some cl) :
    (step s e).conns[c]? = some cl ∨ ∃ ce, (step s e).conns[c]? = some (Client.step cl ce) := by
  have hon : ∀ d ce, (onConn s d ce).conns[c]? = some cl ∨ ∃ ce', (onConn s d ce).conns[c]? = some (Client.step cl ce') := by
    intro d ce
    rw [getElem?_onConn]
    split
    · exact .inr ⟨ce, by rw [hc]; rfl⟩
    · exact .inl hc
  cases e with
  | connect i m =>
    left
    have hlt := (List.getElem?_eq_some_iff.mp hc).1
    cases m with
    | none => exact hc
    | some m =>
      simp only [step]
      split
      · show (s.conns ++ [_])[c]? = some cl
        rw [List.getElem?_append_left hlt]; exact hc
      · exact hc
  | request i =>
    simp only [step]
    split
    · exact hon _ _
    · exact .inl hc
  | send i ok =>
    simp only [step]
    split
    · exact hon _ _
    · exact hon _ _
    · exact hon _ _
    · exact .inl hc
  | finish i =>
    simp only [step]
    split
    · split <;> exact .inl hc
    · exact .inl hc
  | drop i sent =>
    simp only [step]
    split
    · exact hon _ _
    · exact hon _ _
    · exact hon _ _
    · exact .inl hc
  | incoming d e =>
    cases e with
    | cancelled =>
      simp only [step]
      split
      · exact .inl hc
      · exact hon _ _
    | _ =>
      simp only [step]
      split
      · split
        · exact hon _ _
        · exact hon _ _
      · exact hon _ _
  | _ => exact .inl hc

theorem lost_step {s : State} {c : Nat} (h : Lost s c) (e : Event) : Lost (step s e) c := by
  obtain ⟨cl, hc, h1, h2⟩ := h
  rcases conn_effect s e hc with h | ⟨ce, h⟩
  · exact ⟨cl, h, h1, h2⟩
  · exact ⟨_, h, Client.lost_step h1 h2 ce⟩

theorem lost_exec {s : State} {c : Nat} (h : Lost s c) (es : List Event) : Lost (exec s es) c := by
  induction es generalizing s with
  | nil => exact h
  | cons e es ih => exact ih (lost_step h e)

/-- What a step does to the reconnecting client. -/
theorem outer_effect (s : State) (e : Event) : (step s e).outer = s.outer ∨
    ∃ oe, (step s e).outer = Reconnect.step s.outer oe ∧ (oe = .call → ∃ op, e = .call op) := by
  cases e with
  | call op => exact .inr ⟨.call, rfl, fun _ => ⟨op, rfl⟩⟩
  | check i => exact .inr ⟨.check i, rfl, by simp⟩
  | store i => exact .inr ⟨.store i, rfl, by simp⟩
  | load i => exact .inr ⟨.load i, rfl, by simp⟩
  | reset i => exact .inr ⟨.reset i, rfl, by simp⟩
  | connect i m =>
    cases m with
    | none => exact .inr ⟨.connect i false, rfl, by simp⟩
    | some m =>
      simp only [step]
      split
      · exact .inr ⟨.connect i true, rfl, by simp⟩
      · exact .inl rfl
  | request i =>
    simp only [step]
    split <;> exact .inl rfl
  | send i ok =>
    simp only [step]
    split
    · exact .inl rfl
    · exact .inr ⟨.finish i _, rfl, by simp⟩
    · exact .inr ⟨.finish i _, rfl, by simp⟩
    · exact .inl rfl
  | finish i =>
    simp only [step]
    split
    · split
      · exact .inr ⟨.finish i _, rfl, by simp⟩
      · exact .inl rfl
    · exact .inl rfl
  | drop i sent =>
    simp only [step]
    split <;> exact .inr ⟨.drop i, rfl, by simp⟩
  | incoming d e =>
    cases e with
    | cancelled =>
      simp only [step]
      split <;> exact .inl rfl
    | _ =>
      simp only [step]
      split
      · split
        · exact .inl rfl
        · exact .inr ⟨.unhealthy d, rfl, by simp⟩
      · exact .inl rfl

theorem OneAtATime.prefix {pre post : List Event} (h : OneAtATime (pre ++ post)) : OneAtATime pre := by
  intro a op b hab p hp
  exact h a op (b ++ post) (by rw [hab]; simp) p hp

theorem good_run {es : List Event} (h : OneAtATime es) : Reconnect.Good (run es).outer := by
  induction es using snoc_induction with
  | nil => exact Reconnect.good_nil
  | snoc es e ih =>
    rw [run_snoc]
    have hg := ih h.prefix
    rcases outer_effect (run es) e with he | ⟨oe, he, hcall⟩
    · rw [he]; exact hg
    · rw [he]
      refine Reconnect.good_step hg oe ?_
      intro h1
      obtain ⟨op, rfl⟩ := hcall h1
      exact h es op [] rfl

theorem doomed_run {pre : List Event} (post : List Event) {c : Nat} (h : OneAtATime (pre ++ post))
    (hd : Reconnect.Doomed (run pre).outer c) : Reconnect.Doomed (run (pre ++ post)).outer c := by
  induction post using snoc_induction with
  | nil => simpa using hd
  | snoc post e ih =>
    rw [← List.append_assoc] at h ⊢
    rw [run_snoc]
    have hih := ih h.prefix
    rcases outer_effect (run (pre ++ post)) e with he | ⟨oe, he, hcall⟩
    · rw [he]; exact hih
    · rw [he]
      refine Reconnect.doomed_step (good_run h.prefix) hih oe ?_
      intro h1
      obtain ⟨op, rfl⟩ := hcall h1
      exact h _ op [] rfl

/-- Where a call that is using a connection with a nonce comes from. -/
theorem job_effect {s : State} (hw : W s) (e : Event) {i c j : Nat} {op : Op}
    (hb : (step s e).outer.calls[i]? = some (.busy c)) (hj : (step s e).jobs[i]? = some ⟨op, some j⟩) :
    s.outer.calls[i]? = some (.busy c) ∧ (s.jobs[i]? = some ⟨op, some j⟩ ∨
      ∃ cl max st, s.conns[c]? = some cl ∧ j = cl.calls.length ∧ (step s e).conns[c]? = some (Client.step cl (.call max st))) := by
  have hold : ∀ oe : Reconnect.Event, oe ≠ .call → (Reconnect.step s.outer oe).calls[i]? = some (.busy c) →
      s.jobs[i]? = some ⟨op, some j⟩ → s.outer.calls[i]? = some (.busy c) := by
    intro oe hne hb hj
    cases oe with
    | call => exact absurd rfl hne
    | load i' =>
      simp only [Reconnect.step, Reconnect.goto] at hb
      split at hb
      · rename_i hr
        by_cases hii : i' = i
        · subst hii
          exact absurd (hw.early _ _ _ hr hj (by simp)) (by simp)
        · split at hb
          · simpa [List.getElem?_set_ne hii] using hb
          · simpa [List.getElem?_set_ne hii] using hb
      · exact hb
    | _ => simp only [Reconnect.step, Reconnect.goto] at hb; grind
  cases e with
  | call op' =>
    simp only [step, outerStep, Reconnect.step] at hb hj
    have hl := hw.jobs
    rw [List.getElem?_append] at hb hj
    split at hj
    · rename_i hlt
      rw [if_pos (by omega)] at hb
      exact ⟨hb, .inl hj⟩
    · rw [List.getElem?_singleton] at hj
      split at hj
      · simp at hj
      · cases hj
  | check i' => exact ⟨hold _ (by simp) hb hj, .inl hj⟩
  | store i' => exact ⟨hold _ (by simp) hb hj, .inl hj⟩
  | load i' => exact ⟨hold _ (by simp) hb hj, .inl hj⟩
  | reset i' => exact ⟨hold _ (by simp) hb hj, .inl hj⟩
  | connect i' m =>
    cases m with
    | none => exact ⟨hold (.connect i' false) (by simp) hb hj, .inl hj⟩
    | some m =>
      simp only [step] at hb hj
      split at hb
      · rename_i hc
        rw [if_pos hc] at hj
        exact ⟨hold (.connect i' true) (by simp) hb hj, .inl hj⟩
      · rename_i hc
        rw [if_neg hc] at hj
        exact ⟨hb, .inl hj⟩
  | request i' =>
    simp only [step] at hb hj ⊢
    split at hb
    · rename_i d cl max st hc hj0
      rw [hc, hj0] at hj
      dsimp only at hj
      obtain ⟨hb0, hcl⟩ := connOf_some hc
      refine ⟨hb, ?_⟩
      replace hb : s.outer.calls[i]? = some (.busy c) := hb
      rw [List.getElem?_set] at hj
      split at hj
      · rename_i hii; subst hii
        rw [hb0] at hb; cases hb
        split at hj
        · simp only [Option.some.injEq, Job.mk.injEq] at hj
          right
          refine ⟨cl, max, st, hcl, hj.2.symm, ?_⟩
          show (onConn s c _).conns[c]? = _
          rw [getElem?_onConn]; simp [hcl]
        · cases hj
      · exact .inl hj
    · rename_i hno
      split at hj
      · exact absurd ‹_› (hno _ _ _ _ ‹_›)
      · exact ⟨hb, .inl hj⟩
  | send i' ok =>
    simp only [step] at hb hj
    split at hb
    · exact ⟨hb, .inl (by grind [onConn, report, outerStep])⟩
    · refine ⟨hold (.finish i' _) (by simp) hb ?_, .inl ?_⟩ <;> grind [onConn, report, outerStep]
    · refine ⟨hold (.finish i' _) (by simp) hb ?_, .inl ?_⟩ <;> grind [onConn, report, outerStep]
    · exact ⟨hb, .inl (by grind [onConn, report, outerStep])⟩
  | finish i' =>
    simp only [step] at hb hj
    have hj' : s.jobs[i]? = some ⟨op, some j⟩ := by
      split at hj
      · split at hj <;> exact hj
      · exact hj
    refine ⟨?_, .inl hj'⟩
    split at hb
    · split at hb
      · exact hold (.finish i' _) (by simp) hb hj'
      · exact hb
    · exact hb
  | drop i' sent =>
    simp only [step] at hb hj
    have hj' : s.jobs[i]? = some ⟨op, some j⟩ := by
      split at hj <;> exact hj
    refine ⟨?_, .inl hj'⟩
    split at hb <;> exact hold (.drop i') (by simp) hb hj'
  | incoming d e =>
    cases e with
    | cancelled =>
      simp only [step] at hb hj
      split at hb
      · exact ⟨hb, .inl (by grind [onConn])⟩
      · exact ⟨hb, .inl (by grind [onConn])⟩
    | _ =>
      simp only [step] at hb hj
      split at hb
      · split at hb
        · exact ⟨hb, .inl (by grind [onConn, outerStep])⟩
        · refine ⟨hold (.unhealthy d) (by simp) hb ?_, .inl ?_⟩ <;> grind [onConn, outerStep]
      · exact ⟨hb, .inl (by grind [onConn, outerStep])⟩

/-- A call over a lost connection comes to an end by itself. -/
theorem own_end {s : State} (hw : W s) {i c : Nat} (hb : s.outer.calls[i]? = some (.busy c)) (hl : Lost s c) (b : Bool) :
    (exec s [.request i, .send i b, .finish i]).outer = Reconnect.step s.outer (.finish i .failed) ∨
    ∃ op j cl k r, s.jobs[i]? = some ⟨op, some j⟩ ∧ s.conns[c]? = some cl ∧ cl.calls[j]? = some k ∧
      Client.Call.outcome k = some (.response r) ∧
      (exec s [.request i, .send i b, .finish i]).outer = Reconnect.step s.outer (.finish i (resultOf (.response r))) := by
  obtain ⟨cl, hc, h1, h2⟩ := hl
  have hil := (List.getElem?_eq_some_iff.mp hb).1
  have hcon := connOf_busy hb hc
  have hjl : i < s.jobs.length := by rw [hw.jobs]; exact hil
  obtain ⟨⟨op, inner⟩, hj⟩ : ∃ job, s.jobs[i]? = some job := ⟨_, List.getElem?_eq_getElem hjl⟩
  have hover : ∀ s' : State, s'.outer = Reconnect.step s.outer (.finish i .failed) → step s' (.finish i) = s' := by
    intro s' hs'
    have : connOf s' i = none := by
      unfold connOf
      rw [hs']
      simp only [Reconnect.step, hb, Reconnect.goto]
      rw [List.getElem?_set_self hil]
    simp [step, this]
  show (step (step (step s (.request i)) (.send i b)) (.finish i)).outer = _ ∨ _
  -- what a call that has its nonce does
  have hres : ∀ (s : State) (cl : Client.State) (max : Nat) (st : Strategy) (j : Nat) (k : Client.Call),
      s.outer.calls[i]? = some (.busy c) → s.conns[c]? = some cl → cl.sinkClosed = true →
      s.jobs[i]? = some ⟨.reserve max st, some j⟩ → cl.calls[j]? = some k →
      (k.phase = .awaiting → k.slot ≠ .empty) → k.phase ≠ .abandoned →
      (step (step s (.send i b)) (.finish i)).outer = Reconnect.step s.outer (.finish i .failed) ∨
      ∃ r, Client.Call.outcome k = some (.response r) ∧
        (step (step s (.send i b)) (.finish i)).outer = Reconnect.step s.outer (.finish i (resultOf (.response r))) := by
    intro s cl max st j k hb hc h2 hj hk hwait hab
    have hs1 : step s (.send i b) = onConn s c (.send j b) := by
      simp [step, connOf_busy hb hc, hj]
    rw [hs1]
    have hc1 : (onConn s c (.send j b)).conns[c]? = some (Client.step cl (.send j b)) := by
      rw [getElem?_onConn]; simp [hc]
    have hcon1 : connOf (onConn s c (.send j b)) i = some (c, Client.step cl (.send j b)) :=
      connOf_busy (s := onConn s c (.send j b)) hb hc1
    have hj1 : (onConn s c (.send j b)).jobs[i]? = some ⟨.reserve max st, some j⟩ := hj
    have hk1 := Client.send_call hk b
    have hstep : ∀ o, (if k.phase = .sending then
        { k with phase := if b && !cl.sinkClosed then .awaiting else .sendFailed } else k : Client.Call).outcome = some o →
        (step (onConn s c (.send j b)) (.finish i)).outer = Reconnect.step s.outer (.finish i (resultOf o)) := by
      intro o ho
      simp only [step, hcon1, hj1, hk1, Option.bind_some, ho]
      rfl
    cases hp : k.phase with
    | sending =>
      left
      have := hstep .error (by rw [if_pos hp]; simp [h2, Client.Call.outcome])
      simpa [resultOf] using this
    | awaiting =>
      have hsl := hwait hp
      cases hs : k.slot with
      | empty => exact absurd hs hsl
      | dropped =>
        left
        have := hstep .error (by rw [if_neg (by rw [hp]; simp)]; simp [Client.Call.outcome, hp, hs])
        simpa [resultOf] using this
      | value r =>
        right
        have ho : k.outcome = some (.response r) := by simp [Client.Call.outcome, hp, hs]
        exact ⟨r, ho, hstep _ (by rw [if_neg (by rw [hp]; simp)]; exact ho)⟩
    | sendFailed =>
      left
      have := hstep .error (by rw [if_neg (by rw [hp]; simp)]; simp [Client.Call.outcome, hp])
      simpa [resultOf] using this
    | abandoned => exact absurd hp hab
  cases op with
  | complete id output =>
    left
    have hr : step s (.request i) = s := by simp [step, hcon, hj]
    have hs : (step s (.send i b)).outer = Reconnect.step s.outer (.finish i .failed) := by
      simp [step, hcon, hj, report, h2, outerStep, onConn]
    rw [hr, hover _ hs, hs]
  | fail id failure =>
    left
    have hr : step s (.request i) = s := by simp [step, hcon, hj]
    have hs : (step s (.send i b)).outer = Reconnect.step s.outer (.finish i .failed) := by
      simp [step, hcon, hj, report, h2, outerStep, onConn]
    rw [hr, hover _ hs, hs]
  | reserve max st =>
    cases inner with
    | none =>
      left
      have hr : step s (.request i) =
          { onConn s c (.call max st) with jobs := s.jobs.set i ⟨.reserve max st, some cl.calls.length⟩ } := by
        simp [step, hcon, hj]
      have hc1 : (step s (.request i)).conns[c]? = some (Client.step cl (.call max st)) := by
        rw [hr]
        show (onConn s c _).conns[c]? = _
        rw [getElem?_onConn]; simp [hc]
      have hj1 : (step s (.request i)).jobs[i]? = some ⟨.reserve max st, some cl.calls.length⟩ := by
        rw [hr]; simp [hjl]
      have ho : (step s (.request i)).outer = s.outer := by rw [hr]; rfl
      have hk1 : (Client.step cl (.call max st)).calls[cl.calls.length]? = some { request := ⟨cl.nextNonce, max, st⟩ } := by
        simp [Client.step, Client.begin]
      rcases hres (step s (.request i)) _ max st _ _ (by rw [ho]; exact hb) hc1 h2 hj1 hk1 (by simp) (by simp) with h | ⟨r, hr, -⟩
      · rw [h, ho]
      · simp [Client.Call.outcome] at hr
    | some j =>
      have hr : step s (.request i) = s := by simp [step, hcon, hj]
      rw [hr]
      obtain ⟨k, hk, hp⟩ := hw.inner i j c _ cl hb hj hc
      have hok : Client.LostOk cl := by
        obtain ⟨m, ces, rfl⟩ := hw.ran c cl hc
        exact Client.lostOk_run m ces
      have hwait : k.phase = .awaiting → k.slot ≠ .empty := by
        intro h3 h4
        have := hok h1 h2 j k hk h4
        rw [h3] at this
        simp at this
      rcases hres s cl max st j k hb hc h2 hj hk hwait hp with h | ⟨r, h3, h4⟩
      · exact .inl h
      · refine .inr ⟨_, j, cl, k, r, hj, hc, hk, h3, ?_⟩
        show (step (step (step s (.request i)) (.send i b)) (.finish i)).outer = _
        rw [hr]; exact h4

/-- Calls numbered from `n` on that use connection `c` do not wait for a response. -/
def NoWait (s : State) (n c : Nat) : Prop :=
  ∀ (i j : Nat) (op : Op) (cl : Client.State) (k : Client.Call), n ≤ i → s.outer.calls[i]? = some (.busy c) →
    s.jobs[i]? = some ⟨op, some j⟩ → s.conns[c]? = some cl → cl.calls[j]? = some k → k.phase ≠ .awaiting

theorem noWait_step {s : State} (hw : W s) {n c : Nat} (hl : Lost s c) (h : NoWait s n c) (e : Event) :
    NoWait (step s e) n c := by
  intro i j op cl' k' hi hb hj hc' hk'
  obtain ⟨cl, hc, h1, h2⟩ := hl
  obtain ⟨hb0, hj0 | ⟨cl0, max, st, hc0, hj0, hs⟩⟩ := job_effect hw e hb hj
  · obtain ⟨k, hk, -⟩ := hw.inner i j c op cl hb0 hj0 hc
    have hp := h i j op cl k hi hb0 hj0 hc hk
    rcases conn_effect s e hc with he | ⟨ce, he⟩
    · rw [he] at hc'; cases hc'
      rw [hk] at hk'; cases hk'
      exact hp
    · rw [he] at hc'; cases hc'
      exact Client.not_awaiting_step h2 hk hp ce hk'
  · rw [hs] at hc'; cases hc'
    subst hj0
    simp [Client.step, Client.begin] at hk'
    subst hk'
    simp

theorem noWait_run (d mid : List Event) {c : Nat} (hl : Lost (run d) c) :
    NoWait (run (d ++ mid)) (run d).outer.calls.length c := by
  induction mid using snoc_induction with
  | nil =>
    intro i j op cl k hi hb
    rw [List.append_nil] at hb
    have := (List.getElem?_eq_some_iff.mp hb).1
    omega
  | snoc mid e ih =>
    rw [← List.append_assoc, run_snoc]
    refine noWait_step (w_run _) ?_ ih e
    have : run (d ++ mid) = exec (run d) mid := by simp [run, exec]
    rw [this]
    exact lost_exec hl mid

/-- How a call over a connection can end. -/
theorem ends_cases {pre : List Event} {e : Event} {i c : Nat} {r : Result} (h : Ends pre e i c r) :
    ∃ cl, (run pre).conns[c]? = some cl ∧
      ((∃ ok, e = .send i ok ∧ r = if ok && !cl.sinkClosed then .ok else .failed) ∨
       (e = .finish i ∧ ∃ op j k o, (run pre).jobs[i]? = some ⟨op, some j⟩ ∧ cl.calls[j]? = some k ∧
         Client.Call.outcome k = some o ∧ r = resultOf o)) := by
  obtain ⟨hb, ha⟩ := h
  rw [run_snoc] at ha
  have hw := w_run pre
  generalize run pre = s at *
  have hlt := hw.busy i c hb
  refine ⟨s.conns[c], List.getElem?_eq_getElem hlt, ?_⟩
  have hil := (List.getElem?_eq_some_iff.mp hb).1
  -- a step of the reconnecting client that is not the end of call `i` does not end it
  have hno : ∀ oe : Reconnect.Event, (∀ r', oe ≠ .finish i r') →
      ((Reconnect.step s.outer oe).calls[i]? = some (.ending r) ∨ (Reconnect.step s.outer oe).calls[i]? = some (.returned r)) →
      False := by
    intro oe hoe ha
    cases oe <;> simp only [Reconnect.step, Reconnect.goto] at ha <;> grind
  have hyes : ∀ r', ((Reconnect.step s.outer (.finish i r')).calls[i]? = some (.ending r) ∨
      (Reconnect.step s.outer (.finish i r')).calls[i]? = some (.returned r)) → r = r' := by
    intro r' ha
    simp only [Reconnect.step, hb, Reconnect.goto] at ha
    rw [List.getElem?_set_self hil] at ha
    cases r' <;> simp at ha <;> exact ha.symm
  have hsame : (s.outer.calls[i]? = some (.ending r) ∨ s.outer.calls[i]? = some (.returned r)) → False := by
    rw [hb]; simp
  cases e with
  | call op => exact (hno .call (by simp) ha).elim
  | check i' => exact (hno (.check i') (by simp) ha).elim
  | store i' => exact (hno (.store i') (by simp) ha).elim
  | load i' => exact (hno (.load i') (by simp) ha).elim
  | reset i' => exact (hno (.reset i') (by simp) ha).elim
  | connect i' m =>
    cases m with
    | none => exact (hno (.connect i' false) (by simp) ha).elim
    | some m =>
      simp only [step] at ha
      split at ha
      · exact (hno (.connect i' true) (by simp) ha).elim
      · exact (hsame ha).elim
  | request i' =>
    simp only [step] at ha
    split at ha <;> exact (hsame ha).elim
  | send i' ok =>
    left
    have hfin : ∀ (d : Nat) (cl : Client.State), connOf s i' = some (d, cl) →
        ((Reconnect.step s.outer (.finish i' (if ok && !cl.sinkClosed then .ok else .failed))).calls[i]? = some (.ending r) ∨
        (Reconnect.step s.outer (.finish i' (if ok && !cl.sinkClosed then .ok else .failed))).calls[i]? = some (.returned r)) →
        ∃ ok', Event.send i' ok = Event.send i ok' ∧ r = if ok' && !(s.conns[c]).sinkClosed then .ok else .failed := by
      intro d cl hc ha
      obtain ⟨hb', hcl⟩ := connOf_some hc
      by_cases hii : i' = i
      · subst hii
        rw [hb] at hb'; cases hb'
        rw [List.getElem?_eq_getElem hlt] at hcl; cases hcl
        exact ⟨ok, rfl, hyes _ ha⟩
      · exact (hno (.finish i' _) (by intro r' h; cases h; exact hii rfl) ha).elim
    simp only [step] at ha
    split at ha
    · exact (hsame ha).elim
    · rename_i hc hj; exact hfin _ _ hc ha
    · rename_i hc hj; exact hfin _ _ hc ha
    · exact (hsame ha).elim
  | finish i' =>
    right
    simp only [step] at ha
    split at ha
    · rename_i d cl max st j hc hj
      obtain ⟨hb', hcl⟩ := connOf_some hc
      split at ha
      · rename_i o ho
        by_cases hii : i' = i
        · subst hii
          rw [hb] at hb'; cases hb'
          rw [List.getElem?_eq_getElem hlt] at hcl; cases hcl
          obtain ⟨k, hk, hko⟩ := Option.bind_eq_some_iff.mp ho
          exact ⟨rfl, _, j, k, o, hj, hk, hko, hyes _ ha⟩
        · exact (hno (.finish i' _) (by intro r' h; cases h; exact hii rfl) ha).elim
      · exact (hsame ha).elim
    · exact (hsame ha).elim
  | drop i' sent =>
    simp only [step] at ha
    split at ha <;> exact (hno (.drop i') (by simp) ha).elim
  | incoming d e =>
    cases e with
    | cancelled =>
      simp only [step] at ha
      split at ha <;> exact (hsame ha).elim
    | _ =>
      simp only [step] at ha
      split at ha
      · split at ha
        · exact (hsame ha).elim
        · exact (hno (.unhealthy d) (by simp) ha).elim
      · exact (hsame ha).elim

/-- The message of a call is found not to be sent only by its own step. -/
theorem send_effect {s : State} (hw : W s) (e : Event) {i j c : Nat} {op : Op} {cl cl' : Client.State} {k k' : Client.Call}
    (hb : s.outer.calls[i]? = some (.busy c)) (hj : s.jobs[i]? = some ⟨op, some j⟩) (hc : s.conns[c]? = some cl)
    (hk : cl.calls[j]? = some k) (hc' : (step s e).conns[c]? = some cl') (hk' : cl'.calls[j]? = some k')
    (hp : k.phase ≠ .sendFailed) (hp' : k'.phase = .sendFailed) :
    ∃ b, e = .send i b ∧ (step s e).conns[c]? = some (Client.step cl (.send j b)) := by
  have hsame : s.conns[c]? = some cl' → False := by
    intro h
    rw [hc] at h; cases h
    rw [hk] at hk'; cases hk'
    exact hp hp'
  have hon : ∀ d ce, (onConn s d ce).conns[c]? = some cl' → d = c ∧ ∃ b, ce = .send j b := by
    intro d ce h
    rw [getElem?_onConn] at h
    split at h
    · rename_i hdc
      rw [hc] at h
      simp only [Option.map_some, Option.some.injEq] at h
      subst h
      obtain ⟨c', h1, -, -, h4⟩ := Client.step_call ce hk
      rw [hk'] at h1; cases h1
      have hab : ∀ b, ce = .abandon j b → False := by
        rintro b rfl
        simp only [Client.step] at hk'
        rw [Client.update_get, Client.put_calls, hk] at hk'
        simp only [if_true, Option.map_some, Option.some.injEq] at hk'
        subst hk'
        split at hp'
        · cases hp'
        · exact hp hp'
      rcases h4 with h4 | h4 | h4 | h4
      · rw [h4] at hp'; exact absurd hp' hp
      · exact (hab _ h4).elim
      · exact (hab _ h4).elim
      · exact ⟨hdc, h4⟩
    · exact (hsame h).elim
  cases e with
  | send i' b =>
    have hc0 := hc'
    simp only [step] at hc'
    split at hc'
    · rename_i d cl1 max st j1 hcon hj1
      obtain ⟨rfl, b', hce⟩ := hon _ _ hc'
      cases hce
      obtain ⟨hb1, -⟩ := connOf_some hcon
      have : i' = i := hw.inj i' i j d _ _ hb1 hb hj1 hj
      subst this
      refine ⟨b, rfl, ?_⟩
      simp only [step, hcon, hj1]
      rw [getElem?_onConn, if_pos rfl, hc]; rfl
    · obtain ⟨-, b', hce⟩ := hon _ _ hc'
      cases hce
    · obtain ⟨-, b', hce⟩ := hon _ _ hc'
      cases hce
    · exact (hsame hc').elim
  | connect i' m =>
    exfalso
    cases m with
    | none => exact hsame hc'
    | some m =>
      simp only [step] at hc'
      split at hc'
      · replace hc' : (s.conns ++ [_])[c]? = some cl' := hc'
        rw [List.getElem?_append_left (List.getElem?_eq_some_iff.mp hc).1] at hc'
        exact hsame hc'
      · exact hsame hc'
  | request i' =>
    exfalso
    simp only [step] at hc'
    split at hc'
    · obtain ⟨-, b', hce⟩ := hon _ _ hc'
      cases hce
    · exact hsame hc'
  | finish i' =>
    exfalso
    simp only [step] at hc'
    split at hc'
    · split at hc' <;> exact hsame hc'
    · exact hsame hc'
  | drop i' sent =>
    exfalso
    simp only [step] at hc'
    split at hc'
    · obtain ⟨-, b', hce⟩ := hon _ _ hc'
      cases hce
    · obtain ⟨-, b', hce⟩ := hon _ _ hc'
      cases hce
    · obtain ⟨-, b', hce⟩ := hon _ _ hc'
      cases hce
    · exact hsame hc'
  | incoming d e =>
    exfalso
    cases e with
    | cancelled =>
      simp only [step] at hc'
      split at hc'
      · exact hsame hc'
      · obtain ⟨-, b', hce⟩ := hon _ _ hc'
        cases hce
    | _ =>
      simp only [step] at hc'
      split at hc'
      · split at hc'
        · obtain ⟨-, b', hce⟩ := hon _ _ hc'
          cases hce
        · obtain ⟨-, b', hce⟩ := hon _ _ hc'
          cases hce
      · obtain ⟨-, b', hce⟩ := hon _ _ hc'
        cases hce
  | _ => exact (hsame hc').elim

/-- A call whose message was not sent was told so, or its connection is over. -/
theorem sendFailed_run (es : List Event) (i j : Nat) (op : Op) (c : Nat) (cl : Client.State) (k : Client.Call)
    (hb : (run es).outer.calls[i]? = some (.busy c)) (hj : (run es).jobs[i]? = some ⟨op, some j⟩)
    (hc : (run es).conns[c]? = some cl) (hk : cl.calls[j]? = some k) :
    .send i false ∈ es ∨ cl.background ≠ .running ∨ k.phase ≠ .sendFailed := by
  induction es using snoc_induction generalizing cl k with
  | nil => simp [run, exec] at hb
  | snoc es e ih =>
    rw [run_snoc] at hb hj hc
    have hw := w_run es
    obtain ⟨hb0, hj0 | ⟨cl0, max, st, hc0, hj0, hs⟩⟩ := job_effect hw e hb hj
    · have hlt := hw.busy i c hb0
      have hc0 : (run es).conns[c]? = some (run es).conns[c] := List.getElem?_eq_getElem hlt
      obtain ⟨k0, hk0, -⟩ := hw.inner i j c op _ hb0 hj0 hc0
      rcases ih _ k0 hb0 hj0 hc0 hk0 with h | h | h
      · exact .inl (by simp [h])
      · rcases conn_effect (run es) e hc0 with he | ⟨ce, he⟩
        · rw [he] at hc; cases hc; exact .inr (.inl h)
        · rw [he] at hc; cases hc
          exact .inr (.inl (by rw [Client.step_stopped h]; exact h))
      · -- its phase can change to `sendFailed` only by its own sending
        by_cases hp : k.phase = .sendFailed
        · have hsent : ∀ b, (step (run es) e).conns[c]? = some (Client.step (run es).conns[c] (.send j b)) →
              b = false ∨ cl.background ≠ .running := by
            intro b he
            rw [he] at hc; cases hc
            rw [Client.send_call hk0] at hk
            cases hk
            split at hp
            · cases b with
              | false => exact .inl rfl
              | true =>
                right
                obtain ⟨m, ces, hces⟩ := hw.ran c _ hc0
                have hsink : ((run es).conns[c]).sinkClosed = true := by
                  cases hs : ((run es).conns[c]).sinkClosed with
                  | true => rfl
                  | false => rw [hs] at hp; simp at hp
                have hbg : ((run es).conns[c]).background ≠ .running := by
                  rw [hces] at hsink ⊢
                  exact (Client.real_run m ces).sink hsink
                rw [Client.step_stopped hbg]; exact hbg
            · exact absurd hp h
          rcases send_effect hw e hb0 hj0 hc0 hk0 hc hk h hp with ⟨b, rfl, he⟩
          rcases hsent b he with rfl | h'
          · exact .inl (by simp)
          · exact .inr (.inl h')
        · exact .inr (.inr hp)
    · rw [hs] at hc; cases hc
      subst hj0
      simp [Client.step, Client.begin] at hk
      subst hk
      simp

end Opsqueue.Recovery
