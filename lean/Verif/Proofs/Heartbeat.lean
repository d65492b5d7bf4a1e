import Verif.Spec.Heartbeat
import Verif.Proofs.Conn
import Verif.Proofs.Client
import Verif.Proofs.Invariant

/-!
# Heartbeats in time: proofs
-/

namespace Opsqueue.Heartbeat

variable {σ ε : Type}

/-- What both ends do with ticks and received frames. -/
structure Laws (S : Side σ ε) (m : Nat) (missed mx : σ → Nat) : Prop where
  init_running : S.running S.init
  init_missed : missed S.init = 0
  init_max : mx S.init = m
  max : ∀ s e, mx (S.step s e) = mx s
  stays : ∀ s e, S.running s = false → S.running (S.step s e) = false
  tick : ∀ s e, S.running s → S.kind e = .tick → S.running (S.step s e) →
    missed s ≤ mx s ∧ missed (S.step s e) = missed s + 1
  recv : ∀ s e, S.running s → S.kind e = .recv → S.running (S.step s e) → missed (S.step s e) = 0
  other : ∀ s e, S.running s → S.kind e ≠ .tick → S.kind e ≠ .recv → S.running (S.step s e) →
    missed (S.step s e) = missed s

theorem run_snoc (S : Side σ ε) (p t0 : Nat) (es : List (Entry ε)) (e : Entry ε) :
    run S p t0 (es ++ [e]) = step S p (run S p t0 es) e := by
  simp [run]

theorem Fits.snoc {S : Side σ ε} {p t0 : Nat} {es : List (Entry ε)} {e : Entry ε}
    (h : Fits S p t0 (es ++ [e])) : Fits S p t0 es ∧ possible S (run S p t0 es) e :=
  ⟨fun pre e' post he => h pre e' (post ++ [e]) (by simp [he]), h es e [] (by simp)⟩

theorem Fits.prefix {S : Side σ ε} {p t0 : Nat} {es es' : List (Entry ε)}
    (h : Fits S p t0 (es ++ es')) : Fits S p t0 es :=
  fun pre e' post he => h pre e' (post ++ es') (by simp [he])

/-- The timer in terms of the last frame received. -/
structure Timer (S : Side σ ε) (missed : σ → Nat) (m p t0 : Nat) (es : List (Entry ε)) : Prop where
  le : missed (run S p t0 es).inner ≤ m + 1
  due : (∃ e ∈ es, S.kind e.event = .recv ∧ (∀ e' ∈ es, S.kind e'.event = .recv → e'.time ≤ e.time) ∧
      (run S p t0 es).deadline = e.time + (missed (run S p t0 es).inner + 1) * p) ∨
    ((∀ e ∈ es, S.kind e.event ≠ .recv) ∧
      (run S p t0 es).deadline = t0 + missed (run S p t0 es).inner * p)

theorem past {S : Side σ ε} {p t0 : Nat} {es : List (Entry ε)} (h : Fits S p t0 es) :
    t0 ≤ (run S p t0 es).now ∧ ∀ e ∈ es, e.time ≤ (run S p t0 es).now ∧ t0 ≤ e.time := by
  induction es using snoc_induction with
  | nil => simp [run, start]
  | snoc es e ih =>
    obtain ⟨h1, h2⟩ := h.snoc
    obtain ⟨i1, i2⟩ := ih h1
    rw [run_snoc]
    simp only [possible, Bool.and_eq_true, decide_eq_true_eq] at h2
    have : (step S p (run S p t0 es) e).now = e.time := rfl
    rw [this]
    refine ⟨by omega, fun e' he' => ?_⟩
    rw [List.mem_append, List.mem_singleton] at he'
    rcases he' with he' | rfl
    · have := i2 e' he'; omega
    · omega

theorem running_prefix {S : Side σ ε} {m p t0 : Nat} {missed mx : σ → Nat} (L : Laws S m missed mx)
    {es es' : List (Entry ε)} (h : S.running (run S p t0 (es ++ es')).inner) : S.running (run S p t0 es).inner := by
  induction es' using snoc_induction with
  | nil => simpa using h
  | snoc es' e ih =>
    refine ih ?_
    rw [← List.append_assoc, run_snoc] at h
    cases hc : S.running (run S p t0 (es ++ es')).inner with
    | true => rfl
    | false =>
      have := L.stays (run S p t0 (es ++ es')).inner e.event hc
      simp only [step] at h
      rw [this] at h
      cases h

theorem max_run {S : Side σ ε} {m p t0 : Nat} {missed mx : σ → Nat} (L : Laws S m missed mx) (es : List (Entry ε)) :
    mx (run S p t0 es).inner = m := by
  induction es using snoc_induction with
  | nil => exact L.init_max
  | snoc es e ih => rw [run_snoc]; exact (L.max _ _).trans ih

theorem timer {S : Side σ ε} {m p t0 : Nat} {missed mx : σ → Nat} (L : Laws S m missed mx) {es : List (Entry ε)}
    (h : Fits S p t0 es) (hr : S.running (run S p t0 es).inner) : Timer S missed m p t0 es := by
  induction es using snoc_induction with
  | nil =>
    refine ⟨?_, Or.inr ⟨by simp, ?_⟩⟩ <;> simp [run, start, L.init_missed]
  | snoc es e ih =>
    obtain ⟨h1, h2⟩ := h.snoc
    have hr1 := running_prefix L hr
    obtain ⟨i1, i2⟩ := ih h1 hr1
    obtain ⟨p1, p2⟩ := past h1
    rw [run_snoc] at hr
    have hin : (step S p (run S p t0 es) e).inner = S.step (run S p t0 es).inner e.event := rfl
    have hdl : (step S p (run S p t0 es) e).deadline = match S.kind e.event with
      | .tick => (run S p t0 es).deadline + p
      | .recv => e.time + p
      | _ => (run S p t0 es).deadline := rfl
    rw [hin] at hr
    have hnow : (run S p t0 es).now ≤ e.time := by
      simp only [possible, Bool.and_eq_true, decide_eq_true_eq] at h2; omega
    constructor
    · rw [run_snoc, hin]
      cases hk : S.kind e.event with
      | tick => have := L.tick _ _ hr1 hk hr; have := max_run L (p := p) (t0 := t0) es; omega
      | recv => have := L.recv _ _ hr1 hk hr; omega
      | other => have := L.other _ _ hr1 (by simp [hk]) (by simp [hk]) hr; omega
      | outside => have := L.other _ _ hr1 (by simp [hk]) (by simp [hk]) hr; omega
    · rw [run_snoc, hin, hdl]
      cases hk : S.kind e.event with
      | recv =>
        left
        refine ⟨e, by simp, hk, fun e' he' _ => ?_, ?_⟩
        · rw [List.mem_append, List.mem_singleton] at he'
          rcases he' with he' | rfl
          · have := p2 e' he'; omega
          · omega
        · simp [L.recv _ _ hr1 hk hr]
      | tick =>
        obtain ⟨_, hm⟩ := L.tick _ _ hr1 hk hr
        rw [hm]
        rcases i2 with ⟨r, hr', hk', hmax, hd⟩ | ⟨hno, hd⟩
        · left
          refine ⟨r, by simp [hr'], hk', fun e' he' hke => ?_, ?_⟩
          · rw [List.mem_append, List.mem_singleton] at he'
            rcases he' with he' | rfl
            · exact hmax e' he' hke
            · simp [hk] at hke
          · have := Nat.succ_mul (missed (run S p t0 es).inner + 1) p
            simp only [Nat.succ_eq_add_one] at this
            simp only [hd]; omega
        · right
          refine ⟨fun e' he' => ?_, ?_⟩
          · rw [List.mem_append, List.mem_singleton] at he'
            rcases he' with he' | rfl
            · exact hno e' he'
            · simp [hk]
          · simp only [hd]; rw [Nat.add_mul _ 1 p]; omega
      | other =>
        rw [L.other _ _ hr1 (by simp [hk]) (by simp [hk]) hr]
        rcases i2 with ⟨r, hr', hk', hmax, hd⟩ | ⟨hno, hd⟩
        · left
          refine ⟨r, by simp [hr'], hk', fun e' he' hke => ?_, hd⟩
          rw [List.mem_append, List.mem_singleton] at he'
          rcases he' with he' | rfl
          · exact hmax e' he' hke
          · simp [hk] at hke
        · right
          refine ⟨fun e' he' => ?_, hd⟩
          rw [List.mem_append, List.mem_singleton] at he'
          rcases he' with he' | rfl
          · exact hno e' he'
          · simp [hk]
      | outside =>
        rw [L.other _ _ hr1 (by simp [hk]) (by simp [hk]) hr]
        rcases i2 with ⟨r, hr', hk', hmax, hd⟩ | ⟨hno, hd⟩
        · left
          refine ⟨r, by simp [hr'], hk', fun e' he' hke => ?_, hd⟩
          rw [List.mem_append, List.mem_singleton] at he'
          rcases he' with he' | rfl
          · exact hmax e' he' hke
          · simp [hk] at hke
        · right
          refine ⟨fun e' he' => ?_, hd⟩
          rw [List.mem_append, List.mem_singleton] at he'
          rcases he' with he' | rfl
          · exact hno e' he'
          · simp [hk]

/-- A tick on which the loop stops comes late. -/
theorem last_tick {S : Side σ ε} {m p t0 : Nat} {missed mx : σ → Nat} (L : Laws S m missed mx) {pre : List (Entry ε)}
    {e : Entry ε} (h : Fits S p t0 (pre ++ [e])) (hr : S.running (run S p t0 pre).inner)
    (hk : S.kind e.event = .tick) (hm : m < missed (run S p t0 pre).inner) :
    t0 + (m + 1) * p ≤ e.time ∧ ∀ e' ∈ pre, S.kind e'.event = .recv → e'.time + (m + 2) * p ≤ e.time := by
  obtain ⟨h1, h2⟩ := h.snoc
  obtain ⟨i1, i2⟩ := timer L h1 hr
  simp only [possible, Bool.and_eq_true, Bool.or_eq_true, decide_eq_true_eq] at h2
  have hd : (run S p t0 pre).deadline ≤ e.time := by
    rcases h2.2 with h | h
    · exact absurd hk h
    · exact h
  have hm' : missed (run S p t0 pre).inner = m + 1 := by omega
  rw [hm'] at i2
  obtain ⟨_, p2⟩ := past h1
  rcases i2 with ⟨r, hr', hk', hmax, hd'⟩ | ⟨hno, hd'⟩
  · refine ⟨?_, fun e' he' hke => ?_⟩
    · have := (p2 r hr').2
      have h3 : (m + 1 + 1) * p = (m + 1) * p + p := by rw [Nat.add_mul _ 1 p]; omega
      omega
    · have := hmax e' he' hke
      have h3 : (m + 1 + 1) * p = (m + 2) * p := rfl
      omega
  · exact ⟨by omega, fun e' he' hke => absurd hke (hno e' he')⟩

/-- A running loop that is not late has heard from the other end not long ago. -/
theorem recent {S : Side σ ε} {m p t0 δ T : Nat} {missed mx : σ → Nat} (L : Laws S m missed mx) {es : List (Entry ε)}
    (h : Fits S p t0 es) (hp : Prompt S p t0 δ es T) (hr : S.running (run S p t0 es).inner) :
    T ≤ t0 + (m + 1) * p + δ ∨ ∃ e ∈ es, S.kind e.event = .recv ∧ T ≤ e.time + (m + 2) * p + δ := by
  obtain ⟨i1, i2⟩ := timer L h hr
  have hT := hp.2 hr
  rcases i2 with ⟨r, hr', hk', hmax, hd'⟩ | ⟨hno, hd'⟩
  · right
    refine ⟨r, hr', hk', ?_⟩
    have : (missed (run S p t0 es).inner + 1) * p ≤ (m + 2) * p := Nat.mul_le_mul_right _ (by omega)
    omega
  · left
    have : missed (run S p t0 es).inner * p ≤ (m + 1) * p := Nat.mul_le_mul_right _ (by omega)
    omega

/-- After something is received, or at the start, the first tick is not late either. -/
theorem first_tick {S : Side σ ε} {m p t0 δ : Nat} {missed mx : σ → Nat} (L : Laws S m missed mx)
    {es : List (Entry ε)} {T : Nat} (hpos : 0 < p) (h : Fits S p t0 es) (hp : Prompt S p t0 δ es T)
    (hr : S.running (run S p t0 es).inner) (hm : 0 < missed (run S p t0 es).inner) :
    ∃ e ∈ es, S.kind e.event = .tick ∧
      e.time + missed (run S p t0 es).inner * p ≤ (run S p t0 es).deadline + δ ∧
      ∀ e' ∈ es, S.kind e'.event = .recv → e'.time < e.time := by
  induction es using snoc_induction generalizing T with
  | nil => simp [run, start, L.init_missed] at hm
  | snoc es e ih =>
    obtain ⟨h1, h2⟩ := h.snoc
    have hr1 := running_prefix L hr
    have hprompt := hp.1 es e [] (by simp) hr1
    have hp1 : Prompt S p t0 δ es e.time :=
      ⟨fun pre e' post he => hp.1 pre e' (post ++ [e]) (by simp [he]), fun _ => hprompt⟩
    have ih := ih h1 hp1 hr1
    have ht := timer L h1 hr1
    obtain ⟨p1, p2⟩ := past h1
    rw [run_snoc] at hr hm ⊢
    have hin : (step S p (run S p t0 es) e).inner = S.step (run S p t0 es).inner e.event := rfl
    have hdl : (step S p (run S p t0 es) e).deadline = match S.kind e.event with
      | .tick => (run S p t0 es).deadline + p
      | .recv => e.time + p
      | _ => (run S p t0 es).deadline := rfl
    rw [hin] at hr hm
    rw [hin, hdl]
    have lift : (∃ x ∈ es, S.kind x.event = .tick ∧
        x.time + missed (run S p t0 es).inner * p ≤ (run S p t0 es).deadline + δ ∧
        ∀ e' ∈ es, S.kind e'.event = .recv → e'.time < x.time) → S.kind e.event ≠ .recv →
        ∃ x ∈ es ++ [e], S.kind x.event = .tick ∧
        x.time + missed (run S p t0 es).inner * p ≤ (run S p t0 es).deadline + δ ∧
        ∀ e' ∈ es ++ [e], S.kind e'.event = .recv → e'.time < x.time := by
      rintro ⟨x, hx, a, b, c⟩ hne
      refine ⟨x, by simp [hx], a, b, fun e' he' hk' => ?_⟩
      rw [List.mem_append, List.mem_singleton] at he'
      rcases he' with he' | rfl
      · exact c e' he' hk'
      · exact absurd hk' hne
    cases hk : S.kind e.event with
    | recv => rw [L.recv _ _ hr1 hk hr] at hm; omega
    | other =>
      have := L.other _ _ hr1 (by simp [hk]) (by simp [hk]) hr
      rw [this] at hm ⊢
      exact lift (ih hm) (by simp [hk])
    | outside =>
      have := L.other _ _ hr1 (by simp [hk]) (by simp [hk]) hr
      rw [this] at hm ⊢
      exact lift (ih hm) (by simp [hk])
    | tick =>
      obtain ⟨_, hmm⟩ := L.tick _ _ hr1 hk hr
      rw [hmm]
      have hs := Nat.succ_mul (missed (run S p t0 es).inner) p
      simp only [Nat.succ_eq_add_one] at hs
      by_cases h0 : 0 < missed (run S p t0 es).inner
      · obtain ⟨x, hx, a, b, c⟩ := lift (ih h0) (by simp [hk])
        exact ⟨x, hx, a, by simp only; omega, c⟩
      · have h0 : missed (run S p t0 es).inner = 0 := by omega
        refine ⟨e, by simp, hk, by simp only [h0]; omega, fun e' he' hk' => ?_⟩
        rw [List.mem_append, List.mem_singleton] at he'
        rcases he' with he' | rfl
        · simp only [possible, Bool.and_eq_true, Bool.or_eq_true, decide_eq_true_eq] at h2
          have hd : (run S p t0 es).deadline ≤ e.time := by
            rcases h2.2 with h | h
            · exact absurd hk h
            · exact h
          rcases ht.due with ⟨r, hr', _, hmax, hd'⟩ | ⟨hno, _⟩
          · have := hmax e' he' hk'
            rw [h0] at hd'
            omega
          · exact absurd hk' (hno e' he')
        · rw [hk] at hk'; cases hk'

/-- The next tick is due within one period of the last event. -/
theorem due_soon {S : Side σ ε} {p t0 : Nat} {es : List (Entry ε)} (h : Fits S p t0 es) : (run S p t0 es).deadline ≤ (run S p t0 es).now + p := by
  induction es using snoc_induction with
  | nil => simp [run, start]
  | snoc es e ih =>
    obtain ⟨h1, h2⟩ := h.snoc
    have ih := ih h1
    simp only [possible, Bool.and_eq_true, Bool.or_eq_true, decide_eq_true_eq] at h2
    rw [run_snoc]
    have hdl : (step S p (run S p t0 es) e).deadline = match S.kind e.event with
      | .tick => (run S p t0 es).deadline + p
      | .recv => e.time + p
      | _ => (run S p t0 es).deadline := rfl
    have hn : (step S p (run S p t0 es) e).now = e.time := rfl
    rw [hdl, hn]
    cases hk : S.kind e.event with
    | tick =>
      have : (run S p t0 es).deadline ≤ e.time := by
        rcases h2.2 with h | h
        · exact absurd hk h
        · exact h
      simp only; omega
    | recv => simp only; omega
    | other => simp only; omega
    | outside => simp only; omega

/-! ## The two ends -/

theorem server_laws (m : Nat) : Laws (server m) m (·.missed) (·.maxMissable) where
  init_running := rfl
  init_missed := rfl
  init_max := rfl
  max := by
    intro s e
    simp only [server, Conn.step]
    split
    · rfl
    · cases e <;> simp only [Conn.beatHeart, Conn.alive, Conn.handleClientMessage, Conn.reserve, Conn.send] <;>
        repeat' split
      all_goals rfl
  stays := by
    intro s e h
    simp only [server, Option.isNone_eq_false_iff] at h ⊢
    rw [Conn.step_ended h]; exact h
  tick := by
    intro s e h hk hr
    simp only [server] at h hk hr ⊢
    cases e <;> simp only [serverKind] at hk <;> try contradiction
    have : s.ended.isSome = false := by simpa using h
    have hst : Conn.step s .tick = Conn.beatHeart s := by simp [Conn.step, this]
    rw [hst] at hr ⊢
    by_cases hx : s.missed > s.maxMissable
    · simp [Conn.beatHeart, hx] at hr
    · simp [Conn.beatHeart, hx]; omega
  recv := by
    intro s e h hk hr
    simp only [server] at h hk hr ⊢
    have h' : s.ended.isSome = false := by simpa using h
    cases e <;> simp only [serverKind] at hk <;> try contradiction
    all_goals simp only [Conn.step, h', Conn.alive]
    case recv msg f b =>
      cases msg <;> simp [Conn.handleClientMessage, Conn.reserve_missed]
    all_goals rfl
  other := by
    intro s e h hk hk' hr
    simp only [server] at h hk hk' hr ⊢
    have h' : s.ended.isSome = false := by simpa using h
    cases e <;> simp only [serverKind, ne_eq, not_true_eq_false] at hk hk' <;> try contradiction
    all_goals simp only [Conn.step, h']
    all_goals simp
    all_goals split <;> simp [Conn.reserve_missed]

theorem client_fields (s : Client.State) (e : Client.Event) :
    (Client.step s e).maxMissable = s.maxMissable ∧
    (clientKind e = .outside → (Client.step s e).missed = s.missed ∧
      (Client.step s e).background = s.background ∧ (Client.step s e).healthy = s.healthy) ∧
    (s.background = .running → clientKind e = .recv → (Client.step s e).missed = 0 ∧
      (Client.step s e).healthy = s.healthy) ∧
    (s.background = .running → clientKind e = .other → (Client.step s e).background ≠ .running ∧
      (Client.step s e).healthy = s.healthy) ∧
    (s.background = .running → clientKind e = .tick →
      (s.maxMissable < s.missed ∧ (Client.step s e).background ≠ .running ∧ (Client.step s e).healthy = false) ∨
      (s.missed ≤ s.maxMissable ∧ (Client.step s e).missed = s.missed + 1 ∧ (Client.step s e).healthy = s.healthy)) ∧
    (s.background ≠ .running → (Client.step s e).healthy = s.healthy) := by
  cases e
  case call => simp [clientKind, Client.step, Client.begin]
  case send => simp only [Client.step, clientKind]; rw [Client.put_eq]; simp [Client.update]
  case abandon => simp only [Client.step, clientKind]; rw [Client.put_eq]; simp [Client.update]
  case complete => simp [clientKind, Client.step, Client.asyncComplete]
  case fail => simp [clientKind, Client.step, Client.asyncFail]
  case sync n r ok =>
    by_cases hr : s.background = .running
    · obtain ⟨h1, h2, h3⟩ := Client.deliver_fields { s with missed := 0 } n r ok
      have hst : Client.step s (.sync n r ok) = Client.deliver { s with missed := 0 } n r ok := by
        simp [Client.step, hr]
      rw [hst, h1, h2, h3]
      simp [clientKind, hr]
    · simp [clientKind, Client.step, hr]
  case tick =>
    by_cases hr : s.background = .running
    · by_cases hm : s.missed > s.maxMissable
      · simp [clientKind, Client.step, hr, hm, Client.exit, Client.clear]
      · simp [clientKind, Client.step, hr, hm]; omega
    · simp [clientKind, Client.step, hr]
  all_goals
    by_cases hr : s.background = .running <;>
      simp [clientKind, Client.step, hr, Client.exit, Client.clear, Client.asyncFail]

theorem client_laws (m : Nat) : Laws (client m) m (·.missed) (·.maxMissable) where
  init_running := rfl
  init_missed := rfl
  init_max := rfl
  max s e := (client_fields s e).1
  stays := by
    intro s e h
    simp only [client, decide_eq_false_iff_not] at h ⊢
    rw [Client.step_stopped h]
    exact h
  tick := by
    intro s e h hk hr
    simp only [client, decide_eq_true_eq] at h hk hr ⊢
    rcases (client_fields s e).2.2.2.2.1 h hk with h' | h'
    · exact absurd hr h'.2.1
    · exact ⟨h'.1, h'.2.1⟩
  recv := by
    intro s e h hk hr
    simp only [client, decide_eq_true_eq] at h hk hr ⊢
    exact ((client_fields s e).2.2.1 h hk).1
  other := by
    intro s e h hk hk' hr
    simp only [client, decide_eq_true_eq] at h hk hk' hr ⊢
    cases hx : clientKind e with
    | tick => exact absurd hx hk
    | recv => exact absurd hx hk'
    | other => exact absurd hr ((client_fields s e).2.2.2.1 h hx).1
    | outside => exact ((client_fields s e).2.1 hx).1

theorem inner_run (S : Side σ ε) (p t0 : Nat) (es : List (Entry ε)) :
    (run S p t0 es).inner = (es.map (·.event)).foldl S.step S.init := by
  induction es using snoc_induction with
  | nil => rfl
  | snoc es e ih => rw [run_snoc, List.map_append, List.foldl_append, ← ih]; rfl

theorem server_running {m : Nat} {s : Conn.State} : (server m).running s = true ↔ s.ended = none := by
  simp [server]

theorem client_running {m : Nat} {s : Client.State} : (client m).running s = true ↔ s.background = .running := by
  simp [client]

theorem server_recv {e : Entry Conn.Event} : (server m).kind e.event = .recv ↔ GotFromConsumer e := by
  unfold GotFromConsumer
  cases h : e.event <;> simp [server, serverKind]

theorem got_client {e : Entry Client.Event} (h : GotFromServer e) : (client m).kind e.event = .recv := by
  rcases h with h | h | ⟨_, _, _, h⟩ | ⟨_, _, h⟩ | h <;> rw [h] <;> rfl

/-- While the loop of the client runs, whatever resets the timer is a frame. -/
theorem client_recv {m p t0 : Nat} {es : List (Entry Client.Event)}
    (hr : (client m).running (run (client m) p t0 es).inner) {e : Entry Client.Event} (he : e ∈ es)
    (hk : (client m).kind e.event = .recv) : GotFromServer e := by
  obtain ⟨pre, post, rfl⟩ := List.append_of_mem he
  have h1 : (client m).running (run (client m) p t0 (pre ++ [e])).inner :=
    running_prefix (client_laws m) (es' := post) (by simpa using hr)
  have h0 := running_prefix (client_laws m) h1
  rw [run_snoc] at h1
  simp only [step, client, decide_eq_true_eq] at h0 h1 hk
  unfold GotFromServer
  cases h : e.event <;> rw [h] at hk h1 <;> simp only [clientKind] at hk <;> try contradiction
  all_goals simp [Client.step, h0, Client.exit] at h1 ⊢

theorem server_end {m p t0 : Nat} {pre : List (Entry Conn.Event)} {e : Entry Conn.Event}
    (hr : (run (server m) p t0 pre).inner.ended = none)
    (hend : (run (server m) p t0 (pre ++ [e])).inner.ended = some .heartbeatFailure) :
    e.event = .tick ∧ m < (run (server m) p t0 pre).inner.missed := by
  have hmax := max_run (server_laws m) (p := p) (t0 := t0) pre
  rw [run_snoc] at hend
  generalize run (server m) p t0 pre = s at *
  simp only [step, server] at hend
  have hs : s.inner.ended.isSome = false := by simp [hr]
  cases he : e.event <;> rw [he] at hend
  case tick =>
    refine ⟨rfl, ?_⟩
    by_cases hx : s.inner.missed > s.inner.maxMissable
    · omega
    · simp [Conn.step, Conn.beatHeart, hs, hx, hr] at hend
  case recv msg f b =>
    cases msg with
    | wantToReserve r =>
      simp only [Conn.step, hs, Conn.handleClientMessage, Bool.false_eq_true, if_false] at hend
      rcases (Conn.reserve_missed (Conn.alive s.inner) r f b).2.2.2.2 with h | h <;> rw [h] at hend
      · simp [Conn.alive, hr] at hend
      · simp at hend
    | completeChunk => simp [Conn.step, hs, Conn.handleClientMessage, Conn.alive, hr] at hend
    | failChunk => simp [Conn.step, hs, Conn.handleClientMessage, Conn.alive, hr] at hend
  case retry f b =>
    simp only [Conn.step, hs] at hend
    cases hq : s.inner.retry with
    | nil => simp [hq, hr] at hend
    | cons r rest =>
      simp only [hq, Bool.false_eq_true, if_false] at hend
      rcases (Conn.reserve_missed { s.inner with retry := rest } r f b).2.2.2.2 with h | h <;> rw [h] at hend
      · simp [hr] at hend
      · simp at hend
  case wake i =>
    simp only [Conn.step, hs] at hend
    cases hq : s.inner.waiting[i]? <;> simp [hq, hr] at hend
  case expired id b => cases b <;> simp [Conn.step, hs, Conn.send, hr] at hend
  all_goals simp [Conn.step, hs, Conn.alive, hr] at hend

theorem client_end {m p t0 : Nat} {pre : List (Entry Client.Event)} {e : Entry Client.Event}
    (hr : (run (client m) p t0 pre).inner.background = .running)
    (hend : (run (client m) p t0 (pre ++ [e])).inner.healthy = false) :
    e.event = .tick ∧ m < (run (client m) p t0 pre).inner.missed := by
  have hmax := max_run (client_laws m) (p := p) (t0 := t0) pre
  have hh : (run (client m) p t0 pre).inner.healthy = true := by
    have hb := Client.clientBeat_run m (pre.map (·.event))
    have hi : (run (client m) p t0 pre).inner = Client.run m (pre.map (·.event)) := inner_run _ _ _ _
    rw [hi] at hr ⊢
    cases h : (Client.run m (pre.map (·.event))).healthy with
    | true => rfl
    | false => exact absurd hr (hb.stopped h)
  rw [run_snoc] at hend
  generalize run (client m) p t0 pre = s at *
  simp only [step, client] at hend
  obtain ⟨_, h1, h2, h3, h4, _⟩ := client_fields s.inner e.event
  cases hk : clientKind e.event with
  | tick =>
    refine ⟨?_, ?_⟩
    · cases h : e.event <;> rw [h] at hk <;> simp only [clientKind] at hk <;> first | rfl | contradiction
    · rcases h4 hr hk with h | h
      · omega
      · rw [h.2.2, hh] at hend; cases hend
  | recv => rw [(h2 hr hk).2, hh] at hend; cases hend
  | other => rw [(h3 hr hk).2, hh] at hend; cases hend
  | outside => rw [(h1 hk).2.2, hh] at hend; cases hend

/-! ## Both ends -/

/-- A loop that is not late takes a tick when it has not heard from the other end for an interval. -/
theorem tick_in_silence {S : Side σ ε} {m p t0 δ T y : Nat} {missed mx : σ → Nat} (L : Laws S m missed mx)
    {es : List (Entry ε)} (h : Fits S p t0 es) (hp : Prompt S p t0 δ es T)
    (hr : S.running (run S p t0 es).inner) (h0 : t0 ≤ y) (hT : y + p + δ < T)
    (hsilent : ∀ e ∈ es, S.kind e.event = .recv → y < e.time → y + p + δ < e.time) :
    ∃ pre e post, es = pre ++ e :: post ∧ S.kind e.event = .tick ∧ y < e.time ∧ e.time ≤ y + p + δ := by
  have key : ∀ (post pre : List (Entry ε)), es = pre ++ post → (run S p t0 pre).deadline ≤ y + p →
      (∀ e ∈ post, y < e.time) →
      ∃ pre e post, es = pre ++ e :: post ∧ S.kind e.event = .tick ∧ y < e.time ∧ e.time ≤ y + p + δ := by
    intro post
    induction post with
    | nil =>
      intro pre he hd _
      simp only [List.append_nil] at he
      subst he
      have := hp.2 hr
      omega
    | cons e post ih =>
      intro pre he hd hlate
      have hr1 : S.running (run S p t0 pre).inner := running_prefix L (es' := e :: post) (by rw [← he]; exact hr)
      have h1 := hp.1 pre e post he hr1
      have h2 := hlate e (by simp)
      have hdl : (step S p (run S p t0 pre) e).deadline = match S.kind e.event with
        | .tick => (run S p t0 pre).deadline + p
        | .recv => e.time + p
        | _ => (run S p t0 pre).deadline := rfl
      cases hk : S.kind e.event with
      | tick => exact ⟨pre, e, post, he, hk, h2, by omega⟩
      | recv =>
        have := hsilent e (by rw [he]; simp) hk h2
        omega
      | other =>
        exact ih (pre ++ [e]) (by simp [he]) (by rw [run_snoc, hdl, hk]; exact hd) fun e' he' => hlate e' (by simp [he'])
      | outside =>
        exact ih (pre ++ [e]) (by simp [he]) (by rw [run_snoc, hdl, hk]; exact hd) fun e' he' => hlate e' (by simp [he'])
  have hsplit : ∃ pre post, es = pre ++ post ∧ (∀ e ∈ pre, e.time ≤ y) ∧ ∀ e ∈ post, y < e.time := by
    clear key hsilent hr hp hT
    induction es using snoc_induction with
    | nil => exact ⟨[], [], rfl, by simp, by simp⟩
    | snoc es e ih =>
      obtain ⟨h1, h2⟩ := h.snoc
      obtain ⟨pre, post, rfl, ha, hb⟩ := ih h1
      have hnow : (run S p t0 (pre ++ post)).now ≤ e.time := by
        simp only [possible, Bool.and_eq_true, decide_eq_true_eq] at h2; omega
      by_cases hey : e.time ≤ y
      · have hnil : post = [] := by
          cases post with
          | nil => rfl
          | cons x post =>
            have := ((past h1).2 x (by simp)).1
            have := hb x (by simp)
            omega
        subst hnil
        refine ⟨pre ++ [e], [], by simp, ?_, by simp⟩
        intro x hx
        rw [List.mem_append, List.mem_singleton] at hx
        rcases hx with hx | rfl
        · exact ha x hx
        · exact hey
      · refine ⟨pre, post ++ [e], by simp, ha, ?_⟩
        intro x hx
        rw [List.mem_append, List.mem_singleton] at hx
        rcases hx with hx | rfl
        · exact hb x hx
        · omega
  obtain ⟨pre, post, he, ha, hb⟩ := hsplit
  refine key post pre he ?_ hb
  have hf : Fits S p t0 pre := by rw [he] at h; exact h.prefix
  have hd := due_soon hf
  have hn : (run S p t0 pre).now ≤ y := by
    rcases List.eq_nil_or_concat pre with rfl | ⟨pre', x, rfl⟩
    · exact h0
    · rw [List.concat_eq_append, run_snoc]
      exact ha x (by simp)
  omega

theorem mem_allSends {φ : Type} (S : Side σ ε) (p t0 : Nat) (f : State σ → Entry ε → List (Nat × φ))
    {es pre post : List (Entry ε)} {e : Entry ε} (h : es = pre ++ e :: post) {x : Nat × φ}
    (hx : x ∈ f (run S p t0 pre) e) : x ∈ allSends S p f (start S t0) es := by
  have key : ∀ (pre pre0 es : List (Entry ε)), es = pre ++ e :: post →
      x ∈ f (run S p t0 (pre0 ++ pre)) e → x ∈ allSends S p f (run S p t0 pre0) es := by
    intro pre
    induction pre with
    | nil => intro pre0 es he hx; subst he; simp only [List.append_nil] at hx; simp [allSends, hx]
    | cons y pre ih =>
      intro pre0 es he hx
      subst he
      have := ih (pre0 ++ [y]) _ rfl (by simpa using hx)
      rw [run_snoc] at this
      simp [allSends, this]
  exact key pre [] es h (by simpa using hx)

theorem delivered {φ : Type} {lat T : Nat} {sent got : List (Nat × φ)} (h : Delivers lat T sent got) {t : Nat} {f : φ}
    (hs : (t, f) ∈ sent) (hT : t + lat < T) : ∃ t', (t', f) ∈ got ∧ t ≤ t' ∧ t' ≤ t + lat := by
  obtain ⟨i, hi⟩ := List.getElem?_of_mem hs
  obtain ⟨h1, h2⟩ := h.2 i t f hi
  cases hg : got[i]? with
  | none => have := h2 hg; omega
  | some y =>
    obtain ⟨t', g⟩ := y
    obtain ⟨rfl, ha, hb⟩ := h1 t' g hg
    exact ⟨t', List.mem_of_getElem? hg, ha, hb⟩

theorem clientReceives_got {e : Entry Client.Event} {t : Nat} {f : Conn.ServerMsg}
    (h : clientReceives e = some (t, f)) : GotFromServer e ∧ e.time = t ∧ (f = .ping → e.event = .ping) := by
  unfold clientReceives at h
  unfold GotFromServer
  split at h <;> rename_i he <;> simp_all
  all_goals (intro h'; rw [← h.2] at h'; cases h')

theorem serverReceives_got {e : Entry Conn.Event} {t : Nat} {f : ClientFrame}
    (h : serverReceives e = some (t, f)) : GotFromConsumer e ∧ e.time = t := by
  unfold serverReceives at h
  unfold GotFromConsumer
  split at h <;> rename_i he <;> simp_all

/-- A tick after which the connection is still open sends a ping. -/
theorem ping_sent {m p t0 : Nat} {ss pre post : List (Entry Conn.Event)} {e : Entry Conn.Event}
    (he : ss = pre ++ e :: post) (hk : e.event = .tick)
    (hr : (run (server m) p t0 (pre ++ [e])).inner.ended = none) :
    (e.time + e.duration, Conn.ServerMsg.ping) ∈
      allSends (server m) p (serverSends p (server m)) (start (server m) t0) ss := by
  refine mem_allSends _ _ _ _ he ?_
  have hr0 : (run (server m) p t0 pre).inner.ended = none :=
    server_running.1 (running_prefix (server_laws m) (es' := [e]) (server_running.2 hr))
  rw [run_snoc] at hr
  unfold serverSends
  generalize run (server m) p t0 pre = s at *
  simp only [step, server, hk] at hr ⊢
  by_cases hx : s.inner.missed > s.inner.maxMissable
  · simp [Conn.step, Conn.beatHeart, hx, hr0] at hr
  · simp [Conn.step, Conn.beatHeart, hx, hr0]

/-! ## Checking concrete histories -/

/-- Checks `Fits`. -/
def fitsB (S : Side σ ε) (p : Nat) : State σ → List (Entry ε) → Bool
  | _, [] => true
  | s, e :: es => possible S s e && fitsB S p (step S p s e) es

theorem fits_of (S : Side σ ε) (p t0 : Nat) (es : List (Entry ε)) (h : fitsB S p (start S t0) es) :
    Fits S p t0 es := by
  have key : ∀ (es pre0 : List (Entry ε)), fitsB S p (run S p t0 pre0) es → ∀ pre e post,
      es = pre ++ e :: post → possible S (run S p t0 (pre0 ++ pre)) e := by
    intro es
    induction es with
    | nil => intro pre0 _ pre e post he; simp at he
    | cons x es ih =>
      intro pre0 hx pre e post he
      simp only [fitsB, Bool.and_eq_true] at hx
      cases pre with
      | nil => simp at he; rw [← he.1]; simpa using hx.1
      | cons y pre =>
        simp only [List.cons_append, List.cons.injEq] at he
        obtain ⟨rfl, he⟩ := he
        have := ih (pre0 ++ [x]) (by rw [run_snoc]; exact hx.2) pre e post he
        simpa using this
  intro pre e post he
  simpa using key es [] h pre e post he

/-- Checks `Prompt`. -/
def promptB (S : Side σ ε) (p δ T : Nat) : State σ → List (Entry ε) → Bool
  | s, [] => !S.running s.inner || decide (T ≤ s.deadline + δ)
  | s, e :: es => (!S.running s.inner || decide (e.time ≤ s.deadline + δ)) && promptB S p δ T (step S p s e) es

theorem prompt_of (S : Side σ ε) (p t0 δ T : Nat) (es : List (Entry ε)) (h : promptB S p δ T (start S t0) es) :
    Prompt S p t0 δ es T := by
  have key : ∀ (es pre0 : List (Entry ε)), promptB S p δ T (run S p t0 pre0) es →
      (∀ pre e post, es = pre ++ e :: post → S.running (run S p t0 (pre0 ++ pre)).inner →
        e.time ≤ (run S p t0 (pre0 ++ pre)).deadline + δ) ∧
      (S.running (run S p t0 (pre0 ++ es)).inner → T ≤ (run S p t0 (pre0 ++ es)).deadline + δ) := by
    intro es
    induction es with
    | nil =>
      intro pre0 hx
      refine ⟨fun pre e post he => by simp at he, fun hr => ?_⟩
      simp only [promptB, Bool.or_eq_true, Bool.not_eq_true', decide_eq_true_eq] at hx
      simp only [List.append_nil] at hr ⊢
      rcases hx with hx | hx
      · rw [hx] at hr; cases hr
      · exact hx
    | cons x es ih =>
      intro pre0 hx
      simp only [promptB, Bool.and_eq_true, Bool.or_eq_true, Bool.not_eq_true', decide_eq_true_eq] at hx
      obtain ⟨i1, i2⟩ := ih (pre0 ++ [x]) (by rw [run_snoc]; exact hx.2)
      refine ⟨fun pre e post he hr => ?_, fun hr => ?_⟩
      · cases pre with
        | nil =>
          simp at he
          rw [← he.1]
          simp only [List.append_nil] at hr ⊢
          rcases hx.1 with h | h
          · rw [h] at hr; cases hr
          · exact h
        | cons y pre =>
          simp only [List.cons_append, List.cons.injEq] at he
          obtain ⟨rfl, he⟩ := he
          have := i1 pre e post he (by simpa using hr)
          simpa using this
      · simpa using i2 (by simpa using hr)
  have := key es [] h
  simpa [Prompt] using this

/-- Checks `Delivers`. -/
def deliversB {φ : Type} [DecidableEq φ] (lat T : Nat) : List (Nat × φ) → List (Nat × φ) → Bool
  | [], [] => true
  | [], _ :: _ => false
  | (t, _) :: sent, [] => decide (T ≤ t + lat) && deliversB lat T sent []
  | (t, f) :: sent, (t', g) :: got =>
    decide (g = f) && decide (t ≤ t') && decide (t' ≤ t + lat) && deliversB lat T sent got

theorem delivers_of {φ : Type} [DecidableEq φ] (lat T : Nat) (sent got : List (Nat × φ))
    (h : deliversB lat T sent got) : Delivers lat T sent got := by
  induction sent generalizing got with
  | nil =>
    cases got with
    | nil => exact ⟨by simp, fun i t f hi => by simp at hi⟩
    | cons => simp [deliversB] at h
  | cons x sent ih =>
    obtain ⟨t, f⟩ := x
    cases got with
    | nil =>
      simp only [deliversB, Bool.and_eq_true, decide_eq_true_eq] at h
      obtain ⟨j1, j2⟩ := ih [] h.2
      refine ⟨by simp, fun i u g hi => ⟨fun t' g' h' => by simp at h', fun _ => ?_⟩⟩
      cases i with
      | zero => simp at hi; omega
      | succ i => exact (j2 i u g (by simpa using hi)).2 (by simp)
    | cons y got =>
      obtain ⟨t', g⟩ := y
      simp only [deliversB, Bool.and_eq_true, decide_eq_true_eq] at h
      obtain ⟨j1, j2⟩ := ih got h.2
      refine ⟨by simpa using j1, fun i u f' hi => ?_⟩
      cases i with
      | zero =>
        simp at hi
        refine ⟨fun u' g' h' => ?_, fun h' => by simp at h'⟩
        simp at h'
        obtain ⟨⟨⟨ha, hb⟩, hc⟩, _⟩ := h
        obtain ⟨rfl, rfl⟩ := hi
        obtain ⟨rfl, rfl⟩ := h'
        exact ⟨ha, hb, hc⟩
      | succ i => simpa using j2 i u f' (by simpa using hi)

end Opsqueue.Heartbeat
