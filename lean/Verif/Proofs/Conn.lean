import Verif.Spec.Conn

/-!
# Lemmas about connections
-/

namespace Opsqueue.Conn

theorem step_ended {s : State} (h : s.ended.isSome) (e : Event) : step s e = s := by
  unfold step; rw [if_pos h]

theorem foldl_ended {s : State} (h : s.ended.isSome) (es : List Event) : es.foldl step s = s := by
  induction es with
  | nil => rfl
  | cons e es ih => rw [List.foldl_cons, step_ended h, ih]

theorem run_snoc (m : Nat) (es : List Event) (e : Event) : run m (es ++ [e]) = step (run m es) e := by
  simp [run, List.foldl_append]

theorem whileOpen_snoc {α : Type} (f : Event → Option α) (s : State) (es : List Event) (e : Event) :
    whileOpen f s (es ++ [e]) = whileOpen f s es ++
      if (es.foldl step s).ended.isSome then [] else (f e).toList := by
  induction es generalizing s with
  | nil =>
    show whileOpen f s [e] = [] ++ if s.ended.isSome then [] else (f e).toList
    unfold whileOpen
    split
    · rfl
    · simp [whileOpen]
  | cons a es ih =>
    rw [List.cons_append]
    unfold whileOpen
    split
    · rename_i h
      rw [List.foldl_cons, step_ended h, foldl_ended h, if_pos h]; rfl
    · rw [ih, List.append_assoc, List.foldl_cons]

@[simp] theorem send_waiting (s : State) (m : ServerMsg) (b : Bool) : (send s m b).waiting = s.waiting := by
  unfold send; split <;> rfl
@[simp] theorem send_retry (s : State) (m : ServerMsg) (b : Bool) : (send s m b).retry = s.retry := by
  unfold send; split <;> rfl
@[simp] theorem send_reports (s : State) (m : ServerMsg) (b : Bool) : (send s m b).reports = s.reports := by
  unfold send; split <;> rfl
@[simp] theorem send_missed (s : State) (m : ServerMsg) (b : Bool) : (send s m b).missed = s.missed := by
  unfold send; split <;> rfl
@[simp] theorem send_max (s : State) (m : ServerMsg) (b : Bool) : (send s m b).maxMissable = s.maxMissable := by
  unfold send; split <;> rfl

theorem reserve_missed (s : State) (r : Request) (f : Fetch) (b : Bool) :
    (reserve s r f b).missed = s.missed ∧ (reserve s r f b).maxMissable = s.maxMissable ∧
    (reserve s r f b).reports = s.reports ∧ (reserve s r f b).retry = s.retry ∧
    ((reserve s r f b).ended = s.ended ∨ (reserve s r f b).ended = some .websocket) := by
  have hs : ∀ m, (send s m b).missed = s.missed ∧ (send s m b).maxMissable = s.maxMissable ∧
    (send s m b).reports = s.reports ∧ (send s m b).retry = s.retry ∧
    ((send s m b).ended = s.ended ∨ (send s m b).ended = some .websocket) := by
    intro m
    refine ⟨send_missed _ _ _, send_max _ _ _, send_reports _ _ _, send_retry _ _ _, ?_⟩
    unfold send; split
    · exact Or.inl rfl
    · exact Or.inr rfl
  unfold reserve
  split
  · exact hs _
  · split
    · exact hs _
    · exact ⟨rfl, rfl, rfl, rfl, Or.inl rfl⟩
    · exact hs _

/-! ### heartbeats -/

/-- Number of ticks since the last message. -/
def silent (l : List Bool) : Nat := (l.reverse.takeWhile id).length

theorem silent_tick (l : List Bool) : silent (l ++ [true]) = silent l + 1 := by simp [silent]
theorem silent_msg (l : List Bool) : silent (l ++ [false]) = 0 := by simp [silent]

theorem prefix_replicate_iff (n : Nat) (l : List Bool) :
    List.replicate n true <+: l ↔ n ≤ (l.takeWhile id).length := by
  induction n generalizing l with
  | zero => simp
  | succ n ih =>
    cases l with
    | nil => simp
    | cons b l =>
      rw [List.replicate_succ, List.cons_prefix_cons, ih]
      cases b <;> simp

theorem silent_iff (n : Nat) (l : List Bool) : List.replicate n true <:+ l ↔ n ≤ silent l := by
  rw [← List.reverse_prefix, List.reverse_replicate, prefix_replicate_iff]; rfl

theorem beats_snoc (es : List Event) (e : Event) : beats (es ++ [e]) = beats es ++ e.beat.toList := by
  unfold beats
  rw [List.filterMap_append]
  cases h : e.beat <;> simp [h]

structure Beat (m : Nat) (es : List Event) (s : State) : Prop where
  max : s.maxMissable = m
  missed : s.ended = none → s.missed = silent (beats es) ∧ s.missed ≤ m + 1
  ended : s.ended = some .heartbeatFailure ↔ ∃ pre post, es = pre ++ .tick :: post ∧
    (run m pre).ended = none ∧ List.replicate (m + 1) true <:+ beats pre

theorem exists_snoc_iff {m : Nat} {es : List Event} {e : Event} :
    (∃ pre post, es ++ [e] = pre ++ .tick :: post ∧ (run m pre).ended = none ∧
      List.replicate (m + 1) true <:+ beats pre) ↔
    (∃ pre post, es = pre ++ .tick :: post ∧ (run m pre).ended = none ∧
      List.replicate (m + 1) true <:+ beats pre) ∨
    (e = .tick ∧ (run m es).ended = none ∧ List.replicate (m + 1) true <:+ beats es) := by
  constructor
  · rintro ⟨pre, post, he, h1, h2⟩
    rcases List.eq_nil_or_concat post with rfl | ⟨post', x, rfl⟩
    · have := List.append_inj' he rfl
      obtain ⟨rfl, h⟩ := this
      cases h
      exact Or.inr ⟨rfl, h1, h2⟩
    · rw [List.concat_eq_append, ← List.cons_append, ← List.append_assoc] at he
      have := List.append_inj' he rfl
      exact Or.inl ⟨pre, post', this.1, h1, h2⟩
  · rintro (⟨pre, post, rfl, h1, h2⟩ | ⟨rfl, h1, h2⟩)
    · exact ⟨pre, post ++ [e], by simp, h1, h2⟩
    · exact ⟨es, [], rfl, h1, h2⟩

theorem beat_run (m : Nat) (es : List Event) : Beat m es (run m es) := by
  have key : ∀ n (es : List Event), es.length = n → Beat m es (run m es) := by
    intro n
    induction n with
    | zero =>
      intro es h
      cases List.eq_nil_of_length_eq_zero h
      refine ⟨rfl, fun _ => ⟨rfl, Nat.zero_le _⟩, ?_⟩
      constructor
      · intro h; cases h
      · rintro ⟨pre, post, h, _⟩
        cases pre <;> cases h
    | succ n ih =>
      intro es h
      rcases List.eq_nil_or_concat es with rfl | ⟨es, e, rfl⟩
      · cases h
      rw [List.concat_eq_append] at h ⊢
      have hb := ih es (by simpa using h)
      rw [run_snoc]
      by_cases hend : (run m es).ended.isSome
      · rw [step_ended hend]
        refine ⟨hb.max, fun h => ?_, ?_⟩
        · rw [h] at hend; cases hend
        · rw [exists_snoc_iff, hb.ended]
          constructor
          · exact Or.inl
          · rintro (h | ⟨_, h, _⟩)
            · exact h
            · rw [h] at hend; cases hend
      · have hnone : (run m es).ended = none := by
          cases hh : (run m es).ended
          · rfl
          · rw [hh] at hend; exact absurd rfl hend
        have hnot : ¬ ∃ pre post, es = pre ++ .tick :: post ∧ (run m pre).ended = none ∧
            List.replicate (m + 1) true <:+ beats pre := by
          rw [← hb.ended, hnone]; intro h; cases h
        obtain ⟨hmiss, hle⟩ := hb.missed hnone
        have hmax := hb.max
        generalize hrun : run m es = s at *
        -- events other than ticks: what is needed of the new state
        have other : ∀ s' : State, e ≠ .tick → s'.maxMissable = m →
            s'.ended ≠ some .heartbeatFailure →
            (s'.ended = none → (e.beat = none ∧ s'.missed = s.missed) ∨
              (e.beat = some false ∧ s'.missed = 0)) →
            Beat m (es ++ [e]) s' := by
          intro s' hne hm' hnh hmi
          refine ⟨hm', fun hn => ?_, ?_⟩
          · rw [beats_snoc]
            rcases hmi hn with ⟨h1, h2⟩ | ⟨h1, h2⟩
            · rw [h1, h2]; simpa using ⟨hmiss, hle⟩
            · rw [h1, h2]
              exact ⟨(silent_msg _).symm, Nat.zero_le _⟩
          · rw [exists_snoc_iff]
            constructor
            · intro h; exact absurd h hnh
            · rintro (h | ⟨h, _⟩)
              · exact absurd h hnot
              · exact absurd h hne
        have hstep : step s e = step { s with ended := none } e := by rw [← hnone]
        unfold step
        rw [if_neg hend]
        cases e with
        | tick =>
          simp only [beatHeart]
          have hsil : List.replicate (m + 1) true <:+ beats es ↔ s.missed > s.maxMissable := by
            rw [silent_iff, ← hmiss, hmax]; omega
          by_cases hgt : s.missed > s.maxMissable
          · rw [if_pos hgt]
            refine ⟨hmax, (fun h => by cases h), ?_⟩
            rw [exists_snoc_iff]
            exact ⟨fun _ => Or.inr ⟨rfl, by rw [hrun]; exact hnone, hsil.2 hgt⟩, fun _ => rfl⟩
          · rw [if_neg hgt]
            refine ⟨hmax, fun _ => ?_, ?_⟩
            · rw [beats_snoc]
              refine ⟨?_, ?_⟩
              · show s.missed + 1 = silent (beats es ++ [true])
                rw [silent_tick, hmiss]
              · show s.missed + 1 ≤ m + 1
                omega
            · rw [exists_snoc_iff]
              constructor
              · intro h
                replace h : s.ended = _ := h
                rw [hnone] at h; cases h
              · rintro (h | ⟨_, _, h⟩)
                · exact absurd h hnot
                · exact absurd (hsil.1 h) hgt
        | recv msg f b =>
          refine other _ (by intro h; cases h) ?_ ?_ ?_ <;> simp only [handleClientMessage]
          · cases msg with
            | wantToReserve r => exact (reserve_missed _ r f b).2.1.trans hmax
            | _ => exact hmax
          · cases msg with
            | wantToReserve r =>
              rcases (reserve_missed (alive s) r f b).2.2.2.2 with h | h <;> simp only [h]
              · simp [alive, hnone]
              · simp
            | _ => simp [alive, hnone]
          · intro _
            refine Or.inr ⟨rfl, ?_⟩
            cases msg with
            | wantToReserve r => exact (reserve_missed _ r f b).1
            | _ => rfl
        | wake i =>
          refine other _ (by intro h; cases h) ?_ ?_ ?_ <;> dsimp only <;>
            cases s.waiting[i]? <;> simp [hmax, hnone, Event.beat]
        | retry f b =>
          refine other _ (by intro h; cases h) ?_ ?_ ?_ <;> dsimp only <;> cases hr : s.retry
          · exact hmax
          · exact (reserve_missed _ _ f b).2.1.trans hmax
          · dsimp only; rw [hnone]; simp
          · rename_i r rest
            rcases (reserve_missed { s with retry := rest } r f b).2.2.2.2 with h | h <;> simp only [h]
            · simp [hnone]
            · simp
          · intro _; exact Or.inl ⟨rfl, rfl⟩
          · intro _; exact Or.inl ⟨rfl, (reserve_missed _ _ f b).1⟩
        | expired id b =>
          refine other _ (by intro h; cases h) ?_ ?_ ?_
          · rw [send_max]; exact hmax
          · dsimp only; unfold send; split <;> simp [hnone]
          · intro _; exact Or.inl ⟨rfl, send_missed _ _ _⟩
        | _ =>
          refine other _ (by intro h; cases h) hmax ?_ ?_ <;> simp [Event.beat, alive, hnone]
  exact key _ es rfl

/-! ### answers -/

/-- `recv` are the nonces of the requests received: they are answered or waiting, except for at most
one whose response was lost when the connection broke. -/
def Book (recv : List Nat) (s : State) : Prop :=
  ∃ lost : List Nat, (s.ended = none → lost = []) ∧ lost.length ≤ 1 ∧
    ∀ n, recv.count n = (answered s).count n + (stillWaiting s).count n + lost.count n

theorem answered_snoc (s : State) (m : ServerMsg) :
    answered { s with out := s.out ++ [m] } = answered s ++ (match m with | .sync n _ => [n] | _ => []) := by
  unfold answered responseNonces
  simp only [List.filterMap_append]
  cases m <;> rfl

/-- One more request `n` to account for, and the connection tries to send its response. -/
theorem book_send {recv : List Nat} {s : State} {n : Nat} {c : Response} {b : Bool}
    (hopen : s.ended = none)
    (h : ∀ k, recv.count k = (answered s).count k + (stillWaiting s).count k + [n].count k) :
    Book recv (send s (.sync n c) b) := by
  cases b with
  | false =>
    refine ⟨[n], (fun h => by cases h), Nat.le_refl _, h⟩
  | true =>
    refine ⟨[], fun _ => rfl, Nat.zero_le _, fun k => ?_⟩
    show recv.count k = (answered { s with out := s.out ++ [.sync n c] }).count k +
      (stillWaiting s).count k + 0
    have ha : answered { s with out := s.out ++ [.sync n c] } = answered s ++ [n] := answered_snoc _ _
    rw [ha, List.count_append, h]
    omega

theorem book_reserve {recv : List Nat} {s : State} {r : Request} {f : Fetch} {b : Bool}
    (hopen : s.ended = none)
    (h : ∀ k, recv.count k = (answered s).count k + (stillWaiting s).count k + [r.nonce].count k) :
    Book recv (reserve s r f b) := by
  unfold reserve
  split
  · exact book_send hopen h
  · split
    · exact book_send hopen h
    · refine ⟨[], fun _ => rfl, Nat.zero_le _, fun k => ?_⟩
      rw [h]
      show (answered s).count k + (stillWaiting s).count k + [r.nonce].count k =
        (answered s).count k + (((s.waiting ++ [r]) ++ s.retry).map (·.nonce)).count k + 0
      simp only [stillWaiting, List.map_append, List.count_append, List.map_cons, List.map_nil]
      omega
    · exact book_send hopen h

theorem count_eraseIdx {l : List Request} {i : Nat} {r : Request} (h : l[i]? = some r) (k : Nat) :
    (l.map (·.nonce)).count k = ((l.eraseIdx i).map (·.nonce)).count k + [r.nonce].count k := by
  induction l generalizing i with
  | nil => simp at h
  | cons a l ih =>
    cases i with
    | zero =>
      simp only [List.getElem?_cons_zero, Option.some.injEq] at h
      subst h
      simp only [List.eraseIdx_cons_zero, List.map_cons]
      rw [← List.singleton_append, List.count_append]; omega
    | succ i =>
      simp only [List.getElem?_cons_succ] at h
      have := ih h
      simp only [List.eraseIdx_cons_succ, List.map_cons, List.count_cons]
      simp only [List.count_cons] at this
      omega

theorem book_step {rc : List Nat} {s : State} (hb : Book rc s) (hend : ¬ s.ended.isSome) (e : Event) :
    Book (rc ++ e.requestNonce.toList) (step s e) := by
  have hnone : s.ended = none := by
    cases hh : s.ended
    · rfl
    · rw [hh] at hend; exact absurd rfl hend
  obtain ⟨lost, hl, _, hc⟩ := hb
  cases hl hnone
  simp only [List.count_nil, Nat.add_zero] at hc
  -- events that change nothing relevant
  have same : ∀ s' : State, e.requestNonce = none → answered s' = answered s →
      (∀ k, (stillWaiting s').count k = (stillWaiting s).count k) →
      Book (rc ++ e.requestNonce.toList) s' := by
    intro s' h1 h2 h3
    refine ⟨[], fun _ => rfl, Nat.zero_le _, fun k => ?_⟩
    rw [h1, h2, h3, Option.toList_none, List.append_nil, hc]; rfl
  unfold step
  rw [if_neg hend]
  cases e with
  | recv msg f b =>
    cases msg with
    | wantToReserve r =>
      refine book_reserve (s := alive s) hnone fun k => ?_
      show (rc ++ [r.nonce]).count k = _
      rw [List.count_append, hc]; rfl
    | _ => exact same _ rfl rfl fun _ => rfl
  | tick =>
    refine same _ rfl ?_ ?_ <;> dsimp only <;> unfold beatHeart
    · split
      · rfl
      · exact (answered_snoc { s with missed := s.missed + 1 } .ping).trans (List.append_nil _)
    · intro k; split <;> rfl
  | wake i =>
    dsimp only
    cases hw : s.waiting[i]? with
    | none => exact same _ rfl rfl fun _ => rfl
    | some r =>
      refine same _ rfl rfl fun k => ?_
      show ((s.waiting.eraseIdx i ++ (s.retry ++ [r])).map (·.nonce)).count k =
        ((s.waiting ++ s.retry).map (·.nonce)).count k
      simp only [List.map_append, List.count_append, count_eraseIdx hw k, List.map_cons, List.map_nil]
      omega
  | retry f b =>
    dsimp only
    cases hr : s.retry with
    | nil => exact same _ rfl rfl fun _ => rfl
    | cons r rest =>
      refine book_reserve hnone fun k => ?_
      show (rc ++ []).count k = (answered s).count k +
        ((s.waiting ++ rest).map (·.nonce)).count k + [r.nonce].count k
      rw [List.append_nil, hc]
      unfold stillWaiting
      rw [hr]
      simp only [List.map_append, List.map_cons, List.count_append, List.count_cons, List.count_nil]
      omega
  | expired id b =>
    refine same _ rfl ?_ ?_ <;> dsimp only <;> unfold send
    · split
      · exact (answered_snoc s (.expired id)).trans (List.append_nil _)
      · rfl
    · intro k; split <;> rfl
  | _ => exact same _ rfl rfl fun _ => rfl

theorem book_run (m : Nat) (es : List Event) : Book (received m es) (run m es) := by
  have key : ∀ n (es : List Event), es.length = n → Book (received m es) (run m es) := by
    intro n
    induction n with
    | zero =>
      intro es h
      cases List.eq_nil_of_length_eq_zero h
      exact ⟨[], fun _ => rfl, Nat.zero_le _, fun _ => rfl⟩
    | succ n ih =>
      intro es h
      rcases List.eq_nil_or_concat es with rfl | ⟨es, e, rfl⟩
      · cases h
      rw [List.concat_eq_append] at h ⊢
      have hb := ih es (by simpa using h)
      rw [run_snoc]
      have hrec : received m (es ++ [e]) = received m es ++
          if (run m es).ended.isSome then [] else (e.requestNonce).toList := whileOpen_snoc _ _ _ _
      rw [hrec]
      by_cases hend : (run m es).ended.isSome
      · rw [if_pos hend, step_ended hend, List.append_nil]; exact hb
      rw [if_neg hend]
      exact book_step hb hend e
  exact key _ es rfl

theorem reports_run (m : Nat) (es : List Event) :
    (run m es).reports = whileOpen Event.report (init m) es := by
  have key : ∀ n (es : List Event), es.length = n →
      (run m es).reports = whileOpen Event.report (init m) es := by
    intro n
    induction n with
    | zero =>
      intro es h
      cases List.eq_nil_of_length_eq_zero h
      rfl
    | succ n ih =>
      intro es h
      rcases List.eq_nil_or_concat es with rfl | ⟨es, e, rfl⟩
      · cases h
      rw [List.concat_eq_append] at h ⊢
      have hb := ih es (by simpa using h)
      rw [run_snoc, whileOpen_snoc]
      show (step (run m es) e).reports = _ ++ if (run m es).ended.isSome then [] else _
      by_cases hend : (run m es).ended.isSome
      · rw [if_pos hend, step_ended hend, List.append_nil]; exact hb
      rw [if_neg hend, ← hb]
      generalize run m es = s at *
      unfold step
      rw [if_neg hend]
      cases e with
      | recv msg f b =>
        cases msg with
        | wantToReserve r =>
          exact (reserve_missed (alive s) r f b).2.2.1.trans (List.append_nil _).symm
        | _ => rfl
      | tick => dsimp only; unfold beatHeart; split <;> exact (List.append_nil _).symm
      | wake i =>
        dsimp only
        cases hw : s.waiting[i]? <;> exact (List.append_nil _).symm
      | retry f b =>
        dsimp only
        cases hr : s.retry with
        | nil => exact (List.append_nil _).symm
        | cons r rest => exact (reserve_missed _ r f b).2.2.1.trans (List.append_nil _).symm
      | expired id b => exact (send_reports _ _ _).trans (List.append_nil _).symm
      | _ => exact (List.append_nil _).symm
  exact key _ es rfl

/-- Requests that wait were received. -/
theorem waiting_received (m : Nat) (es : List Event) :
    ∀ r ∈ (run m es).waiting ++ (run m es).retry, ∃ f b, Event.recv (.wantToReserve r) f b ∈ es := by
  obtain ⟨n, hn⟩ : ∃ n, n = es.length := ⟨_, rfl⟩
  induction n generalizing es with
  | zero => cases es with
    | nil => intro r hr; cases hr
    | cons _ _ => cases hn
  | succ n ih =>
    rcases List.eq_nil_or_concat es with rfl | ⟨p, e, rfl⟩
    · cases hn
    · rw [List.concat_eq_append] at *
      have ih := ih p (by simp at hn; omega)
      have old : ∀ r, r ∈ (run m p).waiting ++ (run m p).retry →
          ∃ f b, Event.recv (.wantToReserve r) f b ∈ p ++ [e] := fun r hr => by
        obtain ⟨f, b, h⟩ := ih r hr
        exact ⟨f, b, List.mem_append_left _ h⟩
      have hres : ∀ (s : State) (r0 : Request) (f : Fetch) (b : Bool) (r : Request),
          r ∈ (reserve s r0 f b).waiting ++ (reserve s r0 f b).retry → r ∈ s.waiting ++ s.retry ∨ r = r0 := by
        intro s r0 f b r hr
        unfold reserve at hr
        repeat' split at hr
        all_goals simp at hr ⊢
        all_goals grind
      intro r hr
      rw [run_snoc] at hr
      unfold step at hr
      split at hr
      · exact old r hr
      · cases e with
        | recv msg f b =>
          cases msg with
          | wantToReserve r0 =>
            rcases hres (alive (run m p)) r0 f b r hr with h | h
            · exact old r h
            · exact ⟨f, b, by rw [h]; simp⟩
          | completeChunk => exact old r hr
          | failChunk => exact old r hr
        | wake i =>
          dsimp only at hr
          cases hi : (run m p).waiting[i]? with
          | none => rw [hi] at hr; exact old r hr
          | some r0 =>
            rw [hi] at hr
            dsimp only at hr
            refine old r ?_
            rcases List.mem_append.1 hr with h | h
            · exact List.mem_append_left _ (List.mem_of_mem_eraseIdx h)
            · rcases List.mem_append.1 h with h | h
              · exact List.mem_append_right _ h
              · rw [List.mem_singleton.1 h]
                exact List.mem_append_left _ (List.mem_of_getElem? hi)
        | retry f b =>
          dsimp only at hr
          cases hq : (run m p).retry with
          | nil => rw [hq] at hr; exact old r hr
          | cons r0 rest =>
            rw [hq] at hr
            dsimp only at hr
            refine old r ?_
            rw [hq]
            rcases hres _ r0 f b r hr with h | h
            · rcases List.mem_append.1 h with h | h
              · exact List.mem_append_left _ h
              · exact List.mem_append_right _ (List.mem_cons_of_mem _ h)
            · rw [h]; exact List.mem_append_right _ List.mem_cons_self
        | expired id b =>
          refine old r ?_
          simpa [send_waiting] using hr
        | tick =>
          refine old r ?_
          dsimp only [beatHeart] at hr
          split at hr <;> exact hr
        | _ => exact old r hr

/-- Where a response comes from. -/
def Origin (m : Nat) (es : List Event) (nonce : Nat) (contents : Response) : Prop :=
    ∃ pre e post r fetch, es = pre ++ e :: post ∧ (run m pre).ended = none ∧
      (e = .recv (.wantToReserve r) fetch true ∨
        (e = .retry fetch true ∧ (run m pre).retry.head? = some r)) ∧
      r.nonce = nonce ∧ (r.max = 0 ∧ contents = none ∨
        r.max ≠ 0 ∧ (fetch = .dbError ∧ contents = some [] ∨
          ∃ id ids, fetch = .chunks (id :: ids) ∧ contents = some (id :: ids)))

theorem sync_origin (m : Nat) (es : List Event) (nonce : Nat) (contents : Response)
    (h : ServerMsg.sync nonce contents ∈ (run m es).out) : Origin m es nonce contents := by
  obtain ⟨n, hn⟩ : ∃ n, n = es.length := ⟨_, rfl⟩
  induction n generalizing es with
  | zero => cases es with
    | nil => simp [run, init] at h
    | cons _ _ => cases hn
  | succ n ih =>
    rcases List.eq_nil_or_concat es with rfl | ⟨p, e, rfl⟩
    · cases hn
    · rw [List.concat_eq_append] at *
      have old : ServerMsg.sync nonce contents ∈ (run m p).out → Origin m (p ++ [e]) nonce contents :=
        fun h' => by
        obtain ⟨pre, e', post, r, fetch, h1, h2⟩ := ih p h' (by simp at hn; omega)
        exact ⟨pre, e', post ++ [e], r, fetch, by rw [h1]; simp, h2⟩
      have hres : ∀ (s : State) (r : Request) (f : Fetch) (b : Bool), s.out = (run m p).out →
          ServerMsg.sync nonce contents ∈ (reserve s r f b).out →
          ServerMsg.sync nonce contents ∈ (run m p).out ∨ b = true ∧
          r.nonce = nonce ∧ (r.max = 0 ∧ contents = none ∨
            r.max ≠ 0 ∧ (f = .dbError ∧ contents = some [] ∨
              ∃ id ids, f = .chunks (id :: ids) ∧ contents = some (id :: ids))) := by
        intro s r f b hs hm
        have snd : ∀ n c, ServerMsg.sync nonce contents ∈ (send s (.sync n c) b).out →
            ServerMsg.sync nonce contents ∈ (run m p).out ∨ b = true ∧ n = nonce ∧ c = contents := by
          intro n c hm
          unfold send at hm
          split at hm
          · rename_i hb
            rcases List.mem_append.1 hm with h | h
            · left; rwa [hs] at h
            · cases List.mem_singleton.1 h; exact .inr ⟨hb, rfl, rfl⟩
          · left; rwa [← hs]
        unfold reserve at hm
        split at hm
        · rename_i h0
          rcases snd _ _ hm with h | ⟨h1, h2, h3⟩
          · exact .inl h
          · exact .inr ⟨h1, h2, .inl ⟨h0, h3.symm⟩⟩
        · rename_i h0
          cases f with
          | dbError =>
            rcases snd _ _ hm with h | ⟨h1, h2, h3⟩
            · exact .inl h
            · exact .inr ⟨h1, h2, .inr ⟨h0, .inl ⟨rfl, h3.symm⟩⟩⟩
          | chunks ids =>
            cases ids with
            | nil => left; dsimp only at hm; rwa [← hs]
            | cons id ids =>
              rcases snd _ _ hm with h | ⟨h1, h2, h3⟩
              · exact .inl h
              · exact .inr ⟨h1, h2, .inr ⟨h0, .inr ⟨id, ids, rfl, h3.symm⟩⟩⟩
      rw [run_snoc] at h
      unfold step at h
      split at h
      · exact old h
      · rename_i hend
        have hend : (run m p).ended = none := by simpa using hend
        cases e with
        | recv msg f b =>
          cases msg with
          | wantToReserve r0 =>
            rcases hres (alive (run m p)) r0 f b rfl h with h | ⟨h1, h2⟩
            · exact old h
            · exact ⟨p, _, [], r0, f, rfl, hend, .inl (by rw [h1]), h2⟩
          | completeChunk => exact old h
          | failChunk => exact old h
        | wake i =>
          dsimp only at h
          split at h <;> exact old h
        | retry f b =>
          dsimp only at h
          cases hq : (run m p).retry with
          | nil => rw [hq] at h; exact old h
          | cons r0 rest =>
            rw [hq] at h
            rcases hres { run m p with retry := rest } r0 f b rfl h with h | ⟨h1, h2⟩
            · exact old h
            · exact ⟨p, _, [], r0, f, rfl, hend, .inr ⟨by rw [h1], by rw [hq]; rfl⟩, h2⟩
        | expired id b =>
          dsimp only [send] at h
          split at h
          · rcases List.mem_append.1 h with h | h
            · exact old h
            · cases List.mem_singleton.1 h
          · exact old h
        | tick =>
          dsimp only [beatHeart] at h
          split at h
          · exact old h
          · rcases List.mem_append.1 h with h | h
            · exact old h
            · cases List.mem_singleton.1 h
        | _ => exact old h

end Opsqueue.Conn
