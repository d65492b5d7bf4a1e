import Verif.Spec.Maintenance
import Verif.Proofs.Reserver

/-!
# The maintenance of the reserver: helper lemmas
-/

namespace Opsqueue.Maintenance
open Reserver
variable {κ ν σ : Type} [DecidableEq κ]

theorem run_append {p : Pace} {s : State κ ν σ} (a b : List (Event κ ν σ)) :
    run p s (a ++ b) = (run p s a).bind (run p · b) := by
  induction a generalizing s with
  | nil => rfl
  | cons e es ih =>
    simp only [List.cons_append, run]
    cases step p s e with
    | none => rfl
    | some s' => exact ih

/-- A step does to the reserver what `op?` says. -/
theorem step_reserver {p : Pace} {s s' : State κ ν σ} {e : Event κ ν σ} (h : step p s e = some s') :
    s'.reserver = match e.op? with
      | some op => s.reserver.step op
      | none => s.reserver := by
  cases e with
  | use op => cases op <;> first | (simp only [step] at h; cases h; done) | (simp only [step, Option.some.injEq] at h; subst h; rfl)
  | tick d =>
    simp only [step] at h
    split at h
    · simp only [Option.some.injEq] at h; subst h; rfl
    · split at h
      · simp only [Option.some.injEq] at h; subst h; rfl
      · cases h
  | sweep =>
    simp only [step] at h
    split at h
    · simp only [Option.some.injEq] at h; subst h; rfl
    · cases h
  | done =>
    simp only [step] at h
    split at h
    · simp only [Option.some.injEq] at h; subst h; rfl
    · cases h
  | wake =>
    simp only [step] at h
    split at h
    · split at h
      · simp only [Option.some.injEq] at h; subst h; rfl
      · cases h
    · cases h
  | cancel => simp only [step, Option.some.injEq] at h; subst h; rfl
  | notice =>
    simp only [step] at h
    split at h
    · simp only [Option.some.injEq] at h; subst h; rfl
    · cases h

theorem run_reserver {p : Pace} {s s' : State κ ν σ} {es : List (Event κ ν σ)} (h : run p s es = some s') :
    s'.reserver = s.reserver.exec (trace es) := by
  induction es generalizing s with
  | nil => simp only [run, Option.some.injEq] at h; subst h; rfl
  | cons e es ih =>
    simp only [run] at h
    cases he : step p s e with
    | none => rw [he] at h; cases h
    | some s1 =>
      rw [he] at h
      have h1 := ih h
      have h2 := step_reserver he
      rw [h1, h2]
      unfold trace
      rw [List.filterMap_cons]
      cases e.op? <;> rfl

/-- The invariant of the loop: time has not run past its next step, and it has swept not long ago. -/
structure Inv (p : Pace) (s : State κ ν σ) : Prop where
  past : s.swept ≤ s.reserver.now
  phase : match s.phase with
    | .running t false => t ≤ s.reserver.now ∧ s.reserver.now ≤ t + p.pass ∧ t ≤ s.swept + p.pass + 10 + p.lag
    | .running t true => t ≤ s.swept ∧ s.reserver.now ≤ t + p.pass
    | .sleeping t => t ≤ s.reserver.now ∧ s.reserver.now ≤ t + 10 + p.lag ∧ t ≤ s.swept + p.pass
    | .stopped => s.cancelled = true
  fresh : ∀ k e, s.reserver.cache.get k = some e → s.swept ≤ e.reservedAt + s.reserver.ttl
  removals : ∀ q ∈ s.reserver.pending, s.swept ≤ q.2

theorem alive_runPendingTasks (r : Reserver κ ν σ) (k : κ) (e : Reservation ν σ)
    (h : r.runPendingTasks.cache.get k = some e) : r.now < e.reservedAt + r.ttl := by
  unfold runPendingTasks at h
  have hn : r.purge.now = r.now ∧ r.purge.ttl = r.ttl := by
    rw [purge_eq]
    have : ∀ (ds : List (κ × Nat)) (r : Reserver κ ν σ),
        (ds.foldl (fun r p => r.drop p.1) r).now = r.now ∧ (ds.foldl (fun r p => r.drop p.1) r).ttl = r.ttl := by
      intro ds
      induction ds with
      | nil => intro r; exact ⟨rfl, rfl⟩
      | cons d ds ih => intro r; rw [List.foldl_cons]; have := ih (r.drop d.1); simpa using this
    exact this _ _
  rw [← hn.1, ← hn.2]
  generalize r.purge = r1 at *
  have key : ∀ (ks : List κ) (r : Reserver κ ν σ), (∀ e, r.cache.get k = some e → r.alive e = true ∨ k ∈ ks) →
      ∀ e, (ks.foldl evict r).cache.get k = some e → r.alive e = true := by
    intro ks
    induction ks with
    | nil => intro r h e he; exact (h e he).elim id (fun h => by cases h)
    | cons k' ks ih =>
      intro r h e he
      rw [List.foldl_cons] at he
      have ha : ∀ e, (r.evict k').alive e = r.alive e := by
        intro e
        have h1 := now_step r (.evict k')
        have h2 := ttl_step r (.evict k')
        simp only [step, Reserver.step, Op.elapsed, Nat.add_zero] at h1 h2
        unfold alive
        rw [h1, h2]
      have := ih (r.evict k') ?_ e he
      · rwa [ha] at this
      · intro e2 he2
        rw [ha]
        unfold evict at he2
        split at he2
        · rename_i e' hg
          split at he2
          · rename_i hal
            rcases h e2 he2 with h1 | h1
            · exact .inl h1
            · rcases List.mem_cons.1 h1 with rfl | h1
              · rw [hg] at he2; cases he2; exact .inl hal
              · exact .inr h1
          · rw [drop_get] at he2
            split at he2
            · cases he2
            · rename_i hne
              rcases h e2 he2 with h1 | h1
              · exact .inl h1
              · rcases List.mem_cons.1 h1 with rfl | h1
                · exact absurd rfl hne
                · exact .inr h1
        · rename_i hg
          rcases h e2 he2 with h1 | h1
          · exact .inl h1
          · rcases List.mem_cons.1 h1 with rfl | h1
            · rw [hg] at he2; cases he2
            · exact .inr h1
  have := key _ r1 ?_ e h
  · exact of_decide_eq_true this
  · intro e he
    right
    exact List.mem_map.2 ⟨_, Map.mem_of_get he, rfl⟩

theorem pending_runPendingTasks (r : Reserver κ ν σ) (q : κ × Nat) (h : q ∈ r.runPendingTasks.pending) :
    q ∈ r.pending ∧ r.now < q.2 := by
  have hev : ∀ (ks : List κ) (r : Reserver κ ν σ), (ks.foldl evict r).pending = r.pending := by
    intro ks
    induction ks with
    | nil => intro r; rfl
    | cons k ks ih =>
      intro r
      rw [List.foldl_cons, ih]
      unfold evict
      split
      · split
        · rfl
        · exact drop_pending _ _
      · rfl
  have hfold : ∀ (ds : List (κ × Nat)) (r : Reserver κ ν σ),
      (ds.foldl (fun r p => r.drop p.1) r).pending = r.pending := by
    intro ds
    induction ds with
    | nil => intro r; rfl
    | cons d ds ih => intro r; rw [List.foldl_cons, ih, drop_pending]
  unfold runPendingTasks at h
  rw [hev, purge_eq, hfold] at h
  have h1 := (List.mem_filter.1 h)
  refine ⟨h1.1, ?_⟩
  have := h1.2
  simp only [Bool.not_eq_true', decide_eq_false_iff_not] at this
  omega

/-- What any use of the reserver leaves of the invariant. -/
theorem keep_fresh {r : Reserver κ ν σ} {t : Nat} (hp : t ≤ r.now)
    (h : ∀ k e, r.cache.get k = some e → t ≤ e.reservedAt + r.ttl) (op : Reserver.Op κ ν σ) :
    ∀ k e, (r.step op).cache.get k = some e → t ≤ e.reservedAt + (r.step op).ttl := by
  have := step_pres (P := fun r : Reserver κ ν σ => t ≤ r.now ∧
      ∀ k e, r.cache.get k = some e → t ≤ e.reservedAt + r.ttl) (ok := fun _ _ _ => True) ?_ ?_ (fun _ _ h => h) ⟨hp, h⟩ op
    (fun d _ => ⟨Nat.le_trans hp (Nat.le_add_right _ _), h⟩) (fun _ _ _ _ _ => trivial)
  · exact this.2
  · rintro r k ⟨h1, h2⟩
    refine ⟨by rwa [drop_now], fun k' e he => ?_⟩
    rw [drop_get] at he
    rw [drop_ttl]
    split at he
    · cases he
    · exact h2 k' e he
  · rintro r k v s - - ⟨h1, h2⟩
    refine ⟨h1, fun k' e he => ?_⟩
    replace he : Map.get (Map.set _ _ _) _ = _ := he
    rw [Map.get_set] at he
    split at he
    · cases he; exact Nat.le_trans h1 (Nat.le_add_right _ _)
    · exact h2 k' e he

theorem inv_step {p : Pace} {s s' : State κ ν σ} {e : Event κ ν σ} (hi : Inv p s) (h : step p s e = some s') : Inv p s' := by
  obtain ⟨hp, hph, hf, hr⟩ := hi
  have keep : ∀ op, ∀ q ∈ (s.reserver.step op).pending, s.swept ≤ q.2 := by
    intro op q hq
    rcases pending_step s.reserver op q hq with h | h
    · exact hr q h
    · rw [h]; exact Nat.le_trans hp (Nat.le_add_right _ _)
  cases e with
  | use op =>
    have hop : op.elapsed = 0 ∧ some { s with reserver := s.reserver.step op } = some s' := by
      cases op <;> first | (simp only [step] at h; cases h; done) | exact ⟨rfl, h⟩
    obtain ⟨h0, h⟩ := hop
    simp only [Option.some.injEq] at h; subst h
    have hn : (s.reserver.step op).now = s.reserver.now := by rw [now_step, h0]; rfl
    refine ⟨by dsimp only; rw [hn]; exact hp, ?_, keep_fresh hp hf op, keep op⟩
    dsimp only
    rw [hn]; exact hph
  | tick d =>
    have hs : s' = { s with reserver := s.reserver.step (.advance d) } ∧
        ∀ t, deadline p s = some t → s.reserver.now + d ≤ t := by
      simp only [step] at h
      split at h
      · rename_i hd
        simp only [Option.some.injEq] at h
        exact ⟨h.symm, fun t ht => by rw [hd] at ht; cases ht⟩
      · rename_i t hd
        split at h
        · rename_i hle
          simp only [Option.some.injEq] at h
          exact ⟨h.symm, fun t' ht => by rw [hd] at ht; cases ht; exact hle⟩
        · cases h
    obtain ⟨rfl, hd⟩ := hs
    refine ⟨Nat.le_trans hp (Nat.le_add_right _ _), ?_, keep_fresh hp hf (.advance d), keep (.advance d)⟩
    dsimp only
    have hn : (s.reserver.step (.advance d)).now = s.reserver.now + d := rfl
    rw [hn]
    unfold deadline at hd
    cases hps : s.phase with
    | stopped => rw [hps] at hph; exact hph
    | sleeping t =>
      rw [hps] at hph hd
      have := hd _ rfl
      unfold pause at this
      exact ⟨by omega, this, hph.2.2⟩
    | running t b =>
      rw [hps] at hph hd
      have := hd _ rfl
      cases b
      · exact ⟨by have := hph.1; omega, this, hph.2.2⟩
      · exact ⟨hph.1, this⟩
  | sweep =>
    simp only [step] at h
    split at h
    · rename_i t hps
      simp only [Option.some.injEq] at h; subst h
      rw [hps] at hph
      have hn : s.reserver.runPendingTasks.now = s.reserver.now := now_step s.reserver .runPendingTasks
      have ht : s.reserver.runPendingTasks.ttl = s.reserver.ttl := ttl_step s.reserver .runPendingTasks
      refine ⟨by dsimp only; rw [hn]; exact Nat.le_refl _, ?_, ?_, ?_⟩
      · dsimp only; rw [hn]; exact ⟨hph.1, hph.2.1⟩
      · intro k e he
        dsimp only
        rw [ht]
        exact Nat.le_of_lt (alive_runPendingTasks _ k e he)
      · intro q hq
        exact Nat.le_of_lt (pending_runPendingTasks _ q hq).2
    · cases h
  | done =>
    simp only [step] at h
    split at h
    · rename_i t hps
      simp only [Option.some.injEq] at h; subst h
      rw [hps] at hph
      refine ⟨hp, ?_, hf, hr⟩
      have := hph.1; have := hph.2
      exact ⟨Nat.le_refl _, by dsimp only; omega, by dsimp only; omega⟩
    · cases h
  | wake =>
    simp only [step] at h
    split at h
    · rename_i t hps
      split at h
      · simp only [Option.some.injEq] at h; subst h
        rw [hps] at hph
        refine ⟨hp, ?_, hf, hr⟩
        have := hph.1; have := hph.2.1; have := hph.2.2
        exact ⟨Nat.le_refl _, Nat.le_add_right _ _, by dsimp only; omega⟩
      · cases h
    · cases h
  | cancel =>
    simp only [step, Option.some.injEq] at h; subst h
    refine ⟨hp, ?_, hf, hr⟩
    dsimp only
    cases hps : s.phase with
    | stopped => rfl
    | sleeping t => rw [hps] at hph; exact hph
    | running t b => rw [hps] at hph; cases b <;> exact hph
  | notice =>
    simp only [step] at h
    split at h
    · rename_i t hc
      simp only [Option.some.injEq] at h; subst h
      exact ⟨hp, hc, hf, hr⟩
    · cases h

theorem inv_run {p : Pace} {s s' : State κ ν σ} {es : List (Event κ ν σ)} (hi : Inv p s) (h : run p s es = some s') :
    Inv p s' := by
  induction es generalizing s with
  | nil => simp only [run, Option.some.injEq] at h; subst h; exact hi
  | cons e es ih =>
    simp only [run] at h
    cases he : step p s e with
    | none => rw [he] at h; cases h
    | some s1 => rw [he] at h; exact ih (inv_step hi he) h

theorem inv_init (p : Pace) (ttl : Nat) : Inv p (init ttl : State κ ν σ) := by
  refine ⟨Nat.le_refl _, ⟨Nat.le_refl _, Nat.zero_le _, Nat.zero_le _⟩, ?_, ?_⟩
  · intro k e he; cases he
  · intro q hq; cases hq

/-- The last sweep is not long ago. -/
theorem Inv.recent {p : Pace} {s : State κ ν σ} (hi : Inv p s) (hc : s.cancelled = false) :
    s.reserver.now ≤ s.swept + late p := by
  have h1 := hi.phase
  have h2 := hi.past
  unfold late
  cases hps : s.phase with
  | stopped => rw [hps] at h1; dsimp only at h1; rw [hc] at h1; cases h1
  | sleeping t => rw [hps] at h1; have := h1.2.1; have := h1.2.2; omega
  | running t b =>
    rw [hps] at h1
    cases b
    · have := h1.2.1; have := h1.2.2; omega
    · have := h1.1; have := h1.2; omega

/-- The moment of the last sweep is in the history, or before it. -/
theorem swept_cases {p : Pace} {s s' : State κ ν σ} {es : List (Event κ ν σ)} (h : run p s es = some s') :
    s'.swept = s.swept ∨ ∃ a b s1, es = a ++ .sweep :: b ∧ run p s a = some s1 ∧ s1.reserver.now = s'.swept := by
  induction es generalizing s with
  | nil => simp only [run, Option.some.injEq] at h; subst h; exact .inl rfl
  | cons e es ih =>
    simp only [run] at h
    cases he : step p s e with
    | none => rw [he] at h; cases h
    | some s1 =>
      rw [he] at h
      rcases ih h with h1 | ⟨a, b, s2, h1, h2, h3⟩
      · by_cases hs : e = .sweep
        · subst hs
          right
          refine ⟨[], es, s, rfl, rfl, ?_⟩
          rw [h1]
          simp only [step] at he
          split at he
          · simp only [Option.some.injEq] at he; subst he; rfl
          · cases he
        · left
          rw [h1]
          cases e with
          | sweep => exact absurd rfl hs
          | use op => cases op <;> first | (simp only [step] at he; cases he; done) | (simp only [step, Option.some.injEq] at he; subst he; rfl)
          | tick d =>
            simp only [step] at he
            split at he
            · simp only [Option.some.injEq] at he; subst he; rfl
            · split at he
              · simp only [Option.some.injEq] at he; subst he; rfl
              · cases he
          | done =>
            simp only [step] at he
            split at he
            · simp only [Option.some.injEq] at he; subst he; rfl
            · cases he
          | wake =>
            simp only [step] at he
            split at he
            · split at he
              · simp only [Option.some.injEq] at he; subst he; rfl
              · cases he
            · cases he
          | cancel => simp only [step, Option.some.injEq] at he; subst he; rfl
          | notice =>
            simp only [step] at he
            split at he
            · simp only [Option.some.injEq] at he; subst he; rfl
            · cases he
      · right
        refine ⟨e :: a, b, s2, by rw [h1]; rfl, ?_, h3⟩
        simp only [run, he]
        exact h2

theorem mem_eraseP_of_ne {α : Type} {f : α → Bool} {l : List α} {q x : α} (h : l.find? f = some q) (hne : x ≠ q)
    (hx : x ∈ l) : x ∈ l.eraseP f := by
  induction l with
  | nil => cases hx
  | cons a l ih =>
    rw [List.find?_cons] at h
    rw [List.eraseP_cons]
    cases ha : f a with
    | true =>
      rw [ha] at h
      cases h
      exact (List.mem_cons.1 hx).resolve_left hne
    | false =>
      rw [ha] at h
      rcases List.mem_cons.1 hx with rfl | hx
      · exact List.mem_cons_self
      · exact List.mem_cons_of_mem _ (ih h hx)

/-- A delayed removal stays in the queue until the key has been removed. -/
theorem removed_step {r : Reserver κ ν σ} {key : κ} {t : Nat} (h : (key, t) ∈ r.pending ∨ r.cache.get key = none)
    (op : Reserver.Op κ ν σ) (hn : ∀ v s, op = .tryReserve key v s → (r.tryReserve key v s).1.isNone) :
    (key, t) ∈ (r.step op).pending ∨ (r.step op).cache.get key = none := by
  have hdrop : ∀ (r : Reserver κ ν σ) k, (key, t) ∈ r.pending ∨ r.cache.get key = none →
      (key, t) ∈ (r.drop k).pending ∨ (r.drop k).cache.get key = none := by
    intro r k h
    rw [drop_pending, drop_get]
    refine h.imp (fun h => h) (fun h => ?_)
    split
    · rfl
    · exact h
  have hev : ∀ (r : Reserver κ ν σ) k, (key, t) ∈ r.pending ∨ r.cache.get key = none →
      (key, t) ∈ (r.evict k).pending ∨ (r.evict k).cache.get key = none := by
    intro r k h
    unfold evict
    split
    · split
      · exact h
      · exact hdrop _ _ h
    · exact h
  cases op with
  | tryReserve k v s =>
    simp only [Reserver.step, tryReserve]
    cases hl : r.lookup k with
    | some _ => exact h
    | none =>
      dsimp only
      have hne : k ≠ key := by
        rintro rfl
        have := hn v s rfl
        rw [tryReserve_some hl] at this
        cases this
      refine (hdrop r k h).imp (fun h => h) (fun h => ?_)
      show Map.get (Map.set _ _ _) _ = _
      rw [Map.get_set, if_neg hne]; exact h
  | finish k d =>
    simp only [Reserver.step, Reserver.finish]
    cases hl : r.lookup k with
    | none => exact h
    | some e =>
      cases d
      · exact hdrop _ _ h
      · exact h.imp (fun h => List.mem_append_left _ h) (fun h => h)
  | finishSync k => exact hdrop _ _ h
  | schedule k => exact h.imp (fun h => List.mem_append_left _ h) (fun h => h)
  | evict k => exact hev _ _ h
  | advance d => exact h
  | purgeNext =>
    simp only [Reserver.step]
    cases hd : r.due with
    | nil => rw [purgeNext_nil hd]; exact h
    | cons q qs =>
      rw [(purgeNext_cons hd).1]
      by_cases hq : q = (key, t)
      · right
        rw [drop_get, if_pos (by rw [hq])]
      · refine hdrop _ _ (h.imp (fun h => ?_) (fun h => h))
        dsimp only
        have hh : r.pending.find? (fun p => decide (p.2 ≤ r.now)) = some q := (find?_filter_head hd).1
        exact mem_eraseP_of_ne hh (fun e => hq e.symm) h
  | runPendingTasks =>
    simp only [Reserver.step, runPendingTasks]
    rw [purge_eq]
    have h1 : (key, t) ∈ (r.due.foldl (fun (r : Reserver κ ν σ) p => r.drop p.1)
        { r with pending := r.pending.filter fun p => !decide (p.2 ≤ r.now) }).pending ∨
        (r.due.foldl (fun (r : Reserver κ ν σ) p => r.drop p.1)
        { r with pending := r.pending.filter fun p => !decide (p.2 ≤ r.now) }).cache.get key = none := by
      have fold : ∀ (ds : List (κ × Nat)) (r : Reserver κ ν σ),
          (key, t) ∈ r.pending ∨ r.cache.get key = none ∨ key ∈ ds.map (·.1) →
          (key, t) ∈ (ds.foldl (fun r p => r.drop p.1) r).pending ∨ (ds.foldl (fun r p => r.drop p.1) r).cache.get key = none := by
        intro ds
        induction ds with
        | nil => intro r h; rcases h with h | h | h; exact .inl h; exact .inr h; cases h
        | cons d ds ih =>
          intro r h
          rw [List.foldl_cons]
          apply ih
          rw [drop_pending, drop_get]
          by_cases hk : d.1 = key
          · right; left; rw [if_pos hk]
          · rw [if_neg hk]
            rcases h with h | h | h
            · exact .inl h
            · exact .inr (.inl h)
            · rw [List.map_cons] at h
              rcases List.mem_cons.1 h with h | h
              · exact absurd h.symm hk
              · exact .inr (.inr h)
      apply fold
      dsimp only
      rcases h with h | h
      · by_cases hdue : t ≤ r.now
        · right; right
          exact List.mem_map.2 ⟨(key, t), List.mem_filter.2 ⟨h, decide_eq_true hdue⟩, rfl⟩
        · left
          exact List.mem_filter.2 ⟨h, by simpa using hdue⟩
      · exact .inr (.inl h)
    generalize r.due.foldl (fun (r : Reserver κ ν σ) p => r.drop p.1) _ = r1 at *
    generalize r1.cache.map (·.1) = ks
    clear h hn
    induction ks generalizing r1 with
    | nil => exact h1
    | cons k ks ih => exact ih _ (hev _ _ h1)

theorem removed_exec {r : Reserver κ ν σ} {key : κ} {t : Nat} (h : (key, t) ∈ r.pending ∨ r.cache.get key = none)
    (hs : List (Reserver.Op κ ν σ)) (hn : NeverReserved key r hs) :
    (key, t) ∈ (r.exec hs).pending ∨ (r.exec hs).cache.get key = none := by
  induction hs generalizing r with
  | nil => exact h
  | cons op hs ih => exact ih (removed_step h op hn.1) hn.2

end Opsqueue.Maintenance
