import Verif.Spec.Reserver
import Verif.Proofs.Map

/-!
# Lemmas about the reserver
-/

namespace Opsqueue.Reserver
open Map
variable {κ ν σ : Type} [DecidableEq κ]

@[simp] theorem drop_ttl (r : Reserver κ ν σ) (k : κ) : (r.drop k).ttl = r.ttl := by
  unfold drop; split <;> rfl
@[simp] theorem drop_now (r : Reserver κ ν σ) (k : κ) : (r.drop k).now = r.now := by
  unfold drop; split <;> rfl
@[simp] theorem drop_pending (r : Reserver κ ν σ) (k : κ) : (r.drop k).pending = r.pending := by
  unfold drop; split <;> rfl

@[simp] theorem drop_alive (r : Reserver κ ν σ) (k : κ) (e : Reservation ν σ) :
    (r.drop k).alive e = r.alive e := by unfold alive; rw [drop_now, drop_ttl]

theorem drop_get (r : Reserver κ ν σ) (k k' : κ) :
    (r.drop k).cache.get k' = if k = k' then none else r.cache.get k' := by
  unfold drop
  split
  · rename_i h
    split
    · rename_i hk; rw [← hk, h]
    · rfl
  · exact get_erase _ _ _

theorem drop_notices (r : Reserver κ ν σ) (k : κ) :
    (r.drop k).notices = match r.cache.get k with
      | none => r.notices
      | some e => if r.alive e then r.notices else r.notices ++ [(e.sender, e.val)] := by
  unfold drop
  cases r.cache.get k <;> rfl

theorem drop_wf {r : Reserver κ ν σ} (h : WF r.cache) (k : κ) : WF (r.drop k).cache := by
  unfold drop
  split
  · exact h
  · exact wf_erase h _

/-! ### purge -/

theorem find?_filter_head {α : Type} {p : α → Bool} {l : List α} {a : α} {as : List α}
    (h : l.filter p = a :: as) : l.find? p = some a ∧ (l.eraseP p).filter p = as := by
  induction l with
  | nil => cases h
  | cons x l ih =>
    by_cases hx : p x = true
    · rw [List.filter_cons, if_pos hx] at h
      cases h
      simp [hx]
    · rw [List.filter_cons, if_neg hx] at h
      have := ih h
      simp [hx, this]

theorem eraseP_filter_not {α : Type} (p : α → Bool) (l : List α) :
    (l.eraseP p).filter (fun a => !p a) = l.filter (fun a => !p a) := by
  induction l with
  | nil => rfl
  | cons x l ih =>
    by_cases hx : p x = true
    · simp [hx]
    · simp [hx, ih]

theorem purgeNext_nil {r : Reserver κ ν σ} (h : r.due = []) : r.purgeNext = r := by
  unfold purgeNext
  have : r.pending.find? (fun p => decide (p.2 ≤ r.now)) = none := by
    rw [List.find?_eq_none]
    intro x hx hp
    have : x ∈ r.due := List.mem_filter.2 ⟨hx, hp⟩
    rw [h] at this; cases this
  rw [this]

theorem purgeNext_cons {r : Reserver κ ν σ} {p : κ × Nat} {ps : List (κ × Nat)} (h : r.due = p :: ps) :
    r.purgeNext = { r with pending := r.pending.eraseP fun p => decide (p.2 ≤ r.now) }.drop p.1 ∧
    r.purgeNext.due = ps := by
  obtain ⟨h1, h2⟩ := find?_filter_head h
  have e : r.purgeNext = { r with pending := r.pending.eraseP fun p => decide (p.2 ≤ r.now) }.drop p.1 := by
    unfold purgeNext; rw [h1]
  refine ⟨e, ?_⟩
  rw [e]; unfold due; rw [drop_pending, drop_now]; exact h2

theorem drop_with_pending (r : Reserver κ ν σ) (k : κ) (p : List (κ × Nat)) :
    { r with pending := p }.drop k = { r.drop k with pending := p } := by
  unfold drop
  dsimp only
  cases r.cache.get k <;> rfl

theorem purge_eq (r : Reserver κ ν σ) :
    r.purge = r.due.foldl (fun r p => r.drop p.1)
      { r with pending := r.pending.filter fun p => !decide (p.2 ≤ r.now) } := by
  have key : ∀ (ds : List (κ × Nat)) (r : Reserver κ ν σ), r.due = ds →
      ds.foldl (fun r _ => r.purgeNext) r = ds.foldl (fun r p => r.drop p.1)
        { r with pending := r.pending.filter fun p => !decide (p.2 ≤ r.now) } := by
    intro ds
    induction ds with
    | nil =>
      intro r h
      simp only [List.foldl_nil]
      have : (r.pending.filter fun p => !decide (p.2 ≤ r.now)) = r.pending := by
        rw [List.filter_eq_self]
        intro p hp
        cases hd : decide (p.2 ≤ r.now)
        · rfl
        · have : p ∈ r.due := List.mem_filter.2 ⟨hp, hd⟩
          rw [h] at this; cases this
      rw [this]
    | cons d ds ih =>
      intro r h
      obtain ⟨h1, h2⟩ := purgeNext_cons h
      rw [List.foldl_cons, List.foldl_cons, ih _ h2, h1]
      have e1 := drop_with_pending r d.1 (r.pending.eraseP fun p => decide (p.2 ≤ r.now))
      have e2 := drop_with_pending r d.1 (r.pending.filter fun p => !decide (p.2 ≤ r.now))
      rw [e1, e2]
      simp only [drop_now]
      rw [eraseP_filter_not fun p : κ × Nat => decide (p.2 ≤ r.now)]
  exact key _ r rfl

/-! ### preservation -/

/-- A property kept by the elementary changes is kept by every operation. `ok` restricts the values
reserved. -/
theorem step_pres {P : Reserver κ ν σ → Prop} {ok : κ → ν → σ → Prop}
    (hd : ∀ r k, P r → P (r.drop k))
    (hi : ∀ r k v s, r.cache.get k = none → ok k v s → P r →
      P { r with cache := r.cache.set k ⟨v, s, r.now⟩ })
    (hp : ∀ r p, P r → P { r with pending := p })
    {r : Reserver κ ν σ} (h : P r) (op : Op κ ν σ)
    (ha : ∀ d, op = .advance d → P { r with now := r.now + d })
    (hok : ∀ k v s, op = .tryReserve k v s → r.isReserved k = false → ok k v s) : P (r.step op) := by
  have hfold : ∀ (ps : List (κ × Nat)) (r : Reserver κ ν σ), P r →
      P (ps.foldl (fun r p => r.drop p.1) r) := by
    intro ps
    induction ps with
    | nil => intro r h; exact h
    | cons p ps ih => intro r h; exact ih _ (hd _ _ h)
  have hev : ∀ (r : Reserver κ ν σ) k, P r → P (r.evict k) := by
    intro r k h
    unfold evict
    split
    · split
      · exact h
      · exact hd _ _ h
    · exact h
  cases op with
  | tryReserve k v s =>
    have hok := hok k v s rfl
    simp only [step, tryReserve, isReserved] at hok ⊢
    cases hl : r.lookup k with
    | some _ => exact h
    | none =>
      rw [hl] at hok
      have := hi (r.drop k) k v s (by rw [drop_get, if_pos rfl]) (hok rfl) (hd _ _ h)
      exact this
  | finish k d =>
    simp only [step, finish]
    cases r.lookup k with
    | none => exact h
    | some e => cases d <;> first | exact hd _ _ h | exact hp _ _ h
  | finishSync k => exact hd _ _ h
  | schedule k => exact hp _ _ h
  | purgeNext =>
    simp only [step, purgeNext]
    split
    · exact h
    · exact hd _ _ (hp _ _ h)
  | runPendingTasks =>
    simp only [step, runPendingTasks]
    rw [purge_eq]
    have h1 := hfold r.due _ (hp _ (r.pending.filter fun p => !decide (p.2 ≤ r.now)) h)
    generalize r.due.foldl (fun (r : Reserver κ ν σ) p => r.drop p.1) _ = r1 at *
    generalize r1.cache.map (·.1) = ks
    induction ks generalizing r1 with
    | nil => exact h1
    | cons k ks ih => exact ih _ (hev _ _ h1)
  | evict k => exact hev _ _ h
  | advance d => exact ha d rfl

theorem now_step (r : Reserver κ ν σ) (op : Op κ ν σ) : (r.step op).now = r.now + op.elapsed := by
  have key : (∀ d, op ≠ .advance d) → (r.step op).now = r.now := by
    intro hne
    refine step_pres (P := fun r' => r'.now = r.now) (ok := fun _ _ _ => True)
      ?_ ?_ ?_ rfl op (fun d h => absurd h (hne d)) (fun _ _ _ _ _ => trivial)
    · intro r' k h; simpa using h
    · intro r' k v s _ _ h; exact h
    · intro r' p h; exact h
  cases op with
  | advance d => rfl
  | _ => exact key (by intro d h; cases h)

theorem ttl_step (r : Reserver κ ν σ) (op : Op κ ν σ) : (r.step op).ttl = r.ttl := by
  refine step_pres (P := fun r' => r'.ttl = r.ttl) (ok := fun _ _ _ => True)
    ?_ ?_ ?_ rfl op (fun d h => rfl) (fun _ _ _ _ _ => trivial)
  · intro r' k h; simpa using h
  · intro r' k v s _ _ h; exact h
  · intro r' p h; exact h

theorem elapsed_cons (op : Op κ ν σ) (h : List (Op κ ν σ)) : elapsed (op :: h) = op.elapsed + elapsed h := by
  simp [elapsed]

theorem now_exec (r : Reserver κ ν σ) (h : List (Op κ ν σ)) : (r.exec h).now = r.now + elapsed h := by
  induction h generalizing r with
  | nil => rfl
  | cons op h ih =>
    show ((r.step op).exec h).now = _
    rw [ih, now_step, elapsed_cons]; omega

theorem ttl_exec (r : Reserver κ ν σ) (h : List (Op κ ν σ)) : (r.exec h).ttl = r.ttl := by
  induction h generalizing r with
  | nil => rfl
  | cons op h ih =>
    show ((r.step op).exec h).ttl = _
    rw [ih, ttl_step]

theorem wf_step {r : Reserver κ ν σ} (h : WF r.cache) (op : Op κ ν σ) : WF (r.step op).cache :=
  step_pres (P := fun r => WF r.cache) (ok := fun _ _ _ => True) (fun _ _ h => drop_wf h _)
    (fun _ _ _ _ _ _ h => wf_set h _ _) (fun _ _ h => h) h op (fun _ _ => h)
    (fun _ _ _ _ _ => trivial)

/-! ### One reservation -/

/-- `e` is in the cache under `key` and has not expired. -/
structure Here (key : κ) (e : Reservation ν σ) (r : Reserver κ ν σ) : Prop where
  get : r.cache.get key = some e
  alive : r.alive e = true

theorem Here.lookup {key : κ} {e : Reservation ν σ} {r : Reserver κ ν σ} (h : Here key e r) :
    r.lookup key = some e := by
  unfold Reserver.lookup; rw [h.get]; simp [h.alive]

theorem here_drop_ne {r : Reserver κ ν σ} {key : κ} {e : Reservation ν σ} (h : Here key e r) {k : κ}
    (hk : k ≠ key) : Here key e (r.drop k) :=
  ⟨by rw [drop_get, if_neg hk]; exact h.get, by rw [drop_alive]; exact h.alive⟩

theorem here_evict {r : Reserver κ ν σ} {key : κ} {e : Reservation ν σ} (h : Here key e r) (k : κ) :
    Here key e (r.evict k) := by
  unfold evict
  split
  · split
    · exact h
    · rename_i e' hg hna
      have hk : k ≠ key := by
        rintro rfl
        rw [h.get] at hg; cases hg; exact hna h.alive
      exact here_drop_ne h hk
  · exact h

/-- An operation that does not release the key, and after which the time has not run out, leaves the
reservation in place. -/
theorem here_step {r : Reserver κ ν σ} {key : κ} {e : Reservation ν σ} (h : Here key e r)
    (op : Op κ ν σ) (hr : ¬ op.releases key r) (ht : r.now + op.elapsed < e.reservedAt + r.ttl) :
    Here key e (r.step op) := by
  cases op with
  | tryReserve k v s =>
    simp only [step, tryReserve]
    cases hl : r.lookup k with
    | some _ => exact h
    | none =>
      have hk : k ≠ key := by rintro rfl; rw [h.lookup] at hl; cases hl
      have h2 := here_drop_ne h hk
      refine ⟨?_, h2.alive⟩
      show Map.get (Map.set _ _ _) _ = _
      rw [get_set, if_neg hk]; exact h2.get
  | finish k d =>
    simp only [step, finish]
    cases hl : r.lookup k with
    | none => exact h
    | some e' =>
      cases d with
      | true => exact ⟨h.get, h.alive⟩
      | false => exact here_drop_ne h fun hk => hr ⟨hk, rfl⟩
  | finishSync k => exact here_drop_ne h hr
  | schedule k => exact ⟨h.get, h.alive⟩
  | purgeNext =>
    simp only [step]
    cases hd : r.due with
    | nil => rw [purgeNext_nil hd]; exact h
    | cons p ps =>
      rw [(purgeNext_cons hd).1, drop_with_pending]
      simp only [Op.releases, hd, List.head?_cons, Option.map_some, Option.some.injEq] at hr
      have := here_drop_ne h hr
      exact ⟨this.get, this.alive⟩
  | runPendingTasks =>
    simp only [step, runPendingTasks, Op.releases] at hr ⊢
    rw [purge_eq]
    have h0 : Here key e { r with pending := r.pending.filter fun p => !decide (p.2 ≤ r.now) } :=
      ⟨h.get, h.alive⟩
    generalize { r with pending := r.pending.filter fun p => !decide (p.2 ≤ r.now) } = r0 at *
    generalize r.due = ds at *
    have h1 : Here key e (ds.foldl (fun r p => r.drop p.1) r0) := by
      clear h ht
      induction ds generalizing r0 with
      | nil => exact h0
      | cons d ds ih =>
        simp only [List.foldl_cons]
        have hk : d.1 ≠ key := fun hk => hr (by simp [hk])
        exact ih _ (here_drop_ne h0 hk) (fun hm => hr (List.mem_cons_of_mem _ hm))
    generalize ds.foldl (fun (r : Reserver κ ν σ) p => r.drop p.1) r0 = r1 at *
    generalize r1.cache.map (·.1) = ks
    clear h h0
    induction ks generalizing r1 with
    | nil => exact h1
    | cons k ks ih => exact ih _ (here_evict h1 k)
  | evict k => exact here_evict h k
  | advance d =>
    refine ⟨h.get, ?_⟩
    exact decide_eq_true ht

theorem here_exec {r : Reserver κ ν σ} {key : κ} {e : Reservation ν σ} (h : Here key e r)
    (hs : List (Op κ ν σ)) (hr : NeverReleased key r hs)
    (ht : r.now + elapsed hs < e.reservedAt + r.ttl) : Here key e (r.exec hs) := by
  induction hs generalizing r with
  | nil => exact h
  | cons op hs ih =>
    rw [elapsed_cons] at ht
    refine ih (here_step h op hr.1 (by omega)) hr.2 ?_
    rw [now_step, ttl_step]; omega

theorem tryReserve_none {r : Reserver κ ν σ} {key : κ} (h : (r.lookup key).isSome) (v : ν) (s : σ) :
    r.tryReserve key v s = (none, r) := by
  unfold tryReserve
  cases hl : r.lookup key with
  | none => rw [hl] at h; cases h
  | some _ => rfl

theorem tryReserve_some {r : Reserver κ ν σ} {key : κ} (h : r.lookup key = none) (v : ν) (s : σ) :
    r.tryReserve key v s =
      (some v, { r.drop key with cache := (r.drop key).cache.set key ⟨v, s, r.now⟩ }) := by
  unfold tryReserve
  rw [h]
  simp only [drop_now]

theorem tryReserve_here {r : Reserver κ ν σ} {key : κ} {v : ν} {s : σ} (ht : 0 < r.ttl)
    (h : (r.tryReserve key v s).1 = some v) :
    Here key ⟨v, s, r.now⟩ (r.tryReserve key v s).2 ∧ (r.tryReserve key v s).2.now = r.now ∧
      (r.tryReserve key v s).2.ttl = r.ttl := by
  cases hl : r.lookup key with
  | some _ => rw [tryReserve_none (by rw [hl]; rfl)] at h; cases h
  | none =>
    rw [tryReserve_some hl]
    refine ⟨⟨?_, ?_⟩, drop_now _ _, drop_ttl _ _⟩
    · show Map.get (Map.set _ _ _) _ = _
      rw [get_set, if_pos rfl]
    · refine decide_eq_true ?_
      show (r.drop key).now < r.now + (r.drop key).ttl
      rw [drop_now, drop_ttl]; omega

/-- Reservations of the key are not younger than `t`. -/
theorem old_exec {r : Reserver κ ν σ} {key : κ} {t : Nat}
    (h : ∀ e, r.cache.get key = some e → e.reservedAt ≤ t) (hs : List (Op κ ν σ))
    (hn : NeverReserved key r hs) : ∀ e, (r.exec hs).cache.get key = some e → e.reservedAt ≤ t := by
  induction hs generalizing r with
  | nil => exact h
  | cons op hs ih =>
    refine ih ?_ hn.2
    refine step_pres (P := fun r => ∀ e, r.cache.get key = some e → e.reservedAt ≤ t)
      (ok := fun k _ _ => k ≠ key) ?_ ?_ (fun _ _ h => h) h op (fun _ _ => h) ?_
    · intro r k h e he
      rw [drop_get] at he
      split at he
      · cases he
      · exact h e he
    · intro r k v s _ hk h e he
      replace he : Map.get (Map.set _ _ _) _ = _ := he
      rw [get_set, if_neg hk] at he
      exact h e he
    · intro k v s ho hres hk
      subst hk
      have := hn.1 v s ho
      unfold isReserved at hres
      have hl : r.lookup k = none := by
        cases hh : r.lookup k with
        | none => rfl
        | some _ => rw [hh] at hres; cases hres
      rw [tryReserve_some hl] at this
      cases this

theorem pending_step (r : Reserver κ ν σ) (op : Op κ ν σ) :
    ∀ p ∈ (r.step op).pending, p ∈ r.pending ∨ p.2 = r.now + removalDelay := by
  have hev : ∀ (ks : List κ) (r : Reserver κ ν σ), (ks.foldl evict r).pending = r.pending := by
    intro ks
    induction ks with
    | nil => intro r; rfl
    | cons k ks ih =>
      intro r
      rw [List.foldl_cons, ih]
      unfold evict
      split
      · split
        · rfl
        · exact drop_pending _ _
      · rfl
  have hfold : ∀ (ds : List (κ × Nat)) (r : Reserver κ ν σ),
      (ds.foldl (fun r p => r.drop p.1) r).pending = r.pending := by
    intro ds
    induction ds with
    | nil => intro r; rfl
    | cons d ds ih => intro r; rw [List.foldl_cons, ih, drop_pending]
  have hsch : ∀ k, ∀ p ∈ (r.schedule k).pending, p ∈ r.pending ∨ p.2 = r.now + removalDelay := by
    intro k p hp
    simp only [schedule, List.mem_append, List.mem_singleton] at hp
    rcases hp with hp | rfl
    · exact Or.inl hp
    · exact Or.inr rfl
  intro p hp
  cases op with
  | tryReserve k v s =>
    simp only [step, tryReserve] at hp
    split at hp
    · exact Or.inl hp
    · exact Or.inl (by simpa using hp)
  | finish k d =>
    simp only [step, finish] at hp
    cases hl : r.lookup k with
    | none => rw [hl] at hp; exact Or.inl hp
    | some e =>
      rw [hl] at hp
      cases d with
      | true => exact hsch k p hp
      | false => exact Or.inl (by simpa using hp)
  | finishSync k => exact Or.inl (by simpa [step, finishSync] using hp)
  | schedule k => exact hsch k p hp
  | purgeNext =>
    simp only [step, purgeNext] at hp
    split at hp
    · exact Or.inl hp
    · rw [drop_pending] at hp
      exact Or.inl (List.mem_of_mem_eraseP hp)
  | runPendingTasks =>
    simp only [step, runPendingTasks] at hp
    rw [hev, purge_eq, hfold] at hp
    exact Or.inl (List.mem_filter.1 hp).1
  | evict k =>
    have := hev [k] r
    simp only [List.foldl_cons, List.foldl_nil] at this
    simp only [step] at hp
    rw [this] at hp; exact Or.inl hp
  | advance d => exact Or.inl hp

/-- If no removal of the key falls due, only explicit releases release it. -/
theorem neverReleased_of_pending {r : Reserver κ ν σ} {key : κ} {t : Nat}
    (hp : ∀ p ∈ r.pending, p.1 = key → t ≤ p.2) (hnow : t ≤ r.now + removalDelay)
    (hs : List (Op κ ν σ)) (ht : r.now + elapsed hs < t)
    (hf : ∀ op ∈ hs, op ≠ .finish key false ∧ op ≠ .finishSync key) : NeverReleased key r hs := by
  induction hs generalizing r with
  | nil => trivial
  | cons op hs ih =>
    rw [elapsed_cons] at ht
    have hdue : ∀ p ∈ r.due, p.1 ≠ key := by
      intro p hp' hk
      have h1 := List.mem_filter.1 hp'
      have h2 := hp p h1.1 hk
      have h3 := of_decide_eq_true h1.2
      omega
    refine ⟨?_, ih ?_ ?_ ?_ fun o ho => hf o (List.mem_cons_of_mem _ ho)⟩
    · have hop := hf op List.mem_cons_self
      cases op with
      | finish k d => rintro ⟨rfl, rfl⟩; exact hop.1 rfl
      | finishSync k => intro hk; cases (show k = key from hk); exact hop.2 rfl
      | purgeNext =>
        intro hr
        simp only [Op.releases] at hr
        cases hd : r.due with
        | nil => rw [hd] at hr; cases hr
        | cons p ps =>
          rw [hd] at hr
          exact hdue p (by rw [hd]; exact List.mem_cons_self) (Option.some.inj hr)
      | runPendingTasks =>
        intro hr
        obtain ⟨p, hp', hk⟩ := List.mem_map.1 hr
        exact hdue p hp' hk
      | _ => exact fun h => h
    · intro p hp' hk
      rcases pending_step r op p hp' with h | h
      · exact hp p h hk
      · omega
    · rw [now_step]; omega
    · rw [now_step]; omega

variable [DecidableEq ν]

/-- `e` is in the cache under `key`; no other entry and no notice has its value. -/
structure Held (key : κ) (e : Reservation ν σ) (r : Reserver κ ν σ) : Prop where
  get : r.cache.get key = some e
  only : ∀ k e', r.cache.get k = some e' → e'.val = e.val → k = key
  quiet : r.noticesOf e.val = []

/-- No entry has the value `v`; the notices with this value are `l`. -/
structure Gone (v : ν) (l : List (σ × ν)) (r : Reserver κ ν σ) : Prop where
  absent : ∀ k e', r.cache.get k = some e' → e'.val ≠ v
  sent : r.noticesOf v = l

theorem noticesOf_drop_ne {r : Reserver κ ν σ} {k : κ} {v : ν}
    (h : ∀ e, r.cache.get k = some e → e.val ≠ v) : (r.drop k).noticesOf v = r.noticesOf v := by
  unfold noticesOf
  rw [drop_notices]
  cases hk : r.cache.get k with
  | none => rfl
  | some e =>
    dsimp only
    split
    · rfl
    · simp [List.filter_append, h e hk]

theorem held_drop_ne {r : Reserver κ ν σ} {key : κ} {e : Reservation ν σ} (h : Held key e r) {k : κ}
    (hk : k ≠ key) : Held key e (r.drop k) := by
  refine ⟨?_, ?_, ?_⟩
  · rw [drop_get, if_neg hk]; exact h.get
  · intro k' e' hg hv
    rw [drop_get] at hg
    split at hg
    · cases hg
    · exact h.only k' e' hg hv
  · rw [noticesOf_drop_ne fun e' he hv => hk (h.only k e' he hv)]; exact h.quiet

theorem held_drop {r : Reserver κ ν σ} {key : κ} {e : Reservation ν σ} (h : Held key e r) :
    Gone e.val (if r.alive e then [] else [(e.sender, e.val)]) (r.drop key) := by
  refine ⟨?_, ?_⟩
  · intro k e' hg hv
    rw [drop_get] at hg
    split at hg
    · cases hg
    · rename_i hk; exact hk (h.only k e' hg hv).symm
  · have := h.quiet
    unfold noticesOf at this ⊢
    rw [drop_notices, h.get]
    dsimp only
    split
    · exact this
    · rw [List.filter_append, this]; simp

theorem gone_drop {r : Reserver κ ν σ} {v : ν} {l : List (σ × ν)} (h : Gone v l r) (k : κ) :
    Gone v l (r.drop k) := by
  refine ⟨?_, ?_⟩
  · intro k' e' hg
    rw [drop_get] at hg
    split at hg
    · cases hg
    · exact h.absent k' e' hg
  · rw [noticesOf_drop_ne (h.absent k)]; exact h.sent

theorem gone_insert {r : Reserver κ ν σ} {v : ν} {l : List (σ × ν)} (h : Gone v l r) (k : κ)
    {e : Reservation ν σ} (he : e.val ≠ v) : Gone v l { r with cache := r.cache.set k e } := by
  refine ⟨?_, h.sent⟩
  intro k' e' hg
  replace hg : Map.get (Map.set r.cache k e) k' = some e' := hg
  rw [get_set] at hg
  split at hg
  · cases hg; exact he
  · exact h.absent k' e' hg

theorem held_insert {r : Reserver κ ν σ} {key : κ} {e : Reservation ν σ} (h : Held key e r) {k : κ}
    (hk : r.cache.get k = none) {e' : Reservation ν σ} (he : e'.val ≠ e.val) :
    Held key e { r with cache := r.cache.set k e' } := by
  have hne : k ≠ key := fun hh => by rw [hh, h.get] at hk; cases hk
  refine ⟨?_, ?_, h.quiet⟩
  · show Map.get (Map.set r.cache k e') key = _
    rw [get_set, if_neg hne]; exact h.get
  · intro k' e'' hg hv
    replace hg : Map.get (Map.set r.cache k e') k' = some e'' := hg
    rw [get_set] at hg
    split at hg
    · cases hg; exact absurd hv he
    · exact h.only k' e'' hg hv

theorem gone_step {r : Reserver κ ν σ} {v : ν} {l : List (σ × ν)} (h : Gone v l r) (op : Op κ ν σ)
    (hu : ¬ op.uses v) : Gone v l (r.step op) := by
  refine step_pres (P := Gone v l) (ok := fun _ v' _ => v' ≠ v) (fun _ k h => gone_drop h k)
    (fun _ k _ _ _ hv h => gone_insert h k hv) (fun _ _ h => ⟨h.absent, h.sent⟩) h op
    (fun _ _ => ⟨h.absent, h.sent⟩) ?_
  intro k v' s ho _ hv
  subst ho hv
  exact hu rfl

theorem gone_exec {r : Reserver κ ν σ} {v : ν} {l : List (σ × ν)} (h : Gone v l r) (hs : List (Op κ ν σ))
    (hu : ∀ op ∈ hs, ¬ op.uses v) : Gone v l (r.exec hs) := by
  induction hs generalizing r with
  | nil => exact h
  | cons op hs ih =>
    exact ih (gone_step h op (hu op List.mem_cons_self)) fun o ho => hu o (List.mem_cons_of_mem _ ho)

/-- After expiry: still in the cache, or removed with one notice. -/
theorem late_step {r : Reserver κ ν σ} {key : κ} {e : Reservation ν σ}
    (h : (Held key e r ∨ Gone e.val [(e.sender, e.val)] r) ∧ r.alive e = false) (op : Op κ ν σ)
    (hu : ¬ op.uses e.val) :
    (Held key e (r.step op) ∨ Gone e.val [(e.sender, e.val)] (r.step op)) ∧
      (r.step op).alive e = false := by
  refine step_pres (P := fun r => (Held key e r ∨ Gone e.val [(e.sender, e.val)] r) ∧ r.alive e = false)
    (ok := fun _ v' _ => v' ≠ e.val) ?_ ?_ ?_ h op ?_ ?_
  · rintro r k ⟨h | h, ha⟩
    · refine ⟨?_, by rw [drop_alive]; exact ha⟩
      by_cases hk : k = key
      · subst hk
        have := held_drop h
        rw [ha] at this
        exact Or.inr this
      · exact Or.inl (held_drop_ne h hk)
    · exact ⟨Or.inr (gone_drop h k), by rw [drop_alive]; exact ha⟩
  · rintro r k v s hk hv ⟨h | h, ha⟩
    · exact ⟨Or.inl (held_insert h hk hv), ha⟩
    · exact ⟨Or.inr (gone_insert h k hv), ha⟩
  · rintro r p ⟨h | h, ha⟩
    · exact ⟨Or.inl ⟨h.get, h.only, h.quiet⟩, ha⟩
    · exact ⟨Or.inr ⟨h.absent, h.sent⟩, ha⟩
  · intro d _
    obtain ⟨h, ha⟩ := h
    refine ⟨?_, ?_⟩
    · rcases h with h | h
      · exact Or.inl ⟨h.get, h.only, h.quiet⟩
      · exact Or.inr ⟨h.absent, h.sent⟩
    · simp only [alive, decide_eq_false_iff_not] at ha ⊢
      omega
  · intro k v' s ho _ hv
    subst ho hv
    exact hu rfl

theorem evict_held {r : Reserver κ ν σ} {key : κ} {e : Reservation ν σ} (h : Held key e r)
    (ha : r.alive e = true) (k : κ) : Held key e (r.evict k) ∧ (r.evict k).alive e = true := by
  unfold evict
  split
  · split
    · exact ⟨h, ha⟩
    · rename_i e' hg hna
      have hk : k ≠ key := by
        rintro rfl
        rw [h.get] at hg; cases hg; exact hna ha
      exact ⟨held_drop_ne h hk, by rw [drop_alive]; exact ha⟩
  · exact ⟨h, ha⟩

/-- Before expiry: an operation either releases the key, and the reservation is gone without a
notice, or it is still there. -/
theorem early_step {r : Reserver κ ν σ} {key : κ} {e : Reservation ν σ} (h : Held key e r)
    (ha : r.alive e = true) (op : Op κ ν σ) (hu : ¬ op.uses e.val) :
    (op.releases key r → Gone e.val [] (r.step op)) ∧
    (¬ op.releases key r → Held key e (r.step op)) := by
  have hdrop : Gone e.val [] (r.drop key) := by
    have := held_drop h; rw [ha] at this; exact this
  have hlook : r.lookup key = some e := by
    unfold lookup; rw [h.get]; simp [ha]
  cases op with
  | tryReserve k v s =>
    refine ⟨fun hr => hr.elim, fun _ => ?_⟩
    simp only [step, tryReserve]
    cases hl : r.lookup k with
    | some _ => exact h
    | none =>
      have hk : k ≠ key := by rintro rfl; rw [hlook] at hl; cases hl
      exact held_insert (held_drop_ne h hk) (by rw [drop_get, if_pos rfl]) (fun hv => hu hv)
  | finish k d =>
    simp only [step, finish]
    refine ⟨fun hr => ?_, fun hr => ?_⟩
    · obtain ⟨rfl, rfl⟩ := hr
      rw [hlook]; exact hdrop
    · cases hl : r.lookup k with
      | none => exact h
      | some e' =>
        cases d with
        | true => exact ⟨h.get, h.only, h.quiet⟩
        | false => exact held_drop_ne h fun hk => hr ⟨hk, rfl⟩
  | finishSync k =>
    refine ⟨fun hr => ?_, fun hr => held_drop_ne h hr⟩
    cases (show k = key from hr); exact hdrop
  | schedule k => exact ⟨fun hr => hr.elim, fun _ => ⟨h.get, h.only, h.quiet⟩⟩
  | purgeNext =>
    simp only [step]
    cases hd : r.due with
    | nil =>
      rw [purgeNext_nil hd]
      refine ⟨fun hr => ?_, fun _ => h⟩
      simp [Op.releases, hd] at hr
    | cons p ps =>
      rw [(purgeNext_cons hd).1, drop_with_pending]
      simp only [Op.releases, hd, List.head?_cons, Option.map_some, Option.some.injEq]
      refine ⟨fun hr => ?_, fun hr => ?_⟩
      · rw [hr]; exact ⟨hdrop.absent, hdrop.sent⟩
      · have := held_drop_ne h hr; exact ⟨this.get, this.only, this.quiet⟩
  | runPendingTasks =>
    simp only [step, runPendingTasks, Op.releases]
    rw [purge_eq]
    have h0 : Held key e { r with pending := r.pending.filter fun p => !decide (p.2 ≤ r.now) } :=
      ⟨h.get, h.only, h.quiet⟩
    have ha0 : Reserver.alive { r with pending := r.pending.filter fun p => !decide (p.2 ≤ r.now) } e
      = true := ha
    generalize { r with pending := r.pending.filter fun p => !decide (p.2 ≤ r.now) } = r0 at *
    generalize r.due = ds
    have hfold : ∀ (ds : List (κ × Nat)) (r0 : Reserver κ ν σ), Gone e.val [] r0 →
        Gone e.val [] (ds.foldl (fun r p => r.drop p.1) r0) := by
      intro ds
      induction ds with
      | nil => intro r0 h; exact h
      | cons d ds ih => intro r0 h; exact ih _ (gone_drop h _)
    have hev : ∀ (ks : List κ) (r1 : Reserver κ ν σ), Gone e.val [] r1 →
        Gone e.val [] (ks.foldl evict r1) := by
      intro ks
      induction ks with
      | nil => intro r1 h; exact h
      | cons k ks ih =>
        intro r1 h
        exact ih _ (gone_step h (.evict k) (by intro h; exact h))
    have hev2 : ∀ (ks : List κ) (r1 : Reserver κ ν σ), Held key e r1 → r1.alive e = true →
        Held key e (ks.foldl evict r1) := by
      intro ks
      induction ks with
      | nil => intro r1 h _; exact h
      | cons k ks ih =>
        intro r1 h ha
        exact ih _ (evict_held h ha k).1 (evict_held h ha k).2
    refine ⟨fun hr => hev _ _ ?_, fun hr => ?_⟩
    · clear h ha hlook hdrop
      induction ds generalizing r0 with
      | nil => cases hr
      | cons d ds ih =>
        simp only [List.foldl_cons]
        by_cases hk : d.1 = key
        · apply hfold
          have := held_drop h0
          rw [ha0] at this
          rw [hk]; exact this
        · exact ih _ (held_drop_ne h0 hk) (by rw [drop_alive]; exact ha0)
            ((List.mem_cons.1 hr).resolve_left fun h => hk h.symm)
    · have : Held key e (ds.foldl (fun r p => r.drop p.1) r0) ∧
          (ds.foldl (fun r p => r.drop p.1) r0).alive e = true := by
        clear h ha hlook hdrop
        induction ds generalizing r0 with
        | nil => exact ⟨h0, ha0⟩
        | cons d ds ih =>
          simp only [List.foldl_cons]
          have hk : d.1 ≠ key := fun hk => hr (by simp [hk])
          exact ih _ (held_drop_ne h0 hk) (by rw [drop_alive]; exact ha0)
            (fun hm => hr (List.mem_cons_of_mem _ hm))
      exact hev2 _ _ this.1 this.2
  | evict k =>
    exact ⟨fun hr => hr.elim, fun _ => (evict_held h ha k).1⟩
  | advance d => exact ⟨fun hr => hr.elim, fun _ => ⟨h.get, h.only, h.quiet⟩⟩


theorem exec_append (r : Reserver κ ν σ) (h1 h2 : List (Op κ ν σ)) :
    r.exec (h1 ++ h2) = (r.exec h1).exec h2 := List.foldl_append

theorem late_exec {r : Reserver κ ν σ} {key : κ} {e : Reservation ν σ}
    (h : (Held key e r ∨ Gone e.val [(e.sender, e.val)] r) ∧ r.alive e = false) (hs : List (Op κ ν σ))
    (hu : ∀ op ∈ hs, ¬ op.uses e.val) :
    (Held key e (r.exec hs) ∨ Gone e.val [(e.sender, e.val)] (r.exec hs)) ∧
      (r.exec hs).alive e = false := by
  induction hs generalizing r with
  | nil => exact h
  | cons op hs ih =>
    exact ih (late_step h op (hu op List.mem_cons_self)) fun o ho => hu o (List.mem_cons_of_mem _ ho)

/-- Where a reservation can be after a history. -/
theorem fate {r : Reserver κ ν σ} {key : κ} {e : Reservation ν σ} (h : Held key e r)
    (ha : r.alive e = true) (hs : List (Op κ ν σ)) (hu : ∀ op ∈ hs, ¬ op.uses e.val) :
    (ReleasedWithin (e.reservedAt + r.ttl - r.now) key r hs ∧ Gone e.val [] (r.exec hs)) ∨
    (¬ ReleasedWithin (e.reservedAt + r.ttl - r.now) key r hs ∧ (r.exec hs).alive e = true ∧
      Held key e (r.exec hs)) ∨
    (¬ ReleasedWithin (e.reservedAt + r.ttl - r.now) key r hs ∧ (r.exec hs).alive e = false ∧
      (Held key e (r.exec hs) ∨ Gone e.val [(e.sender, e.val)] (r.exec hs))) := by
  induction hs generalizing r with
  | nil =>
    refine Or.inr (Or.inl ⟨?_, ha, h⟩)
    rintro ⟨h1, op, h2, he, _⟩
    cases h1 <;> cases he
  | cons op hs ih =>
    have hpos : 0 < e.reservedAt + r.ttl - r.now := by
      have := of_decide_eq_true ha; omega
    have hstep := early_step h ha op (hu op List.mem_cons_self)
    have hu' : ∀ o ∈ hs, ¬ o.uses e.val := fun o ho => hu o (List.mem_cons_of_mem _ ho)
    by_cases hr : op.releases key r
    · exact Or.inl ⟨⟨[], op, hs, rfl, hpos, hr⟩, gone_exec (hstep.1 hr) hs hu'⟩
    · have h' := hstep.2 hr
      have hiff : ReleasedWithin (e.reservedAt + r.ttl - r.now) key r (op :: hs) ↔
          ReleasedWithin (e.reservedAt + (r.step op).ttl - (r.step op).now) key (r.step op) hs := by
        rw [now_step, ttl_step]
        constructor
        · rintro ⟨h1, o, h2, he, hlt, hrel⟩
          cases h1 with
          | nil => cases he; exact absurd hrel hr
          | cons a h1 =>
            cases he
            rw [elapsed_cons] at hlt
            exact ⟨h1, o, h2, rfl, by omega, hrel⟩
        · rintro ⟨h1, o, h2, rfl, hlt, hrel⟩
          exact ⟨op :: h1, o, h2, rfl, by rw [elapsed_cons]; omega, hrel⟩
      rw [hiff]
      cases ha' : (r.step op).alive e with
      | true => exact ih h' ha' hu'
      | false =>
        have hl := late_exec ⟨Or.inl h', ha'⟩ hs hu'
        refine Or.inr (Or.inr ⟨?_, hl.2, hl.1⟩)
        rintro ⟨h1, o, h2, _, hlt, _⟩
        have : ¬ _ := of_decide_eq_false ha'
        omega

theorem late_runPendingTasks {r : Reserver κ ν σ} {key : κ} {e : Reservation ν σ}
    (h : (Held key e r ∨ Gone e.val [(e.sender, e.val)] r) ∧ r.alive e = false) :
    Gone e.val [(e.sender, e.val)] r.runPendingTasks := by
  have h1 := late_step h .runPendingTasks (fun h => h)
  rcases h1.1 with hh | hg
  · exfalso
    -- an expired entry does not survive the maintenance
    have key1 : ∀ (ks : List κ) (r : Reserver κ ν σ), r.alive e = false →
        (r.cache.get key = some e → key ∈ ks) → (ks.foldl evict r).cache.get key ≠ some e := by
      intro ks
      induction ks with
      | nil => intro r _ hk hg; cases hk hg
      | cons k ks ih =>
        intro r ha hk
        rw [List.foldl_cons]
        have hsub : (r.evict k).cache.get key = some e → r.cache.get key = some e := by
          unfold evict
          split
          · split
            · exact id
            · rw [drop_get]; split
              · intro h; cases h
              · exact id
          · exact id
        refine ih _ ?_ fun hg => ?_
        · have := now_step r (.evict k)
          have h2 := ttl_step r (.evict k)
          simp only [step, Op.elapsed, Nat.add_zero] at this h2
          unfold alive at ha ⊢
          rw [this, h2]; exact ha
        · rcases List.mem_cons.1 (hk (hsub hg)) with rfl | hm
          · exfalso
            have hge := hsub hg
            unfold evict at hg
            rw [hge] at hg
            dsimp only at hg
            rw [ha] at hg
            simp only [Bool.false_eq_true, if_false] at hg
            rw [drop_get, if_pos rfl] at hg
            cases hg
          · exact hm
    refine key1 (r.purge.cache.map fun p : κ × Reservation ν σ => p.1) r.purge ?_ ?_ hh.get
    · have : r.purge.now = r.now ∧ r.purge.ttl = r.ttl := by
        rw [purge_eq]
        have : ∀ (ds : List (κ × Nat)) (r : Reserver κ ν σ),
            (ds.foldl (fun r p => r.drop p.1) r).now = r.now ∧
            (ds.foldl (fun r p => r.drop p.1) r).ttl = r.ttl := by
          intro ds
          induction ds with
          | nil => intro r; exact ⟨rfl, rfl⟩
          | cons d ds ih =>
            intro r
            rw [List.foldl_cons, (ih _).1, (ih _).2, drop_now, drop_ttl]
            exact ⟨rfl, rfl⟩
        exact this _ _
      unfold alive; rw [this.1, this.2]; exact h.2
    · intro hg
      exact List.mem_map.2 ⟨_, mem_of_get hg, rfl⟩
  · exact hg

end Opsqueue.Reserver
