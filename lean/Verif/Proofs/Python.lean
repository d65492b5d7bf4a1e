import Verif.Spec.Python

/-! # Lemmas about the Python client -/

namespace Opsqueue.Python

theorem batchedLoop_flatten {α} (k : Nat) (hk : 0 < k) : ∀ (fuel : Nat) (ops : List α), ops.length ≤ fuel →
    (batchedLoop k fuel ops).flatten = ops := by
  intro fuel
  induction fuel with
  | zero =>
    intro ops h
    have : ops = [] := by simpa using h
    subst this; rfl
  | succ n ih =>
    intro ops h
    cases ops with
    | nil => rfl
    | cons a l =>
      rw [batchedLoop]
      · rw [List.flatten_cons, ih, List.take_append_drop]
        simp only [List.length_drop, List.length_cons] at h ⊢
        omega
      · simp

theorem batchedLoop_length {α} (k : Nat) (hk : 0 < k) : ∀ (fuel : Nat) (ops : List α), ops.length ≤ fuel →
    (batchedLoop k fuel ops).length = (ops.length + k - 1) / k := by
  intro fuel
  induction fuel with
  | zero =>
    intro ops h
    have : ops = [] := by simpa using h
    subst this
    simp only [batchedLoop, List.length_nil]
    rw [Nat.div_eq_of_lt (by omega)]
  | succ n ih =>
    intro ops h
    cases ops with
    | nil =>
      simp only [batchedLoop, List.length_nil]
      rw [Nat.div_eq_of_lt (by omega)]
    | cons a l =>
      rw [batchedLoop]
      · rw [List.length_cons, ih _ (by simp only [List.length_drop, List.length_cons] at h ⊢; omega)]
        simp only [List.length_drop, List.length_cons]
        by_cases hl : l.length + 1 ≤ k
        · have e1 : l.length + 1 - k + k - 1 = k - 1 := by omega
          rw [e1, Nat.div_eq_of_lt (by omega)]
          have : l.length + 1 + k - 1 = k + l.length := by omega
          rw [this, Nat.add_div_left _ hk, Nat.div_eq_of_lt (by omega)]
        · have : l.length + 1 + k - 1 = (l.length + 1 - k + k - 1) + k := by omega
          rw [this, Nat.add_div_right _ hk]
      · simp

theorem batchedLoop_sizes {α} (k : Nat) (hk : 0 < k) : ∀ (fuel : Nat) (ops : List α), ops.length ≤ fuel →
    (∀ g ∈ batchedLoop k fuel ops, 0 < g.length ∧ g.length ≤ k) ∧
    (∀ g ∈ (batchedLoop k fuel ops).dropLast, g.length = k) := by
  intro fuel
  induction fuel with
  | zero => intro ops h; simp [batchedLoop]
  | succ n ih =>
    intro ops h
    cases ops with
    | nil => simp [batchedLoop]
    | cons a l =>
      have hd : (List.drop k (a :: l)).length ≤ n := by
        simp only [List.length_drop, List.length_cons] at h ⊢; omega
      obtain ⟨h1, h2⟩ := ih _ hd
      rw [batchedLoop]
      · refine ⟨?_, ?_⟩
        · intro g hg
          rcases List.mem_cons.1 hg with rfl | hg
          · simp only [List.length_take, List.length_cons]; omega
          · exact h1 g hg
        · cases hb : batchedLoop k n (List.drop k (a :: l)) with
          | nil => simp
          | cons b bs =>
            intro g hg
            rw [List.dropLast_cons_cons] at hg
            rcases List.mem_cons.1 hg with rfl | hg
            · have : List.drop k (a :: l) ≠ [] := by
                intro e
                rw [e] at hb
                cases n <;> simp [batchedLoop] at hb
              have : 0 < (List.drop k (a :: l)).length := List.length_pos_iff.2 this
              simp only [List.length_drop, List.length_cons, List.length_take] at this ⊢
              omega
            · exact h2 g (by rw [hb]; exact hg)
      · simp

theorem unchunk_map {α} (f : Format α) (hf : f.Faithful) (groups : List (List α)) :
    unchunkIterator f (groups.map (encodeChunk f)) = (groups.flatten, none) := by
  induction groups with
  | nil => rfl
  | cons g gs ih =>
    obtain ⟨b, h1, h2⟩ := hf g
    simp only [List.map_cons, encodeChunk, h1, unchunkIterator, decodeChunk, h2]
    change (g ++ (unchunkIterator f (gs.map (encodeChunk f))).1, (unchunkIterator f (gs.map (encodeChunk f))).2) = _
    rw [ih]; rfl

/-! ## Conversions -/

theorem toRust_ofRust (s : Strategy) : (PyStrategy.ofRust s).toRust = s := by
  induction s with
  | preferDistinct k u ih => simp only [PyStrategy.ofRust, PyStrategy.toRust, ih]
  | _ => rfl

theorem ofRust_toRust (s : PyStrategy) : PyStrategy.ofRust s.toRust = s := by
  induction s with
  | preferDistinct k u ih => simp only [PyStrategy.ofRust, PyStrategy.toRust, ih]
  | _ => rfl

/-! ## Waiting -/

theorem waitLoop_ends (answers : Nat → Answer) (w : Waited) (n : Nat) : ∀ (i interval fuel : Nat),
    (∀ j, j < n → maybeStream (answers (i + j)) = none) → maybeStream (answers (i + n)) = some w → n < fuel →
    (waitLoop answers fuel i interval).2 = some w ∧ (waitLoop answers fuel i interval).1.length = n := by
  induction n with
  | zero =>
    intro i interval fuel _ hw hf
    cases fuel with
    | zero => omega
    | succ fuel =>
      rw [Nat.add_zero] at hw
      simp [waitLoop, hw]
  | succ n ih =>
    intro i interval fuel hj hw hf
    cases fuel with
    | zero => omega
    | succ fuel =>
      have h0 := hj 0 (by omega)
      rw [Nat.add_zero] at h0
      have := ih (i + 1) (nextInterval interval) fuel
        (fun j h => by have := hj (j + 1) (by omega); rwa [Nat.add_right_comm] )
        (by rwa [Nat.add_right_comm]) (by omega)
      simp only [waitLoop, h0, List.length_cons, this, and_self]

theorem waitLoop_never (answers : Nat → Answer) (fuel : Nat) : ∀ (i interval : Nat),
    (∀ j, i ≤ j → maybeStream (answers j) = none) → (waitLoop answers fuel i interval).2 = none := by
  induction fuel with
  | zero => intro i interval _; rfl
  | succ fuel ih =>
    intro i interval h
    simp only [waitLoop, h i (Nat.le_refl i)]
    exact ih _ _ (fun j hj => h j (by omega))

theorem nextInterval_ge (n : Nat) : n ≤ nextInterval n := by
  unfold nextInterval pollingInterval
  split <;> omega

theorem nextInterval_le {n : Nat} (h : n ≤ 5000) : nextInterval n ≤ 5000 := by
  unfold nextInterval pollingInterval
  split <;> omega

theorem waitLoop_pauses (answers : Nat → Answer) (fuel : Nat) : ∀ (i interval : Nat), interval ≤ 5000 →
    (∀ p ∈ (waitLoop answers fuel i interval).1, interval ≤ p ∧ p ≤ 5000) ∧
    (waitLoop answers fuel i interval).1.Pairwise (· ≤ ·) := by
  induction fuel with
  | zero => intro i interval _; simp [waitLoop]
  | succ fuel ih =>
    intro i interval h
    rw [waitLoop]
    cases hm : maybeStream (answers i) with
    | some w => simp
    | none =>
      obtain ⟨h1, h2⟩ := ih (i + 1) (nextInterval interval) (nextInterval_le h)
      simp only
      refine ⟨?_, ?_⟩
      · intro p hp
        rcases List.mem_cons.1 hp with rfl | hp
        · exact ⟨Nat.le_refl _, h⟩
        · have := h1 p hp
          have := nextInterval_ge interval
          omega
      · rw [List.pairwise_cons]
        refine ⟨fun p hp => ?_, h2⟩
        have := h1 p hp
        have := nextInterval_ge interval
        omega

theorem waitLoop_doubling (answers : Nat → Answer) (fuel : Nat) : ∀ (i interval k : Nat), interval ≤ 5000 →
    k < (waitLoop answers fuel i interval).1.length →
    (waitLoop answers fuel i interval).1[k]? = some (min (interval * 2 ^ k) 5000) := by
  induction fuel with
  | zero => intro i interval k _ h; simp [waitLoop] at h
  | succ fuel ih =>
    intro i interval k h hk
    rw [waitLoop] at hk ⊢
    cases hm : maybeStream (answers i) with
    | some w => simp [hm] at hk
    | none =>
      simp only [hm] at hk ⊢
      cases k with
      | zero => simp; omega
      | succ k =>
        rw [List.length_cons] at hk
        rw [List.getElem?_cons_succ, ih (i + 1) (nextInterval interval) k (nextInterval_le h) (by omega)]
        have e : interval * 2 ^ (k + 1) = interval * 2 * 2 ^ k := by
          rw [Nat.pow_succ, Nat.mul_comm (2 ^ k) 2, Nat.mul_assoc]
        rw [e]
        congr 1
        unfold nextInterval pollingInterval
        have h1 : 1 ≤ 2 ^ k := Nat.one_le_two_pow
        generalize 2 ^ k = m at *
        have hmul : ∀ x : Nat, x ≤ x * m := fun x => Nat.le_mul_of_pos_right x h1
        split
        · by_cases h2 : interval * 2 ≤ 5000
          · rw [Nat.min_eq_left h2]
          · rw [show min (interval * 2) 5000 = 5000 by omega]
            have := hmul 5000
            have := hmul (interval * 2)
            omega
        · have : interval = 5000 := by omega
          subst this
          have := hmul 5000
          have := hmul (5000 * 2)
          omega

/-! ## The consumer loop -/

theorem pow_mod_fifty : ∀ k, k ≤ 64 → satAdd (2 ^ k - 1) 1 % 50 ≠ 0 := by decide +kernel

theorem double_count : ∀ k, k ≤ 64 → satAdd (2 ^ k - 1) (satAdd (2 ^ k - 1) 1) = 2 ^ (min (k + 1) 64) - 1 := by
  decide +kernel

theorem chunkLoop_one (e : Surroundings) (c : PyChunk) (done : Nat) (t : Trace) :
    chunkLoop e [c] done t =
      match e.reported c with
      | .error err => (.error err, { t with sent := t.sent ++ [dueReport e c] })
      | .ok _ =>
        match fatalOf (e.call c) with
        | some x => (.error (.fatal x), { t with sent := t.sent ++ [dueReport e c] })
        | none => (.ok (satAdd done 1),
          { sent := t.sent ++ [dueReport e c], processed := t.processed + 1
            logged := if satAdd done 1 % 50 = 0 then t.logged ++ [satAdd done 1] else t.logged }) := by
  unfold chunkLoop dueReport
  generalize fatalOf (e.call c) = f
  cases e.reported c <;> cases f <;> cases e.call c <;> simp [chunkLoop]

theorem endsConsumer_iff {e : Surroundings} {c : PyChunk} : endsConsumer e c = (fatalOf (e.call c)).isSome := by
  unfold endsConsumer fatalOf
  cases e.call c with
  | returned out => rfl
  | raised x text =>
    simp only
    split <;> simp_all

/-- What a round does if it gets one chunk or none. -/
theorem round_cases (r : Running) (e : Surroundings) (h1 : ∀ cs, e.reserved = .ok cs → ∃ c, cs = [c]) :
    (r.closed.isSome = true ∧ round r e = r) ∨
    (r.closed = none ∧ ∃ x, e.reserved = .error (.fatal x) ∧ round r e = { r with closed := some x }) ∨
    (r.closed = none ∧ e.reserved = .error .rust ∧ round r e = r) ∨
    ∃ c, r.closed = none ∧ e.reserved = .ok [c] ∧
      ((endsConsumer e c = false ∧ e.reported c = .ok () ∧ round r e =
          { r with
            done := satAdd r.done (satAdd r.done 1)
            trace := { sent := r.trace.sent ++ [dueReport e c], processed := r.trace.processed + 1
                       logged := if satAdd r.done 1 % 50 = 0 then r.trace.logged ++ [satAdd r.done 1]
                         else r.trace.logged } }) ∨
       (e.reported c = .error .rust ∧
          round r e = { r with trace := { r.trace with sent := r.trace.sent ++ [dueReport e c] } }) ∨
       (∃ x, (e.reported c = .error (.fatal x) ∨ (e.reported c = .ok () ∧ fatalOf (e.call c) = some x)) ∧
          round r e = { r with
            trace := { r.trace with sent := r.trace.sent ++ [dueReport e c] }
            closed := some x })) := by
  cases hc : r.closed with
  | some x => exact .inl ⟨rfl, by simp [round, hc]⟩
  | none =>
    right
    cases hr : e.reserved with
    | error err =>
      cases err with
      | fatal x => exact .inl ⟨rfl, x, rfl, by simp [round, hc, computeChunkOutcome, hr]⟩
      | rust =>
        refine .inr (.inl ⟨rfl, rfl, ?_⟩)
        unfold round computeChunkOutcome
        rw [if_neg (by simp [hc]), hr]
    | ok cs =>
      obtain ⟨c, rfl⟩ := h1 cs hr
      refine .inr (.inr ⟨c, rfl, rfl, ?_⟩)
      have hround : round r e = match chunkLoop e [c] r.done r.trace with
          | (.ok done, t) => { r with done := satAdd r.done done, trace := t }
          | (.error (.fatal x), t) => { r with trace := t, closed := some x }
          | (.error .rust, t) => { r with trace := t } := by
        simp only [round, hc, computeChunkOutcome, hr]
        rfl
      rw [hround, chunkLoop_one, endsConsumer_iff]
      cases hrep : e.reported c with
      | error err => cases err <;> simp [hc]
      | ok u =>
        cases he : fatalOf (e.call c) <;> simp [hc]

/-- The counter is one less than a power of two and nothing has been logged. -/
def Doubling (r : Running) : Prop :=
  (∃ k, k ≤ 64 ∧ r.done = 2 ^ k - 1 ∧ (r.trace.processed = k ∨ (k = 64 ∧ 64 ≤ r.trace.processed))) ∧
    r.trace.logged = []

theorem doubling_round {r : Running} (h : Doubling r) (e : Surroundings)
    (h1 : ∀ cs, e.reserved = .ok cs → ∃ c, cs = [c]) : Doubling (round r e) := by
  obtain ⟨⟨k, hk, hd, hp⟩, hl⟩ := h
  rcases round_cases r e h1 with ⟨_, e1⟩ | ⟨_, _, _, e1⟩ | ⟨_, _, e1⟩ | ⟨c, _, _, ⟨_, _, e1⟩ | ⟨_, e1⟩ | ⟨_, _, e1⟩⟩
  · rw [e1]; exact ⟨⟨k, hk, hd, hp⟩, hl⟩
  · rw [e1]; exact ⟨⟨k, hk, hd, hp⟩, hl⟩
  · rw [e1]; exact ⟨⟨k, hk, hd, hp⟩, hl⟩
  · rw [e1]
    refine ⟨⟨min (k + 1) 64, by omega, ?_, ?_⟩, ?_⟩
    · simp only [hd]; exact double_count k hk
    · simp only
      omega
    · simp only [hd]
      rw [if_neg (pow_mod_fifty k hk), hl]
  · rw [e1]; exact ⟨⟨k, hk, hd, hp⟩, hl⟩
  · rw [e1]; exact ⟨⟨k, hk, hd, hp⟩, hl⟩

theorem doubling_run (es : List Surroundings) (h1 : ∀ e ∈ es, ∀ cs, e.reserved = .ok cs → ∃ c, cs = [c]) :
    ∀ r, Doubling r → Doubling (es.foldl round r) := by
  induction es with
  | nil => intro r h; exact h
  | cons e es ih =>
    intro r h
    exact ih (fun x hx => h1 x (List.mem_cons_of_mem _ hx)) _ (doubling_round h e (h1 e (by simp)))

theorem processed_run (es : List Surroundings) (hw : AllWell es) :
    ∀ r, r.closed = none → (es.foldl round r).trace.processed = r.trace.processed + es.length ∧
      (es.foldl round r).closed = none := by
  induction es with
  | nil => intro r h; exact ⟨rfl, h⟩
  | cons e es ih =>
    intro r h
    obtain ⟨c, h1, h2, h3⟩ := hw e (by simp)
    have hr := round_cases r e (fun cs hcs => ⟨c, by rw [h1] at hcs; cases hcs; rfl⟩)
    have : (round r e).closed = none ∧ (round r e).trace.processed = r.trace.processed + 1 := by
      rcases hr with ⟨h', _⟩ | ⟨_, _, h', _⟩ | ⟨_, h', _⟩ | ⟨c', _, h', ⟨_, _, e1⟩ | ⟨h'', _⟩ | ⟨_, h'', _⟩⟩
      · rw [h] at h'; cases h'
      · rw [h1] at h'; cases h'
      · rw [h1] at h'; cases h'
      · rw [e1]; exact ⟨h, rfl⟩
      · rw [h1] at h'; cases h'; rw [h3] at h''; cases h''
      · rw [h1] at h'; cases h'; rw [endsConsumer_iff] at h2; rw [h3] at h''; simp_all
    obtain ⟨a, b⟩ := ih (fun x hx => hw x (List.mem_cons_of_mem _ hx)) _ this.1
    refine ⟨?_, b⟩
    rw [List.foldl_cons, a, this.2, List.length_cons]
    omega

end Opsqueue.Python
