import Verif.Spec.Streaming

/-!
# Lemmas for streaming
-/

namespace Opsqueue.Streaming
open Python (PyErr Format encodeChunk decodeChunk batchedLoop batched unchunkIterator)

theorem Begins.snoc {α} {src : Nat → Draw α} {ops : List α} {a : α} (h : Begins src ops) (ha : src ops.length = .op a) :
    Begins src (ops ++ [a]) := by
  intro i b hb
  rcases Nat.lt_trichotomy i ops.length with hi | hi | hi
  · rw [List.getElem?_append_left hi] at hb
    exact h i b hb
  · subst hi
    simp at hb
    rw [ha, hb]
  · rw [List.getElem?_eq_none (by simp; omega)] at hb
    cases hb

theorem Encodes.snoc {α} {f : Format α} : ∀ {bs : List (List α)} {cs : List Bytes} {b : List α} {c : Bytes},
    Encodes f bs cs → f.dumps b = .ok c → Encodes f (bs ++ [b]) (cs ++ [c])
  | [], [], _, _, _, h => ⟨h, trivial⟩
  | _ :: _, _ :: _, _, _, ⟨h1, h2⟩, h => ⟨h1, Encodes.snoc h2 h⟩

theorem Encodes.length {α} {f : Format α} : ∀ {bs : List (List α)} {cs : List Bytes}, Encodes f bs cs → bs.length = cs.length
  | [], [], _ => rfl
  | _ :: _, _ :: _, ⟨_, h2⟩ => by simp [Encodes.length h2]

theorem flatten_length_of_all {α} {k : Nat} : ∀ {bs : List (List α)}, (∀ b ∈ bs, b.length = k) → bs.flatten.length = k * bs.length
  | [], _ => rfl
  | b :: bs, h => by
    have h1 := h b (by simp)
    have h2 := flatten_length_of_all (k := k) (bs := bs) (fun x hx => h x (by simp [hx]))
    simp only [List.flatten_cons, List.length_append, List.length_cons, Nat.mul_succ]
    omega

/-- What is true of every state of an upload. -/
structure UInv {α} (f : Format α) (k : Nat) (src : Nat → Draw α) (s : Upload α) (batches : List (List α)) : Prop where
  begins : Begins src (batches.flatten ++ s.held)
  drawn : s.drawn = (batches.flatten ++ s.held).length
  enc : Encodes f batches s.stored
  sizes : ∀ b ∈ batches, b ≠ [] ∧ b.length ≤ k
  full : ∀ b ∈ batches.dropLast, b.length = k
  open_full : s.ended = false ∨ s.pending.isSome ∨ s.batch ≠ [] → ∀ b ∈ batches, b.length = k
  pend : ∀ p, s.pending = some p → s.batch = [] ∧ p.1 ≠ [] ∧ p.1.length ≤ k ∧ f.dumps p.1 = .ok p.2 ∧ (s.ended = false → p.1.length = k)
  batch_le : s.batch.length ≤ k
  batch_lt : s.result = none → s.batch.length < k
  ended_stop : s.ended = true → src s.drawn = .stop
  ended_batch : s.ended = true → s.result = none → s.batch = []
  done : ∀ c, s.result = some (.ok c) → s.ended = true ∧ s.pending = none ∧ s.batch = [] ∧ c = s.stored.length

theorem UInv.init {α} {f : Format α} {k : Nat} (hk : 0 < k) {src : Nat → Draw α} : UInv f k src ({} : Upload α) [] where
  begins := by intro i a h; simp [Upload.held] at h
  drawn := rfl
  enc := trivial
  sizes := by simp
  full := by simp
  open_full := by simp
  pend := by simp
  batch_le := by simp
  batch_lt := by simp; omega
  ended_stop := by simp
  ended_batch := by simp
  done := by simp

theorem UInv.step {α} {f : Format α} {k : Nat} {src : Nat → Draw α} {put : Nat → Bool} {s : Upload α}
    {batches : List (List α)} (h : UInv f k src s batches) : ∃ batches', UInv f k src (s.step f k src put) batches' := by
  unfold Upload.step
  split
  · exact ⟨batches, h⟩
  · rename_i hres
    have hres : s.result = none := by simpa using hres
    split
    · rename_i ops bytes hp
      obtain ⟨p1, p2, p3, p4, p5⟩ := h.pend _ hp
      simp only at p2 p3 p4 p5
      have hall := h.open_full (.inr (.inl (by simp [hp])))
      have hb := h.begins
      have hd := h.drawn
      simp only [Upload.held, hp, p1, Option.map_some, Option.getD_some, List.append_nil] at hb hd
      split
      · refine ⟨batches ++ [ops], ?_⟩
        constructor
        · simpa [Upload.held, p1] using hb
        · simpa [Upload.held, p1] using hd
        · exact h.enc.snoc p4
        · intro b hb
          simp at hb
          rcases hb with hb | hb
          · exact h.sizes b hb
          · subst hb; exact ⟨p2, p3⟩
        · simpa using hall
        · intro hor b hb
          simp [p1] at hor hb
          rcases hb with hb | hb
          · exact hall b hb
          · subst hb; exact p5 hor
        · simp
        · exact h.batch_le
        · exact h.batch_lt
        · exact h.ended_stop
        · exact h.ended_batch
        · simp [hres]
      · refine ⟨batches, ?_⟩
        constructor
        · exact h.begins
        · exact h.drawn
        · exact h.enc
        · exact h.sizes
        · exact h.full
        · exact h.open_full
        · exact h.pend
        · exact h.batch_le
        · simp
        · exact h.ended_stop
        · simp
        · simp
    · rename_i hp
      have hb := h.begins
      have hd := h.drawn
      simp only [Upload.held, hp, Option.map_none, Option.getD_none, List.nil_append] at hb hd
      split
      · rename_i he
        refine ⟨batches, ?_⟩
        constructor
        · exact h.begins
        · exact h.drawn
        · exact h.enc
        · exact h.sizes
        · exact h.full
        · exact h.open_full
        · exact h.pend
        · exact h.batch_le
        · simp
        · exact h.ended_stop
        · simp
        · intro c hc
          simp at hc
          exact ⟨he, hp, h.ended_batch he hres, hc.symm⟩
      · rename_i he
        have he : s.ended = false := by simpa using he
        have hall := h.open_full (.inl he)
        have hlt := h.batch_lt hres
        split
        · rename_i a ha
          have hb' : Begins src (batches.flatten ++ (s.batch ++ [a])) := by
            rw [← List.append_assoc]
            exact hb.snoc (by rw [← hd]; exact ha)
          have hd' : s.drawn + 1 = (batches.flatten ++ (s.batch ++ [a])).length := by
            rw [hd]; simp; omega
          simp only
          split
          · rename_i hk
            unfold Upload.yields
            split
            · rename_i bytes henc
              refine ⟨batches, ?_⟩
              constructor
              · simpa [Upload.held] using hb'
              · simpa [Upload.held] using hd'
              · exact h.enc
              · exact h.sizes
              · exact h.full
              · exact fun _ => hall
              · intro p hp
                simp at hp
                subst hp
                simp only
                exact ⟨by trivial, by simp, by omega, henc, fun _ => hk⟩
              · simp
              · simp; omega
              · intro he'; simp [he] at he'
              · simp
              · simp [hres]
            · refine ⟨batches, ?_⟩
              constructor
              · simpa [Upload.held, hp] using hb'
              · simpa [Upload.held, hp] using hd'
              · exact h.enc
              · exact h.sizes
              · exact h.full
              · exact fun _ => hall
              · simp [hp]
              · simp only; omega
              · simp
              · intro he'; simp [he] at he'
              · simp
              · simp
          · rename_i hk
            refine ⟨batches, ?_⟩
            constructor
            · simpa [Upload.held, hp] using hb'
            · simpa [Upload.held, hp] using hd'
            · exact h.enc
            · exact h.sizes
            · exact h.full
            · exact fun _ => hall
            · simp [hp]
            · simp only [List.length_append, List.length_cons, List.length_nil] at hk ⊢; omega
            · simp only [List.length_append, List.length_cons, List.length_nil] at hk ⊢; omega
            · intro he'; simp [he] at he'
            · intro he'; simp [he] at he'
            · simp [hres]
        · rename_i hstop
          simp only
          split
          · rename_i hempty
            have hempty : s.batch = [] := by simpa using hempty
            refine ⟨batches, ?_⟩
            constructor
            · exact h.begins
            · exact h.drawn
            · exact h.enc
            · exact h.sizes
            · exact h.full
            · exact fun _ => hall
            · simp [hp]
            · exact h.batch_le
            · exact h.batch_lt
            · exact fun _ => hstop
            · exact fun _ _ => hempty
            · simp [hres]
          · rename_i hne
            have hne : s.batch ≠ [] := by simpa using hne
            unfold Upload.yields
            split
            · rename_i bytes henc
              refine ⟨batches, ?_⟩
              constructor
              · simpa [Upload.held] using hb
              · simpa [Upload.held] using hd
              · exact h.enc
              · exact h.sizes
              · exact h.full
              · exact fun _ => hall
              · intro p hp
                simp at hp
                subst hp
                exact ⟨rfl, hne, h.batch_le, henc, by simp⟩
              · simp
              · simp only [List.length_nil]; omega
              · exact fun _ => hstop
              · simp
              · simp [hres]
            · refine ⟨batches, ?_⟩
              constructor
              · exact h.begins
              · exact h.drawn
              · exact h.enc
              · exact h.sizes
              · exact h.full
              · exact fun _ => hall
              · simp [hp]
              · exact h.batch_le
              · simp
              · exact fun _ => hstop
              · simp
              · simp
        · refine ⟨batches, ?_⟩
          constructor
          · exact h.begins
          · exact h.drawn
          · exact h.enc
          · exact h.sizes
          · exact h.full
          · exact h.open_full
          · exact h.pend
          · exact h.batch_le
          · simp
          · exact h.ended_stop
          · simp
          · simp

theorem uinv_run {α} (f : Format α) {k : Nat} (hk : 0 < k) (src : Nat → Draw α) (put : Nat → Bool) :
    ∀ n, ∃ batches, UInv f k src (Upload.run f k src put n) batches
  | 0 => ⟨[], UInv.init hk⟩
  | n + 1 => by
    obtain ⟨bs, h⟩ := uinv_run f hk src put n
    exact h.step

theorem UInv.held_le {α} {f : Format α} {k : Nat} {src : Nat → Draw α} {s : Upload α} {batches : List (List α)}
    (h : UInv f k src s batches) : s.held.length ≤ k := by
  cases hp : s.pending with
  | none => simpa [Upload.held, hp] using h.batch_le
  | some p =>
    obtain ⟨p1, _, p3, _⟩ := h.pend p hp
    simpa [Upload.held, hp, p1] using p3

theorem yields_drawn {α} {f : Format α} {s : Upload α} {b : List α} : (s.yields f b).drawn = s.drawn := by
  unfold Upload.yields
  split <;> rfl

theorem yields_stored {α} {f : Format α} {s : Upload α} {b : List α} : (s.yields f b).stored = s.stored := by
  unfold Upload.yields
  split <;> rfl

/-- A step that draws is one without a chunk to store. -/
theorem step_draws {α} {f : Format α} {k : Nat} {src : Nat → Draw α} {put : Nat → Bool} {s : Upload α}
    (h : (s.step f k src put).drawn ≠ s.drawn) : s.result = none ∧ s.pending = none ∧ s.ended = false := by
  unfold Upload.step at h
  split at h
  · exact absurd rfl h
  · rename_i hres
    have hres : s.result = none := by simpa using hres
    split at h
    · split at h <;> exact absurd rfl h
    · rename_i hp
      split at h
      · exact absurd rfl h
      · rename_i he
        exact ⟨hres, hp, by simpa using he⟩

/-! ## Getting on -/

/-- `n` steps from a state. -/
def iter {α} (f : Format α) (k : Nat) (src : Nat → Draw α) (put : Nat → Bool) : Nat → Upload α → Upload α
  | 0, s => s
  | n + 1, s => iter f k src put n (s.step f k src put)

theorem iter_add {α} (f : Format α) (k : Nat) (src : Nat → Draw α) (put : Nat → Bool) :
    ∀ (m n : Nat) (s : Upload α), iter f k src put (m + n) s = iter f k src put n (iter f k src put m s)
  | 0, n, s => by simp [iter]
  | m + 1, n, s => by
    rw [show m + 1 + n = (m + n) + 1 by omega, iter, iter, iter_add]

theorem run_eq_iter {α} (f : Format α) (k : Nat) (src : Nat → Draw α) (put : Nat → Bool) :
    ∀ n, Upload.run f k src put n = iter f k src put n {}
  | 0 => rfl
  | n + 1 => by rw [iter_add, Upload.run, run_eq_iter f k src put n]; rfl

theorem iter_over {α} {f : Format α} {k : Nat} {src : Nat → Draw α} {put : Nat → Bool} :
    ∀ {n : Nat} {s : Upload α}, s.result.isSome → iter f k src put n s = s
  | 0, _, _ => rfl
  | n + 1, s, h => by
    have : s.step f k src put = s := by simp [Upload.step, h]
    rw [iter, this, iter_over h]

/-- Collecting part of a batch. -/
theorem collect {α} (f : Format α) (k : Nat) (src : Nat → Draw α) (put : Nat → Bool) :
    ∀ (as : List α) (d : Nat) (b : List α) (st : List Bytes), (∀ i a, as[i]? = some a → src (d + i) = .op a) →
      b.length + as.length < k →
      iter f k src put as.length { drawn := d, batch := b, stored := st } =
        { drawn := d + as.length, batch := b ++ as, stored := st }
  | [], d, b, st, _, _ => by simp [iter]
  | a :: as, d, b, st, h, hk => by
    have h0 := h 0 a (by simp)
    simp only [Nat.add_zero] at h0
    have hstep : ({ drawn := d, batch := b, stored := st } : Upload α).step f k src put =
        { drawn := d + 1, batch := b ++ [a], stored := st } := by
      simp only [List.length_cons] at hk
      simp [Upload.step, h0, show ¬ (b.length + 1 = k) by omega]
    rw [List.length_cons, iter, hstep, collect f k src put as (d + 1) (b ++ [a]) st]
    · simp; omega
    · intro i x hx
      have := h (i + 1) x (by simpa using hx)
      rw [show d + 1 + i = d + (i + 1) by omega]
      exact this
    · simp only [List.length_append, List.length_cons, List.length_nil] at hk ⊢; omega

/-- A whole batch is collected and stored. -/
theorem block {α} (f : Format α) (k : Nat) (src : Nat → Draw α) (put : Nat → Bool) (as : List α) (d : Nat)
    (st : List Bytes) (c : Bytes) (h : ∀ i a, as[i]? = some a → src (d + i) = .op a) (hk : as.length = k) (h0 : 0 < k)
    (hc : f.dumps as = .ok c) (hp : put st.length = true) :
    iter f k src put (k + 1) { drawn := d, stored := st } = { drawn := d + k, stored := st ++ [c] } := by
  have hne : as ≠ [] := by intro he; simp [he] at hk; omega
  obtain ⟨as', a, rfl⟩ : ∃ as' a, as = as' ++ [a] := ⟨_, _, (List.dropLast_concat_getLast hne).symm⟩
  simp only [List.length_append, List.length_cons, List.length_nil] at hk
  have h1 := collect f k src put as' d [] st (fun i x hx => h i x (by
    rw [List.getElem?_append_left (by
      have := List.getElem?_eq_some_iff.1 hx; exact this.1)]; exact hx)) (by simp; omega)
  have h2 : src (d + as'.length) = .op a := h _ _ (by simp)
  rw [show k + 1 = as'.length + 2 by omega, iter_add, h1]
  have hlen : as'.length + 1 = k := by omega
  simp [iter, Upload.step, h2, hlen, Upload.yields, encodeChunk, hc, hp]
  omega

/-- The last batch, and the end. -/
theorem last_block {α} (f : Format α) (k : Nat) (src : Nat → Draw α) (put : Nat → Bool) (as : List α) (d : Nat)
    (st : List Bytes) (c : Bytes) (h : ∀ i a, as[i]? = some a → src (d + i) = .op a) (hk : as.length < k)
    (hne : as ≠ []) (hs : src (d + as.length) = .stop) (hc : f.dumps as = .ok c) (hp : put st.length = true) :
    iter f k src put (as.length + 3) { drawn := d, stored := st } =
      { drawn := d + as.length, stored := st ++ [c], ended := true, result := some (.ok (st.length + 1)) } := by
  have h1 := collect f k src put as d [] st h (by simpa using hk)
  rw [iter_add, h1]
  simp [iter, Upload.step, hs, Upload.yields, encodeChunk, hc, hp, hne]

theorem no_block {α} (f : Format α) (k : Nat) (src : Nat → Draw α) (put : Nat → Bool) (d : Nat)
    (st : List Bytes) (hs : src d = .stop) :
    iter f k src put 2 { drawn := d, stored := st } =
      { drawn := d, stored := st, ended := true, result := some (.ok st.length) } := by
  simp [iter, Upload.step, hs]

/-- A finite iterable is uploaded. -/
theorem finishes {α} (f : Format α) (k : Nat) (h0 : 0 < k) (src : Nat → Draw α) (put : Nat → Bool) (hput : ∀ i, put i = true) :
    ∀ (fuel : Nat) (ops : List α), ops.length ≤ fuel → ∀ (d : Nat) (st cs : List Bytes),
      (∀ i a, ops[i]? = some a → src (d + i) = .op a) → src (d + ops.length) = .stop →
      (batchedLoop k fuel ops).map (encodeChunk f) = cs.map .ok →
      ∃ n, iter f k src put n { drawn := d, stored := st } =
        { drawn := d + ops.length, stored := st ++ cs, ended := true, result := some (.ok (st ++ cs).length) }
  | 0, ops, hl, d, st, cs, h, hs, hc => by
    have : ops = [] := by cases ops <;> simp_all
    subst this
    have hcs : cs = [] := by simpa [batchedLoop] using hc
    subst hcs
    exact ⟨2, by simpa using no_block f k src put d st (by simpa using hs)⟩
  | fuel + 1, [], hl, d, st, cs, h, hs, hc => by
    have hcs : cs = [] := by simpa [batchedLoop] using hc
    subst hcs
    exact ⟨2, by simpa using no_block f k src put d st (by simpa using hs)⟩
  | fuel + 1, a :: ops, hl, d, st, cs, h, hs, hc => by
    rw [batchedLoop] at hc
    · cases cs with
      | nil => simp at hc
      | cons c cs =>
        simp only [List.map_cons, List.cons.injEq] at hc
        obtain ⟨hc1, hc2⟩ := hc
        have hlen := List.length_take (i := k) (l := a :: ops)
        by_cases hk : k ≤ (a :: ops).length
        · have htk : ((a :: ops).take k).length = k := by rw [hlen]; omega
          have hb := block f k src put ((a :: ops).take k) d st c (fun i x hx => h i x (by
            have := (List.getElem?_eq_some_iff.1 hx).1
            rw [List.getElem?_take_of_lt (by omega)] at hx; exact hx)) htk h0 hc1 (hput _)
          obtain ⟨n, hn⟩ := finishes f k h0 src put hput fuel ((a :: ops).drop k) (by simp at hl ⊢; omega) (d + k) (st ++ [c]) cs
            (by
              intro i x hx
              rw [List.getElem?_drop] at hx
              have := h _ _ hx
              rwa [show d + k + i = d + (k + i) by omega])
            (by rw [List.length_drop, show d + k + ((a :: ops).length - k) = d + (a :: ops).length by omega]; exact hs) hc2
          refine ⟨(k + 1) + n, ?_⟩
          rw [iter_add, hb, hn]
          have : d + k + ((a :: ops).drop k).length = d + (a :: ops).length := by rw [List.length_drop]; omega
          rw [this]
          simp
        · have htk : (a :: ops).take k = a :: ops := List.take_of_length_le (by omega)
          rw [htk] at hc1
          have hdr : (a :: ops).drop k = [] := List.drop_of_length_le (by omega)
          rw [hdr] at hc2
          have hcs : cs = [] := by cases fuel <;> simpa [batchedLoop] using hc2
          subst hcs
          exact ⟨_, by
            have := last_block f k src put (a :: ops) d st c h (by omega) (by simp) hs hc1 (hput _)
            simpa using this⟩
    · simp

/-- How many steps an upload can still make, if the iterable stops or raises when it is asked for the operation with index `d`. -/
def stepsLeft {α} (d : Nat) (s : Upload α) : Nat :=
  3 * (d - s.drawn) + (if s.ended then 0 else 2) + (if s.pending.isSome then 1 else 0) + 1

theorem yields_left {α} {f : Format α} {d : Nat} {s : Upload α} {b : List α} (hp : s.pending = none) :
    (s.yields f b).result.isSome ∨ stepsLeft d (s.yields f b) = stepsLeft d s + 1 := by
  unfold Upload.yields
  split
  · right; simp [stepsLeft, hp]
  · left; rfl

theorem step_left {α} {f : Format α} {k : Nat} {src : Nat → Draw α} {put : Nat → Bool} {s : Upload α} {d : Nat}
    (hd : ∀ a, src d ≠ .op a) (hle : s.drawn ≤ d) :
    (s.step f k src put).drawn ≤ d ∧
      ((s.step f k src put).result.isSome ∨ stepsLeft d (s.step f k src put) < stepsLeft d s) := by
  unfold Upload.step
  split
  · rename_i hr; exact ⟨hle, .inl hr⟩
  · split
    · rename_i hp
      split
      · refine ⟨hle, .inr ?_⟩; simp [stepsLeft, hp]
      · exact ⟨hle, .inl rfl⟩
    · rename_i hp
      split
      · exact ⟨hle, .inl rfl⟩
      · rename_i he
        have he : s.ended = false := by simpa using he
        split
        · rename_i a ha
          have hlt : s.drawn < d := by
            rcases Nat.lt_or_ge s.drawn d with h | h
            · exact h
            · have : s.drawn = d := by omega
              rw [this] at ha
              exact absurd ha (hd a)
          simp only
          split
          · rw [yields_drawn]
            refine ⟨hlt, ?_⟩
            rcases yields_left (f := f) (d := d) (b := s.batch ++ [a])
              (s := { s with drawn := s.drawn + 1, batch := s.batch ++ [a] }) hp with h | h
            · exact .inl h
            · right; rw [h]; simp [stepsLeft, hp, he]; omega
          · refine ⟨hlt, .inr ?_⟩
            simp [stepsLeft, hp, he]; omega
        · simp only
          split
          · refine ⟨hle, .inr ?_⟩; simp [stepsLeft, hp, he]
          · rw [yields_drawn]
            refine ⟨hle, ?_⟩
            rcases yields_left (f := f) (d := d) (b := s.batch) (s := { s with ended := true }) hp with h | h
            · exact .inl h
            · right; rw [h]; simp [stepsLeft, hp, he]
        · exact ⟨hle, .inl rfl⟩

/-- An upload from an iterable that stops or raises ends. -/
theorem ends {α} (f : Format α) (k : Nat) (src : Nat → Draw α) (put : Nat → Bool) (d : Nat) (hd : ∀ a, src d ≠ .op a) :
    ∀ (n : Nat) (s : Upload α), s.drawn ≤ d → stepsLeft d s ≤ n → (iter f k src put n s).result.isSome
  | 0, s, _, h => by simp [stepsLeft] at h
  | n + 1, s, hle, h => by
    obtain ⟨h1, h2⟩ := step_left (f := f) (k := k) (put := put) hd hle
    rw [iter]
    rcases h2 with h2 | h2
    · rw [iter_over h2]; exact h2
    · exact ends f k src put d hd n _ h1 (by omega)

/-- Why an upload can fail. -/
theorem step_error {α} {f : Format α} {k : Nat} {src : Nat → Draw α} {put : Nat → Bool} {s : Upload α} {u : Unit}
    (hr : s.result = none) (h : (s.step f k src put).result = some (.error u)) :
    (∃ e, src (s.step f k src put).drawn = .raised e) ∨ put (s.step f k src put).stored.length = false ∨
      ∃ e, f.dumps (s.step f k src put).held = .error e := by
  have hy : ∀ (t : Upload α), t.result = none → t.pending = none → (t.yields f t.batch).result = some (.error u) →
      ∃ e, f.dumps (t.yields f t.batch).held = .error e := by
    intro t ht htp hte
    unfold Upload.yields at hte ⊢
    cases hd : encodeChunk f t.batch with
    | ok b => simp [hd, ht] at hte
    | error e => exact ⟨e, by simp only [Upload.held, htp]; exact hd⟩
  obtain ⟨dr, b, p, st, en, r⟩ := s
  simp only at hr
  subst hr
  cases p with
  | some p =>
    obtain ⟨ops, bytes⟩ := p
    cases hput : put st.length with
    | true => simp [Upload.step, hput] at h
    | false => right; left; simpa [Upload.step, hput] using hput
  | none =>
    cases en with
    | true => simp [Upload.step] at h
    | false =>
      cases hs : src dr with
      | op a =>
        by_cases hk : b.length + 1 = k
        · have hst : ({ drawn := dr, batch := b, stored := st } : Upload α).step f k src put =
              ({ drawn := dr + 1, batch := b ++ [a], stored := st } : Upload α).yields f (b ++ [a]) := by
            simp [Upload.step, hs, hk]
          rw [hst] at h ⊢
          exact .inr (.inr (hy _ rfl rfl h))
        · simp [Upload.step, hs, hk] at h
      | stop =>
        by_cases hb : b = []
        · simp [Upload.step, hs, hb] at h
        · have hst : ({ drawn := dr, batch := b, stored := st } : Upload α).step f k src put =
              ({ drawn := dr, batch := b, stored := st, ended := true } : Upload α).yields f b := by
            simp [Upload.step, hs, hb]
          rw [hst] at h ⊢
          exact .inr (.inr (hy _ rfl rfl h))
      | raised e => left; exact ⟨e, by simpa [Upload.step, hs] using hs⟩

/-! ## Results -/

theorem Decodes.snoc {α} {f : Format α} {chunk : Nat → Except PyErr Bytes} :
    ∀ {i : Nat} {cs : List (List α)} {rs : List α} {bytes : Bytes}, Decodes f chunk i cs →
      chunk (i + cs.length) = .ok bytes → f.loads bytes = .ok (some rs) → Decodes f chunk i (cs ++ [rs])
  | _, [], _, bytes, _, h1, h2 => ⟨⟨bytes, h1, h2⟩, trivial⟩
  | i, c :: cs, _, _, ⟨g1, g2⟩, h1, h2 => ⟨g1, Decodes.snoc g2 (by
      rw [show i + 1 + cs.length = i + (c :: cs).length by simp; omega]; exact h1) h2⟩

theorem decodeChunk_ok {α} {f : Format α} {bytes : Bytes} {ops : List α} :
    decodeChunk f bytes = .ok ops ↔ f.loads bytes = .ok (some ops) := by
  unfold decodeChunk
  split <;> simp_all

/-- What is true of every state of an iteration over results, after `asks` requests. -/
structure DInv {α} (f : Format α) (count : Nat) (chunk : Nat → Except PyErr Bytes) (asks : Nat) (s : Download α)
    (chunks : List (List α)) : Prop where
  len : chunks.length = s.fetched
  le : s.fetched ≤ count
  dec : Decodes f chunk 0 chunks
  all : s.given ++ s.rest = chunks.flatten
  last : ∃ taken, chunks.getLast?.getD [] = taken ++ s.rest
  asked : s.given.length + (if s.waiting then 1 else 0) ≤ asks
  over : ∀ e, s.over = some e → s.waiting = false ∧ s.rest = [] ∧
    unchunkIterator f ((List.range' s.fetched (count - s.fetched)).map chunk) = ([], e)
  whole : unchunkIterator f ((List.range' 0 count).map chunk) =
    (s.given ++ s.rest ++ (unchunkIterator f ((List.range' s.fetched (count - s.fetched)).map chunk)).1,
      (unchunkIterator f ((List.range' s.fetched (count - s.fetched)).map chunk)).2)

theorem DInv.step {α} {f : Format α} {count : Nat} {chunk : Nat → Except PyErr Bytes} {asks : Nat} {s : Download α}
    {chunks : List (List α)} (h : DInv f count chunk asks s chunks) (e : Ask) :
    ∃ chunks', DInv f count chunk (asks + if e = .ask then 1 else 0) (s.step f count chunk e) chunks' := by
  have hasked := h.asked
  cases e with
  | ask =>
    rw [show (if Ask.ask = Ask.ask then 1 else 0) = 1 from rfl]
    unfold Download.step
    simp only
    split
    · exact ⟨chunks, { h with asked := by omega }⟩
    · rename_i ho
      refine ⟨chunks, ⟨h.len, h.le, h.dec, h.all, h.last, ?_, ?_, h.whole⟩⟩
      · simp only [if_true]; omega
      · intro e he
        simp only at he
        simp [he] at ho
  | work =>
    rw [show (if Ask.work = Ask.ask then 1 else 0) = 0 from rfl, Nat.add_zero]
    unfold Download.step
    simp only
    split
    · rename_i hw
      simp only [hw, if_true] at hasked
      split
      · rename_i a rest hr
        refine ⟨chunks, ⟨h.len, h.le, h.dec, ?_, ?_, ?_, ?_, ?_⟩⟩
        · have := h.all; simpa [hr] using this
        · obtain ⟨t, ht⟩ := h.last
          exact ⟨t ++ [a], by simpa [hr] using ht⟩
        · simp; omega
        · intro e he
          have := (h.over e he).1
          simp [hw] at this
        · have := h.whole
          simpa [hr] using this
      · rename_i hr
        split
        · rename_i hlt
          have hrange : List.range' s.fetched (count - s.fetched) = s.fetched :: List.range' (s.fetched + 1) (count - (s.fetched + 1)) := by
            rw [show count - s.fetched = (count - (s.fetched + 1)) + 1 by omega, List.range'_succ]
          split
          · rename_i e he
            refine ⟨chunks, ⟨h.len, h.le, h.dec, h.all, h.last, ?_, ?_, h.whole⟩⟩
            · simp; omega
            · intro e' he'
              simp at he'
              subst he'
              refine ⟨rfl, hr, ?_⟩
              simp [hrange, he, unchunkIterator]
          · rename_i bytes hbytes
            split
            · rename_i e he
              refine ⟨chunks, ⟨h.len, h.le, h.dec, h.all, h.last, ?_, ?_, h.whole⟩⟩
              · simp; omega
              · intro e' he'
                simp at he'
                subst he'
                refine ⟨rfl, hr, ?_⟩
                simp [hrange, hbytes, unchunkIterator, he]
            · rename_i ops hops
              refine ⟨chunks ++ [ops], ⟨by simp [h.len], hlt, ?_, ?_, ?_, ?_, ?_, ?_⟩⟩
              · exact h.dec.snoc (by rw [h.len]; simpa using hbytes) (decodeChunk_ok.1 hops)
              · have := h.all; simp [hr] at this; simp [this]
              · exact ⟨[], by simp⟩
              · simp [hw]; omega
              · intro e he
                have := (h.over e he).1
                simp [hw] at this
              · have := h.whole
                rw [hrange] at this
                simp only [List.map_cons, hbytes, unchunkIterator, hops, hr, List.append_nil] at this
                simpa using this
        · rename_i hge
          refine ⟨chunks, ⟨h.len, h.le, h.dec, h.all, h.last, ?_, ?_, h.whole⟩⟩
          · simp; omega
          · intro e he
            simp at he
            subst he
            refine ⟨rfl, hr, ?_⟩
            simp [show count - s.fetched = 0 by omega, unchunkIterator]
    · exact ⟨chunks, h⟩

theorem dinv_foldl {α} (f : Format α) (count : Nat) (chunk : Nat → Except PyErr Bytes) :
    ∀ (es : List Ask) (asks : Nat) (s : Download α) (chunks : List (List α)), DInv f count chunk asks s chunks →
      ∃ chunks', DInv f count chunk (asks + es.count .ask) (es.foldl (Download.step f count chunk) s) chunks'
  | [], asks, s, chunks, h => ⟨chunks, by simpa using h⟩
  | e :: es, asks, s, chunks, h => by
    obtain ⟨cs, h'⟩ := h.step e
    obtain ⟨cs', h''⟩ := dinv_foldl f count chunk es _ _ _ h'
    refine ⟨cs', ?_⟩
    have : asks + (e :: es).count .ask = asks + (if e = .ask then 1 else 0) + es.count .ask := by
      rw [List.count_cons]
      by_cases he : e = .ask <;> simp [he] <;> omega
    rw [this]
    exact h''

theorem dinv_run {α} (f : Format α) (count : Nat) (chunk : Nat → Except PyErr Bytes) (es : List Ask) :
    ∃ chunks, DInv f count chunk (es.count .ask) (Download.run f count chunk es) chunks := by
  have h0 : DInv f count chunk 0 ({} : Download α) [] :=
    ⟨rfl, by simp, trivial, rfl, ⟨[], rfl⟩, by simp, by simp, by simp⟩
  obtain ⟨cs, h⟩ := dinv_foldl f count chunk es 0 _ _ h0
  rw [Nat.zero_add] at h
  exact ⟨cs, h⟩

theorem download_fetches {α} {f : Format α} {count : Nat} {chunk : Nat → Except PyErr Bytes} {s : Download α} {e : Ask}
    (h : (s.step f count chunk e).fetched ≠ s.fetched) : s.waiting = true ∧ s.rest = [] := by
  cases e with
  | ask =>
    unfold Download.step at h
    simp only at h
    split at h <;> exact absurd rfl h
  | work =>
    unfold Download.step at h
    simp only at h
    split at h
    · rename_i hw
      split at h
      · exact absurd rfl h
      · rename_i hr
        exact ⟨hw, hr⟩
    · exact absurd rfl h

/-- A request is answered within as many steps as there are chunks left, and one. -/
theorem answered {α} (f : Format α) (count : Nat) (chunk : Nat → Except PyErr Bytes) :
    ∀ (n : Nat) (s : Download α), count - s.fetched < n → s.waiting = true → s.over = none →
      ∃ m, m ≤ n ∧ let t := (List.replicate m Ask.work).foldl (Download.step f count chunk) s
        t.waiting = false ∧ (t.given.length = s.given.length + 1 ∨ t.over.isSome)
  | 0, _, h, _, _ => absurd h (by omega)
  | n + 1, s, h, hw, ho => by
    cases hr : s.rest with
    | cons a rest => exact ⟨1, by omega, by simp [Download.step, hw, hr, List.replicate]⟩
    | nil =>
      by_cases hlt : s.fetched < count
      · cases hc : chunk s.fetched with
        | error e => exact ⟨1, by omega, by simp [Download.step, hw, hr, hlt, hc, List.replicate]⟩
        | ok bytes =>
          cases hd : decodeChunk f bytes with
          | error e => exact ⟨1, by omega, by simp [Download.step, hw, hr, hlt, hc, hd, List.replicate]⟩
          | ok ops =>
            have hs : s.step f count chunk .work = { s with fetched := s.fetched + 1, rest := ops } := by
              simp [Download.step, hw, hr, hlt, hc, hd]
            have hlen : count - ({ s with fetched := s.fetched + 1, rest := ops } : Download α).fetched ≤ n := by
              simp only; omega
            by_cases hz : count - (s.fetched + 1) < n
            · obtain ⟨m, hm, h1, h2⟩ := answered f count chunk n { s with fetched := s.fetched + 1, rest := ops } hz hw ho
              refine ⟨m + 1, by omega, ?_⟩
              simp only [List.replicate_succ, List.foldl_cons, hs]
              exact ⟨h1, h2⟩
            · exfalso; simp only at hlen; omega
      · exact ⟨1, by omega, by simp [Download.step, hw, hr, hlt, List.replicate]⟩

end Opsqueue.Streaming
