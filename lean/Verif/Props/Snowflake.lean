import Verif.Model.Snowflake

/-!
# C69: submission ids are unique and in order of creation
-/

namespace Opsqueue.Snowflake

/-- The clock is never set back, not even while no process runs, and a new process does not start in the millisecond in
which the one before it made its last id. -/
def ClockGoesOn (lives : List (List (List Nat))) : Prop :=
  lives.Pairwise fun earlier later => ∀ a ∈ earlier.flatten, ∀ b ∈ later.flatten, a < b

/-- The clock shows a year before 2109. -/
def Before2109 (lives : List (List (List Nat))) : Prop := ∀ l ∈ lives, ∀ a ∈ l.flatten, a < 2 ^ 42

theorem fromParts_eq {ms seq : Nat} (h : ms < 2 ^ 42) (hs : seq < 4096) : fromParts ms seq = ms * 2 ^ 22 + seq := by
  unfold fromParts; omega

theorem made_id {n m : Nat} (h : checkedId n = .id m) : m = n ∧ n < 2 ^ 63 := by
  unfold checkedId at h
  split at h
  · rename_i hl; cases h; exact ⟨rfl, hl⟩
  · cases h

/-- One call: the id is later than everything before it, and its millisecond is one of the readings. -/
theorem generate_spec {g g' : Gen} {rs : List Nat} {m : Made} (h : generate g rs = some (m, g')) (hg : g.seq < 4096)
    (hr : ∀ a ∈ rs, a < 2 ^ 42) :
    (g' = g ∧ m = .panicked) ∨
    (g'.last ∈ rs ∧ g'.seq < 4096 ∧ g.last * 2 ^ 22 + g.seq < g'.last * 2 ^ 22 + g'.seq ∧
      m = checkedId (g'.last * 2 ^ 22 + g'.seq)) := by
  cases rs with
  | nil => cases h
  | cons now later =>
    have hn := hr now (List.mem_cons_self ..)
    simp only [generate] at h
    split at h
    · cases h; exact .inl ⟨rfl, rfl⟩
    · split at h
      · cases h
        exact .inr ⟨List.mem_cons_self .., by dsimp only; omega, by dsimp only; omega, by
          rw [fromParts_eq hn (by omega)]⟩
      · split at h
        · cases h
          exact .inr ⟨List.mem_cons_self .., by dsimp only; omega, by dsimp only; omega, by
            rw [fromParts_eq hn (by omega)]⟩
        · split at h
          · cases h
          · rename_i next hf
            cases h
            have hmem := List.mem_of_find?_eq_some hf
            have hlt := List.find?_some hf
            have hlt : now < next := by simpa using hlt
            have := hr next (List.mem_cons_of_mem _ hmem)
            exact .inr ⟨List.mem_cons_of_mem _ hmem, by dsimp only; omega, by dsimp only; omega, by
              rw [fromParts_eq this (by omega)]⟩

/-- One process: its ids go up and carry milliseconds that were read. -/
theorem life_spec (calls : List (List Nat)) : ∀ (g : Gen), g.seq < 4096 → (∀ a ∈ calls.flatten, a < 2 ^ 42) →
    ((life g calls).filterMap fun | .id n => some n | .panicked => none).Pairwise (· < ·) ∧
    ∀ n, Made.id n ∈ life g calls → g.last * 2 ^ 22 + g.seq < n ∧ millis n ∈ calls.flatten ∧ n < 2 ^ 63 := by
  induction calls with
  | nil => intro g _ _; exact ⟨.nil, fun n h => by cases h⟩
  | cons rs calls ih =>
    intro g hg hr
    unfold life
    cases hgen : generate g rs with
    | none => exact ⟨.nil, fun n h => by cases h⟩
    | some x =>
      obtain ⟨m, g'⟩ := x
      have hr1 : ∀ a ∈ rs, a < 2 ^ 42 := fun a ha => hr a (by simp [ha])
      have hr2 : ∀ a ∈ calls.flatten, a < 2 ^ 42 := fun a ha => hr a (by
        rw [List.flatten_cons]; exact List.mem_append_right _ ha)
      rcases generate_spec hgen hg hr1 with ⟨rfl, rfl⟩ | ⟨h1, h2, h3, h4⟩
      · obtain ⟨i1, i2⟩ := ih g' hg hr2
        refine ⟨i1, fun n hn => ?_⟩
        rcases List.mem_cons.1 hn with hn | hn
        · cases hn
        · obtain ⟨a, b, c⟩ := i2 n hn
          exact ⟨a, by rw [List.flatten_cons]; exact List.mem_append_right _ b, c⟩
      · obtain ⟨i1, i2⟩ := ih g' h2 hr2
        refine ⟨?_, fun n hn => ?_⟩
        · cases m with
          | panicked => exact i1
          | id k =>
            obtain ⟨rfl, -⟩ := made_id h4.symm
            refine List.pairwise_cons.2 ⟨fun n hn => ?_, i1⟩
            obtain ⟨x, hx, hxn⟩ := List.mem_filterMap.1 hn
            cases x with
            | panicked => cases hxn
            | id j => cases hxn; exact (i2 _ hx).1
        · rcases List.mem_cons.1 hn with hn | hn
          · obtain ⟨rfl, hlt⟩ := made_id (hn ▸ h4).symm
            refine ⟨h3, ?_, hlt⟩
            have : millis (g'.last * 2 ^ 22 + g'.seq) = g'.last := by unfold millis; omega
            rw [this, List.flatten_cons]
            exact List.mem_append_left _ h1
          · obtain ⟨a, b, c⟩ := i2 n hn
            exact ⟨Nat.lt_trans h3 a, by rw [List.flatten_cons]; exact List.mem_append_right _ b, c⟩

/-- **C69.** If the clock is never set back, ids go up over the whole life of a server (including restarts): no id is ever
made twice, and sorting by id is sorting by creation. -/
theorem C69_ids_go_up (lives : List (List (List Nat))) (hc : ClockGoesOn lives) (hb : Before2109 lives) :
    (madeBy lives).Pairwise (· < ·) := by
  induction lives with
  | nil => exact .nil
  | cons l lives ih =>
    obtain ⟨h1, h2⟩ := List.pairwise_cons.1 hc
    unfold madeBy
    rw [List.flatMap_cons, List.filterMap_append, List.pairwise_append]
    have hl := life_spec l {} (by show 0 < 4096; omega) (hb l (List.mem_cons_self ..))
    refine ⟨hl.1, ih h2 fun l' hl' => hb l' (List.mem_cons_of_mem _ hl'), fun a ha b hb' => ?_⟩
    obtain ⟨x, hx, hxa⟩ := List.mem_filterMap.1 ha
    obtain ⟨y, hy, hyb⟩ := List.mem_filterMap.1 hb'
    cases x with
    | panicked => cases hxa
    | id a' =>
      cases y with
      | panicked => cases hyb
      | id b' =>
        cases hxa; cases hyb
        obtain ⟨l', hl', hy⟩ := List.mem_flatMap.1 hy
        have e1 := (hl.2 _ hx).2.1
        have e2 := ((life_spec l' {} (by show 0 < 4096; omega) (hb l' (List.mem_cons_of_mem _ hl'))).2 _ hy).2.1
        have := h1 l' hl' _ e1 _ e2
        unfold millis at this
        omega

/-- **C69**: within one process this needs no assumption about the clock: when it is set back the call panics, and no id
is repeated. -/
theorem C69_unique_in_a_process (calls : List (List Nat)) (hb : Before2109 [calls]) :
    (madeBy [calls]).Pairwise (· < ·) := C69_ids_go_up [calls] (List.pairwise_singleton _ _) hb

/-- **C69**: the time an id carries is a time the clock showed while the id was made, and the id fits in 63 bits. -/
theorem C69_id_carries_its_time (calls : List (List Nat)) (hb : Before2109 [calls]) (id : Nat)
    (h : id ∈ madeBy [calls]) : millis id ∈ calls.flatten ∧ id < 2 ^ 63 := by
  unfold madeBy at h
  rw [List.flatMap_cons, List.flatMap_nil, List.append_nil] at h
  obtain ⟨x, hx, hxa⟩ := List.mem_filterMap.1 h
  cases x with
  | panicked => cases hxa
  | id a =>
    cases hxa
    exact ((life_spec calls {} (by show 0 < 4096; omega) (hb calls (List.mem_cons_self ..))).2 _ hx).2

/-- **C69**: so the histories of a server that takes the id of every insert from the generator are those all the other
theorems speak of. -/
theorem C69_histories_have_fresh_ids (lives : List (List (List Nat))) (hc : ClockGoesOn lives) (hb : Before2109 lives)
    (ops : List Op) (h : (ops.filterMap Op.insertId).Sublist (madeBy lives)) : FreshIds ops :=
  ((C69_ids_go_up lives hc hb).sublist h).imp fun hlt => Nat.ne_of_lt hlt

/-- **C69**: an id can be had at once, unless the clock was set back or shows 2039, or 4096 ids were already made in this
millisecond (then it is had as soon as the clock moves on). -/
theorem C69_no_needless_failure (g : Gen) (now : Nat) (later : List Nat) (hg : g.seq < 4096)
    (hb : ∀ a ∈ now :: later, a < 2 ^ 41) (hc : g.last ≤ now)
    (hm : now ≠ g.last ∨ g.seq ≠ 4095 ∨ ∃ t ∈ later, now < t) :
    ∃ id g', generate g (now :: later) = some (.id id, g') := by
  have hok : ∀ ms seq, ms < 2 ^ 41 → seq < 4096 → checkedId (fromParts ms seq) = .id (fromParts ms seq) := by
    intro ms seq h1 h2
    rw [fromParts_eq (by omega) h2]
    unfold checkedId
    rw [if_pos (by omega)]
  have hn := hb now (List.mem_cons_self ..)
  simp only [generate]
  rw [if_neg (by omega)]
  split
  · exact ⟨_, _, by rw [hok now 0 hn (by omega)]⟩
  · split
    · rename_i h
      exact ⟨_, _, by rw [hok now _ hn h]⟩
    · obtain ⟨t, ht, hlt⟩ : ∃ t ∈ later, now < t := by
        rcases hm with h | h | h
        · omega
        · omega
        · exact h
      cases hf : later.find? (now < ·) with
      | none => exact absurd (List.find?_eq_none.1 hf t ht) (by simp [hlt])
      | some next =>
        exact ⟨_, _, by simp only; rw [hok next 0 (hb next (List.mem_cons_of_mem _ (List.mem_of_find?_eq_some hf))) (by omega)]⟩

/-- Two processes; in the first, two ids in one millisecond and one in the next, then a clock set back; in the second one
more. -/
example : ClockGoesOn [[[1000], [1000], [1001], [999]], [[2000]]] ∧
    Before2109 [[[1000], [1000], [1001], [999]], [[2000]]] ∧
    madeBy [[[1000], [1000], [1001], [999]], [[2000]]] =
      [1000 * 2 ^ 22, 1000 * 2 ^ 22 + 1, 1001 * 2 ^ 22, 2000 * 2 ^ 22] := by
  unfold ClockGoesOn Before2109
  decide +kernel

/-- After 4096 ids in a millisecond the next waits for the clock. -/
example : generate ⟨1000, 4095⟩ [1000, 1000, 1002] = some (.id (1002 * 2 ^ 22), ⟨1002, 0⟩) ∧
    generate ⟨1000, 4095⟩ [1000, 1000] = none := by decide +kernel

/-- **C69 without its condition**: ids are unique whatever the clock does. -/
def C69_unconditional : Prop := ∀ lives, Before2109 lives → (madeBy lives).Nodup

/-- It is false: when the clock is set back while the server is down, or the server is back within a millisecond, an id is
made a second time. -/
theorem C69_refuted_clock_set_back : ¬ C69_unconditional := by
  intro h
  exact absurd (h [[[1000]], [[1000]]] (by unfold Before2109; decide)) (by decide +kernel)

/-- **C69, the end**: from 2^41 milliseconds after the epoch (September 2039) on, making an id is a panic. -/
theorem C69_no_ids_after_2039 (g : Gen) (now : Nat) (later : List Nat) (h : 2 ^ 41 ≤ now) (hb : now < 2 ^ 42)
    (hl : ∀ t ∈ later, now ≤ t ∧ t < 2 ^ 42) (hg : g.seq < 4096) (m : Made) (g' : Gen)
    (hm : generate g (now :: later) = some (m, g')) : m = .panicked := by
  rcases generate_spec hm hg (fun a ha => by
    rcases List.mem_cons.1 ha with rfl | ha
    · exact hb
    · exact (hl a ha).2) with ⟨-, h⟩ | ⟨h1, h2, h3, h4⟩
  · exact h
  · rw [h4]
    have : now ≤ g'.last := by
      rcases List.mem_cons.1 h1 with h1 | h1
      · omega
      · exact (hl _ h1).1
    unfold checkedId
    rw [if_neg (by omega)]

end Opsqueue.Snowflake
