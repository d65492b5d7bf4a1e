import Verif.Proofs.Fairness
import Verif.Proofs.Starving

/-!
# C75: who waits longest is served first, and is served
-/

namespace Opsqueue.Server
open Conn (Request)

/-- **C75, Oldest.** While a chunk `x` waits in the backlog, a consumer that asks for the oldest work is not handed any
chunk of a newer submission than that of `x` — whatever all other consumers, producers and the clock do meanwhile, and
whatever strategies the other consumers use. -/
theorem C75_oldest_first (ttl m : Nat) (ht : 0 < ttl) (h es : List Action)
    (hf : FreshIds (run ttl m (h ++ es)).calls) (c : ConnId) (x : ChunkId)
    (hidle : fetchOf (run ttl m h) c = none)
    (hask : AsksFrom (run ttl m h) c .oldest x es) (hwait : WaitsFrom (run ttl m h) x es)
    (pre post : List Action) (a : Action) (he : es = pre ++ a :: post) (ha : a.actor = some c)
    (y : ChunkId) (hy : y ∈ handedOut (exec (run ttl m h) pre) a) :
    y.submissionId ≤ x.submissionId :=
  in_order delivers_oldest ht hf (fun f h => by rw [hidle] at h; cases h) hask hwait he ha hy

/-- **C75, Newest.** The mirror image: no chunk of an older submission. -/
theorem C75_newest_first (ttl m : Nat) (ht : 0 < ttl) (h es : List Action)
    (hf : FreshIds (run ttl m (h ++ es)).calls) (c : ConnId) (x : ChunkId)
    (hidle : fetchOf (run ttl m h) c = none)
    (hask : AsksFrom (run ttl m h) c .newest x es) (hwait : WaitsFrom (run ttl m h) x es)
    (pre post : List Action) (a : Action) (he : es = pre ++ a :: post) (ha : a.actor = some c)
    (y : ChunkId) (hy : y ∈ handedOut (exec (run ttl m h) pre) a) :
    x.submissionId ≤ y.submissionId :=
  in_order delivers_newest ht hf (fun f h => by rw [hidle] at h; cases h) hask hwait he ha hy

/-- **C75, overtaking is bounded.** If all consumers ask for the oldest work and new submissions get higher ids (C69),
then while `x` waits, the chunks handed out to anyone are at most as many as were free and not newer than `x` at the
start, plus one for every time such a chunk is given back (by a failed attempt, an expiry, a disconnect or a
restart). -/
theorem C75_bounded_overtaking (ttl m : Nat) (ht : 0 < ttl) (h es : List Action)
    (hf : FreshIds (run ttl m (h ++ es)).calls) (x : ChunkId)
    (hids : ∀ b now o, .producer (.insert b now o) ∈ es → x.submissionId < b.id)
    (hidle : ∀ c, fetchOf (run ttl m h) c = none)
    (hask : ∀ c, AsksFrom (run ttl m h) c .oldest x es) (hwait : WaitsFrom (run ttl m h) x es) :
    (handedOutFrom (run ttl m h) es).length ≤ (aheadOf (run ttl m h) x).length +
      ((givenBackFrom (run ttl m h) es).filter fun id => decide (id.submissionId ≤ x.submissionId)).length :=
  bounded ht hf hids hask hwait fun c f h => by rw [hidle c] at h; cases h

/-- **C75, no starvation.** A server that runs forever, whose consumers all ask for the oldest work: if work keeps being
handed out, no reserve request takes forever, and from some time on chunks that are not newer than `x` are not given
back any more, then `x` does not wait forever: it is handed out, or leaves the backlog. -/
theorem C75_no_starvation (ttl m : Nat) (ht : 0 < ttl) (acts : Nat → Action)
    (hf : ∀ n, FreshIds (run ttl m (firstActions acts n)).calls) (x : ChunkId) (n0 : Nat)
    (hids : ∀ n b now o, n0 ≤ n → acts n = .producer (.insert b now o) → x.submissionId < b.id)
    (hask : ∀ n r v, n0 ≤ n → begins (run ttl m (firstActions acts n)) (acts n) = some (r, v) →
      r.strategy = .oldest ∧ v.reserved x = (run ttl m (firstActions acts n)).reserver.isReserved x)
    (hends : ∀ c n, ∃ k, n ≤ k ∧ fetchOf (run ttl m (firstActions acts k)) c = none)
    (hback : ∀ n, n0 ≤ n → ∀ y ∈ givenBack (run ttl m (firstActions acts n)) (acts n),
      x.submissionId < y.submissionId)
    (hwork : ∀ n, ∃ k, n ≤ k ∧ handedOut (run ttl m (firstActions acts k)) (acts k) ≠ []) :
    ∃ n, n0 ≤ n ∧ ¬ Free (run ttl m (firstActions acts n)) x := by
  apply Classical.byContradiction
  intro hno
  have hw : ∀ n, n0 ≤ n → Free (run ttl m (firstActions acts n)) x := fun n hn =>
    Classical.byContradiction fun h => hno ⟨n, hn, h⟩
  obtain ⟨N, hN, hidle⟩ := all_idle_by (ttl := ttl) (m := m) (n0 := n0) hends
    ((run ttl m (firstActions acts n0)).conns.map (·.1))
  have key : ∀ c f, fetchOf (run ttl m (firstActions acts N)) c = some f → Ahead (· ≤ ·) x f := by
    intro c
    have hk : ∃ k, n0 ≤ k ∧ k ≤ N ∧ fetchOf (run ttl m (firstActions acts k)) c = none := by
      by_cases hc : c ∈ (run ttl m (firstActions acts n0)).conns.map (·.1)
      · exact hidle c hc
      · refine ⟨n0, Nat.le_refl _, hN, ?_⟩
        cases hfo : fetchOf (run ttl m (firstActions acts n0)) c with
        | none => rfl
        | some f => exact absurd (fetchOf_mem hfo) hc
    obtain ⟨k, hk0, hkN, hi⟩ := hk
    have e : N = k + (N - k) := by omega
    have hu := from_unending hask hw k (N - k) hk0
    have hfN := hf N
    rw [e, firstActions_add] at hfN ⊢
    exact ahead_exec delivers_oldest ht hfN (hu.1 c) hu.2 (fun f h => by rw [hi] at h; cases h)
  obtain ⟨k, hk⟩ := unbounded_handouts N hwork ((aheadOf (run ttl m (firstActions acts N)) x).length + 1)
  have hu := from_unending hask hw N k hN
  have hfk := hf (N + k)
  rw [firstActions_add] at hfk
  have hb := bounded ht hfk (x := x) (fun b now o hm => ?_) hu.1 hu.2 key
  · have hz : ∀ j, (givenBackFrom (run ttl m (firstActions acts N)) (actionsFrom acts N j)).filter
        (fun id => decide (id.submissionId ≤ x.submissionId)) = [] := by
      intro j
      induction j with
      | zero => rfl
      | succ j ih =>
        rw [actionsFrom_snoc, givenBackFrom_append, List.filter_append, ih, ← run_append, ← firstActions_add]
        simp only [givenBackFrom, List.append_nil, List.nil_append, List.filter_eq_nil_iff, decide_eq_true_eq]
        intro y hy
        exact Nat.not_le.2 (hback _ (by omega) y hy)
    rw [hz k] at hb
    simp only [List.length_nil] at hb
    omega
  · simp only [actionsFrom, List.mem_map] at hm
    obtain ⟨i, _, hi⟩ := hm
    exact hids (N + i) b now o (by omega) hi

/-- **C75, Newest may starve a chunk.** The strategy matters: there is a run forever with all that `C75_no_starvation`
asks for, except that the consumers ask for the newest work, in which work keeps being handed out and a chunk waits
forever. -/
theorem C75_newest_may_starve : ∃ (acts : Nat → Action) (x : ChunkId) (n0 : Nat),
    (∀ n, FreshIds (run 10 3 (firstActions acts n)).calls) ∧
    (∀ n b now o, n0 ≤ n → acts n = .producer (.insert b now o) → x.submissionId < b.id) ∧
    (∀ n r v, n0 ≤ n → begins (run 10 3 (firstActions acts n)) (acts n) = some (r, v) →
      r.strategy = .newest ∧ v.reserved x = (run 10 3 (firstActions acts n)).reserver.isReserved x) ∧
    (∀ c n, ∃ k, n ≤ k ∧ fetchOf (run 10 3 (firstActions acts k)) c = none) ∧
    (∀ n, n0 ≤ n → ∀ y ∈ givenBack (run 10 3 (firstActions acts n)) (acts n), x.submissionId < y.submissionId) ∧
    (∀ n, ∃ k, n ≤ k ∧ handedOut (run 10 3 (firstActions acts k)) (acts k) ≠ []) ∧
    ∀ n, n0 ≤ n → Free (run 10 3 (firstActions acts n)) x := by
  have split : ∀ n, n < 7 ∨ ∃ j, n = 7 + j := fun n => by
    by_cases h : n < 7
    · exact .inl h
    · exact .inr ⟨n - 7, by omega⟩
  refine ⟨nwActs, ⟨1, 0⟩, 2, ?_, ?_, ?_, ?_, ?_, ?_, ?_⟩
  · intro n
    have h7 : FreshIds nwCalls := by decide +kernel
    rcases split n with h | ⟨j, rfl⟩
    · have e : 7 = n + (7 - n) := by omega
      have := nwActs_start 7 (by omega)
      rw [e, firstActions_add] at this
      refine fresh_prefix (es := actionsFrom nwActs n (7 - n)) ?_
      rw [this]
      rw [← e]
      exact h7
    · rw [(nwAt_facts (nwAt j)).1]; exact h7
  · intro n b now o hn h
    rcases split n with h7 | ⟨j, rfl⟩
    · have : n = 2 ∨ n = 3 ∨ n = 4 ∨ n = 5 ∨ n = 6 := by omega
      rcases this with rfl | rfl | rfl | rfl | rfl <;> cases h
    · rw [nwActs_at] at h
      have : j % 4 = 0 ∨ j % 4 = 1 ∨ j % 4 = 2 ∨ j % 4 = 3 := by omega
      rcases this with e | e | e | e <;> rw [e] at h <;> cases h
  · intro n r v hn h
    rcases split n with h7 | ⟨j, rfl⟩
    · exact nwStart_begins n h7 r v h
    · rw [(nwAt_facts (nwAt j)).2.2.1]
      rw [nwActs_at] at h
      have : j % 4 = 0 ∨ j % 4 = 1 ∨ j % 4 = 2 ∨ j % 4 = 3 := by omega
      rcases this with e | e | e | e <;> rw [e] at h <;> simp only [begins, nwLoop] at h
      · split at h
        · cases h; exact ⟨rfl, rfl⟩
        · cases h
      all_goals cases h
  · intro c n
    refine ⟨7 + 4 * n, by omega, ?_⟩
    have := nwAt_facts (nwAt (4 * n))
    by_cases hc : c = 0
    · subst hc; exact this.2.2.2.2 (by omega)
    · exact this.2.2.2.1 c hc
  · intro n hn y hy
    rcases split n with h7 | ⟨j, rfl⟩
    · exact nwStart_given n h7 y hy
    · have hx := (nwAt_facts (nwAt j)).2.2.1
      have hm := List.mem_filter.1 hy
      rw [nwActs_at] at hm
      rw [nwAt_backlog (nwAt_step (nwAt j))] at hm
      have h1 := hm.1
      simp only [List.mem_cons, List.not_mem_nil, or_false] at h1
      rcases h1 with rfl | rfl
      · rw [hx] at hm; simp at hm
      · decide
  · intro n
    refine ⟨7 + (4 * n + 1), by omega, ?_⟩
    have h1 := nwAt (4 * n + 1)
    rw [nwActs_at]
    have e : (4 * n + 1) % 4 = 1 := by omega
    rw [e] at h1 ⊢
    rw [nwAt_handed h1]
    simp
  · intro n hn
    rcases split n with h7 | ⟨j, rfl⟩
    · exact nwStart_free n h7 hn
    · exact nwAt_free (nwAt j)

/-! ### Examples -/

/-- Submissions 1 (two chunks), 2 and 3; two consumers. -/
def exampleQueue : List Action :=
  [ .producer (.insert { id := 1, contents := [some [10], some [11]] } 0 []),
    .producer (.insert { id := 3, contents := [some [30]] } 0 []),
    .producer (.insert { id := 2, contents := [some [20]] } 0 []), .connect 0, .connect 1 ]

/-- Consumer 0 takes both chunks of submission 1 and goes away; a submission is inserted; consumer 1 takes both chunks of
submission 1. The chunk of submission 2 waits all the time. -/
def exampleOvertaking : List Action :=
  [ .request 0 ⟨1, 2, .oldest⟩ exV, .row 0, .join 0, .row 0, .join 0, .disconnect 0,
    .producer (.insert { id := 9, contents := [some [90]] } 0 []),
    .request 1 ⟨2, 2, .oldest⟩ exV, .row 1, .join 1, .row 1, .join 1 ]

/-- The bound of `C75_bounded_overtaking` is reached: two chunks ahead and two given back, four handed out. -/
example :
    let s := run 100 3 exampleQueue
    FreshIds (run 100 3 (exampleQueue ++ exampleOvertaking)).calls ∧
    (∀ b now o, .producer (.insert b now o) ∈ exampleOvertaking → 2 < b.id) ∧
    (∀ c, fetchOf s c = none) ∧ (∀ c, AsksFrom s c .oldest ⟨2, 0⟩ exampleOvertaking) ∧
    WaitsFrom s ⟨2, 0⟩ exampleOvertaking ∧
    handedOutFrom s exampleOvertaking = [⟨1, 0⟩, ⟨1, 1⟩, ⟨1, 0⟩, ⟨1, 1⟩] ∧
    givenBackFrom s exampleOvertaking = [⟨1, 0⟩, ⟨1, 1⟩] ∧ aheadOf s ⟨2, 0⟩ = [⟨1, 0⟩, ⟨1, 1⟩] := by
  refine ⟨by decide +kernel, ?_, fun c => fetchOf_none (by decide +kernel) c,
    fun c => asksFrom_of (by decide +kernel) c, waitsFrom_of (by decide +kernel), by decide +kernel, by decide +kernel,
    by decide +kernel⟩
  intro b now o h
  simp [exampleOvertaking] at h
  simp [h]

/-- With `Newest`, the chunk of submission 3 waits while a newer chunk is inserted and taken. -/
example :
    let s := run 100 3 exampleQueue
    let es : List Action := [.producer (.insert { id := 9, contents := [some [90]] } 0 []),
      .request 0 ⟨1, 1, .newest⟩ exV, .row 0, .join 0]
    FreshIds (run 100 3 (exampleQueue ++ es)).calls ∧ fetchOf s 0 = none ∧ AsksFrom s 0 .newest ⟨3, 0⟩ es ∧
    WaitsFrom s ⟨3, 0⟩ es ∧ handedOutFrom s es = [⟨9, 0⟩] := by
  refine ⟨by decide +kernel, by decide +kernel, asksFrom_of (by decide +kernel) 0, waitsFrom_of (by decide +kernel),
    by decide +kernel⟩

/-- The unending example meets the hypotheses of `C75_no_starvation`, with `x` free at the start. -/
example : (∀ n, FreshIds (run 10 3 (firstActions exActs n)).calls) ∧
    (∀ n b now o, 2 ≤ n → exActs n = .producer (.insert b now o) → 1 < b.id) ∧
    (∀ n r v, 2 ≤ n → begins (run 10 3 (firstActions exActs n)) (exActs n) = some (r, v) →
      r.strategy = .oldest ∧ v.reserved ⟨1, 0⟩ = (run 10 3 (firstActions exActs n)).reserver.isReserved ⟨1, 0⟩) ∧
    (∀ c n, ∃ k, n ≤ k ∧ fetchOf (run 10 3 (firstActions exActs k)) c = none) ∧
    (∀ n, 2 ≤ n → ∀ y ∈ givenBack (run 10 3 (firstActions exActs n)) (exActs n), 1 < y.submissionId) ∧
    (∀ n, ∃ k, n ≤ k ∧ handedOut (run 10 3 (firstActions exActs k)) (exActs k) ≠ []) ∧
    Free (run 10 3 (firstActions exActs 2)) ⟨1, 0⟩ := by
  have split : ∀ n, n < 14 ∨ ∃ j, n = 14 + j := fun n => by
    by_cases h : n < 14
    · exact .inl h
    · exact .inr ⟨n - 14, by omega⟩
  refine ⟨?_, ?_, ?_, ?_, ?_, ?_, by decide +kernel⟩
  · intro n
    have h14 : FreshIds exCalls := by decide +kernel
    rcases split n with h | ⟨j, rfl⟩
    · have e : 14 = n + (14 - n) := by omega
      have := exActs_start 14 (by omega)
      rw [e, firstActions_add] at this
      refine fresh_prefix (es := actionsFrom exActs n (14 - n)) ?_
      rw [this]
      rw [← e]
      exact h14
    · rw [(exAt_calls (exAt j)).1]; exact h14
  · intro n b now o hn h
    rcases split n with h14 | ⟨j, rfl⟩
    · have : n = 2 ∨ n = 3 ∨ n = 4 ∨ n = 5 ∨ n = 6 ∨ n = 7 ∨ n = 8 ∨ n = 9 ∨ n = 10 ∨ n = 11 ∨ n = 12 ∨ n = 13 := by
        omega
      rcases this with rfl | rfl | rfl | rfl | rfl | rfl | rfl | rfl | rfl | rfl | rfl | rfl <;> cases h
    · rw [exActs_at] at h
      have : j % 4 = 0 ∨ j % 4 = 1 ∨ j % 4 = 2 ∨ j % 4 = 3 := by omega
      rcases this with e | e | e | e <;> rw [e] at h <;> cases h
  · intro n r v hn h
    rcases split n with h14 | ⟨j, rfl⟩
    · exact exStart_begins n h14 r v h
    · have hx := (exAt_calls (exAt j)).2.2.1
      rw [hx]
      rw [exActs_at] at h
      have : j % 4 = 0 ∨ j % 4 = 1 ∨ j % 4 = 2 ∨ j % 4 = 3 := by omega
      rcases this with e | e | e | e <;> rw [e] at h <;> simp only [begins, exLoop] at h
      · split at h
        · cases h; exact ⟨rfl, rfl⟩
        · cases h
      all_goals cases h
  · intro c n
    refine ⟨14 + 4 * n, by omega, ?_⟩
    have := exAt_calls (exAt (4 * n))
    by_cases hc : c = 0
    · subst hc; exact this.2.2.2.2 (by omega)
    · exact this.2.2.2.1 c hc
  · intro n hn y hy
    rcases split n with h14 | ⟨j, rfl⟩
    · exact exStart_given n h14 y hy
    · have hb : y ∈ backlog (step (run 10 3 (firstActions exActs (14 + j))) (exActs (14 + j))) :=
        (List.mem_filter.1 hy).1
      rw [exActs_at] at hb
      rw [exAt_backlog (exAt_step (exAt j)), List.mem_singleton] at hb
      rw [hb]; decide
  · intro n
    refine ⟨14 + (4 * n + 1), by omega, ?_⟩
    have h1 := exAt (4 * n + 1)
    rw [exActs_at]
    have e : (4 * n + 1) % 4 = 1 := by omega
    rw [e] at h1 ⊢
    rw [exAt_handed h1]
    simp

end Opsqueue.Server
