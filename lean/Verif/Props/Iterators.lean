import Verif.Proofs.Iterators
import Verif.Proofs.Fairness

/-!
# C77: the iterators over results
-/

namespace Opsqueue.Python
open ObjectStore

/-- **C77, order.** Whatever the caller, the scheduler and the object store do: what the calls get, in the order in
which they get it, are chunks with increasing numbers, or errors that name the chunk, then the end. No chunk comes
twice, nothing comes that is not a result, and each call gets one answer at most. -/
theorem C77_in_order (base : List Char) (pfx : String) (count : Nat) (c : Nat → Bytes) (events : List Event)
    (h : Stored base pfx count c events) :
    let r := Results.run base pfx count events
    (∃ is : List Nat, is.Pairwise (· < ·) ∧ is.length = r.got.length ∧
      ∀ (j : Nat) (k : Nat) (o : Outcome) (i : Nat), r.got[j]? = some (k, o) → is[j]? = some i → Gives count c i o) ∧
    (r.got.map (·.1)).Nodup ∧ ∀ k o, (k, o) ∈ r.got → k < r.asked := by
  intro r
  have hi := inv_run base pfx count c events h
  obtain ⟨is, h1, h2, h3⟩ := sublist_positions hi.sub
  refine ⟨⟨is, h1, h2, fun j k o i hg his => hi.gives i k o (h3 j _ i hg his)⟩, ?_, ?_⟩
  · exact ((List.Sublist.map (·.1) hi.sub).trans (List.sublist_append_right ..)).nodup hi.tasks
  · intro k o hg
    exact hi.asked k (List.mem_append_right _ (List.mem_map.mpr ⟨(k, o), hi.sub.subset hg, rfl⟩))

/-- **C77, completeness.** If the store answers and the caller waits for all calls, the answers are, in the order in
which they come: the first chunk, the second, and so on, then the end; also if several calls are made at once. -/
theorem C77_complete (base : List Char) (pfx : String) (count : Nat) (c : Nat → Bytes) (events : List Event)
    (h : Stored base pfx count c events) (hr : Reachable events) (hp : Patient events) :
    ∀ (j k : Nat) (o : Outcome), (Results.run base pfx count events).got[j]? = some (k, o) →
      (j < count → o = .ok (some (c j))) ∧ (j = count → o = .ok none) := by
  intro j k o hj
  rw [(cancelled_of_patient base pfx count events hp).2] at hj
  refine ⟨reachable_gives base pfx count c events h hr j k o hj, ?_⟩
  intro hjc
  rcases (inv_run base pfx count c events h).gives j k o hj with ⟨h1, _⟩ | ⟨_, h2⟩ | ⟨h1, _⟩
  · omega
  · exact h2
  · omega

/-- Three chunks. -/
def someResults : Store :=
  writes [] [] [⟨"p", 0, .output, [10]⟩, ⟨"p", 1, .output, [11]⟩, ⟨"p", 2, .output, [12]⟩]

/-- Four calls at once, which get the lock in another order: the answers come in the order of the chunks. -/
example :
    let events : List Event := [.ask, .ask, .ask, .lock 2, .take someResults true, .lock 0, .ask, .take someResults true,
      .lock 3, .take someResults true, .lock 1, .take someResults true]
    (∀ i < 3, retrieveChunk [] someResults "p" i .output = .ok [UInt8.ofNat (10 + i)]) ∧
    (Results.run [] "p" 3 events).got =
      [(2, .ok (some [10])), (0, .ok (some [11])), (3, .ok (some [12])), (1, .ok none)] := by decide +kernel

/-- **C77, `for` loops.** One call after the other, until the end: exactly all chunks in order, and nothing else. -/
theorem C77_for_loop (base : List Char) (pfx : String) (count : Nat) (c : Nat → Bytes) (store : Store)
    (h : ∀ i < count, retrieveChunk base store pfx i .output = .ok (c i)) :
    (Results.run base pfx count (inTurn store (count + 1) 0)).got =
      (List.range count).map (fun i => (i, .ok (some (c i)))) ++ [(count, .ok none)] := by
  have mem : ∀ n k e, e ∈ inTurn store n k → e = .ask ∨ (∃ j, e = .lock j) ∨ e = .take store true := by
    intro n
    induction n with
    | zero => intro k e he; simp [inTurn] at he
    | succ n ih =>
      intro k e he
      simp only [inTurn, List.mem_cons] at he
      rcases he with rfl | rfl | rfl | he
      · exact .inl rfl
      · exact .inr (.inl ⟨_, rfl⟩)
      · exact .inr (.inr rfl)
      · exact ih _ _ he
  have hst : ∀ n k, Stored base pfx count c (inTurn store n k) := by
    intro n k s re hm
    rcases mem _ _ _ hm with h' | ⟨_, h'⟩ | h'
    · cases h'
    · cases h'
    · injection h' with h1 h2
      rw [h1]
      exact h
  have hre : ∀ n k, Reachable (inTurn store n k) := by
    intro n k s re hm
    rcases mem _ _ _ hm with h' | ⟨_, h'⟩ | h'
    · cases h'
    · cases h'
    · injection h'
  have hpa : ∀ n k, Patient (inTurn store n k) := by
    intro n k j s hm
    rcases mem _ _ _ hm with h' | ⟨_, h'⟩ | h' <;> cases h'
  have keys : ∀ (n : Nat) (r : Results), r.waiting = [] → r.holder = none → r.cancelled = [] →
      ((inTurn store n r.asked).foldl (Results.step base) r).got.map (·.1) =
        r.got.map (·.1) ++ (List.range n).map (r.asked + ·) := by
    intro n
    induction n with
    | zero => intro r _ _ _; simp [inTurn]
    | succ n ih =>
      intro r h1 h2 h3
      simp only [inTurn, List.foldl_cons]
      have hs : ∃ r', (((r.step base .ask).step base (.lock r.asked)).step base (.take store true)) = r' ∧
          r'.waiting = [] ∧ r'.holder = none ∧ r'.cancelled = [] ∧ r'.asked = r.asked + 1 ∧
          r'.got.map (·.1) = r.got.map (·.1) ++ [r.asked] := by
        refine ⟨_, rfl, ?_⟩
        simp [Results.step, h1, h2, h3]
      obtain ⟨r', e1, e2, e3, e4, e5, e6⟩ := hs
      rw [e1, ← e5, ih r' e2 e3 e4, e6, List.append_assoc, e5, List.range_succ_eq_map]
      simp only [List.map_cons, List.map_map, List.singleton_append]
      congr 2
      apply List.map_congr_left
      intro x _
      simp only [Function.comp]
      omega
  have hkeys := keys (count + 1) { stream := { pfx, count } } rfl rfl rfl
  simp only [List.map_nil, List.nil_append, Nat.zero_add, List.map_id'] at hkeys
  have hkeys : (Results.run base pfx count (inTurn store (count + 1) 0)).got.map (·.1) = List.range (count + 1) := hkeys
  have hlen : (Results.run base pfx count (inTurn store (count + 1) 0)).got.length = count + 1 := by
    rw [← List.length_map (f := (·.1)), hkeys, List.length_range]
  have hc := C77_complete base pfx count c _ (hst (count + 1) 0) (hre _ _) (hpa _ _)
  apply List.ext_getElem
  · rw [hlen]; simp
  · intro j hj1 hj2
    have hjlt : j < count + 1 := by omega
    have hk : ((Results.run base pfx count (inTurn store (count + 1) 0)).got[j]).1 = j := by
      have h1 : ((Results.run base pfx count (inTurn store (count + 1) 0)).got.map (·.1))[j]? = some j := by
        rw [hkeys, List.getElem?_range hjlt]
      rw [List.getElem?_map, List.getElem?_eq_getElem hj1] at h1
      injection h1
    have hcj := hc j _ _ (List.getElem?_eq_getElem hj1)
    by_cases hjc : j < count
    · rw [List.getElem_append_left (by simpa using hjc)]
      simp only [List.getElem_map, List.getElem_range]
      exact Prod.ext hk (hcj.1 hjc)
    · have hj : j = count := by omega
      rw [List.getElem_append_right (by simp; omega)]
      simp only [List.getElem_singleton]
      exact Prod.ext (hk.trans hj) (hcj.2 hj)

/-- The three chunks. -/
example : (Results.run [] "p" 3 (inTurn someResults 4 0)).got =
    [(0, .ok (some [10])), (1, .ok (some [11])), (2, .ok (some [12])), (3, .ok none)] := by decide +kernel

/-- How much is left to do for the calls made so far. -/
def busy (r : Results) : Nat := 2 * r.waiting.length + (if r.holder.isSome then 1 else 0)

/-- **C77, answers come.** After every run: as long as anything is left to do some task can go on, every time one does
less is left, and when nothing is left every call has its answer (if the caller still waits for it). -/
theorem C77_calls_are_answered (base : List Char) (pfx : String) (count : Nat) (c : Nat → Bytes) (events : List Event)
    (h : Stored base pfx count c events) :
    let r := Results.run base pfx count events
    (busy r = 0 → AllAnswered r) ∧
    (0 < busy r → (∃ k, busy (r.step base (.lock k)) < busy r) ∨
      ∀ store reachable, busy (r.step base (.take store reachable)) < busy r) ∧
    (∀ k, r.step base (.lock k) = r ∨ busy (r.step base (.lock k)) < busy r) ∧
    (∀ s re, r.step base (.take s re) = r ∨ busy (r.step base (.take s re)) < busy r) := by
  intro r
  have hi := inv_run base pfx count c events h
  have lock : ∀ k, r.holder = none → k ∈ r.waiting → busy (r.step base (.lock k)) < busy r := by
    intro k h1 h2
    have e : r.step base (.lock k) = { r with holder := some k, waiting := r.waiting.erase k } := by
      simp only [Results.step]
      rw [if_pos ⟨h1, h2⟩]
    have := List.length_erase_of_mem h2
    have := List.length_pos_of_mem h2
    rw [e]
    simp [busy, h1]
    omega
  have take : ∀ k s re, r.holder = some k → busy (r.step base (.take s re)) < busy r := by
    intro k s re h1
    simp only [Results.step, busy, h1]
    simp
  refine ⟨?_, ?_, ?_, ?_⟩
  · intro hb k hk hc
    unfold busy at hb
    have hw : r.waiting = [] := List.eq_nil_of_length_eq_zero (by omega)
    have hh : r.holder = none := by
      cases h : r.holder with
      | none => rfl
      | some x => rw [h] at hb; simp at hb
    rcases hi.all k hk with hm | hm
    · have hw' : (Results.run base pfx count events).waiting = [] := hw
      have hh' : (Results.run base pfx count events).holder = none := hh
      rw [hw', hh'] at hm
      simp only [Option.toList_none, List.append_nil, List.nil_append] at hm
      obtain ⟨⟨k', o⟩, hmem, hkk⟩ := List.mem_map.mp hm
      simp only at hkk
      subst hkk
      refine ⟨o, ?_⟩
      by_cases hg : (k', o) ∈ r.got
      · exact hg
      · exact absurd (hi.missing k' o hmem hg) hc
    · exact absurd hm hc
  · intro hb
    cases hh : r.holder with
    | some k => exact .inr fun s re => take k s re hh
    | none =>
      cases hw : r.waiting with
      | nil => simp [busy, hw, hh] at hb
      | cons k ks => exact .inl ⟨k, lock k hh (by rw [hw]; simp)⟩
  · intro k
    by_cases hk : r.holder = none ∧ k ∈ r.waiting
    · exact .inr (lock k hk.1 hk.2)
    · left
      simp only [Results.step]
      rw [if_neg hk]
  · intro s re
    cases hh : r.holder with
    | none => left; simp only [Results.step, hh]
    | some k => exact .inr (take k s re hh)

/-! ## What gets lost -/

/-- Once a call was told that there are no more chunks, all chunks were given to calls. -/
def NothingLost : Prop :=
  ∀ base pfx count c events, Stored base pfx count c events → Reachable events →
    (∃ k, (k, .ok none) ∈ (Results.run base pfx count events).got) →
    ∀ i < count, ∃ k, (k, .ok (some (c i))) ∈ (Results.run base pfx count events).got

/-- A caller who waits, and calls again after an error, gets every chunk before the end. -/
def RetriesHelp : Prop :=
  ∀ base pfx count c events, Stored base pfx count c events → Patient events →
    (∃ k, (k, .ok none) ∈ (Results.run base pfx count events).got) →
    ∀ i < count, ∃ k, (k, .ok (some (c i))) ∈ (Results.run base pfx count events).got

/-- Once a call was told that there are no more chunks, later calls are told the same (as Python demands of
iterators). -/
def StaysAtTheEnd : Prop :=
  ∀ base pfx count c events, Stored base pfx count c events → Reachable events → Patient events →
    ∀ (i j k k' : Nat) (o : Outcome), i < j → (Results.run base pfx count events).got[i]? = some (k, .ok none) →
      (Results.run base pfx count events).got[j]? = some (k', o) → o = .ok none

/-- **C77** in full. -/
def C77_full : Prop := NothingLost ∧ RetriesHelp ∧ StaysAtTheEnd

/-- The contents of `someResults`. -/
def someContents (i : Nat) : Bytes := [UInt8.ofNat (10 + i)]

theorem someResults_stored {events : List Event} (h : ∀ e ∈ events, ∀ s re, e = .take s re → s = someResults) :
    Stored [] "p" 3 someContents events := by
  intro s re hm i hi
  rw [h _ hm s re rfl]
  revert i
  decide +kernel

/-- A call of `__anext__` is given up (a timeout, say): the chunk its task takes is lost, and nobody is told. -/
theorem C77_refuted_for_cancelled_calls : ¬ NothingLost := by
  intro h
  have := h [] "p" 3 someContents (.ask :: .lock 0 :: .cancel 0 true :: .take someResults true :: inTurn someResults 3 1)
    (someResults_stored (by simp [inTurn])) (by intro s re hm; revert hm; simp [inTurn]) ⟨3, by decide +kernel⟩ 0
    (by decide)
  obtain ⟨k, hk⟩ := this
  have e : (Results.run [] "p" 3 (.ask :: .lock 0 :: .cancel 0 true :: .take someResults true ::
      inTurn someResults 3 1)).got = [(1, .ok (some [11])), (2, .ok (some [12])), (3, .ok none)] := by decide +kernel
  rw [e] at hk
  simp [someContents] at hk

/-- After an error, the next call goes on with the next chunk. -/
theorem C77_refuted_for_retries : ¬ RetriesHelp := by
  intro h
  have := h [] "p" 3 someContents (.ask :: .lock 0 :: .take someResults false :: inTurn someResults 3 1)
    (someResults_stored (by simp [inTurn])) (by intro k s hm; revert hm; simp [inTurn]) ⟨3, by decide +kernel⟩ 0
    (by decide)
  obtain ⟨k, hk⟩ := this
  have e : (Results.run [] "p" 3 (.ask :: .lock 0 :: .take someResults false ::
      inTurn someResults 3 1)).got = [(0, .error ⟨.chunkRetrieval, .message
        "Failed to retrieve chunk (p, 0, out) from object store"⟩),
        (1, .ok (some [11])), (2, .ok (some [12])), (3, .ok none)] := by decide +kernel
  rw [e] at hk
  simp [someContents] at hk

/-- A call after the end raises a panic. -/
theorem C77_refuted_for_the_end : ¬ StaysAtTheEnd := by
  intro h
  have := h [] "p" 3 someContents (inTurn someResults 5 0) (someResults_stored (by simp [inTurn]))
    (by intro s re hm; revert hm; simp [inTurn]) (by intro k s hm; revert hm; simp [inTurn]) 3 4 3 4 (.error panicked)
    (by decide) (by decide +kernel) (by decide +kernel)
  cases this

/-- The full statement does not hold. -/
theorem C77_refuted : ¬ C77_full := fun h => C77_refuted_for_cancelled_calls h.1

/-- **C77, part: losses.** When a call is told that there are no more chunks, every chunk was given to a call, or a call
was told that it could not be read, or a call that was given up has taken it; and no more are lost in this way than
calls were given up (`got` holds different chunks, by `C77_in_order`, and the end). -/
theorem C77_losses_partial (base : List Char) (pfx : String) (count : Nat) (c : Nat → Bytes) (events : List Event)
    (h : Stored base pfx count c events) (hend : ∃ k, (k, .ok none) ∈ (Results.run base pfx count events).got) :
    let r := Results.run base pfx count events
    (∀ i < count, (∃ k, (k, .ok (some (c i))) ∈ r.got) ∨ (∃ k o, (k, o) ∈ r.got ∧ ToldUnread i o) ∨
      ∃ k ∈ r.cancelled, ∃ o, r.taken[i]? = some (k, o)) ∧
    count < r.got.length + r.cancelled.length := by
  intro r
  have hi := inv_run base pfx count c events h
  obtain ⟨k, hk⟩ := hend
  obtain ⟨n, hn, hget⟩ := List.getElem_of_mem (hi.sub.subset hk)
  have hn' : count ≤ n := by
    have hg := hi.gives n k (.ok none) (by rw [← hget]; exact List.getElem?_eq_getElem hn)
    rcases hg with ⟨_, h2⟩ | ⟨h1, _⟩ | ⟨h1, _⟩
    · rcases h2 with h2 | ⟨e, h2, _⟩ <;> cases h2
    · omega
    · omega
  refine ⟨?_, ?_⟩
  · intro i hic
    have hlt : i < (Results.run base pfx count events).taken.length := by omega
    obtain ⟨j, o, hx⟩ : ∃ j o, (Results.run base pfx count events).taken[i] = (j, o) := ⟨_, _, rfl⟩
    have hmem := List.getElem_mem hlt
    rw [hx] at hmem
    have hgi := hi.gives i j o (by rw [← hx]; exact List.getElem?_eq_getElem hlt)
    by_cases hg : (j, o) ∈ r.got
    · rcases hgi with ⟨_, h2 | h2⟩ | ⟨h1, _⟩ | ⟨h1, _⟩
      · exact .inl ⟨j, by rw [← h2]; exact hg⟩
      · exact .inr (.inl ⟨j, o, hg, h2⟩)
      · omega
      · omega
    · refine .inr (.inr ⟨j, hi.missing j o hmem hg, o, ?_⟩)
      rw [← hx]
      exact List.getElem?_eq_getElem hlt
  · have hnd : ((Results.run base pfx count events).taken.map (·.1)).Nodup :=
      (List.sublist_append_right ..).nodup hi.tasks
    have hsub : ∀ x ∈ (Results.run base pfx count events).taken.map (·.1),
        x ∈ r.got.map (·.1) ++ r.cancelled := by
      intro x hx
      obtain ⟨⟨j, o⟩, hm, rfl⟩ := List.mem_map.mp hx
      by_cases hg : (j, o) ∈ r.got
      · exact List.mem_append_left _ (List.mem_map.mpr ⟨_, hg, rfl⟩)
      · exact List.mem_append_right _ (hi.missing j o hm hg)
    have := length_le_of_nodup_subset hnd hsub
    simp only [List.length_append, List.length_map] at this
    omega

/-- One chunk is lost with a call, one cannot be read. -/
example :
    let r := Results.run [] "p" 3 (.ask :: .lock 0 :: .cancel 0 true :: .take someResults true :: .ask :: .lock 1 ::
      .take someResults false :: inTurn someResults 2 2)
    r.got.map (·.1) = [1, 2, 3] ∧ r.cancelled = [0] ∧ (3, .ok none) ∈ r.got := by decide +kernel

end Opsqueue.Python
