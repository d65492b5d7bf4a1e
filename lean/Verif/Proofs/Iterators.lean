import Verif.Spec.Iterators

/-!
# The iterators over results
-/

namespace Opsqueue.Python
open ObjectStore

/-- Positions of a sublist. -/
theorem sublist_positions {α : Type} {l l' : List α} (h : l.Sublist l') :
    ∃ is : List Nat, is.Pairwise (· < ·) ∧ is.length = l.length ∧
      ∀ (j : Nat) (a : α) (i : Nat), l[j]? = some a → is[j]? = some i → l'[i]? = some a := by
  induction h with
  | slnil => exact ⟨[], .nil, rfl, by simp⟩
  | @cons l l' a h ih =>
    obtain ⟨is, h1, h2, h3⟩ := ih
    refine ⟨is.map (· + 1), ?_, by simpa using h2, ?_⟩
    · rw [List.pairwise_map]
      exact h1.imp (by omega)
    · intro j b i hb hi
      rw [List.getElem?_map] at hi
      cases hj : is[j]? with
      | none => rw [hj] at hi; cases hi
      | some i' =>
        rw [hj] at hi
        injection hi with hi
        rw [← hi, List.getElem?_cons_succ]
        exact h3 j b i' hb hj
  | @cons_cons l l' a h ih =>
    obtain ⟨is, h1, h2, h3⟩ := ih
    refine ⟨0 :: is.map (· + 1), ?_, by simpa using h2, ?_⟩
    · refine List.pairwise_cons.mpr ⟨?_, ?_⟩
      · intro x hx
        obtain ⟨y, _, rfl⟩ := List.mem_map.mp hx
        omega
      · rw [List.pairwise_map]
        exact h1.imp (by omega)
    · intro j b i hb hi
      cases j with
      | zero =>
        simp only [List.getElem?_cons_zero, Option.some.injEq] at hb hi
        rw [← hi, ← hb]
        rfl
      | succ j =>
        rw [List.getElem?_cons_succ] at hb hi
        rw [List.getElem?_map] at hi
        cases hj : is[j]? with
        | none => rw [hj] at hi; cases hi
        | some i' =>
          rw [hj] at hi
          injection hi with hi
          rw [← hi, List.getElem?_cons_succ]
          exact h3 j b i' hb hj

/-- The invariant of an iterator, for every run. -/
structure Results.Inv (pfx : String) (count : Nat) (c : Nat → Bytes) (r : Results) : Prop where
  pfx_eq : r.stream.pfx = pfx
  count_eq : r.stream.count = count
  index_eq : r.stream.index = min r.taken.length count
  ended_iff : r.stream.ended = true ↔ count < r.taken.length
  gives : ∀ i k o, r.taken[i]? = some (k, o) → Gives count c i o
  sub : r.got.Sublist r.taken
  missing : ∀ k o, (k, o) ∈ r.taken → (k, o) ∉ r.got → k ∈ r.cancelled
  tasks : (r.waiting ++ r.holder.toList ++ r.taken.map (·.1)).Nodup
  asked : ∀ k ∈ r.waiting ++ r.holder.toList ++ r.taken.map (·.1), k < r.asked
  all : ∀ k < r.asked, k ∈ r.waiting ++ r.holder.toList ++ r.taken.map (·.1) ∨ k ∈ r.cancelled

theorem next_gives {base : List Char} {store : Store} {reachable : Bool} {s : ChunkStream} {c : Nat → Bytes} {n : Nat}
    (hi : s.index = min n s.count) (he : s.ended = true ↔ s.count < n)
    (hc : ∀ i < s.count, retrieveChunk base store s.pfx i .output = .ok (c i)) :
    Gives s.count c n (s.next base store reachable).1 ∧
    (s.next base store reachable).2 =
      { s with index := min (n + 1) s.count, ended := decide (s.count < n + 1) } ∧
    (reachable = true → n < s.count → (s.next base store reachable).1 = .ok (some (c n))) := by
  unfold ChunkStream.next
  by_cases h1 : s.count < n
  · rw [if_pos (he.mpr h1)]
    refine ⟨.inr (.inr ⟨h1, _, rfl, rfl⟩), ?_, fun _ h => absurd h1 (by omega)⟩
    have e1 : s.index = min (n + 1) s.count := by omega
    have e2 : s.ended = decide (s.count < n + 1) := by rw [he.mpr h1]; simp; omega
    rw [← e1, ← e2]
  · have hend : s.ended = false := by
      cases h : s.ended with
      | false => rfl
      | true => exact absurd (he.mp h) h1
    rw [if_neg (by simp [hend])]
    by_cases h2 : s.index ≥ s.count
    · rw [if_pos h2]
      have hn : n = s.count := by omega
      refine ⟨.inr (.inl ⟨hn, rfl⟩), ?_, fun _ h => absurd h (by omega)⟩
      have e1 : s.index = min (n + 1) s.count := by omega
      have e2 : true = decide (s.count < n + 1) := by simp; omega
      rw [← e1, ← e2]
    · rw [if_neg h2]
      have hn : s.index = n := by omega
      have hlt : n < s.count := by omega
      have hget := hc n hlt
      rw [← hn] at hget
      simp only [hget]
      refine ⟨.inl ⟨hlt, ?_⟩, ?_, ?_⟩
      · cases reachable with
        | true => exact .inl (by rw [← hn]; rfl)
        | false => exact .inr ⟨_, rfl, rfl, s.pfx, by rw [← hn]; rfl⟩
      · have e1 : s.index + 1 = min (n + 1) s.count := by omega
        have e2 : s.ended = decide (s.count < n + 1) := by rw [hend]; simp; omega
        rw [← e1, ← e2]
      · intro hr _
        rw [hr, ← hn]
        rfl

theorem run_snoc (base : List Char) (pfx : String) (count : Nat) (events : List Event) (e : Event) :
    Results.run base pfx count (events ++ [e]) = (Results.run base pfx count events).step base e := by
  simp [Results.run]

theorem inv_step {base : List Char} {pfx : String} {count : Nat} {c : Nat → Bytes} {r : Results}
    (h : r.Inv pfx count c) (e : Event) (he : Stored base pfx count c [e]) : (r.step base e).Inv pfx count c := by
  obtain ⟨h1, h2, h3, h4, h5, h6, h7, h8, h9, h10⟩ := h
  cases e with
  | ask =>
    have fresh : r.asked ∉ r.waiting ++ r.holder.toList ++ r.taken.map (·.1) := by
      intro hm
      have := h9 _ hm
      omega
    refine ⟨h1, h2, h3, h4, h5, h6, h7, ?_, ?_, ?_⟩
    · show (r.waiting ++ [r.asked] ++ r.holder.toList ++ r.taken.map (·.1)).Nodup
      have hp : (r.waiting ++ [r.asked] ++ r.holder.toList ++ r.taken.map (·.1)).Perm
          (r.asked :: (r.waiting ++ r.holder.toList ++ r.taken.map (·.1))) := by
        simp only [List.append_assoc, List.singleton_append]
        exact List.perm_middle
      exact hp.nodup_iff.mpr (List.nodup_cons.mpr ⟨fresh, h8⟩)
    · intro k hk
      show k < r.asked + 1
      have hk : k ∈ r.waiting ++ [r.asked] ++ r.holder.toList ++ r.taken.map (·.1) := hk
      by_cases hka : k = r.asked
      · omega
      · have := h9 k (by simp only [List.mem_append, List.mem_singleton] at hk ⊢; grind)
        omega
    · intro k hk
      have hk : k < r.asked + 1 := hk
      show k ∈ r.waiting ++ [r.asked] ++ r.holder.toList ++ r.taken.map (·.1) ∨ k ∈ r.cancelled
      by_cases hka : k = r.asked
      · left; simp [hka]
      · rcases h10 k (by omega) with h | h
        · left
          simp only [List.mem_append, List.mem_singleton] at h ⊢
          grind
        · exact .inr h
  | lock k =>
    simp only [Results.step]
    split
    · rename_i hk
      obtain ⟨hn, hm⟩ := hk
      have hp : (r.waiting.erase k ++ [k] ++ r.taken.map (·.1)).Perm
          (r.waiting ++ r.holder.toList ++ r.taken.map (·.1)) := by
        rw [hn]
        simp only [Option.toList_none, List.append_nil]
        refine List.Perm.append_right _ ?_
        have := (List.perm_cons_erase hm).symm
        exact (List.perm_append_comm (l₁ := r.waiting.erase k) (l₂ := [k])).trans this
      refine ⟨h1, h2, h3, h4, h5, h6, h7, hp.nodup_iff.mpr h8, fun j hj => h9 j (hp.mem_iff.mp hj), fun j hj => ?_⟩
      exact (h10 j hj).imp_left hp.mem_iff.mpr
    · exact ⟨h1, h2, h3, h4, h5, h6, h7, h8, h9, h10⟩
  | take store reachable =>
    simp only [Results.step]
    cases hh : r.holder with
    | none => exact ⟨h1, h2, h3, h4, h5, h6, h7, h8, h9, h10⟩
    | some k =>
      simp only
      obtain ⟨g1, g2, -⟩ := next_gives (base := base) (store := store) (reachable := reachable) (s := r.stream) (c := c)
        (n := r.taken.length) (by rw [h3, h2]) (by rw [h4, h2]) (by
          rw [h2, h1]
          exact he store reachable (by simp))
      rw [hh] at h8 h9 h10
      have hp : (r.waiting ++ (r.taken ++ [(k, (r.stream.next base store reachable).1)]).map (·.1)).Perm
          (r.waiting ++ [k] ++ r.taken.map (·.1)) := by
        simp only [List.map_append, List.map_cons, List.map_nil, List.append_assoc]
        exact List.Perm.append_left _ List.perm_append_comm
      refine ⟨?_, ?_, ?_, ?_, ?_, ?_, ?_, ?_, ?_, ?_⟩
      · simp only [g2]; exact h1
      · simp only [g2]; exact h2
      · simp only [g2, List.length_append, List.length_singleton, h2]
      · simp only [g2, List.length_append, List.length_singleton, h2, decide_eq_true_eq]
      · intro i j o hi
        by_cases hlt : i < r.taken.length
        · rw [List.getElem?_append_left hlt] at hi
          exact h5 i j o hi
        · rw [List.getElem?_append_right (by omega)] at hi
          have hi0 : i = r.taken.length := by
            rcases Nat.lt_or_ge (i - r.taken.length) 1 with h | h
            · omega
            · rw [List.getElem?_eq_none (by simpa using h)] at hi
              cases hi
          subst hi0
          simp only [Nat.sub_self, List.getElem?_cons_zero, Option.some.injEq, Prod.mk.injEq] at hi
          rw [← hi.2, ← h2]
          exact g1
      · simp only
        split
        · exact h6.trans (List.sublist_append_left ..)
        · exact List.Sublist.append h6 (List.Sublist.refl _)
      · intro j o hj hng
        simp only at hng ⊢
        rcases List.mem_append.mp hj with hj | hj
        · refine h7 j o hj fun hg => hng ?_
          split
          · exact hg
          · exact List.mem_append_left _ hg
        · rw [List.mem_singleton] at hj
          injection hj with hj1 hj2
          subst hj1
          by_cases hcan : j ∈ r.cancelled
          · exact hcan
          · rw [if_neg hcan] at hng
            exact absurd (List.mem_append_right _ (by rw [hj2]; simp)) hng
      · simpa using hp.nodup_iff.mpr (by simpa using h8)
      · intro j hj
        exact h9 j (by simpa using hp.mem_iff.mp (by simpa using hj))
      · intro j hj
        rcases h10 j hj with h | h
        · left
          simpa using hp.mem_iff.mpr (by simpa using h)
        · exact .inr h
  | cancel k spawned =>
    simp only [Results.step]
    split
    · rename_i hk
      have hw : ∀ j, j ∈ (if spawned = true then r.waiting else r.waiting.erase k) → j ∈ r.waiting := by
        intro j hj
        split at hj
        · exact hj
        · exact List.mem_of_mem_erase hj
      have hsub : ((if spawned = true then r.waiting else r.waiting.erase k) ++ r.holder.toList ++
          r.taken.map (·.1)).Sublist (r.waiting ++ r.holder.toList ++ r.taken.map (·.1)) := by
        refine List.Sublist.append (List.Sublist.append ?_ (List.Sublist.refl _)) (List.Sublist.refl _)
        split
        · exact List.Sublist.refl _
        · exact List.erase_sublist
      have hcan : ∀ j, j ∈ r.cancelled ∨ j = k → j ∈ (if k ∈ r.cancelled then r.cancelled else r.cancelled ++ [k]) := by
        intro j hj
        split <;> grind
      refine ⟨h1, h2, h3, h4, h5, h6, ?_, hsub.nodup h8, fun j hj => h9 j (hsub.subset hj), ?_⟩
      · intro j o hj hg
        exact hcan j (.inl (h7 j o hj hg))
      · intro j hj
        rcases h10 j hj with h | h
        · by_cases hjk : j = k
          · exact .inr (hcan j (.inr hjk))
          · left
            simp only [List.mem_append] at h ⊢
            rcases h with (h | h) | h
            · refine .inl (.inl ?_)
              split
              · exact h
              · exact (List.mem_erase_of_ne hjk).mpr h
            · exact .inl (.inr h)
            · exact .inr h
        · exact .inr (hcan j (.inl h))
    · exact ⟨h1, h2, h3, h4, h5, h6, h7, h8, h9, h10⟩

theorem inv_run (base : List Char) (pfx : String) (count : Nat) (c : Nat → Bytes) (events : List Event)
    (h : Stored base pfx count c events) : (Results.run base pfx count events).Inv pfx count c := by
  have key : ∀ (events : List Event) (r : Results), r.Inv pfx count c → Stored base pfx count c events →
      (events.foldl (Results.step base) r).Inv pfx count c := by
    intro events
    induction events with
    | nil => intro r hr _; exact hr
    | cons e events ih =>
      intro r hr hs
      refine ih _ (inv_step hr e fun s re hm => hs s re ?_) fun s re hm => hs s re (by simp [hm])
      rw [List.mem_singleton] at hm
      simp [hm]
  refine key events _ ⟨rfl, rfl, ?_, ?_, ?_, ?_, ?_, ?_, ?_, ?_⟩ h <;> simp

theorem cancelled_of_patient (base : List Char) (pfx : String) (count : Nat) (events : List Event)
    (h : Patient events) : (Results.run base pfx count events).cancelled = [] ∧
      (Results.run base pfx count events).got = (Results.run base pfx count events).taken := by
  have key : ∀ (events : List Event) (r : Results), Patient events → r.cancelled = [] → r.got = r.taken →
      (events.foldl (Results.step base) r).cancelled = [] ∧
      (events.foldl (Results.step base) r).got = (events.foldl (Results.step base) r).taken := by
    intro events
    induction events with
    | nil => intro r _ h h'; exact ⟨h, h'⟩
    | cons e events ih =>
      intro r hp hc hg
      refine ih _ (fun k s hm => hp k s (by simp [hm])) ?_ ?_
      · cases e with
        | ask => exact hc
        | lock k => simp only [Results.step]; split <;> exact hc
        | take store reachable => simp only [Results.step]; split <;> exact hc
        | cancel k s => exact absurd (List.mem_cons_self ..) (hp k s)
      · cases e with
        | ask => exact hg
        | lock k => simp only [Results.step]; split <;> exact hg
        | take store reachable =>
          simp only [Results.step]
          split
          · exact hg
          · simp [hc, hg]
        | cancel k s => exact absurd (List.mem_cons_self ..) (hp k s)
  exact key events _ h rfl rfl

theorem reachable_gives (base : List Char) (pfx : String) (count : Nat) (c : Nat → Bytes) (events : List Event)
    (h : Stored base pfx count c events) (hr : Reachable events) :
    ∀ i k o, (Results.run base pfx count events).taken[i]? = some (k, o) → i < count → o = .ok (some (c i)) := by
  have key : ∀ (events : List Event) (r : Results), r.Inv pfx count c → Stored base pfx count c events →
      Reachable events → (∀ i k o, r.taken[i]? = some (k, o) → i < count → o = .ok (some (c i))) →
      ∀ i k o, (events.foldl (Results.step base) r).taken[i]? = some (k, o) → i < count → o = .ok (some (c i)) := by
    intro events
    induction events with
    | nil => intro r _ _ _ h; exact h
    | cons e events ih =>
      intro r hr hs hre hyp
      have hs1 : Stored base pfx count c [e] := fun s re hm => hs s re (by rw [List.mem_singleton] at hm; simp [hm])
      refine ih _ (inv_step hr e hs1) (fun s re hm => hs s re (by simp [hm])) (fun s re hm => hre s re (by simp [hm])) ?_
      cases e with
      | ask => exact hyp
      | lock k => simp only [Results.step]; split <;> exact hyp
      | cancel k s => simp only [Results.step]; split <;> exact hyp
      | take store reachable =>
        simp only [Results.step]
        split
        · exact hyp
        · intro i j o hi hlt
          by_cases hl : i < r.taken.length
          · rw [List.getElem?_append_left hl] at hi
            exact hyp i j o hi hlt
          · rw [List.getElem?_append_right (by omega)] at hi
            have hi0 : i = r.taken.length := by
              rcases Nat.lt_or_ge (i - r.taken.length) 1 with h | h
              · omega
              · rw [List.getElem?_eq_none (by simpa using h)] at hi
                cases hi
            subst hi0
            simp only [Nat.sub_self, List.getElem?_cons_zero, Option.some.injEq, Prod.mk.injEq] at hi
            obtain ⟨-, -, g3⟩ := next_gives (base := base) (store := store) (reachable := reachable) (s := r.stream)
              (c := c) (n := r.taken.length) (by rw [hr.index_eq, hr.count_eq]) (by rw [hr.ended_iff, hr.count_eq]) (by
                rw [hr.count_eq, hr.pfx_eq]
                exact hs1 store reachable (by simp))
            rw [← hi.2]
            exact g3 (hre store reachable (by simp)) (by rw [hr.count_eq]; exact hlt)
  refine key events _ ⟨rfl, rfl, ?_, ?_, ?_, ?_, ?_, ?_, ?_, ?_⟩ h hr ?_ <;> simp

end Opsqueue.Python
