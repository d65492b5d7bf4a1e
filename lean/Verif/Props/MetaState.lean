import Verif.Proofs.MetaState

/-!
# C33: the in-flight counters count exactly
-/

namespace Opsqueue
open MetaState

/-- Number of increments of `(k, v)` among the calls. -/
def incCalls (calls : List MetaState.Call) (k : String) (v : Int) : Nat := calls.count (.inc k v)
/-- Number of decrements of `(k, v)` among the calls. -/
def decCalls (calls : List MetaState.Call) (k : String) (v : Int) : Nat := calls.count (.dec k v)

/-- If the call is a decrement of `(k, v)`: the calls before contain more increments than decrements
of it. -/
def callCovered (before : List MetaState.Call) : MetaState.Call → Prop
  | .dec k v => decCalls before k v < incCalls before k v
  | .inc _ _ => True

instance (before : List MetaState.Call) : DecidablePred (callCovered before) := fun c => by
  cases c <;> (unfold callCovered; infer_instance)

/-- No decrement exceeds the increments before it. -/
def CallsCovered (calls : List MetaState.Call) : Prop :=
  ∀ n, n < calls.length → ∀ c ∈ calls[n]?, callCovered (calls.take n) c

instance (calls : List MetaState.Call) : Decidable (CallsCovered calls) := by
  unfold CallsCovered
  exact Nat.decidableBallLT calls.length _

/-- **C33, calls one at a time.** If no decrement exceeds the increments before it, no call panics;
the count of `(k, v)` is increments minus decrements, absent if that is zero; and the structure is
empty iff everything is balanced. -/
theorem C33_counts_sequential (calls : List MetaState.Call)
    (hb : CallsCovered calls) :
    ∃ m, MetaState.exec [] calls = some m ∧
      (∀ k v, decCalls calls k v ≤ incCalls calls k v ∧
        m.count k v = if incCalls calls k v = decCalls calls k v then none
          else some (incCalls calls k v - decCalls calls k v)) ∧
      (m = [] ↔ ∀ k v, incCalls calls k v = decCalls calls k v) := by
  have key : ∀ n, n ≤ calls.length → ∃ m, MetaState.exec [] (calls.take n) = some m ∧
      SeqGood (calls.take n) m := by
    intro n
    induction n with
    | zero =>
      intro _
      refine ⟨[], rfl, ?_, ?_, ?_⟩
      · intro k v; rfl
      · intro k v n h; cases h
      · intro k h; cases h
    | succ n ih =>
      intro hn
      obtain ⟨m, hm, hg⟩ := ih (by omega)
      have hlt : n < calls.length := by omega
      have e : calls.take (n + 1) = calls.take n ++ [calls[n]] := by
        rw [List.take_succ_eq_append_getElem hlt]
      rw [e, exec_append, hm]
      cases hc : calls[n] with
      | inc k v => exact ⟨_, rfl, seqGood_inc hg k v⟩
      | dec k v =>
        have hbn := hb n hlt _ (by rw [List.getElem?_eq_getElem hlt, hc]; rfl)
        obtain ⟨m', hm', hg'⟩ := seqGood_dec hg k v hbn
        exact ⟨m', by simp only [Option.bind_some, MetaState.exec, hm'], hg'⟩
  obtain ⟨m, hm, hg⟩ := key calls.length (Nat.le_refl _)
  rw [List.take_length] at hm hg
  have hcount : ∀ k v, decCalls calls k v ≤ incCalls calls k v ∧
        m.count k v = if incCalls calls k v = decCalls calls k v then none
          else some (incCalls calls k v - decCalls calls k v) := by
    intro k v
    have h1 : cnt m k v + decCalls calls k v = incCalls calls k v := hg.bal k v
    refine ⟨by omega, ?_⟩
    unfold cnt at h1
    cases hc : m.count k v with
    | none => rw [hc] at h1; simp only [Option.getD_none] at h1; rw [if_pos (by omega)]
    | some n =>
      have := hg.pos k v n hc
      rw [hc] at h1; simp only [Option.getD_some] at h1
      rw [if_neg (by omega)]; congr 1; omega
  refine ⟨m, hm, hcount, ?_, ?_⟩
  · intro h k v
    have h1 := (hcount k v).2
    rw [h] at h1
    by_cases he : incCalls calls k v = decCalls calls k v
    · exact he
    · rw [if_neg he] at h1; cases h1
  · intro h
    apply Map.eq_nil_of_get
    intro k
    cases hk : Map.get m k with
    | none => rfl
    | some f =>
      exfalso
      have : f = [] := by
        apply Map.eq_nil_of_get
        intro v
        have h1 := (hcount k v).2
        rw [if_pos (h k v)] at h1
        simpa [count, hk] using h1
      subst this
      exact hg.full k hk

example : CallsCovered [.inc "a" 1, .inc "a" 2, .inc "b" 1, .dec "a" 1, .inc "a" 2, .dec "b" 1] := by
  decide +kernel

example : MetaState.exec [] [.inc "a" 1, .inc "a" 2, .inc "b" 1, .dec "a" 1, .inc "a" 2, .dec "b" 1] =
    some [("a", [(2, 2)])] := by decide +kernel

open MetaConc in
/-- If the action starts a decrement of `(k, v)`: more increments of it have taken effect than
decrements were started before. (`.incSlow k v` is an increment that has started and not taken effect
yet.) -/
def startCovered (before : List Action) : Action → Prop
  | .startDec k v => before.count (.startDec k v) + (run before).tasks.count (.incSlow k v) <
      before.count (.startInc k v)
  | _ => True

open MetaConc in
instance (before : List Action) : DecidablePred (startCovered before) := fun a => by
  cases a <;> (unfold startCovered; infer_instance)

open MetaConc in
/-- No decrement starts before an increment it can undo has taken effect. -/
def StartsCovered (as : List Action) : Prop :=
  ∀ n, n < as.length → ∀ a ∈ as[n]?, startCovered (as.take n) a

open MetaConc in
instance (as : List Action) : Decidable (StartsCovered as) := by
  unfold StartsCovered
  exact Nat.decidableBallLT as.length _

open MetaConc in
/-- **C33, concurrent calls.** A schedule interleaves the atomic steps of any number of concurrent
increment and decrement calls. If at the start of each decrement of `(k, v)` more increments of
`(k, v)` have taken effect than decrements were started, then at every moment the count is the
increments that took effect minus the decrements, and present counts are positive; and whenever no
call is in progress, the structure is empty iff everything is balanced. -/
theorem C33_counts_concurrent (as : List Action)
    (hb : StartsCovered as) :
    (∀ k v, ((run as).map.count k v).getD 0 + as.count (.startDec k v) +
        (run as).tasks.count (.incSlow k v) = as.count (.startInc k v) ∧
      (run as).map.count k v ≠ some 0) ∧
    ((run as).tasks = [] →
      ((run as).map = [] ↔ ∀ k v, as.count (.startInc k v) = as.count (.startDec k v))) := by
  have key : ∀ n, n ≤ as.length → Good (as.take n) (run (as.take n)) := by
    intro n
    induction n with
    | zero => intro _; exact good_empty
    | succ n ih =>
      intro hn
      have hlt : n < as.length := by omega
      rw [List.take_succ_eq_append_getElem hlt, run_snoc]
      refine good_step (ih (by omega)) _ ?_
      intro k v hkv
      exact hb n hlt _ (by rw [List.getElem?_eq_getElem hlt, hkv]; rfl)
  have hg := key as.length (Nat.le_refl _)
  rw [List.take_length] at hg
  refine ⟨fun k v => ⟨hg.bal k v, fun h => ?_⟩, fun ht => ⟨fun hm k v => ?_, fun h => ?_⟩⟩
  · exact absurd (hg.pos k v 0 h) (by omega)
  · have h1 := hg.bal k v
    unfold pend at h1
    rw [ht, hm] at h1
    have : cnt ([] : MetaState) k v = 0 := rfl
    rw [this] at h1
    simp only [List.count_nil, incs, decs] at h1
    omega
  · apply Map.eq_nil_of_get
    intro k
    cases hk : Map.get (run as).map k with
    | none => rfl
    | some f =>
      exfalso
      have : f = [] := by
        apply Map.eq_nil_of_get
        intro v
        have h1 := hg.bal k v
        have h2 := h k v
        unfold pend incs decs at h1
        rw [ht] at h1
        simp only [List.count_nil] at h1
        cases hfv : Map.get f v with
        | none => rfl
        | some n =>
          exfalso
          have hcnt : cnt (run as).map k v = n := by simp [cnt, count, hk, hfv]
          have := hg.pos k v n (by simp [count, hk, hfv])
          omega
      subst this
      rcases hg.janitor k hk with h' | h' <;> rw [ht] at h' <;> cases h'

/-- Two threads race on key `a`: the field is emptied and refilled while its removal is pending. -/
example :
    let as : List MetaConc.Action := [.startInc "a" 1, .advance 0, .startDec "a" 1, .advance 0,
      .startInc "a" 2, .advance 0]
    StartsCovered as ∧ (MetaConc.run as).map = [("a", [(2, 1)])] ∧ (MetaConc.run as).tasks = [] := by
  decide +kernel

open MetaConc in
/-- **C33, order.** Two schedules made of the same calls, both respecting the condition above and both
run to the end, leave the same counts. -/
theorem C33_order_irrelevant (as bs : List Action)
    (ha : StartsCovered as) (hb : StartsCovered bs)
    (hi : ∀ k v, as.count (.startInc k v) = bs.count (.startInc k v))
    (hd : ∀ k v, as.count (.startDec k v) = bs.count (.startDec k v))
    (hta : (run as).tasks = []) (htb : (run bs).tasks = []) (k : String) (v : Int) :
    (run as).map.count k v = (run bs).map.count k v := by
  have h1 := (C33_counts_concurrent as ha).1 k v
  have h2 := (C33_counts_concurrent bs hb).1 k v
  rw [hta] at h1
  rw [htb] at h2
  simp only [List.count_nil] at h1 h2
  have h3 := hi k v
  have h4 := hd k v
  obtain ⟨h1, g1⟩ := h1
  obtain ⟨h2, g2⟩ := h2
  cases e1 : (run as).map.count k v with
  | none =>
    cases e2 : (run bs).map.count k v with
    | none => rfl
    | some n =>
      rw [e1] at h1
      rw [e2] at h2 g2
      simp only [Option.getD_none, Option.getD_some] at h1 h2
      have : n = 0 := by omega
      exact absurd (by rw [this]) g2
  | some m =>
    rw [e1] at h1 g1
    cases e2 : (run bs).map.count k v with
    | none =>
      rw [e2] at h2
      simp only [Option.getD_none, Option.getD_some] at h1 h2
      have : m = 0 := by omega
      exact absurd (by rw [this]) g1
    | some n =>
      rw [e2] at h2
      simp only [Option.getD_some] at h1 h2
      congr 1; omega

/-- **C33, no underflow.** Whatever the schedule, also with decrements that have no matching
increment, no counter ever underflows: nothing panicked, and every counter that a decrement can meet is positive. -/
theorem C33_no_underflow (as : List MetaConc.Action) :
    (MetaConc.run as).panicked = false ∧ ∀ k v n, (MetaConc.run as).map.count k v = some n → 0 < n :=
  ⟨(MetaConc.safe_run as).noPanic, (MetaConc.safe_run as).pos⟩

example : (MetaConc.run [.startDec "a" 1, .startInc "a" 1, .advance 0, .startDec "a" 1,
    .startDec "a" 1]).panicked = false := by decide +kernel

end Opsqueue
