import Verif.Spec.Startup
import Verif.Proofs.Endpoints

/-!
# Starting the server
-/

namespace Opsqueue.Startup
open Decimal

theorem parseLoop_denotes (ds : List Char) (n : Nat) :
    (ds ≠ [] ∧ parseLoop 0 ds = some n) ↔ (∀ cs, ds ≠ '+' :: cs) ∧ Denotes ds n := by
  rw [← parse_iff]
  cases ds with
  | nil => simp [parse]
  | cons c cs =>
    by_cases hc : c = '+'
    · subst hc
      have : parseLoop 0 ('+' :: cs) = none := by
        unfold parseLoop
        rw [show digit? '+' = none by decide]
      rw [this]
      simp
    · have : parse (c :: cs) = parseLoop 0 (c :: cs) := by
        unfold parse
        split <;> simp_all
      rw [this]
      simp [hc]

theorem parseI32_iff (text : List Char) (z : Int) :
    parseI32 text = some z ↔ DenotesInt text z ∧ -2 ^ 31 ≤ z ∧ z < 2 ^ 31 := by
  by_cases hm : ∃ ds, text = '-' :: ds
  · obtain ⟨ds, rfl⟩ := hm
    have no : ∀ m, ¬ Denotes ('-' :: ds) m := by
      rintro m ⟨es, h1, h2, h3, _⟩
      rcases h1 with rfl | h1
      · have := h3 '-' (by simp)
        revert this
        decide
      · injection h1 with h1
        revert h1
        decide
    have e : DenotesInt ('-' :: ds) z ↔ ∃ m : Nat, (ds ≠ [] ∧ parseLoop 0 ds = some m) ∧ z = -m := by
      constructor
      · rintro (⟨m, h, _⟩ | ⟨ds', m, h1, h2, h3, h4⟩)
        · exact absurd h (no m)
        · injection h1 with _ h1
          subst h1
          exact ⟨m, (parseLoop_denotes ds m).mpr ⟨h2, h3⟩, h4⟩
      · rintro ⟨m, h1, h2⟩
        obtain ⟨h3, h4⟩ := (parseLoop_denotes ds m).mp h1
        exact .inr ⟨ds, m, rfl, h3, h4, h2⟩
    rw [e]
    cases ds with
    | nil => simp [parseI32]
    | cons c cs =>
      simp only [parseI32]
      cases hl : parseLoop 0 (c :: cs) with
      | none => simp
      | some n =>
        simp only [ne_eq, reduceCtorEq, not_false_eq_true, true_and, Option.some.injEq]
        by_cases hn : n ≤ 2 ^ 31
        · rw [if_pos hn]
          constructor
          · intro h
            injection h with h
            exact ⟨⟨n, rfl, h.symm⟩, by omega, by omega⟩
          · rintro ⟨⟨m, rfl, hz⟩, -⟩
            rw [hz]
        · rw [if_neg hn]
          simp only [reduceCtorEq, false_iff]
          rintro ⟨⟨m, rfl, hz⟩, h1, h2⟩
          omega
  · have e : DenotesInt text z ↔ ∃ m : Nat, parse text = some m ∧ z = m := by
      constructor
      · rintro (⟨m, h, h'⟩ | ⟨ds, m, h, _⟩)
        · exact ⟨m, (parse_iff text m).mpr h, h'⟩
        · exact absurd ⟨ds, h⟩ hm
      · rintro ⟨m, h, h'⟩
        exact .inl ⟨m, (parse_iff text m).mp h, h'⟩
    rw [e]
    have hp : parseI32 text = match parse text with
        | some n => if n < 2 ^ 31 then some (n : Int) else none
        | none => none := by
      unfold parseI32
      split
      · rename_i cs
        exact absurd ⟨cs, rfl⟩ hm
      · rfl
    rw [hp]
    cases parse text with
    | none => simp
    | some n =>
      simp only [Option.some.injEq]
      by_cases hn : n < 2 ^ 31
      · rw [if_pos hn]
        constructor
        · intro h
          injection h with h
          exact ⟨⟨n, rfl, h.symm⟩, by omega, by omega⟩
        · rintro ⟨⟨m, rfl, hz⟩, -⟩
          rw [hz]
      · rw [if_neg hn]
        simp only [reduceCtorEq, false_iff]
        rintro ⟨⟨m, rfl, hz⟩, h1, h2⟩
        omega

/-- What the file descriptor looks like after the attempts before `i`, if the pipe has been taken: it is closed, and the
bytes are those of the first address that was known. -/
def Told (attempts : Nat → Attempt) (i : Nat) (fd : Fd) : Prop :=
  ∃ j < i, (∀ k < j, (attempts k).bind = none ∨ (attempts k).localAddr = none) ∧ (attempts j).bind ≠ none ∧
    ∃ p, (attempts j).localAddr = some p ∧ fd = ({} : Fd).writePort p (attempts j).accepted

/-- The invariant: nothing known yet and nothing done, or told. -/
def Inv (attempts : Nat → Attempt) (i : Nat) (s : State) : Prop :=
  (s.pipe = true ∧ s.fd = {} ∧ ∀ k < i, (attempts k).bind = none ∨ (attempts k).localAddr = none) ∨
  (s.pipe = false ∧ Told attempts i s.fd)

theorem attempt_inv (attempts : Nat → Attempt) (i : Nat) (s : State) (h : Inv attempts i s) :
    Inv attempts (i + 1) (attempt (attempts i) s).2 := by
  have told_mono : ∀ fd, Told attempts i fd → Told attempts (i + 1) fd := by
    rintro fd ⟨j, hj, h⟩
    exact ⟨j, by omega, h⟩
  unfold attempt
  cases hb : (attempts i).bind with
  | none =>
    rcases h with ⟨h1, h2, h3⟩ | ⟨h1, h2⟩
    · refine .inl ⟨h1, h2, fun k hk => ?_⟩
      by_cases hki : k = i
      · exact .inl (hki ▸ hb)
      · exact h3 k (by omega)
    · exact .inr ⟨h1, told_mono _ h2⟩
  | some port =>
    simp only
    have core : ∀ l, Inv attempts (i + 1) { (match (attempts i).localAddr with
        | some p => ({ s with listening := some port } : State).tell p (attempts i).accepted
        | none => { s with listening := some port }) with listening := l } := by
      intro l
      cases hl : (attempts i).localAddr with
      | none =>
        rcases h with ⟨h1, h2, h3⟩ | ⟨h1, h2⟩
        · refine .inl ⟨h1, h2, fun k hk => ?_⟩
          by_cases hki : k = i
          · exact .inr (hki ▸ hl)
          · exact h3 k (by omega)
        · exact .inr ⟨h1, told_mono _ h2⟩
      | some p =>
        rcases h with ⟨h1, h2, h3⟩ | ⟨h1, h2⟩
        · simp only [State.tell, h1, if_true]
          exact .inr ⟨rfl, i, by omega, h3, by rw [hb]; simp, p, hl, by rw [h2]⟩
        · simp only [State.tell, h1, Bool.false_eq_true, if_false]
          exact .inr ⟨rfl, told_mono _ h2⟩
    cases hs : (attempts i).serve with
    | none => exact core _
    | some r => exact core _

/-- What can have happened when the loop has ended, or serves. -/
theorem serveLoop_spec (attempts : Nat → Attempt) : ∀ (left i : Nat) (s : State), Inv attempts i s →
    ∃ j s', i ≤ j ∧ j ≤ i + left ∧ (serveLoop attempts left i s).2.2 = j + 1 ∧ Inv attempts j s' ∧
      (∀ k, i ≤ k → k < j → (attempts k).bind = none ∨ (attempts k).serve = some (.error ())) ∧
      ((∃ p, (attempts j).bind = some p ∧ (attempts j).serve ≠ some (.error ()) ∧
          (serveLoop attempts left i s).1 = (attempts j).serve ∧
          (serveLoop attempts left i s).2.1 = (attempt (attempts j) s').2 ∧
          ((attempts j).serve = none → (serveLoop attempts left i s).2.1.listening = some p)) ∨
       (j = i + left ∧ ((attempts j).bind = none ∨ (attempts j).serve = some (.error ())) ∧
          (serveLoop attempts left i s).1 = some (.error ()) ∧
          (serveLoop attempts left i s).2.1.fd.isOpen = false ∧
          ((attempt (attempts j) s').2.pipe = true → (serveLoop attempts left i s).2.1.fd.written = []) ∧
          ((attempt (attempts j) s').2.pipe = false →
            (serveLoop attempts left i s).2.1 = (attempt (attempts j) s').2))) := by
  intro left
  induction left with
  | zero =>
    intro i s h
    have hi := attempt_inv attempts i s h
    rw [serveLoop]
    cases hb : (attempts i).bind with
    | none =>
      have ea : attempt (attempts i) s = (some (.error ()), s) := by unfold attempt; rw [hb]
      rw [ea] at hi ⊢
      refine ⟨i, s, by omega, by omega, rfl, h, by intro k h1 h2; omega, .inr ⟨rfl, .inl hb, rfl, ?_, ?_, ?_⟩⟩
      · rcases hi with ⟨h1, h2, _⟩ | ⟨h1, j, _, _, _, p, _, h3⟩
        · simp only at h1; simp [h1]
        · simp only at h1 h3; simp [h1, h3, Fd.writePort]
      · rw [ea]
        intro hp
        rcases hi with ⟨h1, h2, _⟩ | ⟨h1, _⟩
        · simp only at h1 h2; simp [h1, h2]
        · simp only at hp; rw [h1] at hp; cases hp
      · rw [ea]
        intro hp
        simp only at hp
        simp [hp]
    | some port =>
      cases hs : (attempts i).serve with
      | none =>
        obtain ⟨s1, ea, el⟩ : ∃ s1, attempt (attempts i) s = (none, s1) ∧ s1.listening = some port := by
          unfold attempt
          rw [hb, hs]
          refine ⟨_, rfl, ?_⟩
          cases (attempts i).localAddr with
          | none => rfl
          | some p => simp only [State.tell]; split <;> rfl
        refine ⟨i, s, by omega, by omega, by rw [ea], h, by intro k h1 h2; omega, .inl ⟨port, hb, by simp [hs], ?_⟩⟩
        rw [ea]
        exact ⟨hs.symm ▸ rfl, rfl, fun _ => el⟩
      | some r =>
        obtain ⟨s1, ea⟩ : ∃ s1, attempt (attempts i) s = (some r, s1) := by
          unfold attempt
          rw [hb, hs]
          exact ⟨_, rfl⟩
        cases r with
        | ok u =>
          refine ⟨i, s, by omega, by omega, by rw [ea], h, by intro k h1 h2; omega, .inl ⟨port, hb, by simp [hs], ?_⟩⟩
          rw [ea]
          exact ⟨hs.symm ▸ rfl, rfl, by rw [hs]; simp⟩
        | error u =>
          rw [ea] at hi ⊢
          refine ⟨i, s, by omega, by omega, rfl, h, by intro k h1 h2; omega, .inr ⟨rfl, .inr hs, rfl, ?_, ?_, ?_⟩⟩
          · rcases hi with ⟨h1, h2, _⟩ | ⟨h1, j, _, _, _, p, _, h3⟩
            · simp only at h1; simp [h1]
            · simp only at h1 h3; simp [h1, h3, Fd.writePort]
          · rw [ea]
            intro hp
            rcases hi with ⟨h1, h2, _⟩ | ⟨h1, _⟩
            · simp only at h1 h2; simp [h1, h2]
            · simp only at hp h1; rw [h1] at hp; cases hp
          · rw [ea]
            intro hp
            simp only at hp
            simp [hp]
  | succ left ih =>
    intro i s h
    have hi := attempt_inv attempts i s h
    have again : ((attempts i).bind = none ∨ (attempts i).serve = some (.error ())) → ∀ s1 u,
        attempt (attempts i) s = (some (.error u), s1) →
        ∃ j s', i ≤ j ∧ j ≤ i + (left + 1) ∧ (serveLoop attempts (left + 1) i s).2.2 = j + 1 ∧ Inv attempts j s' ∧
          (∀ k, i ≤ k → k < j → (attempts k).bind = none ∨ (attempts k).serve = some (.error ())) ∧
          ((∃ p, (attempts j).bind = some p ∧ (attempts j).serve ≠ some (.error ()) ∧
              (serveLoop attempts (left + 1) i s).1 = (attempts j).serve ∧
              (serveLoop attempts (left + 1) i s).2.1 = (attempt (attempts j) s').2 ∧
              ((attempts j).serve = none → (serveLoop attempts (left + 1) i s).2.1.listening = some p)) ∨
           (j = i + (left + 1) ∧ ((attempts j).bind = none ∨ (attempts j).serve = some (.error ())) ∧
              (serveLoop attempts (left + 1) i s).1 = some (.error ()) ∧
              (serveLoop attempts (left + 1) i s).2.1.fd.isOpen = false ∧
              ((attempt (attempts j) s').2.pipe = true → (serveLoop attempts (left + 1) i s).2.1.fd.written = []) ∧
              ((attempt (attempts j) s').2.pipe = false →
                (serveLoop attempts (left + 1) i s).2.1 = (attempt (attempts j) s').2))) := by
      intro hbad s1 u ea
      rw [ea] at hi
      have e : serveLoop attempts (left + 1) i s = serveLoop attempts left (i + 1) s1 := by
        rw [serveLoop]
        simp only [ea]
      rw [e]
      obtain ⟨j, s', h1, h2, h3, h4, h5, h6⟩ := ih (i + 1) s1 hi
      refine ⟨j, s', by omega, by omega, h3, h4, ?_, ?_⟩
      · intro k hk1 hk2
        by_cases hki : k = i
        · rw [hki]; exact hbad
        · exact h5 k (by omega) hk2
      · rcases h6 with h6 | ⟨h6, h7⟩
        · exact .inl h6
        · exact .inr ⟨by omega, h7⟩
    cases hb : (attempts i).bind with
    | none => exact again (.inl hb) s () (by unfold attempt; rw [hb])
    | some port =>
      cases hs : (attempts i).serve with
      | none =>
        obtain ⟨s1, ea, el⟩ : ∃ s1, attempt (attempts i) s = (none, s1) ∧ s1.listening = some port := by
          unfold attempt
          rw [hb, hs]
          refine ⟨_, rfl, ?_⟩
          cases (attempts i).localAddr with
          | none => rfl
          | some p => simp only [State.tell]; split <;> rfl
        refine ⟨i, s, by omega, by omega, by rw [serveLoop, ea], h, by intro k h1 h2; omega,
          .inl ⟨port, hb, by simp [hs], ?_⟩⟩
        rw [serveLoop, ea]
        exact ⟨hs.symm ▸ rfl, rfl, fun _ => el⟩
      | some r =>
        obtain ⟨s1, ea⟩ : ∃ s1, attempt (attempts i) s = (some r, s1) := by
          unfold attempt
          rw [hb, hs]
          exact ⟨_, rfl⟩
        cases r with
        | ok u =>
          refine ⟨i, s, by omega, by omega, by rw [serveLoop, ea], h, by intro k h1 h2; omega,
            .inl ⟨port, hb, by simp [hs], ?_⟩⟩
          rw [serveLoop, ea]
          exact ⟨hs.symm ▸ rfl, rfl, by rw [hs]; simp⟩
        | error u => exact again (.inr hs) s1 u ea

end Opsqueue.Startup
