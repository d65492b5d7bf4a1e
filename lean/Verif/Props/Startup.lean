import Verif.Spec.Startup
import Verif.Proofs.Startup

/-!
# C78: starting the server, and telling the port
-/

namespace Opsqueue.Startup
open Decimal

/-! ## The argument -/

/-- **C78, the argument.** A file descriptor is taken from the argument exactly if it is a numeral of an integer that
fits 32 bits and is not negative; -1 stands for no pipe; everything else is refused. -/
theorem C78_argument (text : List Char) :
    (∀ n : Nat, parseReportBoundPortFd text = .fd n ↔ DenotesInt text n ∧ n < 2 ^ 31) ∧
    (parseReportBoundPortFd text = .none ↔ DenotesInt text (-1)) := by
  have key := parseI32_iff text
  unfold parseReportBoundPortFd
  cases hp : parseI32 text with
  | none =>
    refine ⟨fun n => ?_, ?_⟩
    · simp only [reduceCtorEq, false_iff]
      rintro ⟨h1, h2⟩
      have := (key n).mpr ⟨h1, by omega, by omega⟩
      rw [hp] at this
      cases this
    · simp only [reduceCtorEq, false_iff]
      intro h1
      have := (key (-1)).mpr ⟨h1, by omega, by omega⟩
      rw [hp] at this
      cases this
  | some z =>
    have only : ∀ y : Int, DenotesInt text y → -2 ^ 31 ≤ y → y < 2 ^ 31 → y = z := by
      intro y h1 h2 h3
      have := (key y).mpr ⟨h1, h2, h3⟩
      rw [hp] at this
      injection this with this
      exact this.symm
    obtain ⟨hz, hz1, hz2⟩ := (key z).mp hp
    simp only
    by_cases h1 : z = -1
    · rw [if_pos h1]
      refine ⟨fun n => ?_, by simpa [h1] using h1 ▸ hz⟩
      simp only [reduceCtorEq, false_iff]
      rintro ⟨h2, h3⟩
      have := only n h2 (by omega) (by omega)
      omega
    · rw [if_neg h1]
      have nm : ¬ DenotesInt text (-1) := fun h => h1 (only (-1) h (by omega) (by omega)).symm
      by_cases h2 : z < 0
      · rw [if_pos h2]
        refine ⟨fun n => ?_, by simp [nm]⟩
        simp only [reduceCtorEq, false_iff]
        rintro ⟨h3, h4⟩
        have := only n h3 (by omega) (by omega)
        omega
      · rw [if_neg h2]
        refine ⟨fun n => ?_, by simp [nm]⟩
        constructor
        · intro h
          injection h with h
          have : (n : Int) = z := by omega
          exact ⟨this ▸ hz, by omega⟩
        · rintro ⟨h3, h4⟩
          have := only n h3 (by omega) (by omega)
          congr 1
          omega

example : ["7", "+7", "-0", "-1", "-01", "-2", "", "-", "+", "3x", "2147483647", "2147483648"].map
    (fun s => parseReportBoundPortFd s.toList) =
    [.fd 7, .fd 7, .fd 0, .none, .none, .refused, .refused, .refused, .refused, .refused, .fd 2147483647, .refused] := by
  decide +kernel

/-! ## What is written to the pipe -/

/-- **C78, at most one port.** Whatever happens: on the pipe there is nothing, or the beginning of one port number, that
of the first address the server listened on and could find out. Once something is there the server does not hold the pipe
open. -/
theorem C78_at_most_one (attempts : Nat → Attempt) :
    let fd := (serve attempts).2.1.fd
    fd.written = [] ∨
    (fd.isOpen = false ∧ ∃ j p, (∀ k < j, (attempts k).bind = none ∨ (attempts k).localAddr = none) ∧
      (attempts j).bind ≠ none ∧ (attempts j).localAddr = some p ∧
      fd.written <+: [UInt8.ofNat (p / 256), UInt8.ofNat (p % 256)]) := by
  have h0 : Inv attempts 0 { pipe := true } := .inl ⟨rfl, rfl, by intro k hk; omega⟩
  obtain ⟨j, s', -, -, -, hi, -, h⟩ := serveLoop_spec attempts maxRetries 0 _ h0
  have hi' := attempt_inv attempts j s' hi
  have fin : Inv attempts (j + 1) (attempt (attempts j) s').2 → ∀ fd, fd = (attempt (attempts j) s').2.fd →
      fd.written = [] ∨
      (fd.isOpen = false ∧ ∃ j p, (∀ k < j, (attempts k).bind = none ∨ (attempts k).localAddr = none) ∧
        (attempts j).bind ≠ none ∧ (attempts j).localAddr = some p ∧
        fd.written <+: [UInt8.ofNat (p / 256), UInt8.ofNat (p % 256)]) := by
    rintro (⟨-, h2, -⟩ | ⟨-, k, -, h3, h4, p, h5, h6⟩) fd rfl
    · rw [h2]; exact .inl rfl
    · rw [h6]
      refine .inr ⟨rfl, k, p, h3, h4, h5, ?_⟩
      simp only [Fd.writePort, List.nil_append]
      exact List.take_prefix _ _
  rcases h with ⟨p, -, -, -, h, -⟩ | ⟨-, -, -, -, h, h'⟩
  · exact fin hi' _ (by unfold serve; rw [h])
  · cases hp : (attempt (attempts j) s').2.pipe with
    | true => exact .inl (h hp)
    | false => exact fin hi' _ (by unfold serve; rw [h' hp])

/-- **C78, the port is told.** If binding fails a few times and then succeeds within the eleven attempts, the parent
process reads the port the server listens on, and the pipe is closed behind it. -/
theorem C78_told (attempts : Nat → Attempt) (k : Nat) (hk : k ≤ 10) (hfail : ∀ i < k, (attempts i).bind = none)
    (p : Nat) (hp : p < 2 ^ 16) (hb : (attempts k).bind = some p) (ha : (attempts k).localAddr = some p)
    (hw : 2 ≤ (attempts k).accepted) (hs : (attempts k).serve = none) :
    (serve attempts).1 = none ∧ (serve attempts).2.1.listening = some p ∧ (serve attempts).2.1.fd.read = .port p ∧
    (serve attempts).2.1.fd.isOpen = false ∧ (serve attempts).2.2 = k + 1 := by
  have h0 : Inv attempts 0 { pipe := true } := .inl ⟨rfl, rfl, by intro k hk; omega⟩
  obtain ⟨j, s', -, hj, hn, hi, hbad, h⟩ := serveLoop_spec attempts maxRetries 0 _ h0
  have hj' : j = k := by
    rcases Nat.lt_trichotomy j k with h1 | h1 | h1
    · rcases h with ⟨q, h2, _⟩ | ⟨h2, _⟩
      · rw [hfail j h1] at h2; cases h2
      · simp only [maxRetries] at h2; omega
    · exact h1
    · rcases hbad k (by omega) h1 with h2 | h2
      · rw [hb] at h2; cases h2
      · rw [hs] at h2; cases h2
  subst hj'
  have hs' : s'.pipe = true ∧ s'.fd = {} := by
    rcases hi with ⟨h1, h2, _⟩ | ⟨_, i, h1, _, h2, _⟩
    · exact ⟨h1, h2⟩
    · exact absurd (hfail i h1) h2
  rcases h with ⟨q, h1, -, h2, h3, h4⟩ | ⟨-, h1 | h1, -⟩
  · unfold serve
    rw [hb] at h1
    injection h1 with h1
    subst h1
    refine ⟨h2.trans hs, h4 hs, ?_, ?_, hn⟩
    all_goals
      rw [h3]
      unfold attempt
      simp only [hb, ha, hs, State.tell, hs'.1, hs'.2, if_true, Fd.writePort, List.nil_append]
    rw [List.take_of_length_le (by simpa using hw)]
    simp only [Fd.read]
    congr 1
    have e1 : (UInt8.ofNat (p / 256)).toNat = p / 256 := by simp; omega
    have e2 : (UInt8.ofNat (p % 256)).toNat = p % 256 := by simp
    rw [e1, e2]
    omega
  · rw [hb] at h1; cases h1
  · rw [hs] at h1; cases h1

/-- The port is taken twice, then it is free. -/
example :
    let attempts : Nat → Attempt := fun i => if i < 2 then ⟨none, none, 2, none⟩ else ⟨some 3999, some 3999, 2, none⟩
    (serve attempts).1 = none ∧ (serve attempts).2.1.fd = ⟨[15, 159], false⟩ ∧ (serve attempts).2.2 = 3 ∧
    (serve attempts).2.1.fd.read = .port 3999 := by
  decide +kernel

/-- **C78, giving up.** The server ends with an error exactly if each of eleven attempts failed; then the pipe is closed,
so that a parent process reading from it does not wait. If no attempt could bind, nothing was written. -/
theorem C78_gives_up (attempts : Nat → Attempt) :
    ((serve attempts).1 = some (.error ()) ↔
      ∀ i < 11, (attempts i).bind = none ∨ (attempts i).serve = some (.error ())) ∧
    ((serve attempts).1 = some (.error ()) →
      (serve attempts).2.1.fd.isOpen = false ∧ (serve attempts).2.2 = 11 ∧
      ((∀ i < 11, (attempts i).bind = none) → (serve attempts).2.1.fd.written = [])) := by
  have h0 : Inv attempts 0 { pipe := true } := .inl ⟨rfl, rfl, by intro k hk; omega⟩
  obtain ⟨j, s', -, hj, hn, hi, hbad, h⟩ := serveLoop_spec attempts maxRetries 0 _ h0
  simp only [maxRetries] at hj
  rcases h with ⟨p, h1, h2, h3, -⟩ | ⟨h1, h2, h3, h4, h5, h6⟩
  · have hne : (serve attempts).1 ≠ some (.error ()) := by
      unfold serve; rw [h3]; exact h2
    refine ⟨⟨fun h => absurd h hne, fun h => ?_⟩, fun h => absurd h hne⟩
    rcases h j (by omega) with h | h
    · rw [h1] at h; cases h
    · exact absurd h h2
  · simp only [maxRetries] at h1
    refine ⟨⟨fun _ i hi => ?_, fun _ => h3⟩, fun _ => ⟨h4, by unfold serve; rw [hn]; omega, fun hall => ?_⟩⟩
    · by_cases hij : i = j
      · rw [hij]; exact h2
      · exact hbad i (by omega) (by omega)
    · refine h5 ?_
      rcases attempt_inv attempts j s' hi with ⟨h, -⟩ | ⟨-, i, hi, -, hb, -⟩
      · exact h
      · exact absurd (hall i (by omega)) hb

/-- **C78, listening.** The server listens exactly while it serves. -/
theorem C78_listens (attempts : Nat → Attempt) :
    (serve attempts).2.1.listening = none ↔ (serve attempts).1 ≠ none := by
  have key : ∀ left i s, s.listening = none →
      ((serveLoop attempts left i s).2.1.listening = none ↔ (serveLoop attempts left i s).1 ≠ none) := by
    have one : ∀ a s, s.listening = none → ((attempt a s).2.listening = none ↔ (attempt a s).1 ≠ none) := by
      intro a s hs
      unfold attempt
      split
      · simp [hs]
      · dsimp only
        split <;> split <;> simp [State.tell] <;> split <;> simp
    intro left
    induction left with
    | zero =>
      intro i s hs
      have h1 := one (attempts i) s hs
      rw [serveLoop.eq_def]
      dsimp only
      split <;> rename_i h <;> rw [h] at h1
      · exact h1
      · simpa using h1
      · dsimp only
        split <;> simpa using h1
    | succ left ih =>
      intro i s hs
      have h1 := one (attempts i) s hs
      rw [serveLoop.eq_def]
      dsimp only
      split <;> rename_i h <;> rw [h] at h1
      · exact h1
      · simpa using h1
      · exact ih (i + 1) _ (by simpa using h1)
  exact key _ _ _ rfl

example :
    let attempts : Nat → Attempt := fun _ => ⟨none, none, 2, none⟩
    (serve attempts).1 = some (.error ()) ∧ (serve attempts).2.1.fd = ⟨[], false⟩ ∧
    (serve attempts).2.1.fd.read = .closed ∧ (serve attempts).2.2 = 11 := by
  decide +kernel

/-! ## What the parent process would like to rely on -/

/-- The full claim: while the server is serving, the parent process reads the port it is listening on, and the pipe is
closed; if the server ends with an error, the pipe is closed and nothing was written. -/
def C78_full : Prop :=
  ∀ attempts : Nat → Attempt,
    ((serve attempts).1 = none → (serve attempts).2.1.fd.isOpen = false ∧
      ∃ p, (serve attempts).2.1.listening = some p ∧ (serve attempts).2.1.fd.read = .port p) ∧
    ((serve attempts).1 = some (.error ()) → (serve attempts).2.1.fd = { written := [], isOpen := false })

/-- **C78, refuted.** When the address of the bound socket cannot be found out, the server serves, but the pipe is neither
written nor closed: the parent process waits as long as the server runs. -/
theorem C78_refuted_address_unknown :
    ∃ attempts : Nat → Attempt, (∀ i, (attempts i).bind = some 3999) ∧ (serve attempts).1 = none ∧
      (serve attempts).2.1.listening = some 3999 ∧ (serve attempts).2.1.fd.read = .waits := by
  refine ⟨fun _ => ⟨some 3999, none, 2, none⟩, fun _ => rfl, ?_⟩
  decide +kernel

/-- **C78, refuted.** When serving fails after the port has been told, and the server was started on port 0 ("any"), the
next attempt listens on another port, of which the parent process is not told. -/
theorem C78_refuted_stale_port :
    ∃ attempts : Nat → Attempt, (∀ i, (attempts i).localAddr = (attempts i).bind) ∧ (∀ i, (attempts i).accepted = 2) ∧
      (serve attempts).1 = none ∧ (serve attempts).2.1.listening = some 40001 ∧
      (serve attempts).2.1.fd.read = .port 40000 := by
  refine ⟨fun i => if i = 0 then ⟨some 40000, some 40000, 2, some (.error ())⟩ else ⟨some 40001, some 40001, 2, none⟩,
    fun i => ?_, fun i => ?_, ?_⟩
  · simp only; split <;> rfl
  · simp only; split <;> rfl
  · decide +kernel

/-- **C78, refuted.** When the port could not be written, only a warning is logged: the server serves, and the parent
process finds the pipe closed, as if the server could not start. -/
theorem C78_refuted_write_failed :
    ∃ attempts : Nat → Attempt, (∀ i, (attempts i).bind = some 3999 ∧ (attempts i).localAddr = some 3999) ∧
      (serve attempts).1 = none ∧ (serve attempts).2.1.listening = some 3999 ∧
      (serve attempts).2.1.fd.read = .closed := by
  refine ⟨fun _ => ⟨some 3999, some 3999, 0, none⟩, fun _ => ⟨rfl, rfl⟩, ?_⟩
  decide +kernel

theorem C78_refuted_full : ¬ C78_full := by
  intro h
  obtain ⟨a, -, h1, -, h2⟩ := C78_refuted_address_unknown
  obtain ⟨-, p, -, h3⟩ := (h a).1 h1
  rw [h2] at h3
  cases h3

/-- **C78, partial.** With an operating system that behaves, while the server is serving the pipe is closed and the parent
process reads the port the server listens on, or the write failed and it reads nothing; when the server ends with an
error, the pipe is closed and nothing was written.

Missing, compared to `C78_full`: what happens when the address of the bound socket cannot be found out, when writing to
the pipe fails, and when serving itself fails. -/
theorem C78_partial (attempts : Nat → Attempt) (ho : ∀ i, (attempts i).Orderly) :
    ((serve attempts).1 = none → (serve attempts).2.1.fd.isOpen = false ∧
      ∃ p, (serve attempts).2.1.listening = some p ∧
        ((serve attempts).2.1.fd.read = .port p ∨
          ((attempts ((serve attempts).2.2 - 1)).accepted = 0 ∧ (serve attempts).2.1.fd.read = .closed))) ∧
    ((serve attempts).1 = some (.error ()) → (serve attempts).2.1.fd = { written := [], isOpen := false }) := by
  have h0 : Inv attempts 0 { pipe := true } := .inl ⟨rfl, rfl, by intro k hk; omega⟩
  obtain ⟨j, s', -, hj, hn, hi, hbad, h⟩ := serveLoop_spec attempts maxRetries 0 _ h0
  have hfail : ∀ i < j, (attempts i).bind = none := by
    intro i hij
    rcases hbad i (by omega) hij with h | h
    · exact h
    · exact absurd h (ho i).2.2
  rcases h with ⟨p, h1, h2, h3, h4, h5⟩ | ⟨h1, h2, h3, h4, h5, h6⟩
  · refine ⟨fun hs => ?_, fun he => ?_⟩
    · have hsv : (attempts j).serve = none := h3.symm.trans hs
      have hla := ((ho j).1 p h1)
      have hs' : s'.pipe = true ∧ s'.fd = {} := by
        rcases hi with ⟨h1, h2, _⟩ | ⟨_, i, h1, _, h2, _⟩
        · exact ⟨h1, h2⟩
        · exact absurd (hfail i h1) h2
      rcases (ho j).2.1 with hw | hw
      · refine ⟨?_, p, h5 hsv, .inr ⟨?_, ?_⟩⟩
        · unfold serve
          rw [h4]
          unfold attempt
          simp only [h1, hla.2, hsv, State.tell, hs'.1, hs'.2, if_true, Fd.writePort]
        · unfold serve
          rw [hn]
          exact hw
        · unfold serve
          rw [h4]
          unfold attempt
          simp [h1, hla.2, hsv, State.tell, hs'.1, hs'.2, Fd.writePort, hw, Fd.read]
      · have := C78_told attempts j (by simpa [maxRetries] using hj) hfail p hla.1 h1 hla.2 hw hsv
        exact ⟨this.2.2.2.1, p, h5 hsv, .inl this.2.2.1⟩
    · exact absurd (h3.symm.trans he) h2
  · refine ⟨fun hs => ?_, fun he => ?_⟩
    · exact absurd (h3.symm.trans hs) (by simp)
    · have hb : (attempts j).bind = none := by
        rcases h2 with h | h
        · exact h
        · exact absurd h (ho j).2.2
      have hp : (attempt (attempts j) s').2.pipe = true := by
        rcases attempt_inv attempts j s' hi with ⟨h, -⟩ | ⟨-, i, hi, -, hb', -⟩
        · exact h
        · by_cases hij : i = j
          · exact absurd (hij ▸ hb) hb'
          · exact absurd (hfail i (by omega)) hb'
      have e1 : (serve attempts).2.1.fd.isOpen = false := h4
      have e2 : (serve attempts).2.1.fd.written = [] := h5 hp
      cases hfd : (serve attempts).2.1.fd with
      | mk w o =>
        rw [hfd] at e1 e2
        simp only at e1 e2
        rw [e1, e2]

example : ∀ i : Nat, ((fun i => if i < 2 then ⟨none, none, 2, none⟩ else ⟨some 3999, some 3999, 2, none⟩ :
    Nat → Attempt) i).Orderly := by
  intro i
  by_cases h : i < 2 <;> simp [h, Attempt.Orderly]

end Opsqueue.Startup
