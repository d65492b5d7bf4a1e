import Verif.Model.Ids

/-! Arithmetic lemmas about the 64-bit conversions. -/

namespace Opsqueue.Ids

theorem toInt_toInt64_bmod (v : UInt64) : v.toInt64.toInt = (v.toNat : Int).bmod (2 ^ 64) :=
  BitVec.toInt_eq_toNat_bmod v.toBitVec

theorem toInt_toInt64 {v : UInt64} (h : v.toNat < 2 ^ 63) : v.toInt64.toInt = v.toNat := by
  rw [toInt_toInt64_bmod, Int.bmod_eq_of_le] <;> omega

theorem toNat_toUInt64 {v : Int64} (h : 0 ≤ v.toInt) : (v.toUInt64.toNat : Int) = v.toInt := by
  have h2 := toInt_toInt64 (v := v.toUInt64)
  have e : v.toUInt64.toInt64 = v := by simp
  rw [e] at h2
  by_cases hb : v.toUInt64.toNat < 2 ^ 63
  · exact (h2 hb).symm
  · exfalso
    have e2 : v.toInt = (v.toUInt64.toNat : Int).bmod (2 ^ 64) := by
      conv => lhs; rw [← e]
      exact toInt_toInt64_bmod _
    have hlt : v.toUInt64.toNat < 2 ^ 64 := v.toUInt64.toNat_lt
    have : (v.toUInt64.toNat : Int).bmod (2 ^ 64) < 0 := by
      rw [Int.bmod_def]; split <;> omega
    omega

theorem lt_zero_iff (v : Int64) : v < 0 ↔ v.toInt < 0 := by
  rw [Int64.lt_iff_toInt_lt]; simp

theorem le_u63Max_iff (v : UInt64) : v ≤ u63Max ↔ v.toNat < 2 ^ 63 := by
  rw [UInt64.le_iff_toNat_le]
  have : u63Max.toNat = 2 ^ 63 - 1 := by decide
  omega

theorem gt_u63Max_iff (v : UInt64) : v > u63Max ↔ 2 ^ 63 ≤ v.toNat := by
  show u63Max < v ↔ _
  rw [UInt64.lt_iff_toNat_lt]
  have : u63Max.toNat = 2 ^ 63 - 1 := by decide
  omega

theorem toUInt64_lt {v : Int64} (h : 0 ≤ v.toInt) : v.toUInt64.toNat < 2 ^ 63 := by
  have := toNat_toUInt64 h
  have h2 : v.toInt < 2 ^ 63 := v.toInt_lt
  omega

end Opsqueue.Ids

namespace Opsqueue.Ids

/-- Reading decimal digits, most significant first, starting from `a`. -/
def decimalFrom (a : Nat) (cs : List Char) : Nat := cs.foldl (fun a c => 10 * a + (c.toNat - 48)) a

theorem le_decimalFrom (cs : List Char) : ∀ a, a ≤ decimalFrom a cs := by
  induction cs with
  | nil => intro a; exact Nat.le_refl _
  | cons c cs ih =>
    intro a
    have := ih (10 * a + (c.toNat - 48))
    have e : decimalFrom a (c :: cs) = decimalFrom (10 * a + (c.toNat - 48)) cs := rfl
    omega

theorem pushDigit_eq (a d : UInt64) :
    (∀ r, pushDigit a d = some r → r.toNat = 10 * a.toNat + d.toNat) ∧
    (10 * a.toNat + d.toNat < 2 ^ 64 → ∃ r, pushDigit a d = some r) := by
  unfold pushDigit
  constructor
  · intro r h
    split at h
    · rename_i hlt
      cases h
      rw [UInt64.toNat_add, UInt64.toNat_mul]
      have : (10 : UInt64).toNat = 10 := rfl
      rw [this, Nat.mod_add_mod, Nat.mod_eq_of_lt hlt, Nat.mul_comm]
    · cases h
  · intro h
    rw [if_pos (by omega)]
    exact ⟨_, rfl⟩

theorem digitsLoop_sound (cs : List Char) : ∀ a v, digitsLoop a cs = some v →
    (∀ c ∈ cs, 48 ≤ c.toNat ∧ c.toNat ≤ 57) ∧ v.toNat = decimalFrom a.toNat cs := by
  induction cs with
  | nil => intro a v h; cases h; exact ⟨by simp, rfl⟩
  | cons c cs ih =>
    intro a v h
    unfold digitsLoop at h
    cases hd : digit? c with
    | none => rw [hd] at h; cases h
    | some d =>
      rw [hd] at h
      dsimp only at h
      unfold digit? at hd
      split at hd
      · rename_i hr
        cases hd
        cases hp : pushDigit a (UInt64.ofNat (c.toNat - 48)) with
        | none => rw [hp] at h; cases h
        | some r =>
          rw [hp] at h
          have ⟨h1, h2⟩ := ih r v h
          refine ⟨?_, ?_⟩
          · intro x hx
            rcases List.mem_cons.1 hx with rfl | hx
            · exact hr
            · exact h1 x hx
          · rw [h2, (pushDigit_eq _ _).1 r hp]
            have : (UInt64.ofNat (c.toNat - 48)).toNat = c.toNat - 48 := by
              rw [UInt64.toNat_ofNat']; apply Nat.mod_eq_of_lt; omega
            rw [this]; rfl
      · cases hd

theorem digitsLoop_complete (cs : List Char) : ∀ a : UInt64,
    (∀ c ∈ cs, 48 ≤ c.toNat ∧ c.toNat ≤ 57) → decimalFrom a.toNat cs < 2 ^ 64 →
    ∃ v, digitsLoop a cs = some v := by
  induction cs with
  | nil => intro a _ _; exact ⟨a, rfl⟩
  | cons c cs ih =>
    intro a hd hlt
    have hc := hd c List.mem_cons_self
    have e : decimalFrom a.toNat (c :: cs) = decimalFrom (10 * a.toNat + (c.toNat - 48)) cs := rfl
    have hle := le_decimalFrom cs (10 * a.toNat + (c.toNat - 48))
    have hn : (UInt64.ofNat (c.toNat - 48)).toNat = c.toNat - 48 := by
      rw [UInt64.toNat_ofNat']; apply Nat.mod_eq_of_lt; omega
    obtain ⟨r, hr⟩ := (pushDigit_eq a (UInt64.ofNat (c.toNat - 48))).2 (by rw [hn]; omega)
    have hr' := (pushDigit_eq _ _).1 r hr
    rw [hn] at hr'
    obtain ⟨v, hv⟩ := ih r (fun x hx => hd x (List.mem_cons_of_mem _ hx)) (by rw [hr', ← e]; exact hlt)
    refine ⟨v, ?_⟩
    unfold digitsLoop digit?
    rw [if_pos hc]
    dsimp only
    rw [hr]; exact hv

end Opsqueue.Ids
