import Verif.Spec.Numerals
import Verif.Proofs.Ids
import Verif.Spec.Observe

/-!
# C50, C51: identifiers and limits at machine width

`UInt64.toNat` and `Int64.toInt` give the number a machine integer stands for.
-/

namespace Opsqueue
open Ids

/-- C50 for submission ids: from unsigned values, from signed values, and back. -/
theorem C50_submission_ids_lossless :
    -- from unsigned: accepted iff below 2^63, and then both back-conversions give the same number
    (∀ v : UInt64, (v.toNat < 2 ^ 63 →
        ∃ i, SubmissionId.tryFromU64 v = .ok i ∧ i.toU64 = v ∧ i.toI64.toInt = v.toNat) ∧
      (2 ^ 63 ≤ v.toNat → SubmissionId.tryFromU64 v = .rejected)) ∧
    -- from signed: accepted iff not negative
    (∀ v : Int64, (0 ≤ v.toInt →
        ∃ i, SubmissionId.tryFromI64 v = .ok i ∧ i.toI64 = v ∧ (i.toU64.toNat : Int) = v.toInt) ∧
      (v.toInt < 0 → SubmissionId.tryFromI64 v = .rejected)) ∧
    -- a generated number below 2^63 becomes the id with that number; with a larger one the program stops
    (∀ v : UInt64, (v.toNat < 2 ^ 63 → ∃ i, SubmissionId.new v = .ok i ∧ i.toU64 = v) ∧
      (2 ^ 63 ≤ v.toNat → SubmissionId.new v = .panicked)) ∧
    -- every id that can exist survives being written and read back, in all three formats
    (∀ v i, SubmissionId.new v = .ok i → SubmissionId.tryFromU64 i.toU64 = .ok i ∧
      SubmissionId.tryFromI64 i.toI64 = .ok i ∧ SubmissionId.deserialize i.serialize = .ok i) := by
  have key : ∀ v : UInt64, v.toNat < 2 ^ 63 → SubmissionId.tryFromU64 v = .ok ⟨⟨v⟩⟩ := by
    intro v h
    unfold SubmissionId.tryFromU64 U63.new
    rw [if_neg (by rw [gt_u63Max_iff]; omega), if_pos ((le_u63Max_iff v).2 h)]; rfl
  have keyI : ∀ v : Int64, 0 ≤ v.toInt → SubmissionId.tryFromI64 v = .ok ⟨⟨v.toUInt64⟩⟩ := by
    intro v h
    unfold SubmissionId.tryFromI64 U63.new
    rw [if_neg (by rw [lt_zero_iff]; omega), if_pos ((le_u63Max_iff _).2 (toUInt64_lt h))]; rfl
  refine ⟨fun v => ⟨fun h => ⟨_, key v h, rfl, toInt_toInt64 h⟩, fun h => ?_⟩,
    fun v => ⟨fun h => ⟨_, keyI v h, Int64.toInt64_toUInt64 v, toNat_toUInt64 h⟩, fun h => ?_⟩,
    fun v => ⟨fun h => ?_, fun h => ?_⟩, fun v i h => ?_⟩
  · unfold SubmissionId.tryFromU64; rw [if_pos ((gt_u63Max_iff v).2 h)]
  · unfold SubmissionId.tryFromI64; rw [if_pos ((lt_zero_iff v).2 h)]
  · refine ⟨⟨⟨v⟩⟩, ?_, rfl⟩
    unfold SubmissionId.new U63.new
    rw [if_pos ((le_u63Max_iff v).2 h)]; rfl
  · unfold SubmissionId.new U63.new
    rw [if_neg (by rw [le_u63Max_iff]; omega)]; rfl
  · unfold SubmissionId.new U63.new at h
    split at h
    · rename_i hv
      cases h
      have hv := (le_u63Max_iff v).1 hv
      refine ⟨key v hv, ?_, key v hv⟩
      have := keyI v.toInt64 (by rw [toInt_toInt64 hv]; omega)
      rw [UInt64.toUInt64_toInt64] at this
      exact this
    · cases h

example : SubmissionId.tryFromU64 (2 ^ 63 - 1) ≠ .rejected ∧
    SubmissionId.tryFromU64 (2 ^ 63) = .rejected ∧ SubmissionId.tryFromI64 (-1) = .rejected ∧
    SubmissionId.new (2 ^ 63) = .panicked := by
  decide +kernel

/-- C50 for chunk indexes (`ChunkIndex::new` is `try_from`). -/
theorem C50_chunk_indexes_lossless :
    (∀ v : UInt64, (v.toNat < 2 ^ 63 →
        ∃ i, ChunkIndex.tryFromU64 v = .ok i ∧ i.toU64 = v ∧ i.toI64.toInt = v.toNat) ∧
      (2 ^ 63 ≤ v.toNat → ChunkIndex.tryFromU64 v = .rejected) ∧
      ChunkIndex.tryFromUsize v = ChunkIndex.tryFromU64 v) ∧
    (∀ v : Int64, (0 ≤ v.toInt →
        ∃ i, ChunkIndex.tryFromI64 v = .ok i ∧ i.toI64 = v ∧ (i.toU64.toNat : Int) = v.toInt) ∧
      (v.toInt < 0 → ChunkIndex.tryFromI64 v = .rejected)) ∧
    (∃ i, ChunkIndex.zero = .ok i ∧ i.toU64.toNat = 0) ∧
    (∀ v i, ChunkIndex.tryFromU64 v = .ok i → ChunkIndex.tryFromU64 i.toU64 = .ok i ∧
      ChunkIndex.tryFromI64 i.toI64 = .ok i ∧ ChunkIndex.deserialize i.serialize = .ok i) := by
  have key : ∀ v : UInt64, v.toNat < 2 ^ 63 → ChunkIndex.tryFromU64 v = .ok ⟨⟨v⟩⟩ := by
    intro v h
    unfold ChunkIndex.tryFromU64 U63.new
    rw [if_neg (by rw [gt_u63Max_iff]; omega), if_pos ((le_u63Max_iff v).2 h)]; rfl
  have keyI : ∀ v : Int64, 0 ≤ v.toInt → ChunkIndex.tryFromI64 v = .ok ⟨⟨v.toUInt64⟩⟩ := by
    intro v h
    unfold ChunkIndex.tryFromI64 U63.new
    rw [if_neg (by rw [lt_zero_iff]; omega), if_pos ((le_u63Max_iff _).2 (toUInt64_lt h))]; rfl
  have rej : ∀ v : UInt64, 2 ^ 63 ≤ v.toNat → ChunkIndex.tryFromU64 v = .rejected := by
    intro v h
    unfold ChunkIndex.tryFromU64; rw [if_pos ((gt_u63Max_iff v).2 h)]
  refine ⟨fun v => ⟨fun h => ⟨_, key v h, rfl, toInt_toInt64 h⟩, rej v, rfl⟩,
    fun v => ⟨fun h => ⟨_, keyI v h, Int64.toInt64_toUInt64 v, toNat_toUInt64 h⟩, fun h => ?_⟩,
    ⟨⟨⟨0⟩⟩, rfl, rfl⟩, fun v i h => ?_⟩
  · unfold ChunkIndex.tryFromI64; rw [if_pos ((lt_zero_iff v).2 h)]
  · by_cases hv : v.toNat < 2 ^ 63
    · rw [key v hv] at h
      cases h
      refine ⟨key v hv, ?_, key v hv⟩
      have := keyI v.toInt64 (by rw [toInt_toInt64 hv]; omega)
      rw [UInt64.toUInt64_toInt64] at this
      exact this
    · rw [rej v (by omega)] at h; cases h

example : ∃ i, ChunkIndex.tryFromI64 12345 = .ok i ∧ i.toU64 = 12345 ∧
    ChunkIndex.tryFromU64 (2 ^ 63) = .rejected := ⟨⟨⟨12345⟩⟩, by decide +kernel⟩

/-- C51: exactly 1 … 2^63-2 are accepted as the lookup maximum, both as a number and on the command
line, and the SQL limit derived from an accepted maximum `m` is the positive number `m + 1`. -/
theorem C51_max_submissions_never_overflows :
    (∀ v : UInt64, v ≠ 0 →
      ((∃ m, MaxSubmissions.new v = .ok m) ↔ v.toNat ≤ 2 ^ 63 - 2) ∧
      (∀ m, MaxSubmissions.new v = .ok m → m.value = v ∧
        ∃ l : Int64, lookupLimit m = .ok l ∧ l.toInt = v.toNat + 1 ∧ 0 < l.toInt)) ∧
    (∀ (s : List Char) (n : Nat),
      (∃ m, MaxSubmissions.fromStr s = .ok m ∧ m.value.toNat = n) ↔
        Denotes s n ∧ 1 ≤ n ∧ n ≤ 2 ^ 63 - 2) := by
  have hmax : i64Max.toNat = 2 ^ 63 - 1 := by decide
  have hnew : ∀ v, (∃ m, MaxSubmissions.new v = .ok m) ↔ v.toNat ≤ 2 ^ 63 - 2 := by
    intro v
    unfold MaxSubmissions.new
    have hlt : v < i64Max ↔ v.toNat < 2 ^ 63 - 1 := by rw [UInt64.lt_iff_toNat_lt, hmax]
    split
    · rename_i h; rw [hlt] at h; exact ⟨fun _ => by omega, fun _ => ⟨_, rfl⟩⟩
    · rename_i h; rw [hlt] at h; exact ⟨(fun ⟨_, h⟩ => by cases h), fun h => by omega⟩
  have hval : ∀ v m, MaxSubmissions.new v = .ok m → m.value = v := by
    intro v m h
    unfold MaxSubmissions.new at h
    split at h <;> cases h
    rfl
  refine ⟨fun v _ => ⟨hnew v, fun m hm => ⟨hval v m hm, ?_⟩⟩, fun s n => ?_⟩
  · have hle := (hnew v).1 ⟨m, hm⟩
    have hv := hval v m hm
    have e : (v + 1).toNat = v.toNat + 1 := by
      rw [UInt64.toNat_add]; apply Nat.mod_eq_of_lt
      show v.toNat + 1 < _
      omega
    refine ⟨(v + 1).toInt64, ?_, ?_⟩
    · unfold lookupLimit; rw [hv, if_pos (by omega)]
    · rw [toInt_toInt64 (by omega), e]; omega
  · -- the body after an optional sign
    have parse : ∀ s : List Char, ∃ body, (s = body ∨ s = '+' :: body) ∧
        (s.head? ≠ some '+' → s = body) ∧ (∀ r, s = '+' :: r → body = r) ∧
        parseNonZero s = match body with
          | [] => .error .notANumber
          | _ => match digitsLoop 0 body with
            | none => .error .notANumber
            | some 0 => .error .notANumber
            | some v => .ok v := by
      intro s
      match s with
      | [] => exact ⟨[], Or.inl rfl, fun _ => rfl, (fun _ h => by cases h), rfl⟩
      | c :: r =>
        by_cases hc : c = '+'
        · subst hc
          exact ⟨r, Or.inr rfl, fun h => absurd rfl h, fun _ h => by cases h; rfl, rfl⟩
        · refine ⟨c :: r, Or.inl rfl, fun _ => rfl, fun _ h => by cases h; exact absurd rfl hc, ?_⟩
          unfold parseNonZero
          split
          · rename_i heq; cases heq; exact absurd rfl hc
          · rfl
    obtain ⟨body, hs, hs1, hs2, hp⟩ := parse s
    have hz : (0 : UInt64).toNat = 0 := rfl
    constructor
    · rintro ⟨m, hm, hn⟩
      unfold MaxSubmissions.fromStr at hm
      rw [hp] at hm
      match hb : body, hm with
      | [], hm => cases hm
      | c :: cs, hm =>
        dsimp only at hm
        cases hd : digitsLoop 0 (c :: cs) with
        | none => rw [hd] at hm; cases hm
        | some v =>
          rw [hd] at hm
          by_cases h0 : v = 0
          · subst h0; cases hm
          · have hm' : MaxSubmissions.new v = .ok m := by
              revert hm
              split
              · intro h; cases h
              · rename_i v' heq
                split at heq
                · cases heq
                · rename_i h1; exact absurd (Option.some.inj h1) h0
                · rename_i h1
                  cases heq
                  rw [← Option.some.inj h1]; exact id
            have hv := hval v m hm'
            have hle := (hnew v).1 ⟨m, hm'⟩
            have ⟨g1, g2⟩ := digitsLoop_sound _ _ _ hd
            rw [hz] at g2
            rw [hv] at hn
            refine ⟨⟨c :: cs, hs, by simp, g1, ?_⟩, ?_, by omega⟩
            · rw [← hn, g2]; rfl
            · have : v.toNat ≠ 0 := fun h => h0 (UInt64.toNat_inj.1 (by rw [h]; rfl))
              omega
    · rintro ⟨⟨ds, hds, hne, hdig, hn⟩, h1, h2⟩
      have hbody : body = ds := by
        rcases hds with h | h
        · refine (hs1 ?_).symm.trans h
          subst h
          intro hh
          have : '+' ∈ s := List.mem_of_mem_head? hh
          exact absurd (hdig _ this).1 (by decide)
        · exact hs2 _ h
      subst hbody
      have hdec : decimalFrom (0 : UInt64).toNat body = n := hn.symm
      obtain ⟨v, hv⟩ := digitsLoop_complete body 0 hdig (by rw [hdec]; omega)
      have ⟨_, g2⟩ := digitsLoop_sound _ _ _ hv
      rw [hdec] at g2
      obtain ⟨m, hm⟩ := (hnew v).2 (by omega)
      refine ⟨m, ?_, by rw [hval v m hm]; exact g2⟩
      unfold MaxSubmissions.fromStr
      rw [hp]
      match body, hne with
      | c :: cs, _ =>
        dsimp only
        rw [hv]
        by_cases h0 : v = 0
        · subst h0; rw [hz] at g2; omega
        · split
          · rename_i heq
            split at heq
            · rename_i h'; cases h'
            · rename_i h'; exact absurd (Option.some.inj h') h0
            · cases heq
          · rename_i heq
            split at heq
            · cases heq
            · cases heq
            · rename_i h'
              cases heq
              rw [← Option.some.inj h']; exact hm

example : (∃ m, MaxSubmissions.fromStr "+100000".toList = .ok m ∧ m.value.toNat = 100000) ∧
    MaxSubmissions.new (2 ^ 63 - 1) = .error .tooLarge ∧
    lookupLimit ⟨2 ^ 63 - 2⟩ = .ok (2 ^ 63 - 1) := by
  refine ⟨⟨⟨100000⟩, ?_, ?_⟩, ?_, ?_⟩ <;> decide +kernel

end Opsqueue
