import Verif.Model.Cbor

/-! # What is written as CBOR is read back, and nothing less is -/

namespace Opsqueue.Cbor

open Wire

/-! ## Heads -/

theorem bigEndian_length (k n : Nat) : (bigEndian k n).length = k := by
  induction k generalizing n with
  | zero => rfl
  | succ k ih => simp [bigEndian, ih]

theorem fromBigEndian_bigEndian {k n : Nat} (h : n < 256 ^ k) : fromBigEndian (bigEndian k n) = n := by
  induction k generalizing n with
  | zero => simp [bigEndian, fromBigEndian] at *; omega
  | succ k ih =>
    have h1 : n / 256 < 256 ^ k := by
      apply Nat.div_lt_of_lt_mul
      rw [Nat.pow_succ] at h; omega
    have h2 := ih h1
    have h3 : n % 256 < 256 := Nat.mod_lt _ (by omega)
    simp only [bigEndian, fromBigEndian, List.foldl_append, List.foldl_cons, List.foldl_nil] at *
    rw [h2]
    simp
    omega

theorem takeBytes_append {a : Bytes} {k : Nat} (h : a.length = k) (rest : Bytes) :
    takeBytes k (a ++ rest) = some (a, rest) := by
  subst h
  simp [takeBytes]

theorem head_byte {m i : Nat} (hm : m < 8) (hi : i < 32) :
    (UInt8.ofNat (32 * m + i)).toNat / 32 = m ∧ (UInt8.ofNat (32 * m + i)).toNat % 32 = i := by
  have : (UInt8.ofNat (32 * m + i)).toNat = 32 * m + i := by
    simp
    omega
  rw [this]
  omega

theorem readHead_writeHead {m n : Nat} (hm : m < 7) (hn : n < 2 ^ 64) (rest : Bytes) :
    readHead (writeHead m n ++ rest) = some (m, n, rest) := by
  have long : ∀ (i k : Nat), i < 32 → ¬ i < 24 → n < 256 ^ k →
      ((i = 24 ∧ k = 1) ∨ (i = 25 ∧ k = 2) ∨ (i = 26 ∧ k = 4) ∨ (i = 27 ∧ k = 8)) →
      readHead ((UInt8.ofNat (32 * m + i) :: bigEndian k n) ++ rest) = some (m, n, rest) := by
    intro i k hi hni hk hc
    obtain ⟨h1, h2⟩ := head_byte (m := m) (by omega) hi
    have ht : takeBytes k (bigEndian k n ++ rest) = some (bigEndian k n, rest) :=
      takeBytes_append (bigEndian_length k n) rest
    simp only [readHead, List.cons_append, h1, h2, if_neg hni]
    rw [if_neg (by omega)]
    rcases hc with ⟨rfl, rfl⟩ | ⟨rfl, rfl⟩ | ⟨rfl, rfl⟩ | ⟨rfl, rfl⟩ <;>
      simp [ht, fromBigEndian_bigEndian hk]
  unfold writeHead
  split
  · rename_i h
    obtain ⟨h1, h2⟩ := head_byte (m := m) (i := n) (by omega) (by omega)
    simp only [readHead, List.cons_append, List.nil_append, h1, h2, if_pos h]
  · split
    · exact long 24 1 (by omega) (by omega) (by omega) (by omega)
    · split
      · exact long 25 2 (by omega) (by omega) (by omega) (by omega)
      · split
        · exact long 26 4 (by omega) (by omega) (by omega) (by omega)
        · exact long 27 8 (by omega) (by omega) (by omega) (by omega)

theorem readHead_null (rest : Bytes) : readHead (0xf6 :: rest) = some (7, 22, rest) := rfl

/-! ## Texts -/

theorem fromUtf8_utf8 (s : String) : fromUtf8 (utf8 s) = some s := by
  unfold fromUtf8 utf8
  have : (⟨s.toByteArray.data.toList.toArray⟩ : ByteArray) = s.toByteArray := by simp
  rw [this]
  unfold String.fromUTF8?
  rw [dif_pos s.isValidUTF8]
  simp [String.fromUTF8]

theorem readTextBody_utf8 (s : String) (rest : Bytes) :
    readTextBody (utf8 s).length (utf8 s ++ rest) = some (s, rest) := by
  rw [readTextBody, takeBytes_append rfl]
  simp [fromUtf8_utf8]

/-! ## Trees -/

mutual

/-- How many sequences and maps are inside each other. -/
def depth : Json → Nat
  | .null | .num _ | .str _ | .bool _ | .float _ | .unreadable => 0
  | .arr xs => depthAll xs + 1
  | .obj fs => depthFields fs + 1

/-- The deepest of a list of trees. -/
def depthAll : List Json → Nat
  | [] => 0
  | x :: xs => max (depth x) (depthAll xs)

/-- The deepest of the values of a map. -/
def depthFields : List (String × Json) → Nat
  | [] => 0
  | (_, v) :: fs => max (depth v) (depthFields fs)

end

/-- A tree whose numbers have 64 bits and that contains no truth values and no fractions. -/
inductive Plain : Json → Prop where
  | null : Plain .null
  | num {n : Int} (h1 : -2 ^ 64 ≤ n) (h2 : n < 2 ^ 64) : Plain (.num n)
  | str (s : String) : Plain (.str s)
  | arr {xs : List Json} (h : ∀ x ∈ xs, Plain x) : Plain (.arr xs)
  | obj {fs : List (String × Json)} (h : ∀ f ∈ fs, Plain f.2) : Plain (.obj fs)

theorem write_length_pos (j : Json) : 0 < (write j).length := by
  have hh : ∀ m n, 0 < (writeHead m n).length := by
    intro m n
    unfold writeHead
    repeat' split
    all_goals simp
  cases j with
  | null => simp [write]
  | num n => cases n <;> simp only [write] <;> exact hh _ _
  | str s => simp only [write, writeText, List.length_append]; have := hh 3 (utf8 s).length; omega
  | bool b => simp [write]
  | float t => simp [write]
  | unreadable => simp [write]
  | arr xs => simp only [write, List.length_append]; have := hh 4 xs.length; omega
  | obj fs => simp only [write, List.length_append]; have := hh 5 fs.length; omega

theorem length_le_writeAll (xs : List Json) : xs.length ≤ (writeAll xs).length := by
  induction xs with
  | nil => simp
  | cons x xs ih =>
    have := write_length_pos x
    simp only [writeAll, List.length_append, List.length_cons]; omega

theorem length_le_writeFields (fs : List (String × Json)) : fs.length ≤ (writeFields fs).length := by
  induction fs with
  | nil => simp
  | cons f fs ih =>
    obtain ⟨k, v⟩ := f
    have := write_length_pos v
    simp only [writeFields, List.length_append, List.length_cons]; omega

theorem many_write {d : Nat} (xs : List Json) (rest : Bytes) (hl : (writeAll xs).length < 2 ^ 64)
    (ih : ∀ x ∈ xs, ∀ rest, (write x).length < 2 ^ 64 →
      read d (write x ++ rest) = if depth x ≤ d then some (x, rest) else none) :
    many (read d) xs.length (writeAll xs ++ rest) = if depthAll xs ≤ d then some (xs, rest) else none := by
  induction xs with
  | nil => simp [many, writeAll, depthAll]
  | cons x xs ihx =>
    simp only [writeAll, List.length_append] at hl
    simp only [List.length_cons, many, writeAll, List.append_assoc]
    rw [ih x (by simp) _ (by omega)]
    have h2 := ihx (by omega) (fun y hy => ih y (by simp [hy]))
    by_cases h : depth x ≤ d
    · rw [if_pos h]
      dsimp only
      rw [h2]
      by_cases h' : depthAll xs ≤ d
      · rw [if_pos h', if_pos (by simp only [depthAll]; omega)]; rfl
      · rw [if_neg h', if_neg (by simp only [depthAll]; omega)]; rfl
    · rw [if_neg h, if_neg (by simp only [depthAll]; omega)]

theorem entry_write {d : Nat} (k : String) (v : Json) (rest : Bytes) (hk : (utf8 k).length < 2 ^ 64)
    (ih : read d (write v ++ rest) = if depth v ≤ d then some (v, rest) else none) :
    entry (read d) (writeText k ++ write v ++ rest) = if depth v ≤ d then some ((k, v), rest) else none := by
  simp only [entry, writeText, List.append_assoc]
  rw [readHead_writeHead (by omega) hk]
  dsimp only
  rw [if_pos rfl, readTextBody_utf8]
  dsimp only
  rw [ih]
  split <;> rfl

theorem many_writeFields {d : Nat} (fs : List (String × Json)) (rest : Bytes) (hl : (writeFields fs).length < 2 ^ 64)
    (ih : ∀ f ∈ fs, ∀ rest, (write f.2).length < 2 ^ 64 →
      read d (write f.2 ++ rest) = if depth f.2 ≤ d then some (f.2, rest) else none) :
    many (entry (read d)) fs.length (writeFields fs ++ rest) =
      if depthFields fs ≤ d then some (fs, rest) else none := by
  induction fs with
  | nil => simp [many, writeFields, depthFields]
  | cons f fs ihx =>
    obtain ⟨k, v⟩ := f
    simp only [writeFields, List.length_append] at hl
    have hk : (utf8 k).length < 2 ^ 64 := by
      simp only [writeText, List.length_append] at hl; omega
    simp only [List.length_cons, many, writeFields]
    have h2 := ihx (by omega) (fun y hy => ih y (by simp [hy]))
    rw [List.append_assoc (writeText k ++ write v),
      entry_write k v _ hk (ih (k, v) (by simp) _ (by simp only; omega))]
    by_cases h : depth v ≤ d
    · rw [if_pos h]
      dsimp only
      rw [h2]
      by_cases h' : depthFields fs ≤ d
      · rw [if_pos h', if_pos (by simp only [depthFields]; omega)]; rfl
      · rw [if_neg h', if_neg (by simp only [depthFields]; omega)]; rfl
    · rw [if_neg h, if_neg (by simp only [depthFields]; omega)]

/-- A tree is read back if it is not too deep, and refused otherwise, whatever follows it. -/
theorem read_write {j : Json} (hj : Plain j) (d : Nat) (rest : Bytes) (hl : (write j).length < 2 ^ 64) :
    read d (write j ++ rest) = if depth j ≤ d then some (j, rest) else none := by
  induction hj generalizing d rest with
  | null => simp [read, write, readHead_null, depth]
  | @num n h1 h2 =>
    cases n with
    | ofNat n =>
      unfold read
      simp only [write]
      rw [readHead_writeHead (by omega) (by simp at h2; omega)]
      simp [depth]
    | negSucc n =>
      unfold read
      simp only [write]
      rw [readHead_writeHead (by omega) (by omega)]
      simp [depth]
  | str s =>
    simp only [write, writeText, List.length_append] at hl
    unfold read
    simp only [write, writeText, List.append_assoc]
    rw [readHead_writeHead (by omega) (by omega)]
    simp [depth, readTextBody_utf8]
  | @arr xs h ih =>
    simp only [write, List.length_append] at hl
    have := length_le_writeAll xs
    unfold read
    simp only [write, List.append_assoc]
    rw [readHead_writeHead (by omega) (by omega)]
    cases d with
    | zero => simp [depth]
    | succ d =>
      have := many_write (d := d) xs rest (by omega) (fun x hx rest hl => ih x hx d rest hl)
      simp only [depth]
      by_cases h' : depthAll xs ≤ d
      · rw [if_pos h'] at this
        simp [this, h']
      · rw [if_neg h'] at this
        simp [this, h']
  | @obj fs h ih =>
    simp only [write, List.length_append] at hl
    have := length_le_writeFields fs
    unfold read
    simp only [write, List.append_assoc]
    rw [readHead_writeHead (by omega) (by omega)]
    cases d with
    | zero => simp [depth]
    | succ d =>
      have := many_writeFields (d := d) fs rest (by omega) (fun x hx rest hl => ih x hx d rest hl)
      simp only [depth]
      by_cases h' : depthFields fs ≤ d
      · rw [if_pos h'] at this
        simp [this, h']
      · rw [if_neg h'] at this
        simp [this, h']

/-! ## More bytes do not change what has been read -/

/-- Reading does not look at what follows. -/
def Extends {α : Type} (p : Bytes → Option (α × Bytes)) : Prop :=
  ∀ b a rest more, p b = some (a, rest) → p (b ++ more) = some (a, rest ++ more)

theorem takeBytes_extends (k : Nat) : Extends (takeBytes k) := by
  intro b a rest more h
  unfold takeBytes at *
  split at h
  · rename_i hk
    cases h
    rw [if_pos (by simp; omega), List.take_append_of_le_length hk, List.drop_append_of_le_length hk]
  · cases h

theorem readHead_extends {b : Bytes} {m n : Nat} {rest : Bytes} (more : Bytes) (h : readHead b = some (m, n, rest)) :
    readHead (b ++ more) = some (m, n, rest ++ more) := by
  cases b with
  | nil => cases h
  | cons x b =>
    simp only [readHead, List.cons_append] at *
    have ht : ∀ k, ((takeBytes k b).map fun (a, rest) => (x.toNat / 32, fromBigEndian a, rest)) = some (m, n, rest) →
        ((takeBytes k (b ++ more)).map fun (a, rest) => (x.toNat / 32, fromBigEndian a, rest)) =
          some (m, n, rest ++ more) := by
      intro k hk
      rw [Option.map_eq_some_iff] at hk
      obtain ⟨⟨a, r⟩, h1, h2⟩ := hk
      cases h2
      rw [takeBytes_extends k b a _ more h1]
      rfl
    repeat' split at h
    all_goals first | cases h | skip
    all_goals simp only [*, if_true, if_false]
    all_goals first | rfl | exact ht _ h

theorem readTextBody_extends (n : Nat) : Extends (readTextBody n) := by
  intro b s rest more h
  unfold readTextBody at *
  split at h
  · cases h
  · rename_i a r heq
    rw [takeBytes_extends n b a r more heq]
    rw [Option.map_eq_some_iff] at h
    obtain ⟨s', h1, h2⟩ := h
    cases h2
    dsimp only
    rw [h1]
    rfl

theorem many_extends {α : Type} {p : Bytes → Option (α × Bytes)} (hp : Extends p) (n : Nat) : Extends (many p n) := by
  induction n with
  | zero =>
    intro b as rest more h
    cases h
    rfl
  | succ n ih =>
    intro b as rest more h
    simp only [many] at *
    split at h
    · cases h
    · rename_i a b' heq
      rw [hp b a b' more heq]
      rw [Option.map_eq_some_iff] at h
      obtain ⟨⟨as', r⟩, h1, h2⟩ := h
      cases h2
      dsimp only
      rw [ih _ _ _ more h1]
      rfl

theorem entry_extends {p : Bytes → Option (Json × Bytes)} (hp : Extends p) : Extends (entry p) := by
  intro b kv rest more h
  unfold entry at *
  split at h
  · cases h
  · rename_i m n b' heq
    rw [readHead_extends more heq]
    dsimp only
    split at h
    · rename_i hm
      rw [if_pos hm]
      split at h
      · cases h
      · rename_i k b'' heq'
        rw [readTextBody_extends n _ _ _ more heq']
        rw [Option.map_eq_some_iff] at h
        obtain ⟨⟨v, r⟩, h1, h2⟩ := h
        cases h2
        dsimp only
        rw [hp _ _ _ more h1]
        rfl
    · cases h

theorem read_extends (d : Nat) : Extends (read d) := by
  induction d with
  | zero =>
    intro b j rest more h
    unfold read at *
    split at h
    · cases h
    · rename_i m n b' heq
      rw [readHead_extends more heq]
      dsimp only at *
      split at h
      · rename_i hm; cases h; rw [if_pos hm]
      rename_i h0; rw [if_neg h0]
      split at h
      · rename_i hm; cases h; rw [if_pos hm]
      rename_i h1; rw [if_neg h1]
      split at h
      · rename_i hm; rw [if_pos hm]
        rw [Option.map_eq_some_iff] at h
        obtain ⟨⟨v, r⟩, h1, h2⟩ := h
        cases h2
        simp [readTextBody_extends n _ _ _ more h1]
      rename_i h3; rw [if_neg h3]
      split at h
      · rename_i hm; rw [if_pos hm]
        cases h
      rename_i h4; rw [if_neg h4]
      split at h
      · rename_i hm; rw [if_pos hm]
        cases h
      rename_i h5; rw [if_neg h5]
      split at h
      · rename_i hm; cases h; rw [if_pos hm]
      · cases h
  | succ d ih =>
    intro b j rest more h
    unfold read at *
    split at h
    · cases h
    · rename_i m n b' heq
      rw [readHead_extends more heq]
      dsimp only at *
      split at h
      · rename_i hm; cases h; rw [if_pos hm]
      rename_i h0; rw [if_neg h0]
      split at h
      · rename_i hm; cases h; rw [if_pos hm]
      rename_i h1; rw [if_neg h1]
      split at h
      · rename_i hm; rw [if_pos hm]
        rw [Option.map_eq_some_iff] at h
        obtain ⟨⟨v, r⟩, h1, h2⟩ := h
        cases h2
        simp [readTextBody_extends n _ _ _ more h1]
      rename_i h3; rw [if_neg h3]
      split at h
      · rename_i hm; rw [if_pos hm]
        rw [Option.map_eq_some_iff] at h
        obtain ⟨⟨v, r⟩, h1, h2⟩ := h
        cases h2
        simp [many_extends ih n _ _ _ more h1]
      rename_i h4; rw [if_neg h4]
      split at h
      · rename_i hm; rw [if_pos hm]
        rw [Option.map_eq_some_iff] at h
        obtain ⟨⟨v, r⟩, h1, h2⟩ := h
        cases h2
        simp [many_extends (entry_extends ih) n _ _ _ more h1]
      rename_i h5; rw [if_neg h5]
      split at h
      · rename_i hm; cases h; rw [if_pos hm]
      · cases h

/-- A tree whose end is missing is refused. -/
theorem read_cut {j : Json} (hj : Plain j) (hl : (write j).length < 2 ^ 64) {d : Nat} {b : Bytes}
    (hb : b <+: write j) (hne : b ≠ write j) : read d b = none := by
  obtain ⟨more, hm⟩ := hb
  cases h : read d b with
  | none => rfl
  | some r =>
    obtain ⟨j', rest⟩ := r
    have h1 := read_extends d b j' rest more h
    have h2 := read_write hj d [] hl
    rw [List.append_nil, ← hm, h1] at h2
    split at h2
    · injection h2 with h2
      injection h2 with _ h2
      have : more = [] := (List.append_eq_nil_iff.1 h2).2
      subst this
      simp at hm
      exact absurd hm hne
    · cases h2

end Opsqueue.Cbor
