import Verif.Model.ObjectStore
import Verif.Proofs.Decimal
import Verif.Proofs.Map

/-! # Paths are injective; stored chunks stay -/

namespace Opsqueue.ObjectStore

/-- Percent-decoding. -/
def unhex (b : UInt8) : UInt8 := if b < 58 then b - 48 else b - 55

def decode : Bytes → Bytes
  | 37 :: h :: l :: rest => (16 * unhex h + unhex l) :: decode rest
  | b :: rest => b :: decode rest
  | [] => []

theorem forall_byte {p : UInt8 → Prop} (h : ∀ n, n < 256 → p (UInt8.ofNat n)) (b : UInt8) : p b := by
  have := h b.toNat b.toNat_lt
  simpa using this

theorem byte_roundtrip (b : UInt8) : 16 * unhex (hex (b / 16)) + unhex (hex (b % 16)) = b :=
  forall_byte (p := fun b => 16 * unhex (hex (b / 16)) + unhex (hex (b % 16)) = b) (by decide +kernel) b

theorem encodeByte_noSlash (b : UInt8) : (47 : UInt8) ∉ encodeByte b :=
  forall_byte (p := fun b => (47 : UInt8) ∉ encodeByte b) (by decide +kernel) b

theorem not_encoded_ne (b : UInt8) (h : encoded b = false) : b ≠ 37 := by
  rintro rfl
  exact absurd h (by decide)

theorem decode_plain (b : UInt8) (rest : Bytes) (h : b ≠ 37) : decode (b :: rest) = b :: decode rest := by
  rw [decode]
  rintro _ _ _ rfl _
  exact h rfl

theorem decode_encodeByte (b : UInt8) (rest : Bytes) : decode (encodeByte b ++ rest) = b :: decode rest := by
  unfold encodeByte
  by_cases h : encoded b
  · rw [if_pos h]
    simp only [List.cons_append, List.nil_append, decode, byte_roundtrip]
  · rw [if_neg h]
    exact decode_plain b rest (not_encoded_ne b (by simpa using h))

theorem decode_flatMap (b : Bytes) : decode (b.flatMap encodeByte) = b := by
  induction b with
  | nil => rfl
  | cons x xs ih => rw [List.flatMap_cons, decode_encodeByte, ih]

theorem decode_encodePart (b : Bytes) : decode (encodePart b) = b := by
  unfold encodePart
  split
  · subst b; decide +kernel
  · split
    · subst b; decide +kernel
    · exact decode_flatMap b

theorem encodePart_inj {a b : Bytes} (h : encodePart a = encodePart b) : a = b := by
  rw [← decode_encodePart a, h, decode_encodePart]

theorem encodePart_noSlash (b : Bytes) : (47 : UInt8) ∉ encodePart b := by
  unfold encodePart
  split
  · decide
  · split
    · decide
    · intro h
      obtain ⟨x, _, hx⟩ := List.mem_flatMap.1 h
      exact encodeByte_noSlash x hx

theorem encodePart_nil_iff (b : Bytes) : encodePart b = [] ↔ b = [] := by
  constructor
  · intro h
    rw [← decode_encodePart b, h]; rfl
  · rintro rfl; rfl

theorem utf8_inj {a b : List Char} (h : utf8 a = utf8 b) : a = b := by
  unfold utf8 at h
  have h1 : (String.ofList a).toByteArray = (String.ofList b).toByteArray := by
    apply ByteArray.ext
    exact Array.toList_inj.1 h
  have h2 := String.toByteArray_inj.1 h1
  have := congrArg String.toList h2
  simpa using this

theorem utf8_nil : utf8 [] = [] := by decide +kernel

theorem joinSlash_cons_cons (a b : Bytes) (l : List Bytes) : joinSlash (a :: b :: l) = a ++ 47 :: joinSlash (b :: l) := by
  rw [joinSlash]; simp

theorem span_inj {a b x y : Bytes} (ha : (47 : UInt8) ∉ a) (hb : (47 : UInt8) ∉ b)
    (h : a ++ 47 :: x = b ++ 47 :: y) : a = b ∧ x = y := by
  induction a generalizing b with
  | nil =>
    cases b with
    | nil => exact ⟨rfl, by simpa using h⟩
    | cons c b =>
      simp only [List.nil_append, List.cons_append, List.cons.injEq] at h
      exact absurd (h.1 ▸ List.mem_cons_self) hb
  | cons c a ih =>
    cases b with
    | nil =>
      simp only [List.nil_append, List.cons_append, List.cons.injEq] at h
      exact absurd (h.1 ▸ List.mem_cons_self) ha
    | cons d b =>
      simp only [List.cons_append, List.cons.injEq] at h
      obtain ⟨h1, h2⟩ := ih (fun h => ha (List.mem_cons_of_mem _ h)) (fun h => hb (List.mem_cons_of_mem _ h)) h.2
      exact ⟨by rw [h.1, h1], h2⟩

theorem joinSlash_inj {k l : List Bytes} (hk : ∀ p ∈ k, p ≠ [] ∧ (47 : UInt8) ∉ p)
    (hl : ∀ p ∈ l, p ≠ [] ∧ (47 : UInt8) ∉ p) (h : joinSlash k = joinSlash l) : k = l := by
  induction k generalizing l with
  | nil =>
    match l, hl, h with
    | [], _, _ => rfl
    | [p], hl, h => exact absurd h.symm (hl p (by simp)).1
    | p :: q :: l, _, h =>
      rw [joinSlash_cons_cons] at h
      simp [joinSlash] at h
  | cons a k ih =>
    have ha := hk a (by simp)
    match k, l, hl, h with
    | [], [], _, h => exact absurd h ha.1
    | b :: k, [], _, h =>
      rw [joinSlash_cons_cons] at h
      simp [joinSlash] at h
    | [], [p], _, h => simpa [joinSlash] using h
    | [], p :: q :: l, _, h =>
      rw [joinSlash_cons_cons] at h
      have : (47 : UInt8) ∈ a := by
        have h : a = p ++ 47 :: joinSlash (q :: l) := h
        rw [h]; simp
      exact absurd this ha.2
    | b :: k, [p], hl, h =>
      rw [joinSlash_cons_cons] at h
      have : (47 : UInt8) ∈ p := by
        have h : a ++ 47 :: joinSlash (b :: k) = p := h
        rw [← h]; simp
      exact absurd this (hl p (by simp)).2
    | b :: k, p :: q :: l, hl, h =>
      rw [joinSlash_cons_cons, joinSlash_cons_cons] at h
      obtain ⟨h1, h2⟩ := span_inj ha.2 (hl p (by simp)).2 h
      have := ih (fun x hx => hk x (List.mem_cons_of_mem _ hx)) (fun x hx => hl x (List.mem_cons_of_mem _ hx)) h2
      rw [h1, this]

theorem splitSlash_ne_nil (s : List Char) : splitSlash s ≠ [] := by
  induction s with
  | nil => simp [splitSlash]
  | cons c s ih =>
    rw [splitSlash]
    split
    · simp
    · split <;> simp

theorem splitSlash_plain {s : List Char} (h : '/' ∉ s) : splitSlash s = [s] := by
  induction s with
  | nil => rfl
  | cons c s ih =>
    rw [splitSlash, if_neg (by rintro rfl; exact h List.mem_cons_self), ih (fun m => h (List.mem_cons_of_mem _ m))]

theorem splitSlash_append (a b : List Char) : splitSlash (a ++ '/' :: b) = splitSlash a ++ splitSlash b := by
  induction a with
  | nil => simp [splitSlash]
  | cons c a ih =>
    rw [List.cons_append, splitSlash, splitSlash]
    by_cases h : c = '/'
    · rw [if_pos h, if_pos h, ih]; rfl
    · rw [if_neg h, if_neg h, ih]
      have := splitSlash_ne_nil a
      cases hs : splitSlash a with
      | nil => exact absurd hs this
      | cons p ps => rfl

/-- The parts of a path. -/
def partsOf (text : List Char) : List Bytes :=
  ((splitSlash text).map fun part => encodePart (utf8 part)).filter fun part => part ≠ []

theorem partsOf_good (text : List Char) : ∀ p ∈ partsOf text, p ≠ [] ∧ (47 : UInt8) ∉ p := by
  intro p hp
  unfold partsOf at hp
  rw [List.mem_filter, List.mem_map] at hp
  obtain ⟨⟨x, _, rfl⟩, h⟩ := hp
  exact ⟨by simpa using h, encodePart_noSlash _⟩

theorem pathOf_inj {a b : List Char} (h : pathOf a = pathOf b) : partsOf a = partsOf b :=
  joinSlash_inj (partsOf_good a) (partsOf_good b) h

theorem partsOf_append (a b : List Char) : partsOf (a ++ '/' :: b) = partsOf a ++ partsOf b := by
  simp [partsOf, splitSlash_append]

theorem partsOf_plain {s : List Char} (h : '/' ∉ s) :
    partsOf s = if s = [] then [] else [encodePart (utf8 s)] := by
  unfold partsOf
  rw [splitSlash_plain h]
  by_cases hs : s = []
  · subst hs; decide +kernel
  · have : encodePart (utf8 s) ≠ [] := by
      rw [Ne, encodePart_nil_iff]
      intro h0
      exact hs (utf8_inj (h0.trans utf8_nil.symm))
    simp [hs, this]

/-- The file name of a chunk. -/
def fileName (i : ChunkIndex) (t : ChunkType) : List Char := Decimal.decimal i ++ '-' :: (t.text ++ ".bin".toList)

theorem digit_ne {i : Nat} {c : Char} (h : c ∈ Decimal.decimal i) (hc : ¬ (48 ≤ c.toNat ∧ c.toNat ≤ 57)) : False :=
  hc (Decimal.decimal_isDigit i c h)

theorem fileName_noSlash (i : ChunkIndex) (t : ChunkType) : '/' ∉ fileName i t := by
  unfold fileName
  intro h
  rcases List.mem_append.1 h with h | h
  · exact digit_ne h (by decide)
  · revert h
    cases t <;> decide

theorem fileName_ne_nil (i : ChunkIndex) (t : ChunkType) : fileName i t ≠ [] := by
  unfold fileName; simp

theorem dash_inj {a b x y : List Char} (ha : '-' ∉ a) (hb : '-' ∉ b)
    (h : a ++ '-' :: x = b ++ '-' :: y) : a = b ∧ x = y := by
  induction a generalizing b with
  | nil =>
    cases b with
    | nil => exact ⟨rfl, by simpa using h⟩
    | cons c b =>
      simp only [List.nil_append, List.cons_append, List.cons.injEq] at h
      exact absurd (h.1 ▸ List.mem_cons_self) hb
  | cons c a ih =>
    cases b with
    | nil =>
      simp only [List.nil_append, List.cons_append, List.cons.injEq] at h
      exact absurd (h.1 ▸ List.mem_cons_self) ha
    | cons d b =>
      simp only [List.cons_append, List.cons.injEq] at h
      obtain ⟨h1, h2⟩ := ih (fun h => ha (List.mem_cons_of_mem _ h)) (fun h => hb (List.mem_cons_of_mem _ h)) h.2
      exact ⟨by rw [h.1, h1], h2⟩

theorem fileName_inj {i j : ChunkIndex} {t u : ChunkType} (h : fileName i t = fileName j u) : i = j ∧ t = u := by
  obtain ⟨h1, h2⟩ := dash_inj (fun h => digit_ne h (by decide)) (fun h => digit_ne h (by decide)) h
  refine ⟨Decimal.decimal_inj h1, ?_⟩
  revert h2
  cases t <;> cases u <;> simp [ChunkType.text]

theorem chunkPath_eq (base : List Char) (pfx : String) (i : ChunkIndex) (t : ChunkType) (hp : '/' ∉ pfx.toList) :
    partsOf (base ++ '/' :: (pfx.toList ++ '/' :: fileName i t)) =
      partsOf base ++ ((if pfx.toList = [] then [] else [encodePart (utf8 pfx.toList)]) ++
        [encodePart (utf8 (fileName i t))]) := by
  rw [partsOf_append, partsOf_append, partsOf_plain hp, partsOf_plain (fileName_noSlash i t),
    if_neg (fileName_ne_nil i t)]

theorem chunkPath_inj (base : List Char) {p q : String} {i j : ChunkIndex} {t u : ChunkType}
    (hp : '/' ∉ p.toList) (hq : '/' ∉ q.toList) (h : chunkPath base p i t = chunkPath base q j u) :
    p = q ∧ i = j ∧ t = u := by
  have h := pathOf_inj h
  change partsOf (base ++ '/' :: (p.toList ++ '/' :: fileName i t)) =
    partsOf (base ++ '/' :: (q.toList ++ '/' :: fileName j u)) at h
  rw [chunkPath_eq _ _ _ _ hp, chunkPath_eq _ _ _ _ hq, List.append_cancel_left_eq] at h
  have hfile : ∀ {a b : List Char}, encodePart (utf8 a) = encodePart (utf8 b) → a = b :=
    fun h => utf8_inj (encodePart_inj h)
  by_cases h1 : p.toList = [] <;> by_cases h2 : q.toList = []
  · simp only [h1, h2, if_true, List.nil_append, List.cons.injEq, and_true] at h
    exact ⟨String.ext (h1.trans h2.symm), fileName_inj (hfile h)⟩
  · simp [h1, h2] at h
  · simp [h1, h2] at h
  · simp only [h1, h2, if_false, List.cons_append, List.nil_append, List.cons.injEq, and_true] at h
    exact ⟨String.ext (hfile h.1), fileName_inj (hfile h.2)⟩

/-! ## The store -/

theorem get_write (base : List Char) (s : Store) (w : Write) (path : Bytes) :
    (write base s w).get path = if chunkPath base w.pfx w.index w.type = path then some w.content else s.get path := by
  unfold write
  rw [Map.get_set]

theorem get_writes_other (base : List Char) (ws : List Write) (s : Store) (path : Bytes)
    (h : ∀ w ∈ ws, chunkPath base w.pfx w.index w.type ≠ path) : (writes base s ws).get path = s.get path := by
  induction ws generalizing s with
  | nil => rfl
  | cons w ws ih =>
    change (writes base (write base s w) ws).get path = _
    rw [ih _ (fun x hx => h x (List.mem_cons_of_mem _ hx)), get_write,
      if_neg (h w (by simp))]

/-- Writes of chunks of other prefixes or of the other type. -/
def Apart (p : String) (t : ChunkType) (ws : List Write) : Prop :=
  ∀ w ∈ ws, '/' ∉ w.pfx.toList ∧ (w.pfx ≠ p ∨ w.type ≠ t)

theorem get_writes_apart (base : List Char) {p : String} (hp : '/' ∉ p.toList) {t : ChunkType} {ws : List Write}
    (h : Apart p t ws) (s : Store) (i : ChunkIndex) :
    (writes base s ws).get (chunkPath base p i t) = s.get (chunkPath base p i t) := by
  apply get_writes_other
  intro w hw e
  obtain ⟨h1, h2⟩ := h w hw
  obtain ⟨e1, -, e3⟩ := chunkPath_inj base h1 hp e
  rcases h2 with h2 | h2
  · exact h2 e1
  · exact h2 e3

theorem storeFrom_lower (base : List Char) {p : String} (hp : '/' ∉ p.toList) (t : ChunkType) (rs : List Round) :
    ∀ (i : Nat) (s : Store), (∀ r ∈ rs, Apart p t r.others) → ∀ j : Nat, j < i →
      (storeFrom base p t i rs s).2.get (chunkPath base p j t) = s.get (chunkPath base p j t) := by
  induction rs with
  | nil => intro i s _ j _; rfl
  | cons r rs ih =>
    intro i s h j hj
    have h0 := h r (by simp)
    have hw : ∀ b, (write base (writes base s r.others) ⟨p, i, t, b⟩).get (chunkPath base p j t) =
        s.get (chunkPath base p j t) := by
      intro b
      rw [get_write, if_neg, get_writes_apart base hp h0]
      intro e
      have : i = j := (chunkPath_inj base hp hp e).2.1
      omega
    rw [storeFrom]
    cases hc : r.content with
    | error e => exact get_writes_apart base hp h0 s j
    | ok b =>
      simp only
      cases hr : r.put with
      | ok =>
        simp only [storeChunk]
        rw [ih _ _ (fun x hx => h x (List.mem_cons_of_mem _ hx)) j (by omega), hw]
      | failed st =>
        cases st
        · simp only [storeChunk]; exact get_writes_apart base hp h0 s j
        · simp only [storeChunk]; exact hw b

theorem storeFrom_ok (base : List Char) (p : String) (t : ChunkType) (rs : List Round) :
    ∀ (i : Nat) (s : Store) (n : Nat), (storeFrom base p t i rs s).1 = .ok n ↔
      n = i + rs.length ∧ ∀ r ∈ rs, r.put = .ok ∧ ∃ b, r.content = .ok b := by
  induction rs with
  | nil =>
    intro i s n
    simp [storeFrom, eq_comm]
  | cons r rs ih =>
    intro i s n
    rw [storeFrom]
    cases hc : r.content with
    | error e => simp [hc]
    | ok b =>
      simp only
      cases hr : r.put with
      | ok =>
        simp only [storeChunk]
        rw [ih]
        simp only [List.length_cons, List.mem_cons, forall_eq_or_imp, hr, hc, Except.ok.injEq, exists_eq', and_self,
          true_and]
        constructor
        · rintro ⟨h1, h2⟩; exact ⟨by omega, h2⟩
        · rintro ⟨h1, h2⟩; exact ⟨by omega, h2⟩
      | failed st => cases st <;> simp [storeChunk, hr]

theorem storeFrom_get (base : List Char) {p : String} (hp : '/' ∉ p.toList) (t : ChunkType) (rs : List Round) :
    ∀ (i : Nat) (s : Store), (∀ r ∈ rs, r.put = .ok ∧ (∃ b, r.content = .ok b) ∧ Apart p t r.others) →
      ∀ (k : Nat) r, rs[k]? = some r → ∀ b, r.content = .ok b →
        (storeFrom base p t i rs s).2.get (chunkPath base p (i + k) t) = some b := by
  induction rs with
  | nil => intro i s _ k r hk; simp at hk
  | cons r rs ih =>
    intro i s h k r' hk b hb
    obtain ⟨h1, ⟨c, h2⟩, h3⟩ := h r (by simp)
    have hrest : ∀ x ∈ rs, x.put = .ok ∧ (∃ b, x.content = .ok b) ∧ Apart p t x.others :=
      fun x hx => h x (List.mem_cons_of_mem _ hx)
    rw [storeFrom]
    simp only [h2, h1, storeChunk]
    cases k with
    | zero =>
      simp only [List.getElem?_cons_zero, Option.some.injEq] at hk
      subst hk
      change Map.get _ (chunkPath base p i t) = _
      rw [storeFrom_lower base hp t rs (i + 1) _ (fun x hx => (hrest x hx).2.2) i (by omega), get_write, if_pos rfl]
      rw [h2] at hb
      cases hb; rfl
    | succ k =>
      simp only [List.getElem?_cons_succ] at hk
      have := ih (i + 1) (write base (writes base s r.others) ⟨p, i, t, c⟩) hrest k r' hk b hb
      rw [← this, Nat.add_right_comm]
      rfl

theorem retrieveFrom_get (base : List Char) {p : String} (hp : '/' ∉ p.toList) (t : ChunkType)
    (others : Nat → List Write) (ho : ∀ i, Apart p t (others i)) (n : Nat) :
    ∀ (i : Nat) (s : Store), retrieveFrom base p t others i n s =
      (List.range n).map fun k => retrieveChunk base s p (i + k) t := by
  induction n with
  | zero => intro i s; rfl
  | succ n ih =>
    intro i s
    rw [retrieveFrom, ih, List.range_succ_eq_map, List.map_cons, List.map_map]
    have hr : ∀ j, retrieveChunk base (writes base s (others i)) p j t = retrieveChunk base s p j t := by
      intro j
      unfold retrieveChunk
      rw [get_writes_apart base hp (ho i)]
    simp only [hr, Nat.add_zero]
    congr 1
    apply List.map_congr_left
    intro k _
    simp only [Function.comp]
    rw [Nat.add_right_comm]
    rfl

end Opsqueue.ObjectStore
