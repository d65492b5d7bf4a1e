import Verif.Proofs.Http
import Verif.Spec.Endpoints

/-! # Which requests are readable -/

namespace Opsqueue

/-! ## Numerals -/

namespace Decimal

theorem digit?_iff {c : Char} {d : Nat} : digit? c = some d ↔ IsDigit c ∧ d = c.toNat - 48 := by
  unfold digit? IsDigit
  split
  · rename_i h
    simp only [Option.some.injEq, h, true_and]
    exact ⟨fun h => h.symm, fun h => h.symm⟩
  · rename_i h
    simp only [reduceCtorEq, false_iff, not_and]
    exact fun h' => absurd h' h

theorem parseLoop_iff (cs : List Char) : ∀ (acc n : Nat), parseLoop acc cs = some n ↔
    (∀ c ∈ cs, IsDigit c) ∧ n = cs.foldl (fun a c => 10 * a + (c.toNat - 48)) acc := by
  induction cs with
  | nil => intro acc n; simp [parseLoop, eq_comm]
  | cons c cs ih =>
    intro acc n
    unfold parseLoop
    cases hd : digit? c with
    | none =>
      simp only [reduceCtorEq, false_iff, not_and]
      intro h
      have : digit? c = some (c.toNat - 48) := digit?_iff.2 ⟨h c (by simp), rfl⟩
      rw [hd] at this
      cases this
    | some d =>
      obtain ⟨h1, h2⟩ := digit?_iff.1 hd
      simp only [List.foldl_cons, List.forall_mem_cons, h1, true_and]
      rw [ih, h2, Nat.mul_comm]

theorem parse_iff (s : List Char) (n : Nat) : parse s = some n ↔ Denotes s n := by
  have key : ∀ ds : List Char, ds ≠ [] → (parseLoop 0 ds = some n ↔
      ds ≠ [] ∧ (∀ c ∈ ds, '0'.toNat ≤ c.toNat ∧ c.toNat ≤ '9'.toNat) ∧
        n = ds.foldl (fun a c => 10 * a + (c.toNat - '0'.toNat)) 0) := by
    intro ds hne
    rw [parseLoop_iff]
    exact ⟨fun h => ⟨hne, h⟩, fun h => h.2⟩
  have hplus : ∀ ds : List Char, (∀ c ∈ ds, '0'.toNat ≤ c.toNat ∧ c.toNat ≤ '9'.toNat) → '+' ∉ ds := by
    intro ds h hm
    exact absurd (h _ hm) (by decide)
  unfold Denotes
  unfold parse
  split
  · simp
  · constructor
    · simp
    · rintro ⟨ds, h | h, hne, hd, -⟩
      · exact absurd (show '+' ∈ ds by rw [← h]; simp) (hplus ds hd)
      · simp only [List.cons.injEq, true_and] at h
        exact absurd h.symm hne
  · rename_i cs hcs
    have hne : cs ≠ [] := by rintro rfl; exact hcs rfl
    rw [key cs hne]
    constructor
    · rintro h
      exact ⟨cs, .inr rfl, h⟩
    · rintro ⟨ds, h | h, h'⟩
      · exact absurd (show '+' ∈ ds by rw [← h]; simp) (hplus ds h'.2.1)
      · simp only [List.cons.injEq, true_and] at h
        rw [h]; exact h'
  · rename_i h0 h1 h2
    rw [key s h0]
    constructor
    · rintro h
      exact ⟨s, .inl rfl, h⟩
    · rintro ⟨ds, h | h, h'⟩
      · rw [h]; exact h'
      · exact absurd h (h2 ds)

end Decimal

namespace Wire
open Http

/-! ## Decoders accept exactly what they should -/

theorem decNat_iff {j : Json} {n : Nat} : decNat j = some n ↔ j = .num n := by
  constructor
  · intro h
    unfold decNat at h
    split at h
    · split at h
      · rename_i k hk
        injection h with h
        congr 1; omega
      · cases h
    · cases h
  · rintro rfl; exact nat_rt n

theorem decInt_iff {j : Json} {n : Int} : decInt j = some n ↔ j = .num n := by
  constructor
  · intro h
    unfold decInt at h
    split at h
    · injection h with h; rw [h]
    · cases h
  · rintro rfl; rfl

theorem decStr_iff {j : Json} {s : String} : decStr j = some s ↔ j = .str s := by
  constructor
  · intro h
    unfold decStr at h
    split at h
    · injection h with h; rw [h]
    · cases h
  · rintro rfl; rfl

theorem decU8_iff {j : Json} {b : UInt8} : decU8 j = some b ↔ j = .num b.toNat := by
  constructor
  · intro h
    unfold decU8 at h
    split at h
    · split at h
      · rename_i k hk
        injection h with h
        rw [← h, UInt8.toNat_ofNat']
        congr 1; omega
      · cases h
    · cases h
  · rintro rfl; exact u8_rt b

theorem mapM_iff {α β : Type} {f : α → β} {g : β → Option α} (h : ∀ a b, g b = some a ↔ b = f a)
    (ys : List β) : ∀ (xs : List α), ys.mapM g = some xs ↔ ys = xs.map f := by
  induction ys with
  | nil => intro xs; cases xs <;> simp
  | cons y ys ih =>
    intro xs
    rw [List.mapM_cons]
    cases hy : g y with
    | none =>
      simp only [Option.bind_eq_bind, Option.bind_none, reduceCtorEq, false_iff]
      intro he
      cases xs with
      | nil => cases he
      | cons x xs =>
        simp only [List.map_cons, List.cons.injEq] at he
        rw [(h x y).2 he.1] at hy
        cases hy
    | some a =>
      have ha := (h a y).1 hy
      cases xs with
      | nil => cases hm : ys.mapM g <;> simp [hm]
      | cons x xs =>
        have hax : y = f x ↔ a = x := by
          rw [← h x y, hy]; simp
        rw [List.map_cons, List.cons.injEq, ← ih xs, hax]
        cases hm : ys.mapM g <;> simp [hm]

theorem decList_iff {α : Type} {f : α → Json} {g : Json → Option α} (h : ∀ a b, g b = some a ↔ b = f a)
    {j : Json} {xs : List α} : decList g j = some xs ↔ j = .arr (xs.map f) := by
  unfold decList
  split
  · rw [mapM_iff h]; simp
  · rename_i hj
    simp only [reduceCtorEq, false_iff]
    exact fun he => hj _ he

theorem decBytes_iff {j : Json} {b : Bytes} : decBytes j = some b ↔ j = bytes b :=
  decList_iff (fun _ _ => decU8_iff)

theorem decOpt_iff {α : Type} {f : α → Json} {g : Json → Option α} (h : ∀ a b, g b = some a ↔ b = f a)
    (hn : ∀ a, f a ≠ .null) {j : Json} {x : Option α} :
    decOpt g j = some x ↔ j = (match x with | none => .null | some a => f a) := by
  unfold decOpt
  split
  · cases x with
    | none => simp
    | some a => simp only [Option.some.injEq, reduceCtorEq, false_iff]; exact fun he => hn a he.symm
  · rename_i j hj
    cases x with
    | none =>
      simp only [Option.map_eq_some_iff, reduceCtorEq, and_false, exists_false, false_iff]
      exact hj
    | some a => simp [h]

theorem content_iff {j : Json} {c : Content} : decOpt decBytes j = some c ↔ j = content c := by
  rw [decOpt_iff (f := bytes) (fun _ _ => decBytes_iff) (by simp [bytes])]
  cases c <;> rfl

theorem decMap_iff {j : Json} {m : StrategicMetadata} : decMap j = some m ↔ j = strategicMap m := by
  unfold decMap strategicMap
  split
  · rename_i fs
    rw [mapM_iff (f := fun kv : String × Int => (kv.1, Json.num kv.2))]
    · simp
    · rintro ⟨k, v⟩ ⟨k', v'⟩
      simp only [Option.map_eq_some_iff, decInt_iff, Prod.mk.injEq]
      constructor
      · rintro ⟨n, h1, h2, h3⟩; exact ⟨h2, by rw [h1, h3]⟩
      · rintro ⟨h1, h2⟩; exact ⟨v, h2, h1, rfl⟩
  · rename_i hj
    simp only [reduceCtorEq, false_iff]
    exact fun he => hj _ he

/-! ## Fields -/

theorem filter_nil_iff {name : String} {fs : List (String × Json)} :
    fs.filter (·.1 == name) = [] ↔ Absent name fs := by
  simp [List.filter_eq_nil_iff, Absent]

theorem filter_one_iff {name : String} {fs : List (String × Json)} {v : Json} :
    (∃ f, fs.filter (·.1 == name) = [f] ∧ f.2 = v) ↔ Has name v fs := by
  constructor
  · induction fs with
    | nil => rintro ⟨f, h, -⟩; simp at h
    | cons g fs ih =>
      rintro ⟨f, h, hv⟩
      rw [List.filter_cons] at h
      by_cases hg : g.1 = name
      · rw [if_pos (by simpa using hg)] at h
        simp only [List.cons.injEq] at h
        refine ⟨[], fs, ?_, by simp [Absent], filter_nil_iff.1 h.2⟩
        rw [← hv, ← h.1, ← hg]; rfl
      · rw [if_neg (by simpa using hg)] at h
        obtain ⟨l, r, h1, h2, h3⟩ := ih ⟨f, h, hv⟩
        refine ⟨g :: l, r, by rw [h1]; rfl, ?_, h3⟩
        intro x hx
        rcases List.mem_cons.1 hx with rfl | hx
        · exact hg
        · exact h2 x hx
  · rintro ⟨l, r, rfl, hl, hr⟩
    refine ⟨(name, v), ?_, rfl⟩
    rw [List.filter_append, filter_nil_iff.2 hl, List.filter_cons, filter_nil_iff.2 hr]
    simp

theorem lookup_absent {name : String} {fs : List (String × Json)} :
    lookupField name (.obj fs) = some none ↔ Absent name fs := by
  rw [← filter_nil_iff]
  simp only [lookupField]
  generalize fs.filter (fun x => x.fst == name) = l
  rcases l with _ | ⟨f, _ | ⟨g, l⟩⟩ <;> simp

theorem lookup_has {name : String} {fs : List (String × Json)} {v : Json} :
    lookupField name (.obj fs) = some (some v) ↔ Has name v fs := by
  rw [← filter_one_iff]
  simp only [lookupField]
  generalize fs.filter (fun x => x.fst == name) = l
  rcases l with _ | ⟨f, _ | ⟨g, l⟩⟩ <;> simp

theorem field_iff {name : String} {fs : List (String × Json)} {v : Json} :
    field name (.obj fs) = some v ↔ Has name v fs := by
  rw [← lookup_has, field]
  cases lookupField name (.obj fs) with
  | none => simp
  | some o => simp

theorem optField_iff {α : Type} {f : α → Json} {g : Json → Option α} (h : ∀ a b, g b = some a ↔ b = f a)
    (hn : ∀ a, f a ≠ .null) {name : String} {fs : List (String × Json)} {x : Option α} :
    (optField name (.obj fs) >>= decOpt g) = some x ↔ Optionally name f fs x := by
  unfold optField
  have hd := fun j x => decOpt_iff (f := f) (g := g) h hn (j := j) (x := x)
  cases hl : lookupField name (.obj fs) with
  | none =>
    have h1 : ¬ Absent name fs := fun h => by rw [lookup_absent.2 h] at hl; cases hl
    have h2 : ∀ v, ¬ Has name v fs := fun v h => by rw [lookup_has.2 h] at hl; cases hl
    cases x <;> simp [Optionally, h1, h2]
  | some o =>
    cases o with
    | none =>
      have h1 := lookup_absent.1 hl
      have h2 : ∀ v, ¬ Has name v fs := fun v h => by rw [lookup_has.2 h] at hl; cases hl
      simp only [Option.map_some, Option.getD_none, Option.bind_eq_bind, Option.bind_some, hd]
      cases x with
      | none => simp [Optionally, h1]
      | some a => simp only [Optionally, h2, iff_false]; exact fun he => hn a he.symm
    | some v =>
      have h1 : ¬ Absent name fs := fun h => by rw [lookup_absent.2 h] at hl; cases hl
      have h2 : ∀ w, Has name w fs ↔ v = w := fun w => by rw [← lookup_has, hl]; simp
      simp only [Option.map_some, Option.getD_some, Option.bind_eq_bind, Option.bind_some, hd]
      cases x <;> simp [Optionally, h1, h2]

theorem mapField_iff {fs : List (String × Json)} {m : StrategicMetadata} :
    mapField (.obj fs) = some m ↔
      (Absent "strategic_metadata" fs ∧ m = [] ∨ Has "strategic_metadata" (strategicMap m) fs) := by
  unfold mapField
  rw [← lookup_absent, ← lookup_has]
  split
  · rename_i h; simp [h]
  · rename_i h; simp [h, eq_comm]
  · rename_i v h; simp [h, decMap_iff]

theorem not_obj {name : String} {j : Json} (h : ∀ fs, j ≠ .obj fs) : field name j = none := by
  unfold field lookupField
  split
  · exact absurd rfl (h _)
  · rfl

theorem obj_of_field {name : String} {j v : Json} (h : field name j = some v) : ∃ fs, j = .obj fs := by
  apply Classical.byContradiction
  intro hn
  rw [not_obj fun fs he => hn ⟨fs, he⟩] at h
  cases h

theorem asObject_iff {names : List String} {j : Json} {fs : List (String × Json)} :
    asObject names j = .obj fs ↔ Record names j fs := by
  unfold asObject Record
  split
  · rename_i vs
    split
    · rename_i hl
      constructor
      · intro h
        injection h with h
        subst h
        refine .inr ⟨?_, ?_⟩
        · rw [List.map_snd_zip (by omega)]
        · rw [List.map_fst_zip (by omega)]
      · rintro (h | ⟨h1, h2⟩)
        · cases h
        · injection h1 with h1
          subst h1 h2
          congr 1
          induction fs with
          | nil => rfl
          | cons f fs ih =>
            rw [List.map_cons, List.map_cons, List.zip_cons_cons, ih (by simp)]
    · rename_i hl
      constructor
      · intro h; cases h
      · rintro (h | ⟨h1, h2⟩)
        · cases h
        · injection h1 with h1
          subst h1 h2
          exact absurd (by simp) hl
  · rename_i hj
    constructor
    · intro h; exact .inl h
    · rintro (h | ⟨h1, h2⟩)
      · exact h
      · exact absurd h1 (hj _)

theorem decContents_iff {j : Json} {c : ChunkContents} : decContents j = some c ↔ SaysChunks j c := by
  constructor
  · intro h
    unfold decContents at h
    split at h
    · rename_i tag v
      split at h
      · rename_i ht
        simp only [Option.bind_eq_bind, Option.bind_eq_some_iff, Option.some.injEq, decStr_iff, decNat_iff] at h
        obtain ⟨p, ⟨v1, h1, rfl⟩, n, ⟨v2, h2, rfl⟩, rfl⟩ := h
        obtain ⟨fs, hr⟩ := obj_of_field h1
        rw [hr] at h1 h2
        exact ⟨v, fs, by rw [ht], asObject_iff.1 hr, field_iff.1 h1, field_iff.1 h2⟩
      · split at h
        · rename_i ht
          simp only [Option.bind_eq_bind, Option.map_eq_some_iff, Option.bind_eq_some_iff] at h
          obtain ⟨cs, ⟨v1, h1, h2⟩, rfl⟩ := h
          obtain ⟨fs, hr⟩ := obj_of_field h1
          rw [hr] at h1
          rw [decList_iff (fun _ _ => content_iff)] at h2
          exact ⟨v, fs, by rw [ht], asObject_iff.1 hr, h2 ▸ field_iff.1 h1⟩
        · cases h
    · cases h
  · cases c with
    | seeObjectStorage p n =>
      rintro ⟨v, fs, rfl, hr, h1, h2⟩
      simp only [decContents, if_true, asObject_iff.2 hr, field_iff.2 h1, field_iff.2 h2, Option.bind_eq_bind, Option.bind_some]
      rw [decStr_iff.2 rfl, decNat_iff.2 rfl]
      rfl
    | direct cs =>
      rintro ⟨v, fs, rfl, hr, h1⟩
      rw [decContents, if_neg (by decide), if_pos rfl, asObject_iff.2 hr, field_iff.2 h1]
      simp only [Option.bind_eq_bind, Option.bind_some]
      rw [(decList_iff (fun _ _ => content_iff)).2 rfl]
      rfl

theorem decInsert_iff {j : Json} {r : InsertSubmission} : decInsert j = some r ↔ SaysInsert j r := by
  unfold decInsert
  constructor
  · intro h
    unfold decInsertFields at h
    simp only [Option.bind_eq_bind] at h
    rw [Option.bind_eq_some_iff] at h
    obtain ⟨c, h1, h⟩ := h
    rw [Option.bind_eq_some_iff] at h1
    obtain ⟨v, hv, hc⟩ := h1
    obtain ⟨fs, hr⟩ := obj_of_field hv
    rw [hr] at hv h
    rw [Option.bind_eq_some_iff] at h
    obtain ⟨md, h2, h⟩ := h
    rw [Option.bind_eq_some_iff] at h
    obtain ⟨st, h3, h⟩ := h
    rw [Option.bind_eq_some_iff] at h
    obtain ⟨sz, h4, h⟩ := h
    injection h with h
    subst h
    exact ⟨fs, asObject_iff.1 hr, ⟨v, field_iff.1 hv, decContents_iff.1 hc⟩,
      (optField_iff (f := bytes) (fun _ _ => decBytes_iff) (by simp [bytes])).1 h2, mapField_iff.1 h3,
      (optField_iff (f := number) (fun _ _ => decInt_iff) (by simp [number])).1 h4⟩
  · rintro ⟨fs, hr, ⟨v, hv, hc⟩, h2, h3, h4⟩
    have h2' := (optField_iff (f := bytes) (fun _ _ => decBytes_iff) (by simp [bytes])).2 h2
    have h4' := (optField_iff (f := number) (fun _ _ => decInt_iff) (by simp [number])).2 h4
    rw [asObject_iff.2 hr]
    unfold decInsertFields
    rw [field_iff.2 hv, h2', mapField_iff.2 h3, h4']
    simp only [Option.bind_eq_bind, Option.bind_some, decContents_iff.2 hc]

theorem lastOfEach_spec (m : StrategicMetadata) : LastValues m (lastOfEach m) := by
  refine ⟨lastOfEach_nodup m, fun k v => ?_⟩
  induction m with
  | nil => simp [lastOfEach]
  | cons x m ih =>
    have hex : (∃ l r, x :: m = l ++ (k, v) :: r ∧ ∀ kv ∈ r, kv.1 ≠ k) ↔
        (x = (k, v) ∧ ∀ kv ∈ m, kv.1 ≠ k) ∨ ∃ l r, m = l ++ (k, v) :: r ∧ ∀ kv ∈ r, kv.1 ≠ k := by
      constructor
      · rintro ⟨l, r, e, h⟩
        cases l with
        | nil =>
          injection e with e1 e2
          subst e1 e2
          exact .inl ⟨rfl, h⟩
        | cons y l =>
          injection e with e1 e2
          exact .inr ⟨l, r, e2, h⟩
      · rintro (⟨rfl, h⟩ | ⟨l, r, rfl, h⟩)
        · exact ⟨[], m, rfl, h⟩
        · exact ⟨x :: l, r, rfl, h⟩
    rw [hex, ← ih, lastOfEach]
    split
    · rename_i h
      obtain ⟨y, hy, e⟩ := List.any_eq_true.1 h
      constructor
      · exact .inr
      · rintro (⟨rfl, h'⟩ | h')
        · exact absurd (by simpa using e) (h' y hy)
        · exact h'
    · rename_i h
      rw [List.mem_cons, eq_comm]
      constructor
      · rintro (e | h')
        · refine .inl ⟨e, fun y hy hk => h (List.any_eq_true.2 ⟨y, hy, ?_⟩)⟩
          rw [e]; simp [hk]
        · exact .inr h'
      · rintro (⟨e, -⟩ | h')
        · exact .inl e
        · exact .inr h'

end Wire

namespace Http
open Wire

theorem hex?_iff {c : Char} {v : Nat} : hex? c = some v ↔ HexDigit c v := by
  constructor
  · intro h
    have hlt : v < 16 ∧ (c = Char.ofNat (48 + v) ∧ v < 10 ∨ c = Char.ofNat (55 + v) ∧ 10 ≤ v ∨
        c = Char.ofNat (87 + v) ∧ 10 ≤ v) := by
      unfold hex? at h
      split at h
      · rename_i hr
        obtain rfl := Option.some.inj h
        refine ⟨by omega, .inl ⟨?_, by omega⟩⟩
        rw [show 48 + (c.toNat - 48) = c.toNat by omega, Char.ofNat_toNat]
      split at h
      · rename_i hr
        obtain rfl := Option.some.inj h
        refine ⟨by omega, .inr (.inl ⟨?_, by omega⟩)⟩
        rw [show 55 + (c.toNat - 55) = c.toNat by omega, Char.ofNat_toNat]
      split at h
      · rename_i hr
        obtain rfl := Option.some.inj h
        refine ⟨by omega, .inr (.inr ⟨?_, by omega⟩)⟩
        rw [show 87 + (c.toNat - 87) = c.toNat by omega, Char.ofNat_toNat]
      · cases h
    have all : ∀ v, v < 16 → (v < 10 → HexDigit (Char.ofNat (48 + v)) v) ∧
        (10 ≤ v → HexDigit (Char.ofNat (55 + v)) v ∧ HexDigit (Char.ofNat (87 + v)) v) := by
      unfold HexDigit
      decide +kernel
    obtain ⟨hv, ⟨rfl, h'⟩ | ⟨rfl, h'⟩ | ⟨rfl, h'⟩⟩ := hlt
    · exact (all v hv).1 h'
    · exact ((all v hv).2 h').1
    · exact ((all v hv).2 h').2
  · intro h
    have len : v < 16 := by
      rcases h with h | h
      · have := (List.getElem?_eq_some_iff.1 h).1
        rwa [show "0123456789ABCDEF".toList.length = 16 by decide +kernel] at this
      · have := (List.getElem?_eq_some_iff.1 h).1
        rwa [show "0123456789abcdef".toList.length = 16 by decide +kernel] at this
    have all : ∀ v, v < 16 → ("0123456789ABCDEF".toList[v]?.bind hex? = some v) ∧
        ("0123456789abcdef".toList[v]?.bind hex? = some v) := by decide +kernel
    obtain ⟨h1, h2⟩ := all v len
    rcases h with h | h
    · rwa [h] at h1
    · rwa [h] at h2

theorem unescapes_decode (seg : List Char) : Unescapes seg (percentDecode seg) := by
  induction seg using percentDecode.induct with
  | case1 => rw [percentDecode]; exact .nil
  | case2 a b cs x y hb ha ih =>
    rw [percentDecode, ha, hb]
    exact .escape (hex?_iff.1 ha) (hex?_iff.1 hb) ih
  | case3 a b cs hno ih =>
    rw [percentDecode]
    split
    · rename_i x y ha hb
      exact absurd hb (hno x y ha)
    · refine .plain ?_ ih
      rintro ⟨a', b', rest, x, y, -, e, ha, hb⟩
      injection e with e1 e
      injection e with e2 e
      subst e1 e2 e
      exact hno x y (hex?_iff.2 ha) (hex?_iff.2 hb)
  | case4 c cs hno ih =>
    rw [percentDecode]
    · refine .plain ?_ ih
      rintro ⟨a', b', rest, x, y, e0, e, ha, hb⟩
      exact hno a' b' rest e0 e
    · exact hno

theorem decode_plain {c : Char} {cs : List Char}
    (hc : ¬ ∃ a b rest x y, c = '%' ∧ cs = a :: b :: rest ∧ HexDigit a x ∧ HexDigit b y) :
    percentDecode (c :: cs) = c :: percentDecode cs := by
  rw [percentDecode.eq_def (c :: cs)]
  split
  · rename_i heq; cases heq
  · rename_i a b rest heq
    obtain ⟨rfl, rfl⟩ := List.cons.inj heq
    split
    · rename_i x y ha hb
      exact absurd ⟨a, b, rest, x, y, rfl, rfl, hex?_iff.1 ha, hex?_iff.1 hb⟩ hc
    · rfl
  · rename_i heq
    obtain ⟨rfl, rfl⟩ := List.cons.inj heq
    rfl

theorem unescapes_iff {seg text : List Char} : Unescapes seg text ↔ text = percentDecode seg := by
  constructor
  · intro h
    induction h with
    | nil => rw [percentDecode]
    | escape ha hb h ih => rw [percentDecode, hex?_iff.2 ha, hex?_iff.2 hb, ih]
    | plain hc h ih => rw [decode_plain hc, ih]
  · rintro rfl
    exact unescapes_decode seg

theorem pathId_iff {seg : Seg} {id : SubmissionId} : pathId seg = some id ↔ SaysId seg id := by
  unfold pathId SaysId
  rw [Option.filter_eq_some_iff, Decimal.parse_iff]
  constructor
  · rintro ⟨h1, h2⟩
    exact ⟨_, unescapes_decode seg, h1, by simpa using h2⟩
  · rintro ⟨text, h1, h2, h3⟩
    rw [unescapes_iff.1 h1] at h2
    exact ⟨h2, by simpa using h3⟩

theorem SaysId.small {seg : Seg} {id : SubmissionId} (h : SaysId seg id) : id < 2 ^ 63 := by
  obtain ⟨_, _, _, h⟩ := h
  exact h

end Http
end Opsqueue
