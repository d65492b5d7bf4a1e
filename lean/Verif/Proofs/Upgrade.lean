import Verif.Spec.Upgrade

/-! An abstract execution of the migrations on the declarations of tables alone, and its soundness for databases with
any contents. -/

namespace Opsqueue.Upgrade

/-! ### abstract databases -/

/-- A table of which only the declaration is known, and perhaps that it is empty. -/
structure ATable where
  decl : Decl
  empty : Bool := false
deriving DecidableEq, Repr

structure ADb where
  tables : List ATable
  indexes : List Index
deriving DecidableEq, Repr

def DeclOk (d : Decl) : Prop :=
  (d.cols.map Column.name).Nodup ∧ ∀ k ∈ d.pk, k ∈ d.stored.map Column.name

instance (d : Decl) : Decidable (DeclOk d) := inferInstanceAs (Decidable (_ ∧ _))

structure SatT (t : Table) (a : ATable) : Prop where
  decl : t.decl = a.decl
  empty : a.empty = true → t.rows = []
  ok : TableOk t
  declOk : DeclOk t.decl

inductive All2 : List Table → List ATable → Prop
  | nil : All2 [] []
  | cons {t a ts as} : SatT t a → All2 ts as → All2 (t :: ts) (a :: as)

structure Sat (db : Database) (σ : ADb) : Prop where
  tables : All2 db.tables σ.tables
  indexes : db.indexes = σ.indexes

theorem All2.append {ts as us bs} (h : All2 ts as) (h' : All2 us bs) : All2 (ts ++ us) (as ++ bs) := by
  induction h with
  | nil => exact h'
  | cons h1 _ ih => exact .cons h1 ih

theorem All2.find {ts as} (h : All2 ts as) (n : String) :
    (ts.find? (·.decl.name == n) = none ∧ as.find? (·.decl.name == n) = none) ∨
    ∃ t a, ts.find? (·.decl.name == n) = some t ∧ as.find? (·.decl.name == n) = some a ∧ SatT t a ∧ t ∈ ts := by
  induction h with
  | nil => left; simp
  | @cons t a ts as h1 _ ih =>
    simp only [List.find?_cons, h1.decl]
    by_cases hn : (a.decl.name == n) = true
    · right; simp only [hn]; exact ⟨t, a, rfl, rfl, h1, List.mem_cons_self⟩
    · simp only [Bool.not_eq_true] at hn
      simp only [hn]
      rcases ih with ih | ⟨t', a', h2, h3, h4, h5⟩
      · exact .inl ih
      · exact .inr ⟨t', a', h2, h3, h4, List.mem_cons_of_mem _ h5⟩

theorem All2.map {ts as} (h : All2 ts as) (n : String) (f : Table → Table) (g : ATable → ATable)
    (hfg : ∀ t a, t ∈ ts → SatT t a → t.decl.name = n → SatT (f t) (g a)) :
    All2 (ts.map fun t => if t.decl.name == n then f t else t) (as.map fun a => if a.decl.name == n then g a else a) := by
  induction h with
  | nil => exact .nil
  | @cons t a ts as h1 _ ih =>
    simp only [List.map_cons]
    refine .cons ?_ (ih fun t a ht => hfg t a (List.mem_cons_of_mem _ ht))
    simp only [h1.decl]
    split
    · rename_i hn
      exact hfg t a List.mem_cons_self h1 (by rw [h1.decl]; simpa using hn)
    · exact h1

theorem All2.filter {ts as} (h : All2 ts as) (n : String) :
    All2 (ts.filter (·.decl.name != n)) (as.filter (·.decl.name != n)) := by
  induction h with
  | nil => exact .nil
  | @cons t a ts as h1 _ ih =>
    simp only [List.filter_cons, h1.decl]
    split
    · exact .cons h1 ih
    · exact ih

def ADb.table? (σ : ADb) (n : String) : Option ATable := σ.tables.find? (·.decl.name == n)

def ADb.taken (σ : ADb) (n : String) : Bool := (σ.table? n).isSome || (σ.indexes.find? (·.name == n)).isSome

def ADb.update (σ : ADb) (n : String) (f : ATable → ATable) : ADb :=
  { σ with tables := σ.tables.map fun t => if t.decl.name == n then f t else t }

theorem Sat.taken {db σ} (h : Sat db σ) (n : String) : db.taken n = σ.taken n := by
  simp only [Database.taken, ADb.taken, Database.table?, ADb.table?, h.indexes]
  rcases h.tables.find n with ⟨h1, h2⟩ | ⟨t, a, h1, h2, _⟩ <;> rw [h1, h2] <;> rfl

/-! ### expressions -/

/-- The expression is not NULL in any row of such a table. -/
def Expr.total (d : Decl) : Expr → Bool
  | .col c => d.stored.any fun x => x.name == c && x.notNull
  | .lit _ => true
  | .add a b | .mul a b | .shr a b => a.total d && b.total d
  | .mod a b => a.total d && (match b with | .lit i => i != 0 | _ => false)

theorem Expr.total_sound {d : Decl} {r : Row} (hr : RowOk d r) (e : Expr) (h : e.total d = true) :
    (e.eval r.get).isSome = true := by
  induction e with
  | col c =>
    simp only [Expr.total, List.any_eq_true, Bool.and_eq_true, beq_iff_eq] at h
    obtain ⟨x, hx, rfl, hn⟩ := h
    have := hr.2 x hx
    simp only [Column.fits, hn, Bool.not_true, Bool.false_or, Bool.and_eq_true, bne_iff_ne, ne_eq] at this
    simp only [Expr.eval]
    cases hv : r.get x.name <;> simp_all [Val.num]
  | lit => rfl
  | add a b iha ihb | mul a b iha ihb | shr a b iha ihb =>
    simp only [Expr.total, Bool.and_eq_true] at h
    obtain ⟨x, hx⟩ := Option.isSome_iff_exists.1 (iha h.1)
    obtain ⟨y, hy⟩ := Option.isSome_iff_exists.1 (ihb h.2)
    simp [Expr.eval, hx, hy]
  | mod a b iha ihb =>
    simp only [Expr.total, Bool.and_eq_true] at h
    obtain ⟨x, hx⟩ := Option.isSome_iff_exists.1 (iha h.1)
    cases b with
    | lit i =>
      have hi : i ≠ 0 := by simpa using h.2
      simp [Expr.eval, hx, hi]
    | _ => simp at h

/-! ### rows -/

theorem lookup_some_mem {r : Row} {c : String} {v : Val} (h : r.lookup c = some v) : c ∈ r.map Prod.fst := by
  induction r with
  | nil => simp at h
  | cons x xs ih =>
    obtain ⟨k, w⟩ := x
    rw [List.lookup_cons] at h
    split at h
    · rename_i hk
      simp only [List.map_cons, List.mem_cons]
      exact .inl (by simpa using hk)
    · exact List.mem_cons_of_mem _ (ih h)

theorem lookup_none_of_not_mem {r : Row} {c : String} (h : c ∉ r.map Prod.fst) : r.lookup c = none := by
  cases hl : r.lookup c with
  | none => rfl
  | some v => exact absurd (lookup_some_mem hl) h

theorem mem_lookup_some {r : Row} {c : String} (h : c ∈ r.map Prod.fst) : ∃ v, r.lookup c = some v := by
  induction r with
  | nil => simp at h
  | cons x xs ih =>
    obtain ⟨k, w⟩ := x
    rw [List.lookup_cons]
    split
    · exact ⟨w, rfl⟩
    · rename_i hk
      simp only [List.map_cons, List.mem_cons] at h
      rcases h with h | h
      · simp [h] at hk
      · exact ih h

theorem get_append_left {r x : Row} {c : String} (h : c ∈ r.map Prod.fst) : Row.get (r ++ x) c = Row.get r c := by
  obtain ⟨v, hv⟩ := mem_lookup_some h
  simp [Row.get, List.lookup_append, hv]

theorem get_append_right {r x : Row} {c : String} (h : c ∉ r.map Prod.fst) : Row.get (r ++ x) c = Row.get x c := by
  simp [Row.get, List.lookup_append, lookup_none_of_not_mem h]

/-! ### columns -/

theorem stored_add_plain {d : Decl} {c : Column} (h : c.gen = none) :
    Decl.stored { d with cols := d.cols ++ [c] } = d.stored ++ [c] := by
  simp [Decl.stored, h]

theorem stored_add_gen {d : Decl} {c : Column} {e : Expr} (h : c.gen = some e) :
    Decl.stored { d with cols := d.cols ++ [c] } = d.stored := by
  simp [Decl.stored, h]

theorem stored_sub (d : Decl) : ∀ c ∈ d.stored.map Column.name, c ∈ d.cols.map Column.name := by
  intro c hc
  exact (List.filter_sublist.map _).subset hc

theorem nodup_snoc {l : List String} {x : String} (h : l.Nodup) (hx : x ∉ l) : (l ++ [x]).Nodup := by
  rw [List.nodup_append]
  refine ⟨h, by simp, ?_⟩
  intro a ha b hb
  simp only [List.mem_singleton] at hb
  exact fun e => hx (hb ▸ e ▸ ha)

theorem satT_addColumn {t : Table} {a : ATable} {c : Column} (h : SatT t a)
    (hc : c.name ∉ t.decl.cols.map Column.name)
    (hfit : c.gen = none → c.fits t.decl.strict c.dflt = true) :
    SatT (t.addColumn c) { a with decl := { a.decl with cols := a.decl.cols ++ [c] } } := by
  have hnd : DeclOk { t.decl with cols := t.decl.cols ++ [c] } := by
    refine ⟨?_, ?_⟩
    · simp only [List.map_append, List.map_cons, List.map_nil]
      exact nodup_snoc h.declOk.1 hc
    · intro k hk
      have := h.declOk.2 k hk
      simp only [Decl.stored, List.filter_append, List.map_append, List.mem_append]
      exact .inl this
  cases hg : c.gen with
  | none =>
    refine ⟨by simp [Table.addColumn, h.decl], ?_, ?_, hnd⟩
    · intro he; simp only [Table.addColumn, hg, h.empty he, List.map_nil]
    · have hst := stored_add_plain (d := t.decl) hg
      have hkeys : ∀ r ∈ t.rows, ∀ k ∈ t.decl.stored.map Column.name,
          Row.get (r ++ [(c.name, c.dflt)]) k = Row.get r k := by
        intro r hr k hk
        exact get_append_left (by rw [(h.ok.1 r hr).1]; exact hk)
      refine ⟨?_, ?_⟩
      · intro r hr
        simp only [Table.addColumn, hg, List.mem_map] at hr
        obtain ⟨r0, hr0, rfl⟩ := hr
        have h0 := h.ok.1 r0 hr0
        refine ⟨?_, ?_⟩
        · simp only [Table.addColumn, hst, List.map_append, h0.1, List.map_cons, List.map_nil]
        · intro x hx
          simp only [Table.addColumn, hst, List.mem_append, List.mem_singleton] at hx
          simp only [Table.addColumn]
          rcases hx with hx | rfl
          · rw [hkeys r0 hr0 _ (List.mem_map_of_mem hx)]; exact h0.2 x hx
          · rw [get_append_right (by rw [h0.1]; exact fun hm => hc (stored_sub _ _ hm))]
            simp only [Row.get, List.lookup_cons, beq_self_eq_true, Option.getD_some]
            exact hfit hg
      · simp only [Table.addColumn, hg, List.map_map]
        have : t.rows.map ((Decl.keyOf { t.decl with cols := t.decl.cols ++ [c] }) ∘ (· ++ [(c.name, c.dflt)])) =
            t.rows.map t.decl.keyOf := by
          apply List.map_congr_left
          intro r hr
          simp only [Function.comp, Decl.keyOf]
          apply List.map_congr_left
          intro k hk
          exact hkeys r hr k (h.declOk.2 k hk)
        rw [this]; exact h.ok.2
  | some e =>
    refine ⟨by simp [Table.addColumn, h.decl], ?_, ?_, hnd⟩
    · intro he; simp only [Table.addColumn, hg, h.empty he]
    · have hst := stored_add_gen (d := t.decl) hg
      refine ⟨?_, ?_⟩
      · intro r hr
        simp only [Table.addColumn, hg] at hr
        have h0 := h.ok.1 r hr
        exact ⟨by simp only [Table.addColumn, hst, h0.1], by
          simp only [Table.addColumn, hst]; exact h0.2⟩
      · simp only [Table.addColumn, hg]
        exact h.ok.2

theorem filter_other {r : Row} {c : String} (h : c ∉ r.map Prod.fst) : r.filter (·.1 != c) = r := by
  rw [List.filter_eq_self]
  intro x hx
  have : x.1 ≠ c := fun e => h (e ▸ List.mem_map_of_mem hx)
  simpa using this

theorem rows_dropColumn {t : Table} {c : String} (hok : TableOk t) (hc : c ∉ t.decl.stored.map Column.name) :
    (t.dropColumn c).rows = t.rows := by
  simp only [Table.dropColumn]
  have : t.rows.map (·.filter (·.1 != c)) = t.rows.map id := by
    apply List.map_congr_left
    intro r hr
    exact filter_other (by rw [(hok.1 r hr).1]; exact hc)
  rw [this, List.map_id]

theorem stored_drop {d : Decl} {c : String} (hc : c ∉ d.stored.map Column.name) :
    Decl.stored { d with cols := d.cols.filter (·.name != c) } = d.stored := by
  simp only [Decl.stored, List.filter_filter]
  apply List.filter_congr
  intro x hx
  by_cases hg : x.gen = none
  · have : x.name ≠ c := fun e => hc (List.mem_map.2 ⟨x, List.mem_filter.2 ⟨hx, by simp [hg]⟩, e⟩)
    simp [hg, this]
  · simp [hg]

theorem satT_dropColumn {t : Table} {a : ATable} {c : String} (h : SatT t a)
    (hc : c ∉ t.decl.stored.map Column.name) :
    SatT (t.dropColumn c) { a with decl := { a.decl with cols := a.decl.cols.filter (·.name != c) } } := by
  have hrows := rows_dropColumn h.ok hc
  have hst := stored_drop hc
  refine ⟨by simp [Table.dropColumn, h.decl], fun he => by rw [hrows, h.empty he], ⟨?_, ?_⟩, ⟨?_, ?_⟩⟩
  · intro r hr
    rw [hrows] at hr
    have h0 := h.ok.1 r hr
    exact ⟨by simp only [Table.dropColumn, hst, h0.1], by simp only [Table.dropColumn, hst]; exact h0.2⟩
  · rw [hrows]; exact h.ok.2
  · exact h.declOk.1.sublist (List.filter_sublist.map _)
  · simp only [Table.dropColumn, hst]; exact h.declOk.2

/-! ### INSERT … SELECT … MAX … GROUP BY -/

theorem mem_distinct {α : Type} [DecidableEq α] {x : α} {l : List α} : x ∈ distinct l ↔ x ∈ l := by
  induction l with
  | nil => simp [distinct]
  | cons y ys ih =>
    simp only [distinct]
    split
    · rename_i h
      rw [ih, List.mem_cons]
      exact ⟨.inr, fun h' => h'.elim (fun e => e ▸ h) id⟩
    · rw [List.mem_cons, ih, List.mem_cons]

theorem nodup_distinct {α : Type} [DecidableEq α] (l : List α) : (distinct l).Nodup := by
  induction l with
  | nil => simp [distinct]
  | cons y ys ih =>
    simp only [distinct]
    split
    · exact ih
    · rename_i h
      exact List.nodup_cons.2 ⟨fun hm => h (mem_distinct.1 hm), ih⟩

/-- The row `SELECT group…, MAX(value)` gives for the group of the row `r0`. -/
def groupRow (group : List String) (value : String) (rows : List Row) (r0 : Row) : Row :=
  group.map (fun k => (k, r0.get k)) ++
    [(value, maxVal ((rows.filter fun r => group.map r.get == group.map r0.get).map (Row.get · value)))]

theorem zip_map_self (group : List String) (f : String → Val) :
    group.zip (group.map f) = group.map fun k => (k, f k) := by
  induction group with
  | nil => rfl
  | cons k ks ih => simp [ih]

theorem mem_selectMax {group : List String} {value : String} {rows : List Row} {r : Row} :
    r ∈ selectMax group value rows ↔ ∃ r0 ∈ rows, r = groupRow group value rows r0 := by
  simp only [selectMax, List.mem_map, mem_distinct]
  constructor
  · rintro ⟨g, ⟨r0, h0, rfl⟩, rfl⟩
    exact ⟨r0, h0, by rw [zip_map_self]; rfl⟩
  · rintro ⟨r0, h0, rfl⟩
    exact ⟨_, ⟨r0, h0, rfl⟩, by rw [zip_map_self]; rfl⟩

theorem groupRow_keys (group : List String) (value : String) (rows : List Row) (r0 : Row) :
    (groupRow group value rows r0).map Prod.fst = group ++ [value] := by
  simp only [groupRow, List.map_append, List.map_map, List.map_cons, List.map_nil]
  congr 1
  conv => rhs; rw [← List.map_id group]
  rfl

theorem lookup_map_self {group : List String} {f : String → Val} {k : String} (h : k ∈ group) :
    (group.map fun k => (k, f k)).lookup k = some (f k) := by
  induction group with
  | nil => simp at h
  | cons x xs ih =>
    simp only [List.map_cons, List.lookup_cons]
    split
    · rename_i hk
      have : k = x := by simpa using hk
      rw [this]
    · rename_i hk
      rcases List.mem_cons.1 h with rfl | h
      · simp at hk
      · exact ih h

theorem groupRow_get {group : List String} {value : String} {rows : List Row} {r0 : Row} {k : String}
    (h : k ∈ group) : (groupRow group value rows r0).get k = r0.get k := by
  simp only [groupRow, Row.get, List.lookup_append, lookup_map_self h, Option.some_or, Option.getD_some]

theorem groupRow_value {group : List String} {value : String} {rows : List Row} {r0 : Row} (h : value ∉ group) :
    (groupRow group value rows r0).get value =
      maxVal ((rows.filter fun r => group.map r.get == group.map r0.get).map (Row.get · value)) := by
  rw [groupRow, get_append_right]
  · simp [Row.get]
  · simp only [List.map_map]
    intro hm
    obtain ⟨k, hk, e⟩ := List.mem_map.1 hm
    exact h (e ▸ hk)

theorem maxVal_ints {l : List Val} (hne : l ≠ []) (h : ∀ v ∈ l, ∃ i, v = .int i) :
    ∃ m, maxVal l = .int m ∧ Val.int m ∈ l ∧ ∀ i, Val.int i ∈ l → i ≤ m := by
  induction l with
  | nil => exact absurd rfl hne
  | cons v vs ih =>
    obtain ⟨i, rfl⟩ := h v List.mem_cons_self
    cases vs with
    | nil =>
      refine ⟨i, rfl, List.mem_cons_self, ?_⟩
      intro j hj
      simp only [List.mem_singleton, Val.int.injEq] at hj
      omega
    | cons w ws =>
      obtain ⟨m, h1, h2, h3⟩ := ih (by simp) fun v hv => h v (List.mem_cons_of_mem _ hv)
      have e : maxVal (.int i :: w :: ws) = .int (if i ≤ m then m else i) := by
        rw [maxVal, h1]; rfl
      rw [e]
      by_cases him : i ≤ m
      · rw [if_pos him]
        refine ⟨m, rfl, List.mem_cons_of_mem _ h2, ?_⟩
        intro j hj
        rcases List.mem_cons.1 hj with hj | hj
        · simp only [Val.int.injEq] at hj; omega
        · exact h3 j hj
      · rw [if_neg him]
        refine ⟨i, rfl, List.mem_cons_self, ?_⟩
        intro j hj
        rcases List.mem_cons.1 hj with hj | hj
        · simp only [Val.int.injEq] at hj; omega
        · have := h3 j hj; omega

theorem lookup_of_nodup {r : Row} (hn : (r.map Prod.fst).Nodup) {k : String} {v : Val} (h : (k, v) ∈ r) :
    r.lookup k = some v := by
  induction r with
  | nil => simp at h
  | cons x xs ih =>
    obtain ⟨k', v'⟩ := x
    simp only [List.map_cons, List.nodup_cons] at hn
    rw [List.lookup_cons]
    rcases List.mem_cons.1 h with h1 | h1
    · simp only [Prod.mk.injEq] at h1
      simp [h1.1, h1.2]
    · split
      · rename_i hk
        have : k = k' := by simpa using hk
        subst this
        exact absurd (List.mem_map.2 ⟨_, h1, rfl⟩) hn.1
      · exact ih hn.2 h1

theorem toRow_aux (f : String → Option Val) (cs : List Column) (r : Row) (hk : r.map Prod.fst = cs.map Column.name)
    (hf : ∀ k v, (k, v) ∈ r → f k = some v) : (cs.map fun c => (c.name, (f c.name).getD c.dflt)) = r := by
  induction r generalizing cs with
  | nil =>
    simp only [List.map_nil] at hk
    rw [List.map_eq_nil_iff.1 hk.symm]; rfl
  | cons x xs ih =>
    obtain ⟨k, v⟩ := x
    cases cs with
    | nil => simp at hk
    | cons c cs =>
      simp only [List.map_cons, List.cons.injEq] at hk
      simp only [List.map_cons]
      rw [ih cs hk.2 fun k v h => hf k v (List.mem_cons_of_mem _ h), ← hk.1, hf k v List.mem_cons_self]
      rfl

theorem toRow_self {d : Decl} {r : Row} (hn : (d.stored.map Column.name).Nodup)
    (hk : r.map Prod.fst = d.stored.map Column.name) : d.toRow r = r :=
  toRow_aux (fun k => r.lookup k) d.stored r hk fun _ _ h => lookup_of_nodup (by rw [hk]; exact hn) h

theorem insertAll_ok {d : Decl} (hn : (d.stored.map Column.name).Nodup) (rows rs : List Row)
    (hok : ∀ r ∈ rs, RowOk d r) (hkeys : (rows.map d.keyOf ++ rs.map d.keyOf).Nodup) :
    insertAll d rows rs = .ok (rows ++ rs) := by
  induction rs generalizing rows with
  | nil => simp [insertAll]
  | cons r rs ih =>
    have h0 := hok r List.mem_cons_self
    simp only [insertAll, toRow_self hn h0.1]
    have h1 : d.stored.all (fun c => c.fits d.strict (r.get c.name)) = true := by
      rw [List.all_eq_true]; exact h0.2
    have h2 : (rows.map d.keyOf).contains (d.keyOf r) = false := by
      rw [List.nodup_append] at hkeys
      have := hkeys.2.2
      simp only [List.contains_eq_mem, decide_eq_false_iff_not]
      intro hm
      exact this _ hm _ (by simp) rfl
    rw [h1, h2]
    simp only [Bool.not_false, Bool.and_self, if_true]
    rw [ih (rows ++ [r]) (fun r hr => hok r (List.mem_cons_of_mem _ hr)) (by simpa using hkeys)]
    simp

theorem insertMax_ok {s d : Decl} {group : List String} {value : String} {rows : List Row}
    (hrows : ∀ r ∈ rows, RowOk s r) (hd : (d.stored.map Column.name).Nodup)
    (hcols : d.stored.map Column.name = group ++ [value]) (hsub : ∀ c ∈ d.stored, c ∈ s.stored)
    (hs : s.strict = true) (hds : d.strict = true) (hpk : d.pk = group)
    (hv : ∀ c ∈ d.stored, c.name = value → c.ty = .integer ∧ c.notNull = true) :
    insertAll d [] (selectMax group value rows) = .ok (selectMax group value rows) ∧
    TableOk ⟨d, selectMax group value rows⟩ := by
  have hval : value ∉ group := by
    rw [hcols, List.nodup_append] at hd
    exact fun hm => hd.2.2 _ hm value (by simp) rfl
  have hint : ∀ r ∈ rows, ∃ i, r.get value = .int i := by
    intro r hr
    have hm : value ∈ d.stored.map Column.name := by rw [hcols]; simp
    obtain ⟨c, hc, hn⟩ := List.mem_map.1 hm
    have h1 := (hrows r hr).2 c (hsub c hc)
    obtain ⟨h2, h3⟩ := hv c hc hn
    rw [hn] at h1
    simp only [Column.fits, h3, hs, h2, Bool.not_true, Bool.false_or, Bool.and_eq_true, bne_iff_ne, ne_eq] at h1
    cases hx : r.get value with
    | int i => exact ⟨i, rfl⟩
    | null => rw [hx] at h1; simp at h1
    | text => rw [hx] at h1; simp [Ty.admits] at h1
    | real => rw [hx] at h1; simp [Ty.admits] at h1
    | blob => rw [hx] at h1; simp [Ty.admits] at h1
  have hok : ∀ r ∈ selectMax group value rows, RowOk d r := by
    intro r hr
    obtain ⟨r0, h0, rfl⟩ := mem_selectMax.1 hr
    refine ⟨by rw [groupRow_keys, hcols], ?_⟩
    intro c hc
    have hm : c.name ∈ group ++ [value] := by rw [← hcols]; exact List.mem_map_of_mem hc
    rcases List.mem_append.1 hm with hm | hm
    · rw [groupRow_get hm, show d.strict = s.strict by rw [hds, hs]]
      exact (hrows r0 h0).2 c (hsub c hc)
    · simp only [List.mem_singleton] at hm
      rw [hm, groupRow_value hval]
      obtain ⟨m, h1, _⟩ := maxVal_ints (l := (rows.filter fun r => group.map r.get == group.map r0.get).map
        (Row.get · value)) (by
          intro e
          have := List.map_eq_nil_iff.1 e
          rw [List.filter_eq_nil_iff] at this
          exact this r0 h0 (by simp)) (by
          intro v hv
          obtain ⟨r, hr, rfl⟩ := List.mem_map.1 hv
          exact hint r (List.mem_filter.1 hr).1)
      rw [h1]
      obtain ⟨h2, h3⟩ := hv c hc hm
      simp [Column.fits, h2, Ty.admits]
  have hkeys : ((selectMax group value rows).map d.keyOf).Nodup := by
    have : (selectMax group value rows).map d.keyOf = distinct (rows.map fun r => group.map r.get) := by
      simp only [selectMax, List.map_map]
      conv => rhs; rw [← List.map_id (distinct _)]
      apply List.map_congr_left
      intro g hg
      obtain ⟨r0, h0, rfl⟩ := List.mem_map.1 (mem_distinct.1 hg)
      simp only [Function.comp, Decl.keyOf, hpk, id]
      apply List.map_congr_left
      intro k hk
      rw [zip_map_self]
      exact groupRow_get (value := value) (rows := rows) hk
    rw [this]; exact nodup_distinct _
  exact ⟨by rw [insertAll_ok hd _ _ hok (by simpa using hkeys)]; rfl, hok, hkeys⟩

/-! ### the abstract execution -/

/-- Adding the column cannot violate a constraint. -/
def addFits (σ : ADb) (n : String) (c : Column) (t : ATable) : Bool :=
  match c.gen with
  | none => σ.tables.all fun t => t.decl.name != n || c.fits t.decl.strict c.dflt
  | some e => !c.notNull || e.total t.decl

/-- Execute a statement knowing only declarations. -/
def check : Stmt → ADb → Option ADb
  | .createTable d, σ =>
    if σ.taken d.name then none
    else if DeclOk d then some { σ with tables := σ.tables ++ [⟨d, true⟩] } else none
  | .addColumn n c, σ =>
    match σ.table? n with
    | none => none
    | some t =>
      if (t.decl.cols.map Column.name).contains c.name then none
      else if ((c.gen.map Expr.cols).getD []).any (fun x => !(t.decl.cols.map Column.name).contains x) then none
      else if addFits σ n c t &&
          σ.tables.all (fun t => t.decl.name != n || !(t.decl.cols.map Column.name).contains c.name) then
        some (σ.update n fun t => { t with decl := { t.decl with cols := t.decl.cols ++ [c] } })
      else none
  | .dropColumn n c, σ =>
    match σ.table? n with
    | none => none
    | some t =>
      if !(t.decl.cols.map Column.name).contains c then none
      else if t.decl.pk.contains c || σ.indexes.any (fun i => i.table == n && i.cols.contains c) ||
          t.decl.cols.any (fun x => ((x.gen.map Expr.cols).getD []).contains c) then none
      else if σ.tables.all (fun t => t.decl.name != n || !(t.decl.stored.map Column.name).contains c) then
        some (σ.update n fun t => { t with decl := { t.decl with cols := t.decl.cols.filter (·.name != c) } })
      else none
  | .dropTable n, σ =>
    match σ.table? n with
    | none => none
    | some _ => some { σ with
        tables := σ.tables.filter (·.decl.name != n)
        indexes := σ.indexes.filter (·.table != n) }
  | .renameTable a b, σ =>
    match σ.table? a with
    | none => none
    | some _ =>
      if σ.taken b then none
      else some { σ.update a (fun t => { t with decl := { t.decl with name := b } }) with
        indexes := σ.indexes.map fun i => if i.table == a then { i with table := b } else i }
  | .createIndex i, σ =>
    if σ.taken i.name then none
    else match σ.table? i.table with
      | none => none
      | some t =>
        if i.cols.any (fun x => !(t.decl.cols.map Column.name).contains x) then none
        else some { σ with indexes := σ.indexes ++ [i] }
  | .dropIndex n, σ =>
    match σ.indexes.find? (·.name == n) with
    | none => none
    | some _ => some { σ with indexes := σ.indexes.filter (·.name != n) }
  | .insertMax dst src group value, σ =>
    match σ.table? dst, σ.table? src with
    | some d, some s =>
      if (group ++ [value]).any (fun x => !(s.decl.cols.map Column.name).contains x ||
          !(d.decl.stored.map Column.name).contains x) then none
      else if d.empty && decide ((d.decl.stored.map Column.name).Nodup) &&
          decide (d.decl.stored.map Column.name = group ++ [value]) &&
          d.decl.stored.all (fun c => decide (c ∈ s.decl.stored)) && s.decl.strict && d.decl.strict &&
          decide (d.decl.pk = group) &&
          d.decl.stored.all (fun c => c.name != value || (c.ty == .integer && c.notNull)) &&
          σ.tables.all (fun t => t.decl.name != dst || t.decl == d.decl) then
        some (σ.update dst fun t => { t with empty := false })
      else none
    | _, _ => none

theorem Sat.find {db σ} (h : Sat db σ) (n : String) :
    (db.table? n = none ∧ σ.table? n = none) ∨
    ∃ t a, db.table? n = some t ∧ σ.table? n = some a ∧ SatT t a ∧ t ∈ db.tables := h.tables.find n

theorem All2.mem {ts as} (h : All2 ts as) {t : Table} (ht : t ∈ ts) : ∃ a ∈ as, SatT t a := by
  induction h with
  | nil => simp at ht
  | @cons t' a ts as h1 _ ih =>
    rcases List.mem_cons.1 ht with rfl | ht
    · exact ⟨a, List.mem_cons_self, h1⟩
    · obtain ⟨b, hb, h2⟩ := ih ht
      exact ⟨b, List.mem_cons_of_mem _ hb, h2⟩

theorem All2.right {ts as} (h : All2 ts as) (n : String) (f : Table → Table) (g : ATable → ATable)
    (hfg : ∀ t a, t ∈ ts → a ∈ as → SatT t a → t.decl.name = n → SatT (f t) (g a)) :
    All2 (ts.map fun t => if t.decl.name == n then f t else t) (as.map fun a => if a.decl.name == n then g a else a) := by
  induction h with
  | nil => exact .nil
  | @cons t a ts as h1 _ ih =>
    simp only [List.map_cons]
    refine .cons ?_ (ih fun t a ht ha => hfg t a (List.mem_cons_of_mem _ ht) (List.mem_cons_of_mem _ ha))
    simp only [h1.decl]
    split
    · rename_i hn
      exact hfg t a List.mem_cons_self List.mem_cons_self h1 (by rw [h1.decl]; simpa using hn)
    · exact h1

theorem Sat.update {db σ} (h : Sat db σ) (n : String) (f : Table → Table) (g : ATable → ATable)
    (hfg : ∀ t a, t ∈ db.tables → a ∈ σ.tables → SatT t a → t.decl.name = n → SatT (f t) (g a)) :
    Sat (db.update n f) (σ.update n g) := ⟨h.tables.right n f g hfg, h.indexes⟩

theorem check_sound {s : Stmt} {db : Database} {σ σ' : ADb} (h : Sat db σ) (hc : check s σ = some σ') :
    ∃ db', exec s db = .ok db' ∧ Sat db' σ' := by
  cases s with
  | createTable d =>
    simp only [check] at hc
    simp only [exec, h.taken]
    split at hc
    · cases hc
    · rename_i ht
      split at hc
      · rename_i hd
        simp only [Option.some.injEq] at hc
        subst hc
        rw [if_neg ht]
        refine ⟨_, rfl, h.tables.append (.cons ⟨rfl, fun _ => rfl, ⟨by simp, by simp⟩, hd⟩ .nil), h.indexes⟩
      · cases hc
  | addColumn n c =>
    simp only [check] at hc
    simp only [exec]
    rcases h.find n with ⟨h1, h2⟩ | ⟨t, a, h1, h2, h3, h4⟩
    · rw [h2] at hc; cases hc
    · rw [h2] at hc
      rw [h1]
      simp only [h3.decl] at hc ⊢
      split at hc
      · cases hc
      · rename_i hdup
        split at hc
        · cases hc
        · rename_i hcols
          split at hc
          · rename_i hfit
            simp only [Option.some.injEq] at hc
            subst hc
            rw [if_neg hdup, if_neg hcols]
            rw [Bool.and_eq_true] at hfit
            obtain ⟨hfit, hnew⟩ := hfit
            have hadd : t.addable c = true := by
              unfold Table.addable
              cases hg : c.gen with
              | none =>
                simp only [addFits, hg, List.all_eq_true, Bool.or_eq_true, bne_iff_ne, ne_eq] at hfit
                have hm := List.mem_of_find?_eq_some h2
                have hn := List.find?_some h2
                simp only [beq_iff_eq] at hn
                rcases hfit a hm with h5 | h5
                · exact absurd hn h5
                · simp [h3.decl, h5]
              | some e =>
                simp only [addFits, hg, Bool.or_eq_true, Bool.not_eq_true'] at hfit
                simp only [Bool.or_eq_true, Bool.not_eq_true', List.all_eq_true]
                rcases hfit with h5 | h5
                · exact .inl h5
                · exact .inr fun r hr => Expr.total_sound (h3.ok.1 r hr) e (by rw [h3.decl]; exact h5)
            rw [if_pos hadd]
            refine ⟨_, rfl, h.update n _ _ ?_⟩
            intro t' a' _ ha' hs hn
            refine satT_addColumn hs ?_ ?_
            · rw [List.all_eq_true] at hnew
              have := hnew a' ha'
              rw [hs.decl] at hn ⊢
              simp only [hn, bne_self_eq_false, Bool.false_or, Bool.not_eq_true', List.contains_eq_mem,
                decide_eq_false_iff_not] at this
              exact this
            · intro hg
              simp only [addFits, hg, List.all_eq_true] at hfit
              have := hfit a' ha'
              rw [hs.decl] at hn ⊢
              simpa [hn] using this
          · cases hc
  | dropColumn n c =>
    simp only [check] at hc
    simp only [exec]
    rcases h.find n with ⟨h1, h2⟩ | ⟨t, a, h1, h2, h3, h4⟩
    · rw [h2] at hc; cases hc
    · rw [h2] at hc
      rw [h1]
      simp only [h3.decl, h.indexes] at hc ⊢
      split at hc
      · cases hc
      · rename_i hcol
        split at hc
        · cases hc
        · rename_i huse
          split at hc
          · rename_i hgen
            simp only [Option.some.injEq] at hc
            subst hc
            rw [if_neg hcol, if_neg huse]
            refine ⟨_, rfl, h.update n _ _ ?_⟩
            intro t' a' _ ha' hs hn
            refine satT_dropColumn hs ?_
            rw [List.all_eq_true] at hgen
            have := hgen a' ha'
            rw [hs.decl] at hn ⊢
            simp only [hn, bne_self_eq_false, Bool.false_or, Bool.not_eq_true', List.contains_eq_mem,
              decide_eq_false_iff_not] at this
            exact this
          · cases hc
  | dropTable n =>
    simp only [check] at hc
    simp only [exec]
    rcases h.find n with ⟨h1, h2⟩ | ⟨t, a, h1, h2, h3, h4⟩
    · rw [h2] at hc; cases hc
    · rw [h2] at hc
      rw [h1]
      simp only [Option.some.injEq] at hc
      subst hc
      exact ⟨_, rfl, h.tables.filter n, by simp only [h.indexes]⟩
  | renameTable x y =>
    simp only [check] at hc
    simp only [exec, h.taken]
    rcases h.find x with ⟨h1, h2⟩ | ⟨t, a, h1, h2, h3, h4⟩
    · rw [h2] at hc; cases hc
    · rw [h2] at hc
      rw [h1]
      simp only at hc ⊢
      split at hc
      · cases hc
      · rename_i ht
        simp only [Option.some.injEq] at hc
        subst hc
        rw [if_neg ht]
        refine ⟨_, rfl, (h.update x _ _ ?_).tables, by simp only [h.indexes]⟩
        intro t' a' _ _ hs _
        exact ⟨by simp [hs.decl], hs.empty, hs.ok, hs.declOk⟩
  | createIndex i =>
    simp only [check] at hc
    simp only [exec, h.taken]
    split at hc
    · cases hc
    · rename_i ht
      rw [if_neg ht]
      rcases h.find i.table with ⟨h1, h2⟩ | ⟨t, a, h1, h2, h3, h4⟩
      · rw [h2] at hc; cases hc
      · rw [h2] at hc
        rw [h1]
        simp only [h3.decl] at hc ⊢
        split at hc
        · cases hc
        · rename_i hcols
          simp only [Option.some.injEq] at hc
          subst hc
          rw [if_neg hcols]
          exact ⟨_, rfl, h.tables, by simp only [h.indexes]⟩
  | dropIndex n =>
    simp only [check] at hc
    simp only [exec, h.indexes]
    split at hc
    · cases hc
    · rename_i e
      simp only [Option.some.injEq] at hc
      subst hc
      rw [e]
      exact ⟨_, rfl, h.tables, rfl⟩
  | insertMax dst src group value =>
    simp only [check] at hc
    simp only [exec]
    rcases h.find dst with ⟨h1, h2⟩ | ⟨d, ad, h1, h2, h3, h4⟩
    · rw [h2] at hc; cases hc
    · rcases h.find src with ⟨k1, k2⟩ | ⟨s, as, k1, k2, k3, k4⟩
      · rw [h2, k2] at hc; cases hc
      · rw [h2, k2] at hc
        rw [h1, k1]
        simp only [h3.decl, k3.decl] at hc ⊢
        split at hc
        · cases hc
        · rename_i hcols
          split at hc
          · rename_i hok
            simp only [Option.some.injEq] at hc
            subst hc
            rw [if_neg hcols]
            simp only [Bool.and_eq_true, decide_eq_true_eq, List.all_eq_true, Bool.or_eq_true, bne_iff_ne, ne_eq,
              beq_iff_eq] at hok
            obtain ⟨⟨⟨⟨⟨⟨⟨⟨o1, o2⟩, o3⟩, o4⟩, o5⟩, o6⟩, o7⟩, o8⟩, o9⟩ := hok
            have hi := insertMax_ok (s := as.decl) (d := ad.decl) (group := group) (value := value) (rows := s.rows)
              (fun r hr => by rw [← k3.decl]; exact k3.ok.1 r hr) o2 o3 o4 o5 o6 o7
              (fun c hc hn => (o8 c hc).elim (fun h => absurd hn h) id)
            rw [h3.empty o1, hi.1]
            refine ⟨_, rfl, h.update dst _ _ ?_⟩
            intro t' a' _ ha' hs hn
            have hd : t'.decl = ad.decl := by
              rw [hs.decl] at hn ⊢
              rcases o9 a' ha' with h5 | h5
              · exact absurd hn h5
              · exact h5
            refine ⟨hs.decl, by simp, ?_, hs.declOk⟩
            have := hi.2
            rw [← hd] at this
            exact this
          · cases hc

def checkAll : List Stmt → ADb → Option ADb
  | [], σ => some σ
  | s :: ss, σ => (check s σ).bind (checkAll ss)

theorem checkAll_sound {ss : List Stmt} {db : Database} {σ σ' : ADb} (h : Sat db σ) (hc : checkAll ss σ = some σ') :
    ∃ db', execAll ss db = .ok db' ∧ Sat db' σ' := by
  induction ss generalizing db σ with
  | nil =>
    simp only [checkAll, Option.some.injEq] at hc
    subst hc
    exact ⟨db, rfl, h⟩
  | cons s ss ih =>
    obtain ⟨τ, h1, h2⟩ := Option.bind_eq_some_iff.1 hc
    obtain ⟨db1, h3, h4⟩ := check_sound h h1
    obtain ⟨db2, h5, h6⟩ := ih h4 h2
    exact ⟨db2, by simp only [execAll, h3, h5], h6⟩

end Opsqueue.Upgrade
