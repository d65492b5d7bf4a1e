import Verif.Proofs.UpgradeData
import Verif.Proofs.Lists

/-! The migrator. -/

namespace Opsqueue.Upgrade

/-! ### the loop, for any migrations -/

theorem apply_applied {sums : Nat → Nat} {m : Migration} {db db' : Database} (h : apply sums m db = .ok db') :
    db'.applied = db.applied ++ [⟨m.version, sums m.version, true⟩] := by
  simp only [apply] at h
  split at h
  · rename_i h1
    simp only [Except.ok.injEq] at h
    subst h
    simp only [execAll_applied h1]
  · cases h

theorem loop_applied (sums : Nat → Nat) (ms : List Migration) (hits : List Hit) (db : Database) :
    ∃ new : List Applied, (loop sums ms hits db).2.applied = db.applied ++ new ∧ ∀ a ∈ new, a.success = true := by
  induction ms generalizing hits db with
  | nil => exact ⟨[], by simp [loop], by simp⟩
  | cons m ms ih =>
    simp only [loop]
    split
    · split
      · exact ih hits db
      · exact ⟨[], by simp, by simp⟩
    · split
      · exact ⟨[], by simp, by simp⟩
      · split
        · rename_i h
          exact ⟨_, apply_applied h, by simp⟩
        · exact ⟨[], by simp, by simp⟩
      · split
        · rename_i h
          obtain ⟨new, h1, h2⟩ := ih hits.tail _
          rw [apply_applied h] at h1
          refine ⟨⟨m.version, sums m.version, true⟩ :: new, by rw [h1]; simp, ?_⟩
          intro a ha
          rcases List.mem_cons.1 ha with rfl | ha
          · rfl
          · exact h2 a ha
        · exact ⟨[], by simp, by simp⟩

theorem find_keep {l new : List Applied} {v : Nat} {a : Applied} (h : l.find? (·.version == v) = some a) :
    (l ++ new).find? (·.version == v) = some a := by rw [List.find?_append, h]; rfl

/-- Whatever happened during an attempt, the next one ends as the first would have without it. -/
theorem loop_again (sums : Nat → Nat) (ms : List Migration) (hits hits' : List Hit) (db : Database)
    (h0 : ∀ h ∈ hits', h = Hit.ok) :
    loop sums ms hits' (loop sums ms hits db).2 = loop sums ms hits' db := by
  have hh : ∀ hs : List Hit, (∀ h ∈ hs, h = Hit.ok) → hs.headD .ok = .ok ∧ ∀ h ∈ hs.tail, h = Hit.ok := by
    intro hs hok
    cases hs with
    | nil => exact ⟨rfl, by simp⟩
    | cons h hs => exact ⟨hok h List.mem_cons_self, fun x hx => hok x (List.mem_cons_of_mem _ hx)⟩
  have indep : ∀ (ms : List Migration) (a b : List Hit) (db : Database), (∀ h ∈ a, h = Hit.ok) →
      (∀ h ∈ b, h = Hit.ok) → loop sums ms a db = loop sums ms b db := by
    intro ms
    induction ms with
    | nil => intros; rfl
    | cons m ms ih =>
      intro a b db ha hb
      simp only [loop, (hh a ha).1, (hh b hb).1]
      split
      · split
        · exact ih _ _ _ ha hb
        · rfl
      · split
        · exact ih _ _ _ (hh a ha).2 (hh b hb).2
        · rfl
  induction ms generalizing hits hits' db with
  | nil => rfl
  | cons m ms ih =>
    cases hf : db.applied.find? (·.version == m.version) with
    | some a =>
      have hl : ∀ hs, loop sums (m :: ms) hs db =
          if a.checksum = sums m.version then loop sums ms hs db else (.mismatch m.version, db) := by
        intro hs; simp only [loop, hf]
      by_cases hs : a.checksum = sums m.version
      · rw [hl, hl, if_pos hs, if_pos hs, ← ih hits hits' db h0]
        obtain ⟨new, h1, _⟩ := loop_applied sums ms hits db
        simp only [loop]
        rw [h1, find_keep hf]
        simp only [hs, if_true]
      · rw [hl hits, if_neg hs]
    | none =>
      have hnew : ∀ {db' d : Database} {new : List Applied}, apply sums m db = .ok db' →
          d.applied = db'.applied ++ new →
          loop sums (m :: ms) hits' d = loop sums ms hits' d := by
        intro db' d new ha hd
        simp only [loop]
        rw [hd, apply_applied ha, List.append_assoc, List.find?_append, hf]
        simp
      have hok : loop sums (m :: ms) hits' db = match apply sums m db with
          | .ok db' => loop sums ms hits'.tail db'
          | .error e => (.failed m.version e, db) := by
        simp only [loop, hf, (hh hits' h0).1]
        cases apply sums m db <;> rfl
      cases hh' : hits.headD .ok with
      | crash =>
        have : (loop sums (m :: ms) hits db).2 = db := by simp only [loop, hf, hh']
        rw [this]
      | crashLate =>
        cases ha : apply sums m db with
        | error e =>
          have : (loop sums (m :: ms) hits db).2 = db := by simp only [loop, hf, hh', ha]
          rw [this]
        | ok db' =>
          have : (loop sums (m :: ms) hits db).2 = db' := by simp only [loop, hf, hh', ha]
          rw [this, hok, ha, hnew (new := []) ha (by simp)]
          exact indep _ _ _ _ h0 (hh hits' h0).2
      | ok =>
        cases ha : apply sums m db with
        | error e =>
          have : (loop sums (m :: ms) hits db).2 = db := by simp only [loop, hf, hh', ha]
          rw [this]
        | ok db' =>
          have : loop sums (m :: ms) hits db = loop sums ms hits.tail db' := by simp only [loop, hf, hh', ha]
          obtain ⟨new, h1, _⟩ := loop_applied sums ms hits.tail db'
          rw [this, hok, ha, hnew ha h1, ih hits.tail hits' db' h0]
          exact indep _ _ _ _ h0 (hh hits' h0).2

/-- Migrations that are recorded are skipped. -/
theorem loop_recorded (sums : Nat → Nat) (xs ys : List Migration) (hits : List Hit) (db : Database)
    (h : ∀ m ∈ xs, ∃ a, db.applied.find? (·.version == m.version) = some a ∧ a.checksum = sums m.version) :
    loop sums (xs ++ ys) hits db = loop sums ys hits db := by
  induction xs with
  | nil => rfl
  | cons m ms ih =>
    obtain ⟨a, h1, h2⟩ := h m List.mem_cons_self
    simp only [List.cons_append, loop, h1, h2, if_true]
    exact ih fun m hm => h m (List.mem_cons_of_mem _ hm)

/-- After a successful run everything is recorded. -/
theorem loop_records {sums : Nat → Nat} {ms : List Migration} {hits : List Hit} {db db' : Database}
    (h : loop sums ms hits db = (.ok, db')) :
    ∀ m ∈ ms, ∃ a, db'.applied.find? (·.version == m.version) = some a ∧ a.checksum = sums m.version := by
  induction ms generalizing hits db with
  | nil => simp
  | cons m ms ih =>
    have hrest : ∀ {hs : List Hit} {d : Database} {a : Applied}, loop sums ms hs d = (.ok, db') →
        d.applied.find? (·.version == m.version) = some a → a.checksum = sums m.version →
        ∀ m' ∈ m :: ms, ∃ a, db'.applied.find? (·.version == m'.version) = some a ∧ a.checksum = sums m'.version := by
      intro hs d a hl hf hs' m' hm'
      rcases List.mem_cons.1 hm' with rfl | hm'
      · obtain ⟨new, h1, _⟩ := loop_applied sums ms hs d
        rw [hl] at h1
        exact ⟨a, by rw [h1]; exact find_keep hf, hs'⟩
      · exact ih hl m' hm'
    simp only [loop] at h
    split at h
    · rename_i a hf
      split at h
      · rename_i hs
        exact hrest h hf hs
      · cases h
    · rename_i hf
      split at h
      · cases h
      · split at h <;> cases h
      · split at h
        · rename_i db1 ha
          refine hrest (a := ⟨m.version, sums m.version, true⟩) h ?_ rfl
          rw [apply_applied ha, List.find?_append, hf]
          simp
        · cases h

/-! ### the migrations of the code -/

def ADb.forget (σ : ADb) : ADb := { σ with tables := σ.tables.map fun a => { a with empty := false } }

theorem Sat.forget {db σ} (h : Sat db σ) : Sat db σ.forget := by
  refine ⟨?_, h.indexes⟩
  have := h.tables
  simp only [ADb.forget]
  generalize db.tables = ts at this
  generalize σ.tables = as at this
  induction this with
  | nil => exact .nil
  | cons h1 _ ih => exact .cons ⟨h1.decl, by simp, h1.ok, h1.declOk⟩ ih

def absRun : List Migration → ADb → Option ADb
  | [], σ => some σ
  | m :: ms, σ => (checkAll m.stmts σ).bind fun τ => absRun ms τ.forget

theorem absRun_append (xs ys : List Migration) (σ : ADb) :
    absRun (xs ++ ys) σ = (absRun xs σ).bind (absRun ys) := by
  induction xs generalizing σ with
  | nil => rfl
  | cons m ms ih =>
    simp only [List.cons_append, absRun]
    cases checkAll m.stmts σ with
    | none => rfl
    | some τ => simp only [Option.bind_some, ih]

theorem absRun_some : (absRun migrations ⟨[], []⟩).isSome = true := by decide +kernel

theorem absRun_take (n : Nat) : ∃ σ σ', absRun (migrations.take n) ⟨[], []⟩ = some σ ∧
    absRun (migrations.drop n) σ = some σ' ∧ absRun migrations ⟨[], []⟩ = some σ' := by
  obtain ⟨σ', h⟩ := Option.isSome_iff_exists.1 absRun_some
  have h2 := h
  rw [← List.take_append_drop n migrations, absRun_append, Option.bind_eq_some_iff] at h2
  obtain ⟨σ, h1, h3⟩ := h2
  exact ⟨σ, σ', h1, h3, h⟩

/-- What a run does to the rows. -/
inductive Effects : List Migration → Database → Database → Prop
  | nil (db) : Effects [] db db
  | cons {m ms db db1 db2 db'} {σ σ' : ADb} : Sat db σ → checkAll m.stmts σ = some σ' →
      execAll m.stmts db = .ok db1 → db2.tables = db1.tables → Effects ms db2 db' → Effects (m :: ms) db db'

theorem Sat.congr {db db' : Database} {σ : ADb} (h : Sat db σ) (ht : db'.tables = db.tables)
    (hi : db'.indexes = db.indexes) : Sat db' σ := ⟨ht ▸ h.tables, hi ▸ h.indexes⟩

theorem loop_fresh (sums : Nat → Nat) (ms : List Migration) (db : Database) (σ σ' : ADb) (h : Sat db σ)
    (hr : absRun ms σ = some σ') (hv : (ms.map Migration.version).Nodup)
    (hnew : ∀ m ∈ ms, ∀ a ∈ db.applied, a.version ≠ m.version) :
    ∃ db', loop sums ms [] db = (.ok, db') ∧ Sat db' σ' ∧
      db'.applied = db.applied ++ ms.map (fun m => ⟨m.version, sums m.version, true⟩) ∧ Effects ms db db' := by
  induction ms generalizing db σ with
  | nil =>
    simp only [absRun, Option.some.injEq] at hr
    subst hr
    exact ⟨db, rfl, h, by simp, .nil db⟩
  | cons m ms ih =>
    obtain ⟨τ, h1, h2⟩ := Option.bind_eq_some_iff.1 hr
    obtain ⟨db1, h3, h4⟩ := checkAll_sound h h1
    have happ := execAll_applied h3
    simp only [List.map_cons, List.nodup_cons] at hv
    have hf : db.applied.find? (·.version == m.version) = none := by
      rw [List.find?_eq_none]
      intro a ha
      simpa using hnew m List.mem_cons_self a ha
    obtain ⟨db', k1, k2, k3, k4⟩ := ih
      { db1 with applied := db1.applied ++ [⟨m.version, sums m.version, true⟩] } τ.forget
      (h4.forget.congr rfl rfl) h2 hv.2 (by
        intro m' hm' a ha
        simp only [happ, List.mem_append, List.mem_singleton] at ha
        rcases ha with ha | rfl
        · exact hnew m' (List.mem_cons_of_mem _ hm') a ha
        · exact fun e => hv.1 (List.mem_map.2 ⟨m', hm', e.symm⟩))
    refine ⟨db', ?_, k2, ?_, .cons (db2 := { db1 with applied := db1.applied ++ [⟨m.version, sums m.version, true⟩] }) h h1 h3 rfl k4⟩
    · simp only [loop, hf, List.headD_nil, apply, h3, List.tail_nil]
      exact k1
    · rw [k3, happ]; simp

theorem absRun_sound (ms : List Migration) (db db' : Database) (σ σ' : ADb) (h : Sat db σ)
    (hr : absRun ms σ = some σ') (he : execAll (ms.flatMap Migration.stmts) db = .ok db') : Sat db' σ' := by
  induction ms generalizing db σ with
  | nil =>
    simp only [absRun, Option.some.injEq] at hr
    simp only [List.flatMap_nil, execAll, Except.ok.injEq] at he
    subst hr he
    exact h
  | cons m ms ih =>
    obtain ⟨τ, h1, h2⟩ := Option.bind_eq_some_iff.1 hr
    obtain ⟨db1, h3, h4⟩ := checkAll_sound h h1
    have happend : ∀ (xs ys : List Stmt) (db : Database), execAll (xs ++ ys) db =
        match execAll xs db with
        | .ok d => execAll ys d
        | .error e => .error e := by
      intro xs
      induction xs with
      | nil => intros; rfl
      | cons x xs ihx =>
        intro ys db
        simp only [List.cons_append, execAll]
        split
        · exact ihx _ _
        · rfl
    rw [List.flatMap_cons, happend, h3] at he
    exact ih db1 τ.forget h4.forget h2 he

theorem absRun_exists (ms : List Migration) (db : Database) (σ σ' : ADb) (h : Sat db σ)
    (hr : absRun ms σ = some σ') : ∃ db', execAll (ms.flatMap Migration.stmts) db = .ok db' ∧ Sat db' σ' := by
  induction ms generalizing db σ with
  | nil =>
    simp only [absRun, Option.some.injEq] at hr
    subst hr
    exact ⟨db, rfl, h⟩
  | cons m ms ih =>
    obtain ⟨τ, h1, h2⟩ := Option.bind_eq_some_iff.1 hr
    obtain ⟨db1, h3, h4⟩ := checkAll_sound h h1
    obtain ⟨db2, h5, h6⟩ := ih db1 τ.forget h4.forget h2
    refine ⟨db2, ?_, h6⟩
    have happend : ∀ (xs ys : List Stmt) (db d : Database), execAll xs db = .ok d →
        execAll (xs ++ ys) db = execAll ys d := by
      intro xs
      induction xs with
      | nil => intro ys db d hd; simp only [execAll, Except.ok.injEq] at hd; rw [hd]; rfl
      | cons x xs ihx =>
        intro ys db d hd
        simp only [execAll] at hd
        simp only [List.cons_append, execAll]
        split at hd
        · exact ihx _ _ _ hd
        · cases hd
    rw [List.flatMap_cons, happend _ _ _ _ h3, h5]

theorem All2.decls {ts as} (h : All2 ts as) : ts.map Table.decl = as.map ATable.decl := by
  induction h with
  | nil => rfl
  | cons h1 _ ih => simp [h1.decl, ih]

theorem All2.of_decls {ts : List Table} {as : List ATable} (h : ts.map Table.decl = as.map ATable.decl)
    (hok : ∀ t ∈ ts, TableOk t) (hdecl : ∀ a ∈ as, DeclOk a.decl) (hempty : ∀ a ∈ as, a.empty = false) : All2 ts as := by
  induction ts generalizing as with
  | nil =>
    rw [List.map_eq_nil_iff.1 h.symm]
    exact .nil
  | cons t ts ih =>
    cases as with
    | nil => simp at h
    | cons a as =>
      simp only [List.map_cons, List.cons.injEq] at h
      refine .cons ⟨h.1, ?_, hok t List.mem_cons_self, ?_⟩ (ih h.2 (fun t ht => hok t (List.mem_cons_of_mem _ ht))
        (fun a ha => hdecl a (List.mem_cons_of_mem _ ha)) fun a ha => hempty a (List.mem_cons_of_mem _ ha))
      · intro he; rw [hempty a List.mem_cons_self] at he; cases he
      · rw [h.1]; exact hdecl a List.mem_cons_self

theorem All2.declOk {ts as} (h : All2 ts as) : ∀ a ∈ as, DeclOk a.decl := by
  induction h with
  | nil => simp
  | @cons t a ts as h1 _ ih =>
    intro b hb
    rcases List.mem_cons.1 hb with rfl | hb
    · rw [← h1.decl]; exact h1.declOk
    · exact ih b hb

theorem sat_empty : Sat {} ⟨[], []⟩ := ⟨.nil, rfl⟩

/-- A database of a release satisfies the abstract database of that release. -/
theorem OfRelease.sat {sums : Nat → Nat} {n : Nat} {db : Database} (h : OfRelease sums n db) {σ : ADb}
    (hσ : absRun (migrations.take n) ⟨[], []⟩ = some σ) : Sat db σ.forget := by
  obtain ⟨fresh, h1, h2⟩ := h.schema
  have h3 := (absRun_sound _ _ _ _ _ sat_empty hσ h1).forget
  simp only [Database.schema, Prod.mk.injEq] at h2
  refine ⟨All2.of_decls ?_ h.rows h3.tables.declOk ?_, h2.2.trans h3.indexes⟩
  · rw [h2.1, h3.tables.decls]
  · intro a ha
    simp only [ADb.forget, List.mem_map] at ha
    obtain ⟨b, _, rfl⟩ := ha
    rfl

/-- … and the other way round. -/
theorem ofRelease_of_sat {sums : Nat → Nat} {n : Nat} {db : Database} {σ : ADb}
    (hσ : absRun (migrations.take n) ⟨[], []⟩ = some σ) (h : Sat db σ)
    (ha : db.applied = (migrations.take n).map fun m => ⟨m.version, sums m.version, true⟩) :
    OfRelease sums n db := by
  obtain ⟨fresh, h1, h2⟩ := absRun_exists _ _ _ _ sat_empty hσ
  refine ⟨⟨fresh, h1, ?_⟩, ?_, ha⟩
  · simp only [Database.schema, h.tables.decls, h2.tables.decls, h.indexes, h2.indexes]
  · intro t ht
    obtain ⟨a, _, hs⟩ := h.tables.mem ht
    exact hs.ok

theorem absRun_forget (ms : List Migration) (σ σ' : ADb) (hσ : σ.forget = σ) (h : absRun ms σ = some σ') :
    σ'.forget = σ' := by
  induction ms generalizing σ with
  | nil =>
    simp only [absRun, Option.some.injEq] at h
    rw [← h, hσ]
  | cons m ms ih =>
    obtain ⟨τ, h1, h2⟩ := Option.bind_eq_some_iff.1 h
    refine ih τ.forget ?_ h2
    simp [ADb.forget]

theorem versions_nodup : (migrations.map Migration.version).Nodup := by decide

/-! ### the rows after a run -/

theorem Effects.rows {ms : List Migration} {db db' : Database} (h : Effects ms db db') {n : String}
    (hq : ∀ m ∈ ms, ∀ s ∈ m.stmts, quiet n s = true) :
    db'.rows n = (db.rows n).map (· ++ (ms.flatMap Migration.stmts).flatMap (added n)) := by
  induction h with
  | nil => simp only [List.flatMap_nil, map_append_nil]
  | @cons m ms db db1 db2 db' σ σ' h1 h2 h3 h4 _ ih =>
    have e : db2.rows n = db1.rows n := by simp only [Database.rows, Database.table?, h4]
    rw [ih fun m hm => hq m (List.mem_cons_of_mem _ hm), e,
      execAll_rows h1 h2 h3 (hq m List.mem_cons_self), List.map_map]
    apply List.map_congr_left
    intro r _
    simp

theorem Effects.split {xs ys : List Migration} {db db' : Database} (h : Effects (xs ++ ys) db db') :
    ∃ d, Effects xs db d ∧ Effects ys d db' := by
  induction xs generalizing db with
  | nil => exact ⟨db, .nil db, h⟩
  | cons x xs ih =>
    cases h with
    | cons h1 h2 h3 h4 h5 =>
      obtain ⟨d, h6, h7⟩ := ih h5
      exact ⟨d, .cons h1 h2 h3 h4 h6, h7⟩

theorem quiet_kept : ∀ t ∈ keptTables, ∀ m ∈ migrations, ∀ s ∈ m.stmts, quiet t s = true := by decide +kernel

theorem added_kept : ∀ t ∈ keptTables, ∀ m ∈ migrations, ∀ s ∈ m.stmts, ∀ x ∈ added t s, x.2 = newValue x.1 := by
  decide +kernel

theorem mem_of_lookup {r : Row} {c : String} {v : Val} (h : r.lookup c = some v) : (c, v) ∈ r := by
  induction r with
  | nil => simp at h
  | cons x xs ih =>
    obtain ⟨k, w⟩ := x
    rw [List.lookup_cons] at h
    split at h
    · rename_i hk
      have : c = k := by simpa using hk
      simp only [Option.some.injEq] at h
      subst this h
      exact List.mem_cons_self
    · exact List.mem_cons_of_mem _ (ih h)

theorem effects_rowsKept {n : Nat} {db db' : Database} (h : Effects (migrations.drop n) db db') : RowsKept db db' := by
  intro t ht
  have hsub : ∀ m ∈ migrations.drop n, m ∈ migrations := fun m hm => (List.drop_sublist n migrations).subset hm
  have hr := h.rows (n := t) fun m hm => quiet_kept t ht m (hsub m hm)
  rw [hr]
  refine ⟨by simp, ?_⟩
  intro i row hi
  refine ⟨_, by rw [List.getElem?_map, hi]; rfl, ?_, ?_⟩
  · intro c v hv
    rw [List.lookup_append, hv]; rfl
  · intro c v hv
    rw [List.lookup_append] at hv
    cases hl : row.lookup c with
    | some w => rw [hl] at hv; exact .inl hv
    | none =>
      rw [hl] at hv
      have hm := mem_of_lookup hv
      simp only [List.mem_flatMap] at hm
      obtain ⟨s, ⟨m, hm, hs⟩, hx⟩ := hm
      exact .inr ⟨rfl, added_kept t ht m (hsub m hm) s hs _ hx⟩

/-! ### the metadata -/

theorem metadataRow_get (s k : Val) (v : Int) : (metadataRow s k v).get "submission_id" = s ∧
    (metadataRow s k v).get "metadata_key" = k ∧ (metadataRow s k v).get "metadata_value" = .int v := by
  refine ⟨rfl, rfl, rfl⟩

theorem metadata_form {d : Decl} {r : Row} (h : RowOk d r) (hs : d.strict = true) (hc : d.stored = metadataColumns) :
    ∃ s k v, r = metadataRow s k v := by
  obtain ⟨h1, h2⟩ := h
  rw [hc] at h1 h2
  simp only [metadataColumns, List.map_cons, List.map_nil] at h1
  match r, h1 with
  | [(a, s), (b, k), (c, v)], h1 =>
    simp only [List.map_cons, List.map_nil, List.cons.injEq, and_true] at h1
    obtain ⟨rfl, rfl, rfl⟩ := h1
    have h3 := h2 { name := "metadata_value", ty := .integer, notNull := true } (by simp [metadataColumns])
    have hg : Row.get [("submission_id", s), ("metadata_key", k), ("metadata_value", v)] "metadata_value" = v := rfl
    rw [hg, hs] at h3
    cases v with
    | int i => exact ⟨s, k, i, rfl⟩
    | null => simp [Column.fits] at h3
    | text => simp [Column.fits, Ty.admits] at h3
    | real => simp [Column.fits, Ty.admits] at h3
    | blob => simp [Column.fits, Ty.admits] at h3

theorem selectMax_metadata {rows : List Row} (h : ∀ r ∈ rows, ∃ s k v, r = metadataRow s k v) (s k : Val) (v : Int) :
    metadataRow s k v ∈ selectMax ["submission_id", "metadata_key"] "metadata_value" rows ↔
      (metadataRow s k v ∈ rows ∧ ∀ w, metadataRow s k w ∈ rows → w ≤ v) := by
  have key : ∀ s0 k0 v0, metadataRow s0 k0 v0 ∈ rows → ∃ m,
      groupRow ["submission_id", "metadata_key"] "metadata_value" rows (metadataRow s0 k0 v0) = metadataRow s0 k0 m ∧
      metadataRow s0 k0 m ∈ rows ∧ ∀ w, metadataRow s0 k0 w ∈ rows → w ≤ m := by
    intro s0 k0 v0 h0
    have hmem : ∀ w, Val.int w ∈ (rows.filter fun r => ["submission_id", "metadata_key"].map r.get ==
        ["submission_id", "metadata_key"].map (metadataRow s0 k0 v0).get).map (Row.get · "metadata_value") ↔
        metadataRow s0 k0 w ∈ rows := by
      intro w
      simp only [List.mem_map, List.mem_filter, List.map_cons, List.map_nil, beq_iff_eq, List.cons.injEq, and_true]
      constructor
      · rintro ⟨r, ⟨hr, h1, h2⟩, h3⟩
        obtain ⟨s1, k1, v1, rfl⟩ := h r hr
        rw [(metadataRow_get _ _ _).1, (metadataRow_get _ _ _).1] at h1
        rw [(metadataRow_get _ _ _).2.1, (metadataRow_get _ _ _).2.1] at h2
        rw [(metadataRow_get _ _ _).2.2, Val.int.injEq] at h3
        rw [← h1, ← h2, ← h3]; exact hr
      · intro hr
        exact ⟨_, ⟨hr, rfl, rfl⟩, rfl⟩
    obtain ⟨m, h1, h2, h3⟩ := maxVal_ints (l := (rows.filter fun r => ["submission_id", "metadata_key"].map r.get ==
        ["submission_id", "metadata_key"].map (metadataRow s0 k0 v0).get).map (Row.get · "metadata_value")) (by
        intro e
        have := (hmem v0).2 h0
        rw [e] at this
        simp at this) (by
        intro x hx
        obtain ⟨r, hr, rfl⟩ := List.mem_map.1 hx
        obtain ⟨s1, k1, v1, rfl⟩ := h r (List.mem_filter.1 hr).1
        exact ⟨v1, rfl⟩)
    refine ⟨m, ?_, (hmem m).1 h2, fun w hw => h3 w ((hmem w).2 hw)⟩
    rw [groupRow, h1]
    rfl
  rw [mem_selectMax]
  constructor
  · rintro ⟨r0, h0, e⟩
    obtain ⟨s0, k0, v0, rfl⟩ := h r0 h0
    obtain ⟨m, h1, h2, h3⟩ := key s0 k0 v0 h0
    rw [h1] at e
    simp only [metadataRow, List.cons.injEq, Prod.mk.injEq, true_and, and_true, Val.int.injEq] at e
    obtain ⟨rfl, rfl, rfl⟩ := e
    exact ⟨h2, h3⟩
  · rintro ⟨h1, h2⟩
    obtain ⟨m, k1, k2, k3⟩ := key s k v h1
    have : m = v := by
      have a := h2 m k2
      have b := k3 v h1
      omega
    subst this
    exact ⟨_, h1, k1.symm⟩

/-- What is known about the table of metadata in every release. -/
def metadataDecl (n : Nat) (σ : ADb) : Bool :=
  match σ.table? "submissions_metadata" with
  | none => true
  | some a => decide (a.decl.stored = metadataColumns) && a.decl.strict &&
      (decide (n < 12) || decide (a.decl.pk = ["submission_id", "metadata_key"]))

theorem metadataDecl_ok : ∀ n ∈ List.range 14,
    ((absRun (migrations.take n) ⟨[], []⟩).map fun σ => metadataDecl n σ.forget) = some true := by decide +kernel

theorem quiet_metadata : ∀ m ∈ migrations, m.version ≠ 20260717143000 → ∀ s ∈ m.stmts,
    quiet "submissions_metadata" s = true ∧ added "submissions_metadata" s = [] := by decide +kernel

theorem Effects.metadata_same {ms : List Migration} {db db' : Database} (h : Effects ms db db')
    (hms : ∀ m ∈ ms, m ∈ migrations ∧ m.version ≠ 20260717143000) :
    db'.rows "submissions_metadata" = db.rows "submissions_metadata" := by
  rw [h.rows fun m hm s hs => (quiet_metadata m (hms m hm).1 (hms m hm).2 s hs).1]
  have : (ms.flatMap Migration.stmts).flatMap (added "submissions_metadata") = [] := by
    rw [List.flatMap_eq_nil_iff]
    intro s hs
    obtain ⟨m, hm, hs⟩ := List.mem_flatMap.1 hs
    exact (quiet_metadata m (hms m hm).1 (hms m hm).2 s hs).2
  rw [this, map_append_nil]

theorem drop_late : ∀ n, 12 ≤ n → ∀ m ∈ migrations.drop n, m ∈ migrations ∧ m.version ≠ 20260717143000 := by
  intro n hn m hm
  have h : migrations.drop n = (migrations.drop 12).drop (n - 12) := by
    rw [List.drop_drop]; congr 1; omega
  rw [h] at hm
  have h1 := (List.drop_sublist _ _).subset hm
  refine ⟨(List.drop_sublist _ _).subset h1, ?_⟩
  have : ∀ m ∈ migrations.drop 12, m.version ≠ 20260717143000 := by decide
  exact this m h1

theorem drop_early (n : Nat) (hn : n ≤ 11) :
    migrations.drop n = (migrations.take 11).drop n ++ mMetadataByKey :: migrations.drop 12 := by
  have : migrations = migrations.take 11 ++ mMetadataByKey :: migrations.drop 12 := by decide
  conv => lhs; rw [this]
  rw [List.drop_append_of_le_length]
  show n ≤ 11
  exact hn

theorem effects_metadataKept {sums : Nat → Nat} {n : Nat} {db db' : Database} (hn : n ≤ migrations.length)
    (hrel : OfRelease sums n db) (h : Effects (migrations.drop n) db db') : MetadataKept db db' := by
  obtain ⟨σ, _, hσ, _, _⟩ := absRun_take n
  have hsat := hrel.sat hσ
  have hd := metadataDecl_ok n (by
    rw [List.mem_range]
    exact Nat.lt_succ_of_le hn)
  simp only [hσ, Option.map_some, Option.some.injEq] at hd
  have hform : ∀ r ∈ db.rows "submissions_metadata", ∃ s k v, r = metadataRow s k v := by
    intro r hr
    rcases hsat.find "submissions_metadata" with ⟨h1, _⟩ | ⟨t, a, h1, h2, h3, _⟩
    · simp [Database.rows, h1] at hr
    · simp only [Database.rows, h1, Option.map_some, Option.getD_some] at hr
      simp only [metadataDecl, h2, Bool.and_eq_true, decide_eq_true_eq] at hd
      exact metadata_form (h3.ok.1 r hr) (by rw [h3.decl]; exact hd.1.2) (by rw [h3.decl]; exact hd.1.1)
  intro s k v
  by_cases hlate : 12 ≤ n
  · rw [h.metadata_same (drop_late n hlate)]
    refine ⟨fun hm => ⟨hm, ?_⟩, fun hm => hm.1⟩
    intro w hw
    rcases hsat.find "submissions_metadata" with ⟨h1, _⟩ | ⟨t, a, h1, h2, h3, _⟩
    · simp [Database.rows, h1] at hm
    · simp only [Database.rows, h1, Option.map_some, Option.getD_some] at hm hw
      simp only [metadataDecl, h2, Bool.and_eq_true, Bool.or_eq_true, decide_eq_true_eq] at hd
      have hpk : t.decl.pk = ["submission_id", "metadata_key"] := by
        rw [h3.decl]
        rcases hd.2 with h | h
        · omega
        · exact h
      have huniq := h3.ok.2
      have hkey : ∀ x, t.decl.keyOf (metadataRow s k x) = [s, k] := by
        intro x
        simp only [Decl.keyOf, hpk, List.map_cons, List.map_nil, metadataRow_get]
      have e2 := eq_of_key_eq huniq hm hw (by rw [hkey, hkey])
      simp only [metadataRow, List.cons.injEq, Prod.mk.injEq, true_and, and_true, Val.int.injEq] at e2
      omega
  · rw [drop_early n (by omega)] at h
    obtain ⟨d1, h1, h2⟩ := h.split
    have r1 := h1.metadata_same (by
      intro m hm
      have hm1 := (List.drop_sublist _ _).subset hm
      refine ⟨(List.take_sublist _ _).subset hm1, ?_⟩
      have : ∀ m ∈ migrations.take 11, m.version ≠ 20260717143000 := by decide
      exact this m hm1)
    cases h2 with
    | cons k1 k2 k3 k4 k5 =>
      have r2 := metadataByKey_rows k1 k2 k3
      have r3 := k5.metadata_same (drop_late 12 (Nat.le_refl _))
      rw [r3]
      rw [show ∀ (a b : Database), a.tables = b.tables → a.rows "submissions_metadata" = b.rows "submissions_metadata"
        from fun a b e => by simp only [Database.rows, Database.table?, e]] <;> try exact k4
      rw [r2, r1]
      exact selectMax_metadata hform s k v

end Opsqueue.Upgrade
