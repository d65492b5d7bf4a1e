import Verif.Proofs.Upgrade

/-! What the statements of the migrations do to the rows, and the migrator. -/

namespace Opsqueue.Upgrade

/-! ### rows -/

/-- What a statement adds to the rows of a table. -/
def added (n : String) : Stmt → Row
  | .addColumn m c => if m = n ∧ c.gen = none then [(c.name, c.dflt)] else []
  | _ => []

/-- The statement does nothing else to the rows of the table (creating it does not, there were none). -/
def quiet (n : String) : Stmt → Bool
  | .dropTable m => m != n
  | .renameTable a b => a != n && b != n
  | .insertMax dst _ _ _ => dst != n
  | _ => true

theorem map_append_nil (rows : List Row) : rows.map (· ++ ([] : Row)) = rows := by
  have : (fun r : Row => r ++ ([] : Row)) = id := by funext r; simp
  rw [this, List.map_id]

theorem find_map_same {ts : List Table} {m n : String} {f : Table → Table} (hf : ∀ t, (f t).decl.name = t.decl.name) :
    (ts.map fun t => if t.decl.name == m then f t else t).find? (·.decl.name == n) =
      (ts.find? (·.decl.name == n)).map fun t => if t.decl.name == m then f t else t := by
  induction ts with
  | nil => rfl
  | cons t ts ih =>
    have hname : (if t.decl.name == m then f t else t).decl.name = t.decl.name := by split <;> simp [hf]
    simp only [List.map_cons, List.find?_cons, hname]
    split
    · rfl
    · exact ih

theorem rows_update_ne {db : Database} {m n : String} {f : Table → Table} (hf : ∀ t, (f t).decl.name = t.decl.name)
    (hne : m ≠ n) : (db.update m f).rows n = db.rows n := by
  simp only [Database.rows, Database.table?, Database.update, find_map_same hf]
  cases h : db.tables.find? (·.decl.name == n) with
  | none => rfl
  | some t =>
    have := List.find?_some h
    simp only [beq_iff_eq] at this
    simp [this, Ne.symm hne]

theorem rows_update_eq {db : Database} {n : String} {f : Table → Table} (hf : ∀ t, (f t).decl.name = t.decl.name)
    {t : Table} (ht : db.table? n = some t) : (db.update n f).rows n = (f t).rows := by
  simp only [Database.table?] at ht
  simp only [Database.rows, Database.table?, Database.update, find_map_same hf, ht]
  have := List.find?_some ht
  simp only [beq_iff_eq] at this
  simp [this]

theorem exec_rows {s : Stmt} {db db' : Database} {σ σ' : ADb} {n : String} (h : Sat db σ)
    (hc : check s σ = some σ') (he : exec s db = .ok db') (hq : quiet n s = true) :
    db'.rows n = (db.rows n).map (· ++ added n s) := by
  cases s with
  | createTable d =>
    simp only [exec] at he
    split at he
    · cases he
    · rename_i ht
      simp only [Except.ok.injEq] at he
      subst he
      simp only [added, map_append_nil]
      simp only [Database.taken, Bool.or_eq_true, not_or, Bool.not_eq_true, Option.isSome_eq_false_iff,
        Option.isNone_iff_eq_none] at ht
      simp only [Database.rows, Database.table?, List.find?_append]
      cases hf : db.tables.find? (·.decl.name == n) with
      | some t => rfl
      | none =>
        simp only [Option.none_or, List.find?_cons]
        by_cases hd : (d.name == n) = true
        · simp [hd]
        · simp only [Bool.not_eq_true] at hd; simp [hd]
  | addColumn m c =>
    simp only [exec] at he
    cases ht : db.table? m with
    | none => rw [ht] at he; cases he
    | some t =>
      rw [ht] at he
      simp only at he
      split at he
      · cases he
      · split at he
        · cases he
        · split at he
          · simp only [Except.ok.injEq] at he
            subst he
            have hname : ∀ t : Table, (t.addColumn c).decl.name = t.decl.name := fun _ => rfl
            by_cases hm : m = n
            · subst hm
              rw [rows_update_eq hname ht]
              have hr : db.rows m = t.rows := by simp [Database.rows, ht]
              rw [hr]
              cases hg : c.gen with
              | none => simp only [Table.addColumn, added, hg, and_self, if_true]
              | some e =>
                simp only [Table.addColumn, added, hg, reduceCtorEq, and_false, if_false, map_append_nil]
            · rw [rows_update_ne hname hm]
              simp only [added, hm, false_and, if_false, map_append_nil]
          · cases he
  | dropColumn m c =>
    simp only [check] at hc
    simp only [exec] at he
    simp only [added, map_append_nil]
    rcases h.find m with ⟨h1, h2⟩ | ⟨t, a, h1, h2, h3, h4⟩
    · rw [h2] at hc; cases hc
    · rw [h2] at hc
      rw [h1] at he
      simp only at hc he
      split at hc
      · cases hc
      · split at hc
        · cases hc
        · split at hc
          · rename_i hgen
            split at he
            · cases he
            · split at he
              · cases he
              · simp only [Except.ok.injEq] at he
                subst he
                have hname : ∀ t : Table, (t.dropColumn c).decl.name = t.decl.name := fun _ => rfl
                by_cases hm : m = n
                · subst hm
                  rw [rows_update_eq hname h1]
                  have hr : db.rows m = t.rows := by simp [Database.rows, h1]
                  rw [hr]
                  refine rows_dropColumn h3.ok ?_
                  rw [List.all_eq_true] at hgen
                  have := hgen a (List.mem_of_find?_eq_some h2)
                  have hn := List.find?_some h2
                  simp only [beq_iff_eq] at hn
                  rw [h3.decl]
                  simp only [hn, bne_self_eq_false, Bool.false_or, Bool.not_eq_true', List.contains_eq_mem,
                    decide_eq_false_iff_not] at this
                  exact this
                · exact rows_update_ne hname hm
          · cases hc
  | dropTable m =>
    simp only [exec] at he
    cases ht : db.table? m with
    | none => rw [ht] at he; cases he
    | some t =>
      rw [ht] at he
      simp only [Except.ok.injEq] at he
      subst he
      simp only [quiet, bne_iff_ne, ne_eq] at hq
      simp only [added, map_append_nil, Database.rows, Database.table?, List.find?_filter]
      congr 3
      funext x
      by_cases hx : x.decl.name = n
      · simp [hx, Ne.symm hq]
      · simp [hx]
  | renameTable x y =>
    simp only [exec] at he
    cases ht : db.table? x with
    | none => rw [ht] at he; cases he
    | some t =>
      rw [ht] at he
      simp only at he
      split at he
      · cases he
      · simp only [Except.ok.injEq] at he
        subst he
        simp only [quiet, Bool.and_eq_true, bne_iff_ne, ne_eq] at hq
        simp only [added, map_append_nil, Database.rows, Database.table?, Database.update]
        congr 2
        generalize db.tables = ts
        induction ts with
        | nil => rfl
        | cons t ts ih =>
          simp only [List.map_cons, List.find?_cons]
          by_cases h1 : t.decl.name = x
          · simp only [h1, beq_self_eq_true, if_true, beq_eq_false_iff_ne.2 hq.1, beq_eq_false_iff_ne.2 hq.2]
            exact ih
          · simp only [beq_eq_false_iff_ne.2 h1, Bool.false_eq_true, if_false]
            split
            · rfl
            · exact ih
  | createIndex i =>
    simp only [exec] at he
    split at he
    · cases he
    · cases ht : db.table? i.table with
      | none => rw [ht] at he; cases he
      | some t =>
        rw [ht] at he
        simp only at he
        split at he
        · cases he
        · simp only [Except.ok.injEq] at he
          subst he
          simp only [added, map_append_nil]; rfl
  | dropIndex m =>
    simp only [exec] at he
    split at he
    · cases he
    · simp only [Except.ok.injEq] at he
      subst he
      simp only [added, map_append_nil]; rfl
  | insertMax dst src group value =>
    simp only [exec] at he
    cases h1 : db.table? dst with
    | none => rw [h1] at he; cases he
    | some d =>
      cases h2 : db.table? src with
      | none => rw [h1, h2] at he; cases he
      | some s =>
        rw [h1, h2] at he
        simp only at he
        split at he
        · cases he
        · split at he
          · simp only [Except.ok.injEq] at he
            subst he
            simp only [quiet, bne_iff_ne, ne_eq] at hq
            simp only [added, map_append_nil]
            exact rows_update_ne (fun _ => rfl) hq
          · cases he

theorem exec_applied {s : Stmt} {db db' : Database} (he : exec s db = .ok db') : db'.applied = db.applied := by
  cases s <;> simp only [exec] at he <;> (repeat' split at he) <;> first
    | cases he; done
    | (simp only [Except.ok.injEq] at he; subst he; rfl)

theorem execAll_applied {ss : List Stmt} {db db' : Database} (he : execAll ss db = .ok db') :
    db'.applied = db.applied := by
  induction ss generalizing db with
  | nil => simp only [execAll, Except.ok.injEq] at he; rw [he]
  | cons s ss ih =>
    simp only [execAll] at he
    split at he
    · rename_i h; rw [ih he, exec_applied h]
    · cases he

theorem execAll_rows {ss : List Stmt} {db db' : Database} {σ σ' : ADb} {n : String} (h : Sat db σ)
    (hc : checkAll ss σ = some σ') (he : execAll ss db = .ok db') (hq : ∀ s ∈ ss, quiet n s = true) :
    db'.rows n = (db.rows n).map (· ++ ss.flatMap (added n)) := by
  induction ss generalizing db σ with
  | nil =>
    simp only [execAll, Except.ok.injEq] at he
    subst he
    simp only [List.flatMap_nil, map_append_nil]
  | cons s ss ih =>
    obtain ⟨τ, h1, h2⟩ := Option.bind_eq_some_iff.1 hc
    obtain ⟨db1, h3, h4⟩ := check_sound h h1
    simp only [execAll, h3] at he
    rw [ih h4 h2 he fun s hs => hq s (List.mem_cons_of_mem _ hs),
      exec_rows h h1 h3 (hq s List.mem_cons_self), List.map_map]
    apply List.map_congr_left
    intro r _
    simp

/-! ### the migration of the metadata -/

theorem metadataByKey_rows {db db' : Database} {σ σ' : ADb} (h : Sat db σ)
    (hc : checkAll mMetadataByKey.stmts σ = some σ') (he : execAll mMetadataByKey.stmts db = .ok db') :
    db'.rows "submissions_metadata" =
      selectMax ["submission_id", "metadata_key"] "metadata_value" (db.rows "submissions_metadata") := by
  simp only [mMetadataByKey, checkAll, Option.bind_eq_some_iff] at hc
  obtain ⟨σ1, c1, σ2, c2, σ3, c3, σ4, c4, σ5, c5, σ6, c6, hc⟩ := hc
  obtain ⟨db1, e1, s1⟩ := check_sound h c1
  obtain ⟨db2, e2, s2⟩ := check_sound s1 c2
  obtain ⟨db3, e3, s3⟩ := check_sound s2 c3
  obtain ⟨db4, e4, s4⟩ := check_sound s3 c4
  obtain ⟨db5, e5, s5⟩ := check_sound s4 c5
  obtain ⟨db6, e6, s6⟩ := check_sound s5 c6
  simp only [mMetadataByKey, execAll, e1, e2, e3, e4, e5, e6, Except.ok.injEq] at he
  subst he
  have q : ∀ rows : List Row, rows.map (· ++ ([] : Row)) = rows := map_append_nil
  have r1 := exec_rows (n := "submissions_metadata") h c1 e1 rfl
  have r1' : db1.rows "submissions_metadata_new" = [] := by
    simp only [exec] at e1
    split at e1
    · cases e1
    · rename_i ht
      simp only [Except.ok.injEq] at e1
      subst e1
      simp only [Database.taken, Bool.or_eq_true, not_or, Bool.not_eq_true, Option.isSome_eq_false_iff,
        Option.isNone_iff_eq_none] at ht
      have ht := ht.1
      simp only [Database.table?] at ht
      simp [Database.rows, Database.table?, List.find?_append, ht]
  have r3 := exec_rows (n := "submissions_metadata_new") s2 c3 e3 rfl
  have r4 := exec_rows (n := "submissions_metadata_new") s3 c4 e4 rfl
  have r6 := exec_rows (n := "submissions_metadata") s5 c6 e6 rfl
  have r2 : db2.rows "submissions_metadata_new" =
      selectMax ["submission_id", "metadata_key"] "metadata_value" (db1.rows "submissions_metadata") := by
    simp only [exec] at e2
    cases h1 : db1.table? "submissions_metadata_new" with
    | none => rw [h1] at e2; cases e2
    | some d =>
      cases h2 : db1.table? "submissions_metadata" with
      | none => rw [h1, h2] at e2; cases e2
      | some s =>
        rw [h1, h2] at e2
        simp only at e2
        simp only [Database.rows, h1, Option.map_some, Option.getD_some] at r1'
        split at e2
        · cases e2
        · rw [r1'] at e2
          split at e2
          · rename_i rows hrows
            simp only [Except.ok.injEq] at e2
            subst e2
            rw [rows_update_eq (f := fun t => { t with rows := rows }) (fun _ => rfl) h1]
            simp only [Database.rows, h2, Option.map_some, Option.getD_some]
            have c2' := c2
            simp only [check] at c2'
            rcases s1.find "submissions_metadata_new" with ⟨x1, x2⟩ | ⟨t, a, x1, x2, x3, x4⟩
            · rw [x1] at h1; cases h1
            · rcases s1.find "submissions_metadata" with ⟨y1, y2⟩ | ⟨t', a', y1, y2, y3, y4⟩
              · rw [y1] at h2; cases h2
              · rw [x1] at h1; rw [y1] at h2
                simp only [Option.some.injEq] at h1 h2
                subst h1 h2
                rw [x2, y2] at c2'
                simp only at c2'
                split at c2'
                · cases c2'
                · split at c2'
                  · rename_i hok
                    simp only [Bool.and_eq_true, decide_eq_true_eq, List.all_eq_true, Bool.or_eq_true, bne_iff_ne,
                      ne_eq, beq_iff_eq] at hok
                    obtain ⟨⟨⟨⟨⟨⟨⟨⟨o1, o2⟩, o3⟩, o4⟩, o5⟩, o6⟩, o7⟩, o8⟩, o9⟩ := hok
                    have hi := insertMax_ok (s := a'.decl) (d := a.decl) (group := ["submission_id", "metadata_key"])
                      (value := "metadata_value") (rows := t'.rows)
                      (fun r hr => by rw [← y3.decl]; exact y3.ok.1 r hr) o2 o3 o4 o5 o6 o7
                      (fun c hc hn => (o8 c hc).elim (fun h => absurd hn h) id)
                    rw [x3.decl, hi.1] at hrows
                    exact (Except.ok.inj hrows).symm
                  · cases c2'
          · cases e2
  have r5 : db5.rows "submissions_metadata" = db4.rows "submissions_metadata_new" := by
    simp only [exec] at e5
    cases ht : db4.table? "submissions_metadata_new" with
    | none => rw [ht] at e5; cases e5
    | some t =>
      rw [ht] at e5
      simp only at e5
      split at e5
      · cases e5
      · rename_i htk
        simp only [Except.ok.injEq] at e5
        subst e5
        simp only [Database.taken, Bool.or_eq_true, not_or, Bool.not_eq_true, Option.isSome_eq_false_iff,
          Option.isNone_iff_eq_none] at htk
        have hnone := htk.1
        simp only [Database.rows, Database.table?, Database.update] at hnone ⊢
        congr 1
        generalize db4.tables = ts at hnone
        induction ts with
        | nil => rfl
        | cons u us ih =>
          simp only [List.find?_cons] at hnone
          simp only [List.map_cons, List.find?_cons]
          by_cases h1 : u.decl.name = "submissions_metadata_new"
          · simp [h1]
          · simp only [beq_eq_false_iff_ne.2 h1, Bool.false_eq_true, if_false]
            split at hnone
            · cases hnone
            · exact ih hnone
  simp only [added, q] at r1 r3 r4 r6
  rw [r6, r5, r4, r3, r2, r1]

end Opsqueue.Upgrade
