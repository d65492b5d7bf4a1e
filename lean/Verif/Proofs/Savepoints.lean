import Verif.Model.Savepoints

/-! Lemmas for C100: programs with savepoints do what those of `Model/Programs.lean` do. -/

namespace Opsqueue.Savepoints
open Opsqueue

/-- What may be left on the stack by programs that run at depth `d`. -/
def JunkOk (d : Nat) (junk : List Mark) : Prop :=
  ∀ m ∈ junk, (∃ s, m.name = some (.text s)) ∨ ∃ k, m.name = some (.sqlx k) ∧ d ≤ k

/-- The database before the transaction. -/
def bot (stack : List Mark) : DB :=
  match stack.getLast? with
  | none => {}
  | some m => m.saved

theorem bot_append (junk : List Mark) {stack : List Mark} (h : stack ≠ []) : bot (junk ++ stack) = bot stack := by
  unfold bot
  rw [List.getLast?_append]
  cases hs : stack.getLast? with
  | none => exact absurd (List.getLast?_eq_none_iff.1 hs) h
  | some m => rfl

theorem committed_eq {db : DB} {stack : List Mark} {d : Nat} (h : stack ≠ []) : Conn.committed ⟨db, stack, d⟩ = bot stack := by
  unfold Conn.committed bot
  cases hs : stack.getLast? with
  | none => exact absurd (List.getLast?_eq_none_iff.1 hs) h
  | some m => rfl

/-- How the two ends compare. -/
def Match {ε α : Type} (stack : List Mark) (d : Nat) (r : Res ε α × Opsqueue.World) (r' : Res ε α × World) : Prop :=
  match r with
  | (.crash, w) => r' = (.crash, ⟨w.oracle, ⟨bot stack, [], 0⟩⟩)
  | (.ok a, w) => ∃ junk, JunkOk d junk ∧ r' = (.ok a, ⟨w.oracle, ⟨w.db, junk ++ stack, d⟩⟩)
  | (.err e, w) => ∃ junk, JunkOk d junk ∧ r' = (.err e, ⟨w.oracle, ⟨w.db, junk ++ stack, d⟩⟩)

/-- Inside of a transaction, `q` does what `p` does. -/
def Sim {ε α : Type} (p : Sql ε α) (q : Prog ε α) : Prop :=
  ∀ o db stack d, stack ≠ [] → 0 < d → Match stack d (p ⟨o, db⟩) (q ⟨o, ⟨db, stack, d⟩⟩)

/-- Outside of one, and leaves nothing open. -/
def Top {ε α : Type} (p : Sql ε α) (q : Prog ε α) : Prop :=
  ∀ o db, q ⟨o, ⟨db, [], 0⟩⟩ = ((p ⟨o, db⟩).1, ⟨(p ⟨o, db⟩).2.oracle, ⟨(p ⟨o, db⟩).2.db, [], 0⟩⟩)

theorem JunkOk.append {d : Nat} {x y : List Mark} (hx : JunkOk d x) (hy : JunkOk d y) : JunkOk d (x ++ y) := by
  intro m hm
  rcases List.mem_append.1 hm with h | h
  · exact hx m h
  · exact hy m h

theorem JunkOk.nil {d : Nat} : JunkOk d [] := fun _ h => by cases h

theorem append_ne {junk stack : List Mark} (h : stack ≠ []) : junk ++ stack ≠ [] := by
  intro e; exact h (List.append_eq_nil_iff.1 e).2

theorem Match.more {ε α : Type} {stack junk : List Mark} {d : Nat} (hs : stack ≠ []) (hj : JunkOk d junk)
    {r : Res ε α × Opsqueue.World} {r' : Res ε α × World} (h : Match (junk ++ stack) d r r') : Match stack d r r' := by
  obtain ⟨r, w⟩ := r
  cases r with
  | crash => simp only [Match, bot_append junk hs] at h ⊢; exact h
  | ok a =>
    obtain ⟨j, h1, h2⟩ := h
    exact ⟨j ++ junk, h1.append hj, by rw [List.append_assoc]; exact h2⟩
  | err e =>
    obtain ⟨j, h1, h2⟩ := h
    exact ⟨j ++ junk, h1.append hj, by rw [List.append_assoc]; exact h2⟩

theorem sim_pure {ε α : Type} (a : α) : Sim (pure a : Sql ε α) (pure a) :=
  fun _ _ _ _ _ _ => ⟨[], .nil, rfl⟩

theorem sim_throw {ε α : Type} (e : ε) : Sim (Sql.throw e : Sql ε α) (Prog.throw e) :=
  fun _ _ _ _ _ _ => ⟨[], .nil, rfl⟩

theorem sim_matchRes {ε ε' α β : Type} {x : Sql ε α} {x' : Prog ε α} {k : Except ε α → Sql ε' β} {k' : Except ε α → Prog ε' β}
    (hx : Sim x x') (hk : ∀ r, Sim (k r) (k' r)) : Sim (Sql.matchRes x k) (Prog.matchRes x' k') := by
  intro o db stack d hs hd
  have h := hx o db stack d hs hd
  unfold Sql.matchRes Prog.matchRes
  rcases hr : x ⟨o, db⟩ with ⟨r, w⟩
  rw [hr] at h
  cases r with
  | crash => rw [show x' _ = _ from h]; exact rfl
  | ok a =>
    obtain ⟨j, h1, h2⟩ := h
    rw [h2]
    exact (hk (.ok a) w.oracle w.db (j ++ stack) d (append_ne hs) hd).more hs h1
  | err e =>
    obtain ⟨j, h1, h2⟩ := h
    rw [h2]
    exact (hk (.error e) w.oracle w.db (j ++ stack) d (append_ne hs) hd).more hs h1

theorem sim_bind {ε α β : Type} {x : Sql ε α} {x' : Prog ε α} {f : α → Sql ε β} {f' : α → Prog ε β}
    (hx : Sim x x') (hf : ∀ a, Sim (f a) (f' a)) : Sim (x >>= f) (x' >>= f') := by
  intro o db stack d hs hd
  have h := hx o db stack d hs hd
  show Match stack d (Sql.bind x f ⟨o, db⟩) (Prog.bind x' f' _)
  unfold Sql.bind Prog.bind
  rcases hr : x ⟨o, db⟩ with ⟨r, w⟩
  rw [hr] at h
  cases r with
  | crash => rw [show x' _ = _ from h]; exact rfl
  | ok a =>
    obtain ⟨j, h1, h2⟩ := h
    rw [h2]
    exact (hf a w.oracle w.db (j ++ stack) d (append_ne hs) hd).more hs h1
  | err e =>
    obtain ⟨j, h1, h2⟩ := h
    rw [h2]
    exact ⟨j, h1, rfl⟩

theorem sim_mapErr {ε ε' α : Type} {x : Sql ε α} {x' : Prog ε α} (f : ε → ε') (hx : Sim x x') :
    Sim (Sql.mapErr f x) (Prog.mapErr f x') := by
  intro o db stack d hs hd
  have h := hx o db stack d hs hd
  unfold Sql.mapErr Prog.mapErr
  rcases hr : x ⟨o, db⟩ with ⟨r, w⟩
  rw [hr] at h
  cases r with
  | crash => rw [show x' _ = _ from h]; exact rfl
  | ok a =>
    obtain ⟨j, h1, h2⟩ := h
    rw [h2]; exact ⟨j, h1, rfl⟩
  | err e =>
    obtain ⟨j, h1, h2⟩ := h
    rw [h2]; exact ⟨j, h1, rfl⟩

theorem sim_ite {ε α : Type} {c : Prop} [Decidable c] {x y : Sql ε α} {x' y' : Prog ε α} (hx : Sim x x') (hy : Sim y y') :
    Sim (if c then x else y) (if c then x' else y') := by
  by_cases h : c
  · rw [if_pos h, if_pos h]; exact hx
  · rw [if_neg h, if_neg h]; exact hy

theorem sim_stmt {α : Type} (f : DB → Except DbErr (α × DB)) : Sim (Sql.stmt f) (Prog.stmt f) := by
  intro o db stack d hs hd
  unfold Sql.stmt Prog.stmt Prog.command
  rcases o with _ | ⟨x, o⟩
  · cases hf : f db with
    | error e => exact ⟨[], .nil, by simp [hf]⟩
    | ok r => exact ⟨[], .nil, by simp [hf]⟩
  · cases x with
    | ok =>
      cases hf : f db with
      | error e => exact ⟨[], .nil, by simp [hf]⟩
      | ok r => exact ⟨[], .nil, by simp [hf]⟩
    | fail => exact ⟨[], .nil, rfl⟩
    | crash => simp only [Match, committed_eq hs]
    | crashLate =>
      cases hf : f db with
      | error e => simp only [Match, hf, committed_eq hs]
      | ok r => simp only [Match, hf, committed_eq hs]

theorem sim_query {α : Type} (f : DB → Except DbErr α) : Sim (Sql.query f) (Prog.query f) := sim_stmt _

/-! ### transactions -/

theorem from_junk {n : Name} {junk : List Mark} {db : DB} {stack : List Mark} (h : ∀ m ∈ junk, m.name ≠ some n) :
    from? n (junk ++ ⟨some n, db⟩ :: stack) = ⟨some n, db⟩ :: stack := by
  unfold from?
  induction junk with
  | nil => simp
  | cons m junk ih =>
    rw [List.cons_append, List.dropWhile_cons_of_pos (by simpa using h m List.mem_cons_self)]
    exact ih fun m' h' => h m' (List.mem_cons_of_mem _ h')

theorem JunkOk.not {d : Nat} {junk : List Mark} (h : JunkOk (d + 1) junk) : ∀ m ∈ junk, m.name ≠ some (.sqlx d) := by
  intro m hm he
  rcases h m hm with ⟨s, hs⟩ | ⟨k, hk, hd⟩
  · rw [hs] at he; cases he
  · rw [hk] at he; cases he; omega

/-- A nested transaction. -/
theorem sim_transaction {ε α : Type} {conv : DbErr → ε} {body : Sql ε α} {body' : Prog ε α} (hb : Sim body body') :
    Sim (Sql.transaction conv body) (Prog.transaction conv body') := by
  intro o db stack d hs hd
  have hd0 : d ≠ 0 := by omega
  have hstart : Prog.start ⟨db, stack, d⟩ = .ok ((), ⟨db, ⟨some (.sqlx d), db⟩ :: stack, d + 1⟩) := by
    simp [Prog.start, hd0, Conn.savepoint]
  have hlast : ∀ junk, bot (junk ++ (⟨some (.sqlx d), db⟩ : Mark) :: stack) = bot stack := by
    intro junk
    rw [show junk ++ (⟨some (.sqlx d), db⟩ : Mark) :: stack = (junk ++ [⟨some (.sqlx d), db⟩]) ++ stack by simp]
    exact bot_append _ hs
  -- the body, after the start
  have hbody : ∀ o1, Match stack d
      (match body ⟨o1, db⟩ with
        | (.err e, w2) => (.err e, ⟨w2.oracle, db⟩)
        | (.crash, w2) => (.crash, ⟨w2.oracle, db⟩)
        | (.ok a, w2) =>
          match w2.oracle with
          | [] => (.ok a, w2)
          | .ok :: o => (.ok a, ⟨o, w2.db⟩)
          | .fail :: o => (.err (conv .io), ⟨o, db⟩)
          | .crash :: o => (.crash, ⟨o, db⟩)
          | .crashLate :: o => (.crash, ⟨o, w2.db⟩))
      (match body' ⟨o1, ⟨db, ⟨some (.sqlx d), db⟩ :: stack, d + 1⟩⟩ with
        | (.err e, w2) => (.err e, { w2 with conn := Prog.undo w2.conn })
        | (.crash, w2) => (.crash, w2)
        | (.ok a, w2) =>
          match Prog.command Prog.finish w2 with
          | (.ok (), w3) => (.ok a, w3)
          | (.err e, w3) => (.err (conv e), { w3 with conn := Prog.undo w3.conn })
          | (.crash, w3) => (.crash, w3)) := by
    intro o1
    have h := hb o1 db (⟨some (.sqlx d), db⟩ :: stack) (d + 1) (by simp) (by omega)
    have hundo : ∀ db' junk, JunkOk (d + 1) junk → Prog.undo ⟨db', junk ++ ⟨some (.sqlx d), db⟩ :: stack, d + 1⟩ =
        ⟨db, ⟨some (.sqlx d), db⟩ :: stack, d⟩ := by
      intro db' junk hj
      simp [Prog.undo, hd0, Conn.rollbackTo, from_junk hj.not]
    have hfinish : ∀ db' junk, JunkOk (d + 1) junk → Prog.finish ⟨db', junk ++ ⟨some (.sqlx d), db⟩ :: stack, d + 1⟩ =
        .ok ((), ⟨db', stack, d⟩) := by
      intro db' junk hj
      simp [Prog.finish, hd0, Conn.release, from_junk hj.not]
    have hjunk : JunkOk d [⟨some (.sqlx d), db⟩] := by
      intro m hm
      rw [List.mem_singleton] at hm
      subst hm
      exact .inr ⟨d, rfl, Nat.le_refl _⟩
    rcases hr : body ⟨o1, db⟩ with ⟨r, w2⟩
    rw [hr] at h
    cases r with
    | crash =>
      rw [show body' _ = _ from h]
      dsimp only [Match]
      rw [show bot (⟨some (.sqlx d), db⟩ :: stack) = bot stack from hlast []]
    | err e =>
      obtain ⟨j, h1, h2⟩ := h
      rw [h2]
      exact ⟨[⟨some (.sqlx d), db⟩], hjunk, by dsimp only; rw [hundo _ _ h1]; rfl⟩
    | ok a =>
      obtain ⟨j, h1, h2⟩ := h
      rw [h2]
      obtain ⟨o2, db2⟩ := w2
      dsimp only
      unfold Prog.command
      dsimp only
      rw [hfinish _ _ h1]
      have hne : j ++ (⟨some (.sqlx d), db⟩ : Mark) :: stack ≠ [] := by simp
      rcases o2 with _ | ⟨x, o2⟩
      · exact ⟨[], .nil, rfl⟩
      · cases x with
        | ok => exact ⟨[], .nil, rfl⟩
        | fail => exact ⟨[⟨some (.sqlx d), db⟩], hjunk, by dsimp only; rw [hundo _ _ h1]; rfl⟩
        | crash => simp only [Match, committed_eq hne, hlast]
        | crashLate => simp only [Match, committed_eq hs]
  unfold Sql.transaction Prog.transaction Sql.stmt
  conv => arg 4; unfold Prog.command
  dsimp only
  rw [hstart]
  rcases o with _ | ⟨x, o⟩
  · exact hbody []
  · cases x with
    | ok => exact hbody o
    | fail => exact ⟨[], .nil, rfl⟩
    | crash => simp only [Match, committed_eq hs]
    | crashLate =>
      simp only [Match]
      rw [committed_eq (by simp), show bot (⟨some (.sqlx d), db⟩ :: stack) = bot stack from hlast []]

/-- A transaction that is not nested. -/
theorem top_transaction {ε α : Type} {conv : DbErr → ε} {body : Sql ε α} {body' : Prog ε α} (hb : Sim body body') :
    Top (Sql.transaction conv body) (Prog.transaction conv body') := by
  intro o db
  have hstart : Prog.start ⟨db, [], 0⟩ = .ok ((), ⟨db, [⟨none, db⟩], 1⟩) := by
    simp [Prog.start, Conn.begin]
  have hbody : ∀ o1,
      (match body' ⟨o1, ⟨db, [⟨none, db⟩], 1⟩⟩ with
        | (.err e, w2) => (.err e, { w2 with conn := Prog.undo w2.conn })
        | (.crash, w2) => (.crash, w2)
        | (.ok a, w2) =>
          match Prog.command Prog.finish w2 with
          | (.ok (), w3) => (.ok a, w3)
          | (.err e, w3) => (.err (conv e), { w3 with conn := Prog.undo w3.conn })
          | (.crash, w3) => (.crash, w3)) =
      (fun r : Res ε α × Opsqueue.World => (r.1, (⟨r.2.oracle, ⟨r.2.db, [], 0⟩⟩ : World)))
      (match body ⟨o1, db⟩ with
        | (.err e, w2) => (.err e, ⟨w2.oracle, db⟩)
        | (.crash, w2) => (.crash, ⟨w2.oracle, db⟩)
        | (.ok a, w2) =>
          match w2.oracle with
          | [] => (.ok a, w2)
          | .ok :: o => (.ok a, ⟨o, w2.db⟩)
          | .fail :: o => (.err (conv .io), ⟨o, db⟩)
          | .crash :: o => (.crash, ⟨o, db⟩)
          | .crashLate :: o => (.crash, ⟨o, w2.db⟩)) := by
    intro o1
    have h := hb o1 db [⟨none, db⟩] 1 (by simp) (by omega)
    have hbot : ∀ j, bot (j ++ [(⟨none, db⟩ : Mark)]) = db := by
      intro j; rw [bot_append _ (by simp)]; rfl
    have hcom : ∀ db' j, Conn.committed ⟨db', j ++ [⟨none, db⟩], 1⟩ = db := by
      intro db' j; rw [committed_eq (by simp)]; exact hbot j
    have hundo : ∀ db' j, Prog.undo ⟨db', j ++ [⟨none, db⟩], 1⟩ = ⟨db, [], 0⟩ := by
      intro db' j
      cases j with
      | nil => have := hcom db' []; simp only [List.nil_append] at this; simp [Prog.undo, Conn.rollback, this]
      | cons m j =>
        have := hcom db' (m :: j); simp only [List.cons_append] at this; simp [Prog.undo, Conn.rollback, this]
    have hfinish : ∀ db' j, Prog.finish ⟨db', j ++ [⟨none, db⟩], 1⟩ = .ok ((), ⟨db', [], 0⟩) := by
      intro db' j; cases j <;> simp [Prog.finish, Conn.commit]
    rcases hr : body ⟨o1, db⟩ with ⟨r, w2⟩
    rw [hr] at h
    cases r with
    | crash =>
      rw [show body' _ = _ from h]
      rfl
    | err e =>
      obtain ⟨j, h1, h2⟩ := h
      rw [h2]
      dsimp only
      rw [hundo]
    | ok a =>
      obtain ⟨j, h1, h2⟩ := h
      rw [h2]
      obtain ⟨o2, db2⟩ := w2
      dsimp only
      unfold Prog.command
      dsimp only
      rw [hfinish]
      rcases o2 with _ | ⟨x, o2⟩
      · rfl
      · cases x with
        | ok => rfl
        | fail => dsimp only; rw [hundo]
        | crash => dsimp only; rw [hcom]
        | crashLate => rfl
  unfold Sql.transaction Prog.transaction Sql.stmt
  conv => lhs; unfold Prog.command
  dsimp only
  rw [hstart]
  rcases o with _ | ⟨x, o⟩
  · exact hbody []
  · cases x with
    | ok => exact hbody o
    | fail => rfl
    | crash => rfl
    | crashLate => rfl

theorem top_pure {ε α : Type} (a : α) : Top (pure a : Sql ε α) (pure a) := fun _ _ => rfl
theorem top_throw {ε α : Type} (e : ε) : Top (Sql.throw e : Sql ε α) (Prog.throw e) := fun _ _ => rfl

theorem top_matchRes {ε ε' α β : Type} {x : Sql ε α} {x' : Prog ε α} {k : Except ε α → Sql ε' β} {k' : Except ε α → Prog ε' β}
    (hx : Top x x') (hk : ∀ r, Top (k r) (k' r)) : Top (Sql.matchRes x k) (Prog.matchRes x' k') := by
  intro o db
  unfold Sql.matchRes Prog.matchRes
  rw [hx o db]
  rcases x ⟨o, db⟩ with ⟨r, w⟩
  cases r with
  | crash => rfl
  | ok a => exact hk (.ok a) w.oracle w.db
  | err e => exact hk (.error e) w.oracle w.db

theorem top_bind {ε α β : Type} {x : Sql ε α} {x' : Prog ε α} {f : α → Sql ε β} {f' : α → Prog ε β}
    (hx : Top x x') (hf : ∀ a, Top (f a) (f' a)) : Top (x >>= f) (x' >>= f') := by
  intro o db
  show Prog.bind x' f' _ = ((Sql.bind x f ⟨o, db⟩).1, _)
  show Prog.bind x' f' _ = ((Sql.bind x f ⟨o, db⟩).1, ⟨(Sql.bind x f ⟨o, db⟩).2.oracle, ⟨(Sql.bind x f ⟨o, db⟩).2.db, [], 0⟩⟩)
  unfold Sql.bind Prog.bind
  rw [hx o db]
  rcases x ⟨o, db⟩ with ⟨r, w⟩
  cases r with
  | crash => rfl
  | ok a => exact hf a w.oracle w.db
  | err e => rfl

/-! ### the texts with savepoints -/

/-- A block that ends with `RELEASE`. -/
theorem release_own (name : String) (o : List Fault) (db db' : DB) (stack : List Mark) (d : Nat) :
    Prog.release name ⟨o, ⟨db', ⟨some (.text name), db⟩ :: stack, d⟩⟩ = (.ok (), ⟨o, ⟨db', stack, d⟩⟩) := by
  simp [Prog.release, Conn.release, from?]

theorem junk_text (d : Nat) (name : String) (db : DB) : JunkOk d [⟨some (.text name), db⟩] := by
  intro m hm
  rw [List.mem_singleton] at hm
  subst hm
  exact .inl ⟨name, rfl⟩

/-- One statement does exactly the same. -/
theorem stmt_exact {α : Type} (f : DB → Except DbErr (α × DB)) (o : List Fault) (db : DB) (stack : List Mark) (d : Nat)
    (hs : stack ≠ []) :
    Prog.stmt f ⟨o, ⟨db, stack, d⟩⟩ = match Sql.stmt f ⟨o, db⟩ with
      | (.crash, w) => (.crash, ⟨w.oracle, ⟨bot stack, [], 0⟩⟩)
      | (r, w) => (r, ⟨w.oracle, ⟨w.db, stack, d⟩⟩) := by
  unfold Sql.stmt Prog.stmt Prog.command
  rcases o with _ | ⟨x, o⟩
  · cases hf : f db <;> simp [hf]
  · cases x with
    | ok => cases hf : f db <;> simp [hf]
    | fail => rfl
    | crash => simp only [committed_eq hs]
    | crashLate => cases hf : f db <;> simp only [hf, committed_eq hs]

/-- A text of a change and a deletion between a savepoint and its release, run to its end. -/
theorem sim_block (name : String) (f g : DB → Except DbErr (Unit × DB)) :
    Sim (do Sql.stmt f; Sql.stmt g) (do Prog.savepoint name; Prog.stmt f; Prog.stmt g; Prog.release name) := by
  intro o db stack d hs hd
  show Match stack d (Sql.bind (Sql.stmt f) (fun _ => Sql.stmt g) ⟨o, db⟩)
    (Prog.bind (Prog.stmt f) (fun _ => Prog.bind (Prog.stmt g) fun _ => Prog.release name)
      ⟨o, ⟨db, ⟨some (.text name), db⟩ :: stack, d⟩⟩)
  have hne : (⟨some (.text name), db⟩ : Mark) :: stack ≠ [] := by simp
  have hb : bot ((⟨some (.text name), db⟩ : Mark) :: stack) = bot stack := bot_append [_] hs
  have hj := junk_text d name db
  unfold Sql.bind Prog.bind
  rw [stmt_exact f _ _ _ _ hne]
  rcases Sql.stmt f ⟨o, db⟩ with ⟨r, w⟩
  cases r with
  | crash => simp only [Match, hb]
  | err e => exact ⟨_, hj, rfl⟩
  | ok a =>
    dsimp only
    rw [stmt_exact g _ _ _ _ hne]
    rcases Sql.stmt g w with ⟨r, w⟩
    cases r with
    | crash => simp only [Match, hb]
    | err e => exact ⟨_, hj, rfl⟩
    | ok b =>
      dsimp only
      rw [release_own]
      exact ⟨[], .nil, rfl⟩

theorem fetch_eq {β : Type} (rest : Bool) (name : String) (g : DB → Except DbErr (Option β × DB)) (w : World) :
    fetchOneThenRelease rest name g w = match Prog.stmt g w with
      | (.crash, w) => (.crash, w)
      | (.err e, w) => (.err e, w)
      | (.ok none, w) => (match Prog.release name w with
        | (.ok (), w) => (.err .rowNotFound, w)
        | (.err e, w) => (.err e, w)
        | (.crash, w) => (.crash, w))
      | (.ok (some b), w) => if rest then (match Prog.release name w with
        | (.ok (), w) => (.ok b, w)
        | (.err e, w) => (.err e, w)
        | (.crash, w) => (.crash, w)) else (.ok b, w) := by
  show Prog.bind (Prog.stmt g) _ w = _
  unfold Prog.bind
  rcases Prog.stmt g w with ⟨r, w⟩
  rcases r with (_ | b) | e | _
  · show Prog.bind (Prog.release name) _ w = _
    unfold Prog.bind
    dsimp only
    rcases Prog.release name w with ⟨r, w⟩
    cases r <;> rfl
  · cases rest with
    | false => rfl
    | true =>
      show Prog.bind (Prog.release name) _ w = _
      unfold Prog.bind
      dsimp only
      rcases Prog.release name w with ⟨r, w⟩
      cases r <;> rfl
  · rfl
  · rfl

/-- The same, run with `fetch_one`. -/
theorem sim_fetch {α β : Type} (rest : Bool) (name : String) (f : DB → Except DbErr (α × DB))
    (g : DB → Except DbErr (Option β × DB)) {p : Sql DbErr Unit}
    (hp : ∀ w, p w = match Sql.stmt f w with
      | (.crash, w) => (.crash, w)
      | (.err e, w) => (.err e, w)
      | (.ok _, w) => match Sql.stmt g w with
        | (.crash, w) => (.crash, w)
        | (.err e, w) => (.err e, w)
        | (.ok none, w) => (.err .rowNotFound, w)
        | (.ok (some _), w) => (.ok (), w)) :
    Sim p (do Prog.savepoint name; let _ ← Prog.stmt f; let _ ← fetchOneThenRelease rest name g; pure ()) := by
  intro o db stack d hs hd
  show Match stack d (p ⟨o, db⟩)
    (Prog.bind (Prog.stmt f) (fun _ => Prog.bind (fetchOneThenRelease rest name g) fun _ => pure ())
      ⟨o, ⟨db, ⟨some (.text name), db⟩ :: stack, d⟩⟩)
  have hne : (⟨some (.text name), db⟩ : Mark) :: stack ≠ [] := by simp
  have hb : bot ((⟨some (.text name), db⟩ : Mark) :: stack) = bot stack := bot_append [_] hs
  have hj := junk_text d name db
  rw [hp]
  unfold Prog.bind
  rw [stmt_exact f _ _ _ _ hne]
  rcases Sql.stmt f ⟨o, db⟩ with ⟨r, w⟩
  cases r with
  | crash => simp only [Match, hb]
  | err e => exact ⟨_, hj, rfl⟩
  | ok _ =>
    dsimp only
    rw [fetch_eq, stmt_exact g _ _ _ _ hne]
    rcases Sql.stmt g w with ⟨r, w⟩
    cases r with
    | crash => simp only [Match, hb]
    | err e => exact ⟨_, hj, rfl⟩
    | ok b =>
      cases b with
      | none =>
        dsimp only
        rw [release_own]
        exact ⟨[], .nil, rfl⟩
      | some b =>
        cases rest with
        | true =>
          dsimp only
          rw [release_own]
          exact ⟨[], .nil, rfl⟩
        | false => exact ⟨_, hj, rfl⟩

/-! ### the calls -/

theorem sim_skip (id : SubmissionId) (t : Time) : Sim (ChunkDb.skipRemainingChunks id t) (skipRemainingChunks id t) :=
  sim_block _ _ _

theorem delete_stmt (cid : ChunkId) (w : Opsqueue.World) :
    (match Sql.stmt (deleteChunkReturning cid) w with
      | (.crash, w) => (.crash, w)
      | (.err e, w) => (.err e, w)
      | (.ok none, w) => (.err .rowNotFound, w)
      | (.ok (some _), w) => (.ok (), w)) = Sql.stmt (Stmt.deleteChunk cid) w := by
  have hnone : w.db.chunks.find? (·.key == cid) = none →
      ({ w.db with chunks := w.db.chunks.filter (fun r => !(r.key == cid)) } : DB) = w.db := by
    intro h
    have : w.db.chunks.filter (fun r => !(r.key == cid)) = w.db.chunks := by
      rw [List.filter_eq_self]
      intro r hr
      have := List.find?_eq_none.1 h r hr
      simpa using this
    rw [this]
  obtain ⟨o, db⟩ := w
  dsimp only at hnone
  unfold Sql.stmt
  cases hf : db.chunks.find? (·.key == cid) with
  | none =>
    have e1 : deleteChunkReturning cid db = .ok (none, db) := by
      unfold deleteChunkReturning; rw [hf, hnone hf]
    have e2 : Stmt.deleteChunk cid db = .error .rowNotFound := by unfold Stmt.deleteChunk; rw [hf]
    simp only [e1, e2, Sql.applyStmt]
    rcases o with _ | ⟨x, o⟩
    · rfl
    · cases x <;> rfl
  | some r =>
    have e1 : deleteChunkReturning cid db =
        .ok (some r, { db with chunks := db.chunks.filter (fun r => !(r.key == cid)) }) := by
      unfold deleteChunkReturning; rw [hf]
    have e2 : Stmt.deleteChunk cid db = .ok ((), { db with chunks := db.chunks.filter (fun r => !(r.key == cid)) }) := by
      unfold Stmt.deleteChunk; rw [hf]
    simp only [e1, e2, Sql.applyStmt]
    rcases o with _ | ⟨x, o⟩
    · rfl
    · cases x <;> rfl

theorem sim_move (rest : Bool) (cid : ChunkId) (f : String) (t : Time) :
    Sim (ChunkDb.moveChunkToFailedChunks cid f t) (moveChunkToFailedChunks rest cid f t) := by
  refine sim_fetch rest _ _ _ fun w => ?_
  show Sql.bind (Sql.stmt _) (fun _ => Sql.stmt _) w = _
  unfold Sql.bind
  rcases Sql.stmt (Stmt.insertChunkFailedSelect cid f t) w with ⟨r, w⟩
  cases r with
  | ok a =>
    dsimp only
    rw [← delete_stmt cid w]
    rcases Sql.stmt (deleteChunkReturning cid) w with ⟨r, w⟩
    rcases r with (_ | b) | e | _ <;> rfl
  | err e => rfl
  | crash => rfl

theorem insertRows_error {ρ κ : Type} [DecidableEq κ] {key : ρ → κ} {rows tbl : List ρ} {e : DbErr}
    (h : Stmt.insertRows key rows tbl = .error e) : e = .constraint := by
  unfold Stmt.insertRows at h
  split at h
  · cases h
  · cases h; rfl

theorem insertCompleted_error {id : SubmissionId} {t : Time} {w w' : Opsqueue.World} {e : DbErr}
    (h : Sql.stmt (Stmt.insertCompletedSelect id t) w = (.err e, w')) : e ≠ .rowNotFound := by
  have hf : ∀ db e, Stmt.insertCompletedSelect id t db = .error e → e ≠ .rowNotFound := by
    intro db e h
    unfold Stmt.insertCompletedSelect at h
    dsimp only at h
    cases hr : Stmt.insertRows CompletedRow.id ((db.submissions.filter (·.id == id)).map fun r =>
        ({ id := r.id, pfx := r.pfx, chunksTotal := r.chunksTotal, metadata := r.metadata,
           completedAt := t, otel := "{}", chunkSize := none } : CompletedRow)) db.submissionsCompleted with
    | ok r => rw [hr] at h; cases h
    | error e' =>
      rw [hr] at h
      cases h
      rw [insertRows_error hr]; decide
  unfold Sql.stmt at h
  rcases ho : w.oracle with _ | ⟨x, o⟩
  · rw [ho] at h
    dsimp only at h
    cases hd : Stmt.insertCompletedSelect id t w.db with
    | ok r => rw [hd] at h; cases h
    | error e' => rw [hd] at h; cases h; exact hf _ _ hd
  · rw [ho] at h
    cases x with
    | ok =>
      dsimp only at h
      cases hd : Stmt.insertCompletedSelect id t w.db with
      | ok r => rw [hd] at h; cases h
      | error e' => rw [hd] at h; cases h; exact hf _ _ hd
    | fail => cases h; decide
    | crash => cases h
    | crashLate => cases h

/-- The deletion of a submission fails only with the environment. -/
theorem delete_error {id : SubmissionId} {w w' : Opsqueue.World} {e : DbErr}
    (h : Sql.stmt (Stmt.deleteSubmission id) w = (.err e, w')) : e = .io := by
  unfold Sql.stmt Stmt.deleteSubmission at h
  rcases ho : w.oracle with _ | ⟨x, o⟩
  · rw [ho] at h; cases h
  · rw [ho] at h
    cases x <;> cases h
    rfl

/-- The lines of `complete_submission_raw` with plain errors. -/
def completeLines (id : SubmissionId) (t : Time) : Sql DbErr Unit := fun w =>
  match Sql.stmt (Stmt.insertCompletedSelect id t) w with
  | (.crash, w) => (.crash, w)
  | (.err e, w) => (.err e, w)
  | (.ok _, w) => match Sql.stmt (Stmt.deleteSubmission id) w with
    | (.crash, w) => (.crash, w)
    | (.err e, w) => (.err e, w)
    | (.ok none, w) => (.err .rowNotFound, w)
    | (.ok (some _), w) => (.ok (), w)

theorem completeLines_eq (id : SubmissionId) (t : Time) :
    SubmissionDb.completeSubmissionRaw id t = Sql.mapErr (fun | .rowNotFound => .R ⟨id⟩ | e => .L e) (completeLines id t) := by
  funext w
  show Sql.bind (Sql.mapErr E.L (Sql.stmt _)) (fun _ => Sql.bind (Sql.mapErr E.L (Sql.stmt _)) _) w = _
  unfold Sql.mapErr completeLines Sql.bind
  dsimp only
  rcases h1 : Sql.stmt (Stmt.insertCompletedSelect id t) w with ⟨r, w1⟩
  cases r with
  | crash => rfl
  | err e =>
    have := insertCompleted_error h1
    cases e with
    | rowNotFound => exact absurd rfl this
    | _ => rfl
  | ok a =>
    dsimp only
    rcases h2 : Sql.stmt (Stmt.deleteSubmission id) w1 with ⟨r, w2⟩
    rcases r with (_ | b) | e | _
    · rfl
    · rfl
    · have := delete_error h2; subst this; rfl
    · rfl

theorem sim_completeRaw (rest : Bool) (id : SubmissionId) (t : Time) :
    Sim (SubmissionDb.completeSubmissionRaw id t) (completeSubmissionRaw rest id t) := by
  rw [completeLines_eq]
  refine sim_mapErr _ (sim_fetch rest _ _ _ fun w => ?_)
  unfold completeLines
  rcases Sql.stmt (Stmt.insertCompletedSelect id t) w with ⟨r, w⟩
  cases r with
  | crash => rfl
  | err e => rfl
  | ok a =>
    dsimp only
    rcases Sql.stmt (Stmt.deleteSubmission id) w with ⟨r, w⟩
    rcases r with (_ | b) | e | _ <;> rfl

theorem sim_getSubmission (id : SubmissionId) : Sim (SubmissionDb.getSubmission id) (getSubmission id) := by
  refine sim_bind (sim_mapErr _ (sim_query _)) fun r => ?_
  cases r with
  | none => exact sim_throw _
  | some s => exact sim_pure _

theorem sim_maybeBody (rest : Bool) (id : SubmissionId) (t : Time) :
    Sim (do
        let s ← SubmissionDb.getSubmission id
        if s.chunksDone = s.chunksTotal then
          SubmissionDb.completeSubmissionRaw id t
          pure true
        else pure false)
      (do
        let s ← getSubmission id
        if s.chunksDone = s.chunksTotal then
          completeSubmissionRaw rest id t
          pure true
        else pure false) := by
  refine sim_bind (sim_getSubmission id) fun s => sim_ite ?_ (sim_pure _)
  exact sim_bind (sim_completeRaw rest id t) fun _ => sim_pure _

theorem sim_maybe (rest : Bool) (id : SubmissionId) (t : Time) :
    Sim (SubmissionDb.maybeCompleteSubmission id t) (maybeCompleteSubmission rest id t) := sim_transaction (sim_maybeBody rest id t)

theorem top_maybe (rest : Bool) (id : SubmissionId) (t : Time) :
    Top (SubmissionDb.maybeCompleteSubmission id t) (maybeCompleteSubmission rest id t) := top_transaction (sim_maybeBody rest id t)

theorem sim_metadata (id : SubmissionId) (m : StrategicMetadata) :
    Sim (SubmissionDb.insertSubmissionMetadataRaw id m) (insertMetadata id m) := by
  induction m with
  | nil => exact sim_pure _
  | cons x m ih => exact sim_bind (sim_stmt _) fun _ => ih

theorem sim_batches (n : Nat) (rows : List ChunkRow) : Sim (ChunkDb.insertBatches n rows) (insertBatches n rows) := by
  match rows with
  | [] => unfold ChunkDb.insertBatches insertBatches; exact sim_pure _
  | r :: rs =>
    unfold ChunkDb.insertBatches insertBatches
    exact sim_bind (sim_stmt _) fun _ => sim_batches n (rs.drop n)
termination_by rows.length
decreasing_by simp; omega

theorem top_insert (rest : Bool) (a : SubmissionDb.InsertArgs) (t : Time) :
    Top (SubmissionDb.insertSubmissionFromChunks a t) (insertSubmissionFromChunks rest a t) := by
  refine top_bind (top_transaction (sim_bind (sim_stmt _) fun _ => sim_bind (sim_metadata _ _) fun _ => sim_batches _ _)) fun _ => ?_
  by_cases h : a.contents.length = 0
  · rw [if_pos h, if_pos h]
    refine top_matchRes (top_maybe rest _ _) fun r => ?_
    rcases r with (e | e) | b
    · exact top_throw _
    · exact top_pure _
    · exact top_pure _
  · rw [if_neg h, if_neg h]
    exact top_pure _

theorem sim_status (id : SubmissionId) : Sim (SubmissionDb.submissionStatus id) (submissionStatus id) := by
  refine sim_bind (sim_query _) fun r => ?_
  cases r with
  | some s => exact sim_pure _
  | none =>
    refine sim_bind (sim_query _) fun r => ?_
    cases r with
    | some s => exact sim_pure _
    | none =>
      refine sim_bind (sim_query _) fun r => ?_
      cases r with
      | some s => exact sim_bind (sim_query _) fun _ => sim_pure _
      | none =>
        refine sim_bind (sim_query _) fun r => ?_
        cases r with
        | some s => exact sim_pure _
        | none => exact sim_pure _

theorem sim_cancelNotx (id : SubmissionId) (t1 t2 : Time) :
    Sim (SubmissionDb.cancelSubmissionNotx id t1 t2) (cancelSubmissionNotx id t1 t2) := by
  refine sim_bind (sim_bind (sim_mapErr _ (sim_stmt _)) fun _ => sim_bind (sim_mapErr _ (sim_stmt _)) fun row => ?_)
    fun _ => sim_mapErr _ (sim_skip _ _)
  cases row with
  | none => exact sim_throw _
  | some _ => exact sim_pure _

theorem top_cancel (id : SubmissionId) (t1 t2 : Time) :
    Top (SubmissionDb.cancelSubmission id t1 t2) (cancelSubmission id t1 t2) := by
  refine top_transaction (sim_matchRes (sim_cancelNotx _ _ _) fun r => ?_)
  rcases r with (e | e) | _
  · exact sim_throw _
  · refine sim_matchRes (sim_status _) fun r => ?_
    rcases r with e | (_ | (s | s | ⟨s, c⟩ | s)) <;> exact sim_throw _
  · exact sim_pure _

theorem top_complete (rest : Bool) (cid : ChunkId) (out : Content) (t1 t2 : Time) :
    Top (ChunkDb.completeChunk cid out t1 t2) (completeChunk rest cid out t1 t2) := by
  refine top_matchRes (top_transaction ?_) fun _ => top_pure _
  refine sim_bind (sim_mapErr _ ?_) fun _ => sim_bind (sim_mapErr _ (sim_maybe rest _ _)) fun _ => sim_pure _
  exact sim_bind (sim_stmt _) fun _ => sim_bind (sim_stmt _) fun _ => sim_stmt _

theorem top_fail (rest : Bool) (cid : ChunkId) (f : String) (m : Nat) (t1 t2 t3 : Time) :
    Top (ChunkDb.retryOrFailChunk cid f m t1 t2 t3) (retryOrFailChunk rest cid f m t1 t2 t3) := by
  refine top_transaction (sim_bind (sim_stmt _) fun n => sim_ite (sim_bind (sim_bind ?_ fun _ => ?_) fun _ => sim_pure _) (sim_pure _))
  · refine sim_bind (sim_stmt _) fun _ => sim_bind (sim_stmt _) fun row => ?_
    cases row with
    | none => exact sim_throw _
    | some _ => exact sim_pure _
  · exact sim_bind (sim_move rest _ _ _) fun _ => sim_skip _ _

theorem top_cleanup (t : Time) : Top (SubmissionDb.cleanupOld t) (cleanupOld t) :=
  top_transaction (sim_bind (sim_stmt _) fun _ => sim_bind (sim_stmt _) fun _ => sim_bind (sim_stmt _) fun _ =>
    sim_bind (sim_stmt _) fun _ => sim_bind (sim_stmt _) fun _ => sim_bind (sim_stmt _) fun _ => sim_bind (sim_stmt _) fun _ =>
    sim_stmt _)

theorem step_eq (rest : Bool) (db : DB) (op : Op) :
    step rest ⟨db, [], 0⟩ op = ((Opsqueue.step db op).1, ⟨(Opsqueue.step db op).2, [], 0⟩) := by
  cases op with
  | insert a t o => simp only [step, Opsqueue.step, top_insert rest a t o db]
  | complete cid out t1 t2 o => simp only [step, Opsqueue.step, top_complete rest cid out t1 t2 o db]
  | fail cid f m t1 t2 t3 o => simp only [step, Opsqueue.step, top_fail rest cid f m t1 t2 t3 o db]
  | cancel id t1 t2 o => simp only [step, Opsqueue.step, top_cancel id t1 t2 o db]
  | cleanup t o => simp only [step, Opsqueue.step, top_cleanup t o db]

end Opsqueue.Savepoints
