import Verif.Model.System

/-! Helper lemmas about the SQL monad: a successful run under faults is a fault-free run. -/

namespace Opsqueue
namespace Sql

theorem pure_run {ε α : Type} (a : α) (w : World) : (pure a : Sql ε α) w = (.ok a, w) := rfl

theorem bind_run {ε α β : Type} (x : Sql ε α) (f : α → Sql ε β) (w : World) :
    (x >>= f) w = match x w with
      | (.ok a, w') => f a w'
      | (.err e, w') => (.err e, w')
      | (.crash, w') => (.crash, w') := rfl

theorem throw_run {ε α : Type} (e : ε) (w : World) : (throw e : Sql ε α) w = (.err e, w) := rfl

theorem stmt_nil {α : Type} (f : DB → Except DbErr (α × DB)) (db : DB) :
    stmt f ⟨[], db⟩ = match f db with
      | .ok (a, db') => (.ok a, ⟨[], db'⟩)
      | .error e => (.err e, ⟨[], db⟩) := rfl

theorem query_nil {α : Type} (f : DB → Except DbErr α) (db : DB) :
    query f ⟨[], db⟩ = match f db with
      | .ok a => (.ok a, ⟨[], db⟩)
      | .error e => (.err e, ⟨[], db⟩) := by
  simp only [query, stmt_nil]
  cases f db <;> rfl

theorem mapErr_run {ε ε' α : Type} (f : ε → ε') (x : Sql ε α) (w : World) :
    mapErr f x w = match x w with
      | (.ok a, w') => (.ok a, w')
      | (.err e, w') => (.err (f e), w')
      | (.crash, w') => (.crash, w') := rfl

theorem matchRes_run {ε ε' α β : Type} (x : Sql ε α) (k : Except ε α → Sql ε' β) (w : World) :
    matchRes x k w = match x w with
      | (.ok a, w') => k (.ok a) w'
      | (.err e, w') => k (.error e) w'
      | (.crash, w') => (.crash, w') := rfl

theorem transaction_nil {ε α : Type} (conv : DbErr → ε) (body : Sql ε α) (db : DB) :
    transaction conv body ⟨[], db⟩ =
      match body ⟨[], db⟩ with
      | (.err e, w2) => (.err e, ⟨w2.oracle, db⟩)
      | (.crash, w2) => (.crash, ⟨w2.oracle, db⟩)
      | (.ok a, w2) =>
        match w2.oracle with
        | [] => (.ok a, w2)
        | .ok :: o => (.ok a, ⟨o, w2.db⟩)
        | .fail :: o => (.err (conv .io), ⟨o, db⟩)
        | .crash :: o => (.crash, ⟨o, db⟩)
        | .crashLate :: o => (.crash, ⟨o, w2.db⟩) := rfl

/-- Successful runs do what the fault-free run does. -/
def Faithful {ε α : Type} (x : Sql ε α) : Prop :=
  ∀ w a w', x w = (.ok a, w') → x ⟨[], w.db⟩ = (.ok a, ⟨[], w'.db⟩)

theorem faithful_pure {ε α : Type} (a : α) : Faithful (pure a : Sql ε α) := by
  intro w a' w' h
  simp only [pure_run, Prod.mk.injEq, Res.ok.injEq] at h ⊢
  obtain ⟨rfl, rfl⟩ := h; simp

theorem faithful_throw {ε α : Type} (e : ε) : Faithful (throw e : Sql ε α) := by
  intro w a' w' h
  simp [throw_run] at h

theorem stmt_ok {α : Type} {f : DB → Except DbErr (α × DB)} {w w' : World} {a : α}
    (h : stmt f w = (.ok a, w')) : f w.db = .ok (a, w'.db) := by
  unfold stmt at h
  split at h
  · split at h
    · rename_i h2; simp only [Prod.mk.injEq, Res.ok.injEq] at h; obtain ⟨rfl, rfl⟩ := h; simp [h2]
    · simp at h
  · split at h
    · rename_i h2; simp only [Prod.mk.injEq, Res.ok.injEq] at h; obtain ⟨rfl, rfl⟩ := h; simp [h2]
    · simp at h
  · simp at h
  · simp at h
  · simp at h

theorem faithful_stmt {α : Type} (f : DB → Except DbErr (α × DB)) : Faithful (stmt f) := by
  intro w a w' h
  rw [stmt_nil, stmt_ok h]

theorem faithful_query {α : Type} (f : DB → Except DbErr α) : Faithful (query f) :=
  faithful_stmt _

theorem bind_ok {ε α β : Type} {x : Sql ε α} {f : α → Sql ε β} {w w' : World} {b : β}
    (h : (x >>= f) w = (.ok b, w')) : ∃ a w1, x w = (.ok a, w1) ∧ f a w1 = (.ok b, w') := by
  rw [bind_run] at h
  split at h
  · exact ⟨_, _, by assumption, h⟩
  · simp at h
  · simp at h

theorem faithful_bind {ε α β : Type} {x : Sql ε α} {f : α → Sql ε β}
    (hx : Faithful x) (hf : ∀ a, Faithful (f a)) : Faithful (x >>= f) := by
  intro w b w' h
  obtain ⟨a, w1, h1, h2⟩ := bind_ok h
  rw [bind_run, hx _ _ _ h1]
  exact hf a _ _ _ h2

theorem mapErr_ok {ε ε' α : Type} {f : ε → ε'} {x : Sql ε α} {w w' : World} {a : α}
    (h : mapErr f x w = (.ok a, w')) : x w = (.ok a, w') := by
  rw [mapErr_run] at h
  split at h
  · rename_i h2; rw [h2]; simpa using h
  · simp at h
  · simp at h

theorem faithful_mapErr {ε ε' α : Type} {f : ε → ε'} {x : Sql ε α}
    (hx : Faithful x) : Faithful (mapErr f x) := by
  intro w a w' h
  rw [mapErr_run, hx _ _ _ (mapErr_ok h)]

/-- The database after a transaction is the one before it, or the one its body produced in a
successful run; and it is the latter when the transaction reports success. -/
theorem transaction_spec {ε α : Type} {conv : DbErr → ε} {body : Sql ε α}
    (hb : Faithful body) (w : World) :
    ((∀ a, (transaction conv body w).1 ≠ .ok a) ∧ (transaction conv body w).2.db = w.db) ∨
    (∃ a, body ⟨[], w.db⟩ = (.ok a, ⟨[], (transaction conv body w).2.db⟩) ∧
      ((transaction conv body w).1 = .ok a ∨ (transaction conv body w).1 = .crash)) := by
  unfold transaction
  have hbegin : ∀ r w1, stmt (fun db => .ok ((), db)) w = (r, w1) → w1.db = w.db := by
    intro r w1 h
    unfold stmt at h
    split at h <;> simp [applyStmt] at h <;> (obtain ⟨_, rfl⟩ := h; rfl)
  split
  · rename_i e w1 h; left; simp [hbegin _ _ h]
  · rename_i w1 h; left; simp [hbegin _ _ h]
  · rename_i w1 h
    have hw1 := hbegin _ _ h
    split
    · left; simp [hw1]
    · left; simp [hw1]
    · rename_i a w2 hbody
      have hf := hb _ _ _ hbody
      rw [hw1] at hf
      split
      · right; exact ⟨a, hf, .inl rfl⟩
      · right; exact ⟨a, hf, .inl rfl⟩
      · left; simp [hw1]
      · left; simp [hw1]
      · right; exact ⟨a, hf, .inr rfl⟩

theorem faithful_transaction {ε α : Type} {conv : DbErr → ε} {body : Sql ε α}
    (hb : Faithful body) : Faithful (transaction conv body) := by
  intro w a w' h
  rcases transaction_spec (conv := conv) hb w with ⟨hno, _⟩ | ⟨b, hbody, hr⟩
  · rw [h] at hno; exact absurd rfl (hno a)
  · rw [h] at hbody hr
    simp only [Res.ok.injEq, reduceCtorEq, or_false] at hr
    subst hr
    rw [transaction_nil, hbody]

end Sql
end Opsqueue
