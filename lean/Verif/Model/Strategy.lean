import Verif.Model.Query

/-!
# Strategies: in which order free chunks are offered

Models `opsqueue/src/consumer/strategy.rs` and the generated columns `random_order`.
-/

namespace Opsqueue

/-- `Strategy`, opsqueue/src/consumer/strategy.rs 10-32. -/
inductive Strategy where
  | oldest
  | newest
  | random
  | preferDistinct (metaKey : String) (underlying : Strategy)
deriving DecidableEq, Repr

namespace Strategy

/-- All items of `MetaKeysIter` (`next`), strategy.rs 54-69. -/
def metaKeys : Strategy → List String
  | .preferDistinct k u => k :: metaKeys u
  | _ => []

/-- `MetaKeysIter::take` after exhausting the iterator, strategy.rs 43-51. -/
def base : Strategy → Strategy
  | .preferDistinct _ u => base u
  | s => s

/-- SQLite integer addition of non-negative numbers. `none`: the sum does not fit in a signed 64-bit
integer and SQLite falls back to floating point, which is not modelled. -/
def sqlAdd (a b : Nat) : Option Nat := if a + b < 2 ^ 63 then some (a + b) else none

/-- SQLite integer multiplication of non-negative numbers (`none` as for `sqlAdd`). -/
def sqlMul (a b : Nat) : Option Nat := if a * b < 2 ^ 63 then some (a * b) else none

/-- Generated column `chunks.random_order`,
migrations/20250803174028_better_random_order_formula.up.sql 15-17:
`(((submission_id + (submission_id >> 22) + chunk_index) % 65536) * 40503) % 65536`. -/
def chunkRandomOrder? (submissionId chunkIndex : Nat) : Option Nat := do
  let a ← sqlAdd submissionId (submissionId >>> 22)
  let b ← sqlAdd a chunkIndex
  let c ← sqlMul (b % 65536) 40503
  return c % 65536

/-- Generated column `submissions.random_order`, migrations/20260803133844_*.up.sql:
`(((id + (id >> 22)) % 65536) * 40503) % 65536`. -/
def submissionRandomOrder? (id : Nat) : Option Nat := do
  let a ← sqlAdd id (id >>> 22)
  let c ← sqlMul (a % 65536) 40503
  return c % 65536

/-- The column as used in queries. Simplification: 0 stands for the value SQLite computes with
floating point after an overflow. -/
def chunkRandomOrder (c : ChunkRow) : Nat := (chunkRandomOrder? c.submissionId c.chunkIndex).getD 0

/-- See `chunkRandomOrder`. -/
def submissionRandomOrder (s : SubmissionRow) : Nat := (submissionRandomOrder? s.id).getD 0

open SubmissionDb (orderBy)

/-- `push_random_order_query`, strategy.rs 213-234: rows with `random_order >= offset` (and the
condition), UNION ALL those with `random_order < offset`. `offset` is `rand::random::<u16>()`. -/
def cutDeck {α : Type} (offset : Nat) (randomOrder : α → Nat) (condition : α → Bool)
    (table : List α) : List α :=
  (table.filter fun r => decide (randomOrder r ≥ offset) && condition r) ++
  (table.filter fun r => decide (randomOrder r < offset) && condition r)

/-- `build_query_snippet_returning_submission_ids` for the strategies without a metadata key,
strategy.rs 134-136. The case `preferDistinct` does not occur (`base`). -/
def baseSubmissionIds (offset : Nat) (db : DB) : Strategy → List SubmissionId
  | .oldest => orderBy (fun a b => decide (a ≤ b)) (db.submissions.map (·.id))
  | .newest => orderBy (fun a b => decide (b ≤ a)) (db.submissions.map (·.id))
  | .random => (cutDeck offset submissionRandomOrder (fun _ => true) db.submissions).map (·.id)
  | .preferDistinct _ _ => []

/-- The CTE `counts_i` for one metadata key, strategy.rs 161-179: the in-flight counts of the key
(`value ↦ count`, handed over as JSON) joined with the submissions that have this value. -/
def countsTable (counts : List (Int × Nat)) (key : String) (db : DB) : List (SubmissionId × Nat) :=
  counts.flatMap fun (v, n) =>
    (db.submissionsMetadata.filter fun sm => sm.value == v && sm.key == key).map fun sm =>
      (sm.submissionId, n)

/-- The `LEFT JOIN counts_i ON inner.submission_id = counts_i.submission_id` of one key,
strategy.rs 182-186: the matching counts, or one NULL. -/
def leftJoin (table : List (SubmissionId × Nat)) (id : SubmissionId) : List (Option Nat) :=
  match table.filter (·.1 == id) with
  | [] => [none]
  | rows => rows.map fun r => some r.2

/-- All left joins for one submission: a vector of counts per joined row, strategy.rs 182-186. -/
def joinCounts (tables : List (List (SubmissionId × Nat))) (id : SubmissionId) :
    List (List (Option Nat)) :=
  match tables with
  | [] => [[]]
  | t :: ts => (leftJoin t id).flatMap fun c => (joinCounts ts id).map (c :: ·)

/-- `count ASC NULLS FIRST` for one column: strictly smaller. -/
def nullsFirstLt : Option Nat → Option Nat → Bool
  | none, some _ => true
  | some a, some b => decide (a < b)
  | _, none => false

/-- A row of the ranked query: submission, its vector of counts, `underlying_row`. -/
structure Ranked where
  id : SubmissionId
  counts : List (Option Nat)
  row : Nat
deriving DecidableEq, Repr

/-- Comparison of the ORDER BY clause on the count columns; `tie` decides when all are equal. -/
def countsLe (tie : Bool) : List (Option Nat) → List (Option Nat) → Bool
  | c :: cs, d :: ds => if c = d then countsLe tie cs ds else nullsFirstLt c d
  | _, _ => tie

/-- `ORDER BY counts_0.count ASC NULLS FIRST, …, inner.underlying_row ASC`, strategy.rs 187-194. -/
def rankedLe (a b : Ranked) : Bool := countsLe (decide (a.row ≤ b.row)) a.counts b.counts

/-- `build_query_snippet_returning_submission_ids`, strategy.rs 128-197. `counts` gives the in-flight
counts per metadata key at the time of the query. -/
def submissionIds (st : Strategy) (offset : Nat) (counts : String → List (Int × Nat)) (db : DB) :
    List SubmissionId :=
  match st with
  | .preferDistinct _ _ =>
    let inner := (baseSubmissionIds offset db st.base).zipIdx
    let tables := st.metaKeys.map fun k => countsTable (counts k) k db
    let rows := inner.flatMap fun (id, row) =>
      (joinCounts tables id).map fun v => (⟨id, v, row⟩ : Ranked)
    (orderBy rankedLe rows).map (·.id)
  | s => baseSubmissionIds offset db s

/-- `build_query_snippet_returning_chunks`, strategy.rs 92-126: the chunks in the order in which they
are offered. `reserved` is the callback `opsqueue_is_reserved`. -/
def chunkRows (st : Strategy) (offset : Nat) (reserved : ChunkId → Bool)
    (counts : String → List (Int × Nat)) (db : DB) : List ChunkRow :=
  match st with
  | .oldest => orderBy (fun a b => decide (a.submissionId ≤ b.submissionId))
      (db.chunks.filter fun c => !reserved c.key)
  | .newest => orderBy (fun a b => decide (b.submissionId ≤ a.submissionId))
      (db.chunks.filter fun c => !reserved c.key)
  | .random => cutDeck offset chunkRandomOrder (fun c => !reserved c.key) db.chunks
  | .preferDistinct _ _ =>
    (st.submissionIds offset counts db).flatMap fun id =>
      db.chunks.filter fun c => c.submissionId == id && !reserved c.key

end Strategy
end Opsqueue
