import Verif.Proofs.Strategy
import Verif.Proofs.MetaState
import Verif.Proofs.Calls

/-!
# C29 – C32: in which order chunks are handed out

`chunkRows` is the sequence of rows of the query built by a strategy. `reserved` is any reservation
state, `offset` any random offset and the histories `ops` are arbitrary.
-/

namespace Opsqueue
open Strategy

/-- The rows offered are exactly the free chunks of the backlog, each of them once. -/
def OffersFreeOnce (db : DB) (reserved : ChunkId → Bool) (out : List ChunkRow) : Prop :=
  (∀ c ∈ out, chunkAt db c.key = .ok c ∧ reserved c.key = false) ∧
  ∀ cid c, chunkAt db cid = .ok c → reserved cid = false →
    (out.filter fun d => d.key == cid) = [c]

theorem offersFreeOnce_of_perm {db : DB} (hI : Inv db) {reserved : ChunkId → Bool}
    {out : List ChunkRow} (hp : out.Perm (db.chunks.filter fun c => !reserved c.key)) :
    OffersFreeOnce db reserved out := by
  refine ⟨fun c hc => ?_, fun cid c hc hr => ?_⟩
  · have := List.mem_filter.1 (hp.mem_iff.1 hc)
    exact ⟨(chunkAt_ok_iff hI.chunkKeys).2 ⟨this.1, rfl⟩, by simpa using this.2⟩
  · obtain ⟨hm, rfl⟩ := (chunkAt_ok_iff hI.chunkKeys).1 hc
    have h1 := hp.filter fun d => d.key == c.key
    rw [List.filter_filter] at h1
    have h2 : (db.chunks.filter fun d => d.key == c.key && !reserved d.key) =
        (db.chunks.filter fun d => d.key == c.key) := by
      apply List.filter_congr
      intro d _
      by_cases hk : d.key = c.key
      · simp [hk, hr]
      · simp [hk]
    rw [h2, filter_key_of_mem hI.chunkKeys hm] at h1
    exact List.perm_singleton.1 h1

/-- **C29, Oldest.** Every free chunk is offered exactly once, in ascending order of submission id. -/
theorem C29_oldest (ops : List Op) (hf : FreshIds ops) (offset : Nat) (reserved : ChunkId → Bool)
    (counts : String → List (Int × Nat)) :
    OffersFreeOnce (run ops) reserved (chunkRows .oldest offset reserved counts (run ops)) ∧
    (chunkRows .oldest offset reserved counts (run ops)).Pairwise
      (fun a b => a.submissionId ≤ b.submissionId) := by
  refine ⟨offersFreeOnce_of_perm (inv_run hf) (orderBy_perm _ _), ?_⟩
  have h := orderBy_sorted_on (le := fun a b : ChunkRow => decide (a.submissionId ≤ b.submissionId))
    (P := fun _ => True) (fun a b c _ _ _ h1 h2 => by
      simp only [decide_eq_true_eq] at *; first | exact Nat.le_trans h1 h2 | exact Nat.le_trans h2 h1)
    (fun a b => by simp only [Bool.or_eq_true, decide_eq_true_eq]; exact Nat.le_total _ _)
    ((run ops).chunks.filter fun c => !reserved c.key) (fun _ _ => trivial)
  simp only [decide_eq_true_eq] at h
  exact h

/-- **C29, Newest.** Every free chunk is offered exactly once, in descending order of submission id. -/
theorem C29_newest (ops : List Op) (hf : FreshIds ops) (offset : Nat) (reserved : ChunkId → Bool)
    (counts : String → List (Int × Nat)) :
    OffersFreeOnce (run ops) reserved (chunkRows .newest offset reserved counts (run ops)) ∧
    (chunkRows .newest offset reserved counts (run ops)).Pairwise
      (fun a b => a.submissionId ≥ b.submissionId) := by
  refine ⟨offersFreeOnce_of_perm (inv_run hf) (orderBy_perm _ _), ?_⟩
  have h := orderBy_sorted_on (le := fun a b : ChunkRow => decide (b.submissionId ≤ a.submissionId))
    (P := fun _ => True) (fun a b c _ _ _ h1 h2 => by
      simp only [decide_eq_true_eq] at *; first | exact Nat.le_trans h1 h2 | exact Nat.le_trans h2 h1)
    (fun a b => by simp only [Bool.or_eq_true, decide_eq_true_eq]; exact Nat.le_total _ _)
    ((run ops).chunks.filter fun c => !reserved c.key) (fun _ _ => trivial)
  simp only [decide_eq_true_eq] at h
  exact h

/-- Three submissions: 1 with two chunks and company 7, 2 with one chunk and company 8, 3 with two
chunks and no company. -/
def strategyExample : List Op :=
  [.insert { id := 2, contents := [some [20]], strategic := [("company", 8)] } 0 [],
   .insert { id := 1, contents := [some [10], some [11]], strategic := [("company", 7), ("user", 1)] } 0 [],
   .insert { id := 3, contents := [some [30], some [31]] } 0 []]

example : FreshIds strategyExample ∧
    (chunkRows .oldest 0 (· == ⟨1, 1⟩) (fun _ => []) (run strategyExample)).map (·.key) =
      [⟨1, 0⟩, ⟨2, 0⟩, ⟨3, 0⟩, ⟨3, 1⟩] ∧
    (chunkRows .newest 0 (· == ⟨1, 1⟩) (fun _ => []) (run strategyExample)).map (·.key) =
      [⟨3, 0⟩, ⟨3, 1⟩, ⟨2, 0⟩, ⟨1, 0⟩] := by
  decide +kernel

/-- **C30.** For every random offset every free chunk is offered exactly once: first those whose
`random_order` is at least the offset, then those below. -/
theorem C30_random (ops : List Op) (hf : FreshIds ops) (offset : Nat) (reserved : ChunkId → Bool)
    (counts : String → List (Int × Nat)) :
    OffersFreeOnce (run ops) reserved (chunkRows .random offset reserved counts (run ops)) ∧
    ∃ first rest, chunkRows .random offset reserved counts (run ops) = first ++ rest ∧
      (∀ c ∈ first, offset ≤ chunkRandomOrder c) ∧ (∀ c ∈ rest, chunkRandomOrder c < offset) := by
  refine ⟨offersFreeOnce_of_perm (inv_run hf) (cutDeck_perm _ _ _ _), _, _, rfl, ?_, ?_⟩
  · intro c hc
    have := (List.mem_filter.1 hc).2
    simp only [Bool.and_eq_true, decide_eq_true_eq] at this
    exact this.1
  · intro c hc
    have := (List.mem_filter.1 hc).2
    simp only [Bool.and_eq_true, decide_eq_true_eq] at this
    exact this.1

example :
    (chunkRows .random 30000 (· == ⟨3, 1⟩) (fun _ => []) (run strategyExample)).map
        (fun c => (c.key, chunkRandomOrder c)) =
      [(⟨1, 0⟩, 40503), (⟨3, 0⟩, 55973), (⟨2, 0⟩, 15470), (⟨1, 1⟩, 15470)] := by
  decide +kernel

/-- `PreferDistinct k₁ (PreferDistinct k₂ (… base))`. -/
def nested : List String → Strategy → Strategy
  | [], base => base
  | k :: ks, base => .preferDistinct k (nested ks base)

/-- The number of chunks in flight whose submission has the same value for `k` as submission `id`;
zero if `id` has no value for `k`. `ms` is the structure that counts them (C33). -/
def inFlightLike (db : DB) (ms : MetaState) (id : SubmissionId) (k : String) : Nat :=
  match strategicAt db id with
  | .ok m => match m.lookup k with
    | some v => (ms.count k v).getD 0
    | none => 0
  | _ => 0

/-- In the order of the strategy without metadata, submission `a` may come before `b`. -/
def BaseAllows (base : Strategy) (offset : Nat) (a b : SubmissionId) : Prop :=
  match base with
  | .oldest => a ≤ b
  | .newest => a ≥ b
  | .random => offset ≤ (submissionRandomOrder? a).getD 0 ∨ (submissionRandomOrder? b).getD 0 < offset
  | .preferDistinct _ _ => False

theorem metaKeys_nested (ks : List String) {base : Strategy} (hb : base.IsBase) :
    (nested ks base).metaKeys = ks := by
  induction ks with
  | nil => cases base <;> first | rfl | exact hb.elim
  | cons k ks ih => simp [nested, metaKeys, ih]

theorem base_nested (ks : List String) {base : Strategy} (hb : base.IsBase) :
    (nested ks base).base = base := by
  induction ks with
  | nil => cases base <;> first | rfl | exact hb.elim
  | cons k ks ih => simp [nested, Strategy.base, ih]

theorem lookup_strategicOf (db : DB) (id : SubmissionId) (k : String) :
    (Stmt.strategicOf id db).lookup k = metaValue db id k := by
  unfold Stmt.strategicOf metaValue
  induction db.submissionsMetadata with
  | nil => rfl
  | cons m l ih =>
    by_cases h1 : m.submissionId = id
    · by_cases h2 : m.key = k
      · simp [h1, h2]
      · have h2' : (k == m.key) = false := by
          rw [beq_eq_false_iff_ne]; exact fun h => h2 h.symm
        simp only [List.filter_cons, List.find?_cons, h1, beq_self_eq_true, if_true, List.map_cons,
          List.lookup_cons, h2', Bool.true_and]
        rw [show (m.key == k) = false from by simp [h2]]
        exact ih
    · simp only [List.filter_cons, List.find?_cons, beq_iff_eq, h1, if_false]
      rw [show (m.submissionId == id) = false from by simp [h1]]
      exact ih

theorem rankNumbers_eq (db : DB) (ms : MetaState) (ks : List String) (id : SubmissionId) :
    rankNumbers db ms.countsOf ks id = ks.map (inFlightLike db ms id) := by
  unfold rankNumbers rankVector
  rw [List.map_map]
  apply List.map_congr_left
  intro k _
  simp only [Function.comp_apply, inFlightLike, strategicAt_eq, lookup_strategicOf]
  cases metaValue db id k with
  | none => rfl
  | some v =>
    simp only [Option.bind_some, MetaState.count, MetaState.countsOf]
    cases Map.get ms k <;> rfl

/-- **C31.** With nested keys `k :: ks` over a strategy `base` every free chunk is offered exactly
once, and the chunks of a submission with a lexicographically smaller vector of in-flight counts come
first; submissions with equal vectors follow the order of `base`. The counts are those left by any
schedule `as` of concurrent increments and decrements. -/
theorem C31_prefer_distinct (ops : List Op) (hf : FreshIds ops) (offset : Nat)
    (reserved : ChunkId → Bool) (as : List MetaConc.Action) (k : String) (ks : List String)
    (base : Strategy) (hb : base = .oldest ∨ base = .newest ∨ base = .random) :
    let ms := (MetaConc.run as).map
    let out := chunkRows (nested (k :: ks) base) offset reserved ms.countsOf (run ops)
    let vector := fun id => (k :: ks).map (inFlightLike (run ops) ms id)
    OffersFreeOnce (run ops) reserved out ∧
    out.Pairwise fun a b => vector a.submissionId < vector b.submissionId ∨
      vector a.submissionId = vector b.submissionId ∧
        BaseAllows base offset a.submissionId b.submissionId := by
  have hb : base.IsBase := by rcases hb with rfl | rfl | rfl <;> trivial
  have hI := inv_run hf
  intro ms out vector
  have hw : ∀ k, Map.WF (ms.countsOf k) := fun k =>
    MetaConc.fieldsWF_getD (MetaConc.fieldsWF_run as) k
  have hpos : ∀ k v n, Map.get (ms.countsOf k) v = some n → 0 < n := by
    intro k v n h
    apply (MetaConc.safe_run as).pos k v n
    unfold MetaState.countsOf at h
    show (Map.get ms k).bind _ = _
    cases hk : Map.get ms k with
    | none => rw [hk] at h; cases h
    | some f => rw [hk] at h; exact h
  have hids := submissionIds_eq hI.metaPk hw k (nested ks base) offset
  rw [metaKeys_nested ks hb, base_nested ks hb] at hids
  have hperm := (rankedIds_perm (run ops) ms.countsOf (k :: ks)
    (baseSubmissionIds offset (run ops) base)).trans (baseIds_perm hb offset (run ops))
  rw [← hids] at hperm
  have hsort := rankedIds_sorted (run ops) (counts := ms.countsOf) (k :: ks) hpos
    (baseBefore_refl hb offset) (baseIds_sorted hb offset (run ops))
  rw [← hids] at hsort
  have hnodup : (Strategy.submissionIds (.preferDistinct k (nested ks base)) offset ms.countsOf
      (run ops)).Nodup := hperm.nodup_iff.2 hI.subIds
  have hout : out = (Strategy.submissionIds (.preferDistinct k (nested ks base)) offset ms.countsOf
      (run ops)).flatMap fun id =>
        (run ops).chunks.filter fun c => c.submissionId == id && !reserved c.key := rfl
  refine ⟨offersFreeOnce_of_perm hI ?_, ?_⟩
  · rw [hout]
    refine flatMap_chunks_perm hnodup (fun c => !reserved c.key) _ ?_
    intro c hc
    rw [hperm.mem_iff]
    obtain ⟨s, hs, he, _⟩ := hI.owner c hc
    rw [← he]; exact List.mem_map_of_mem hs
  · rw [hout, List.pairwise_flatMap]
    have hsub : ∀ id, ∀ c ∈ ((run ops).chunks.filter fun c => c.submissionId == id && !reserved c.key),
        c.submissionId = id := by
      intro id c hc
      have := (List.mem_filter.1 hc).2
      simp only [Bool.and_eq_true, beq_iff_eq] at this
      exact this.1
    refine ⟨fun id _ => pairwise_of_mem fun a ha b hb' => ?_, hsort.imp ?_⟩
    · rw [hsub id a ha, hsub id b hb']
      exact Or.inr ⟨rfl, baseBefore_refl hb offset id⟩
    · intro x y hxy a ha b hb'
      rw [hsub x a ha, hsub y b hb']
      simp only [rankNumbers_eq] at hxy
      exact hxy

/-- Company 7 has two chunks in flight and company 8 has one. -/
example :
    let as : List MetaConc.Action := [.startInc "company" 7, .advance 0, .startInc "company" 7,
      .startInc "company" 8]
    let ms := (MetaConc.run as).map
    (chunkRows (nested ["company", "user"] .newest) 0 (· == ⟨1, 1⟩) ms.countsOf
      (run strategyExample)).map (·.key) = [⟨3, 0⟩, ⟨3, 1⟩, ⟨2, 0⟩, ⟨1, 0⟩] ∧
    ([1, 2, 3].map fun id => ["company", "user"].map (inFlightLike (run strategyExample) ms id)) =
      [[2, 0], [1, 0], [0, 0]] := by
  decide +kernel

/-- Full statement of the overflow part of C32: the computation of `random_order` stays within signed
64-bit integers for every submission id (below 2^63, C50) and every chunk index (below 2^63). -/
def C32_full : Prop := ∀ s i, s < 2 ^ 63 → i < 2 ^ 63 → chunkRandomOrder? s i ≠ none

/-- **C32, refuted part.** For ids close to 2^63 (which snowflake ids reach in the year 2039) the sum
overflows. -/
theorem C32_refuted_overflow : ¬ C32_full := by
  intro h
  exact h (2 ^ 63 - 1) 0 (by decide) (by decide) (by decide +kernel)

/-- **C32.** For every id and index with `s + i ≤ 2^63 - 2^41`, the value is computed without overflow
and lies in 0..65535; and any two different indexes of the submission less than 65536 apart get
different values. (Missing: the ids above that bound, where the claim is false.) -/
theorem C32_random_order_partial (s i : Nat) (hi : s + i ≤ 2 ^ 63 - 2 ^ 41) :
    (∃ r, chunkRandomOrder? s i = some r ∧ r < 65536) ∧
    (∃ r, submissionRandomOrder? s = some r ∧ r < 65536) ∧
    ∀ j, j < i → i < j + 65536 → chunkRandomOrder? s j ≠ chunkRandomOrder? s i := by
  have hs : s >>> 22 < 2 ^ 41 := by
    rw [Nat.shiftRight_eq_div_pow]
    apply Nat.div_lt_of_lt_mul
    omega
  have h1 : s + s >>> 22 + i < 2 ^ 63 := by omega
  refine ⟨⟨_, chunkRandomOrder?_eq h1, Nat.mod_lt _ (by decide)⟩, ?_, ?_⟩
  · rw [submissionRandomOrder?_eq, chunkRandomOrder?_eq (by omega)]
    exact ⟨_, rfl, Nat.mod_lt _ (by decide)⟩
  · intro j hj hij h
    rw [chunkRandomOrder?_eq h1, chunkRandomOrder?_eq (by omega)] at h
    have := mul_mod_inj (Nat.mod_lt _ (by decide)) (Nat.mod_lt _ (by decide)) (Option.some.inj h)
    omega

/-- **C32, spread.** Among any 65536 consecutive indexes of a submission every value 0..65535 occurs. -/
theorem C32_every_value_occurs (s start r : Nat) (hs : s + start + 65536 ≤ 2 ^ 63 - 2 ^ 41)
    (hr : r < 65536) : ∃ i, start ≤ i ∧ i < start + 65536 ∧ chunkRandomOrder? s i = some r := by
  have h22 : s >>> 22 < 2 ^ 41 := by
    rw [Nat.shiftRight_eq_div_pow]
    apply Nat.div_lt_of_lt_mul
    omega
  -- the residue that is mapped to `r`
  have hz : r * 30599 % 65536 * 40503 % 65536 = r := by
    rw [Nat.mod_mul_mod, Nat.mul_assoc,
      show 30599 * 40503 = 1 + 65536 * 18911 from by decide, Nat.mul_add, Nat.mul_one,
      Nat.mul_left_comm, Nat.add_mul_mod_self_left, Nat.mod_eq_of_lt hr]
  have hex : ∃ z, z < 65536 ∧ z * 40503 % 65536 = r := ⟨_, Nat.mod_lt _ (by decide), hz⟩
  clear hz
  obtain ⟨z, hzlt, hz⟩ := hex
  obtain ⟨b, hb⟩ : ∃ b, b = s + s >>> 22 := ⟨_, rfl⟩
  refine ⟨start + (z + 65536 - (b + start) % 65536) % 65536, by omega, by omega, ?_⟩
  rw [chunkRandomOrder?_eq (by omega), ← hb]
  have : (b + (start + (z + 65536 - (b + start) % 65536) % 65536)) % 65536 = z := by omega
  rw [this, hz]

example : (7243926741032108032 : Nat) + 5 ≤ 2 ^ 63 - 2 ^ 41 ∧
    chunkRandomOrder? 7243926741032108032 5 = some 35851 ∧
    chunkRandomOrder? 7243926741032108032 6 = some 10818 := by decide +kernel

end Opsqueue
