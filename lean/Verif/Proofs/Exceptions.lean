import Verif.Spec.Exceptions
import Verif.Proofs.Python

/-!
# Exceptions
-/

namespace Opsqueue.Python

theorem isA_toPy_exception (e : RustErr) (h : ∀ x, e ≠ .fatal x) : OfOneKind (toPy e) := by
  have fin : ∀ (c : Cls) (a : Args), c ∈ [Cls.internalProducerClient, .submissionNotFound, .submissionNotCancellable,
      .tooManyMatchingSubmissions, .internalConsumerClient, .incorrectUsage, .chunkRetrieval, .chunkStorage,
      .chunksStorage, .submissionFailed, .submissionNotCompletedYet, .newObjectStoreClient, .tryFromInt] →
      OfOneKind ⟨c, a⟩ := by
    intro c a hc
    simp only [List.mem_cons, List.not_mem_nil, or_false] at hc
    rcases hc with rfl | rfl | rfl | rfl | rfl | rfl | rfl | rfl | rfl | rfl | rfl | rfl | rfl <;>
      first
      | (refine ⟨rfl, .internal, (rfl : true = true), ?_⟩
         intro k hk
         cases k <;> first | rfl | (revert hk; simp [OfKind, Exn.isA, Cls.mro]; done))
      | (refine ⟨rfl, .usage, (rfl : true = true), ?_⟩
         intro k hk
         cases k <;> first | rfl | (revert hk; simp [OfKind, Exn.isA, Cls.mro]; done))
      | (refine ⟨rfl, .outcome, .inl (rfl : true = true), ?_⟩
         intro k hk
         cases k <;> first | rfl | (revert hk; simp [OfKind, Exn.isA, Cls.mro]; done))
      | (refine ⟨rfl, .outcome, .inr (rfl : true = true), ?_⟩
         intro k hk
         cases k <;> first | rfl | (revert hk; simp [OfKind, Exn.isA, Cls.mro]; done))
  cases e with
  | fatal x => exact absurd rfl (h x)
  | producer e => cases e <;> exact fin _ _ (by simp)
  | consumer e => cases e <;> exact fin _ _ (by simp)
  | _ => exact fin _ _ (by simp)

theorem raising_error {α : Type} {r : Except RustErr α} {x : Exn} (h : raising r = .error x) :
    r = .error (.fatal x) ∨ OfOneKind x := by
  cases r with
  | ok a => cases h
  | error e =>
    injection h with h
    cases e with
    | fatal y => exact .inl (by rw [← h]; rfl)
    | _ => exact .inr (h ▸ isA_toPy_exception _ (by simp))

theorem unlessInterrupted_fatal {α : Type} {i : Option Exn} {r : Except RustErr α} {x : Exn}
    (h : unlessInterrupted i r = .error (.fatal x)) : i = some x ∨ r = .error (.fatal x) := by
  cases i with
  | none => exact .inr h
  | some e => injection h with h; injection h with h; exact .inl (by rw [h])

theorem mapError_fatal {ε α : Type} {f : ε → RustErr} (hf : ∀ e x, f e ≠ .fatal x) {r : Except ε α} {x : Exn}
    (h : r.mapError f = .error (.fatal x)) : False := by
  cases r with
  | ok a => cases h
  | error e => injection h with h; exact hf e x h

theorem uploadFrom_not_fatal (base : List Char) (pfx : String) : ∀ (us : List Upload) (i : Nat)
    (s : ObjectStore.Store) (x : Exn), (uploadFrom base pfx i us s).1 ≠ .error (.fatal x)
  | [], i, s, x => by simp [uploadFrom]
  | u :: us, i, s, x => by
    unfold uploadFrom
    simp only
    split
    · simp
    · split
      · simp
      · exact uploadFrom_not_fatal base pfx us _ _ x

/-- The upload is the one of `Model/ObjectStore.lean`. -/
theorem uploadFrom_refines (base : List Char) (pfx : String) : ∀ (us : List Upload) (i : Nat) (s : ObjectStore.Store),
    let r := ObjectStore.storeFrom base pfx .input i (us.map fun u =>
      { others := u.others, content := u.item.mapError fun _ => (), put := u.put }) s
    (uploadFrom base pfx i us s).2 = r.2 ∧
    (∀ n, (uploadFrom base pfx i us s).1 = .ok n ↔ r.1 = .ok n)
  | [], i, s => by simp [uploadFrom, ObjectStore.storeFrom]
  | u :: us, i, s => by
    have ih := uploadFrom_refines base pfx us
    simp only [List.map_cons, uploadFrom, ObjectStore.storeFrom]
    cases hi : u.item with
    | error e => simp [Except.mapError]
    | ok b =>
      simp only [Except.mapError]
      cases hs : ObjectStore.storeChunk base (ObjectStore.writes base s u.others) ⟨pfx, i, .input, b⟩ u.put with
      | mk r s' =>
        cases r with
        | error e => simp
        | ok _ => exact ih _ _

/-- Chunks that the iterator yields and the store takes are passed over. -/
theorem uploadFrom_append (base : List Char) (pfx : String) : ∀ (us : List Upload) (i : Nat) (s : ObjectStore.Store)
    (vs : List Upload), (∀ u ∈ us, (∃ b, u.item = .ok b) ∧ u.put = .ok) →
    ∃ s', uploadFrom base pfx i (us ++ vs) s = uploadFrom base pfx (i + us.length) vs s'
  | [], i, s, vs, _ => ⟨s, by simp⟩
  | u :: us, i, s, vs, h => by
    obtain ⟨⟨b, hb⟩, hp⟩ := h u (by simp)
    have hst : ∃ s', ObjectStore.storeChunk base (ObjectStore.writes base s u.others) ⟨pfx, i, .input, b⟩ u.put =
        (.ok (), s') := by
      rw [hp]
      exact ⟨_, rfl⟩
    obtain ⟨s1, hs1⟩ := hst
    obtain ⟨s', h'⟩ := uploadFrom_append base pfx us (i + 1) s1 vs fun v hv => h v (by simp [hv])
    refine ⟨s', ?_⟩
    rw [List.cons_append, uploadFrom]
    simp only [hb, hs1]
    rw [h', List.length_cons]
    congr 1
    omega

theorem reserveLoop_skip (rs rest : List ReserveRound)
    (h : ∀ r ∈ rs, r.interrupt = none ∧ r.result = .ok [] ∧ r.sleepInterrupt = none) :
    reserveLoop (rs ++ rest) = reserveLoop rest := by
  induction rs with
  | nil => rfl
  | cons r rs ih =>
    obtain ⟨h1, h2, h3⟩ := h r (by simp)
    rw [List.cons_append, reserveLoop]
    simp only [h1, h2, h3, unlessInterrupted]
    exact ih fun r hr => h r (by simp [hr])

theorem closed_stays (es : List Surroundings) : ∀ (r : Running), r.closed.isSome → es.foldl round r = r := by
  induction es with
  | nil => intro r _; rfl
  | cons e es ih =>
    intro r h
    have : round r e = r := by unfold round; rw [if_pos h]
    rw [List.foldl_cons, this, ih r h]

/-- One round with at most one chunk ends the loop exactly if something ends it. -/
theorem round_closed (r : Running) (e : Surroundings) (h1 : ∀ cs, e.reserved = .ok cs → ∃ c, cs = [c])
    (hr : r.closed = none) (x : Exn) : (round r e).closed = some x ↔ EndsLoop e x := by
  unfold round
  rw [if_neg (by simp [hr])]
  unfold computeChunkOutcome EndsLoop
  cases hres : e.reserved with
  | error err =>
    cases err with
    | fatal y => simp
    | rust => simp [hr]
  | ok cs =>
    obtain ⟨c, rfl⟩ := h1 cs hres
    simp only [chunkLoop_one]
    cases hrep : e.reported c with
    | error err =>
      cases err with
      | fatal y => simp [hrep]
      | rust => simp [hr, hrep]
    | ok u =>
      rw [show endsConsumer e = fun c => (fatalOf (e.call c)).isSome from funext fun _ => endsConsumer_iff]
      cases hc : e.call c with
      | returned out => simp [fatalOf, hr, hrep, hc]
      | raised y text =>
        by_cases hx : y.isA .exception = true ∧ y.isA .systemError = false
        · simp [hrep, hc, fatalOf, hr, hx.1, hx.2]
        · have hx' : y.isA .exception = false ∨ y.isA .systemError = true := by
            cases h : y.isA .exception <;> cases h' : y.isA .systemError <;> simp_all
          simp [hrep, hc, fatalOf, hx']

end Opsqueue.Python
