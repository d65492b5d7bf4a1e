import Verif.Proofs.Streaming
import Verif.Spec.Python
import Verif.Proofs.Python

/-!
# C105: operations and results are streamed
-/

namespace Opsqueue.Streaming
open Python (PyErr Format chunkIterator unchunkIterator)

/-! ## Uploading -/

/-- **C105, at most one chunk is in memory.** For every iterable, also an endless one or one that raises, every chunk size, format and
behaviour of the store, and at every moment of the upload: the operations that were drawn are those of the stored chunks, in order, and
after them those that the client holds, which are no more than one chunk. All chunks but the last are full. -/
theorem C105_at_most_one_chunk_is_held {α : Type} (f : Format α) (k : Nat) (hk : 0 < k) (src : Nat → Draw α) (put : Nat → Bool)
    (n : Nat) :
    let s := Upload.run f k src put n
    ∃ batches : List (List α), Encodes f batches s.stored ∧ Begins src (batches.flatten ++ s.held) ∧
      s.drawn = (batches.flatten ++ s.held).length ∧ s.held.length ≤ k ∧
      (∀ b ∈ batches, b ≠ [] ∧ b.length ≤ k) ∧ (∀ b ∈ batches.dropLast, b.length = k) := by
  obtain ⟨batches, h⟩ := uinv_run f hk src put n
  exact ⟨batches, h.enc, h.begins, h.drawn, h.held_le, h.sizes, h.full⟩

/-- **C105, an operation is drawn when it is needed.** When the client draws the operation with index `d`, the operations before it
fill `d / k` chunks, and those are stored. -/
theorem C105_drawn_when_needed {α : Type} (f : Format α) (k : Nat) (hk : 0 < k) (src : Nat → Draw α) (put : Nat → Bool) (n : Nat)
    (h : (Upload.run f k src put (n + 1)).drawn ≠ (Upload.run f k src put n).drawn) :
    (Upload.run f k src put (n + 1)).drawn = (Upload.run f k src put n).drawn + 1 ∧
    (Upload.run f k src put n).stored.length = (Upload.run f k src put n).drawn / k := by
  obtain ⟨batches, hi⟩ := uinv_run f hk src put n
  obtain ⟨hr, hp, he⟩ := step_draws (s := Upload.run f k src put n) h
  constructor
  · show ((Upload.run f k src put n).step f k src put).drawn = _
    have h : ((Upload.run f k src put n).step f k src put).drawn ≠ (Upload.run f k src put n).drawn := h
    generalize Upload.run f k src put n = s at *
    unfold Upload.step at h ⊢
    simp only [hr, hp, he, Option.isSome_none, Bool.false_eq_true, if_false] at h ⊢
    split
    · split
      · rw [yields_drawn]
      · rfl
    · rename_i hs
      rw [hs] at h
      simp only at h
      split at h
      · exact absurd rfl h
      · rw [yields_drawn] at h; exact absurd rfl h
    · rename_i hs
      rw [hs] at h
      exact absurd rfl h
  · have hall := hi.open_full (.inl he)
    have hd := hi.drawn
    have hb := hi.batch_lt hr
    rw [List.length_append, flatten_length_of_all hall, hi.enc.length] at hd
    simp only [Upload.held, hp, Option.map_none, Option.getD_none, List.nil_append] at hd
    rw [hd, Nat.mul_add_div hk, Nat.div_eq_of_lt hb, Nat.add_zero]

/-- **C105, an upload that succeeds is complete.** The iterable had ended, without an exception; the client holds nothing, so that by
`C105_at_most_one_chunk_is_held` all its operations are stored; and the number of chunks that is returned is the number of those. -/
theorem C105_success_is_complete {α : Type} (f : Format α) (k : Nat) (hk : 0 < k) (src : Nat → Draw α) (put : Nat → Bool) (n c : Nat)
    (h : (Upload.run f k src put n).result = some (.ok c)) :
    src (Upload.run f k src put n).drawn = .stop ∧ (Upload.run f k src put n).held = [] ∧
      c = (Upload.run f k src put n).stored.length := by
  obtain ⟨batches, hi⟩ := uinv_run f hk src put n
  obtain ⟨h1, h2, h3, h4⟩ := hi.done c h
  exact ⟨hi.ended_stop h1, by simp [Upload.held, h2, h3], h4⟩

/-- **C105, an upload ends** when its iterable does, with an exception or without, whatever the format and the store do. -/
theorem C105_ends {α : Type} (f : Format α) (k : Nat) (src : Nat → Draw α) (put : Nat → Bool) (d : Nat)
    (hd : ∀ a, src d ≠ .op a) : ∃ n, ∀ m, n ≤ m → (Upload.run f k src put m).result.isSome := by
  refine ⟨3 * d + 4, fun m hm => ?_⟩
  rw [run_eq_iter]
  refine ends f k src put d hd m {} (by simp) ?_
  simp [stepsLeft]; omega

/-- **C105, an upload fails only for a reason**: the iterable raised, a chunk could not be stored, or the operations of a chunk could
not be encoded. -/
theorem C105_failure_has_a_reason {α : Type} (f : Format α) (k : Nat) (src : Nat → Draw α) (put : Nat → Bool) (n : Nat)
    (h : (Upload.run f k src put n).result = some (.error ())) :
    (∃ e, src (Upload.run f k src put n).drawn = .raised e) ∨ put (Upload.run f k src put n).stored.length = false ∨
      ∃ e, f.dumps (Upload.run f k src put n).held = .error e := by
  induction n with
  | zero => simp [Upload.run] at h
  | succ n ih =>
    cases hr : (Upload.run f k src put n).result with
    | none => exact step_error hr h
    | some r =>
      have : Upload.run f k src put (n + 1) = Upload.run f k src put n := by
        show (Upload.run f k src put n).step f k src put = _
        simp [Upload.step, hr]
      rw [this] at h ⊢
      exact ih h

/-- **C105, streaming makes no difference to what is stored.** For a finite iterable, if nothing fails, the upload ends, having stored
the chunks that C46 is about. -/
theorem C105_same_chunks {α : Type} (f : Format α) (k : Nat) (hk : 0 < k) (ops : List α) (put : Nat → Bool)
    (hput : ∀ i, put i = true) (chunks : List Bytes) (hc : chunkIterator f k ops = some (chunks.map .ok)) :
    ∃ n, ∀ m, n ≤ m → (Upload.run f k (listed ops) put m).stored = chunks ∧
      (Upload.run f k (listed ops) put m).result = some (.ok chunks.length) ∧
      (Upload.run f k (listed ops) put m).drawn = ops.length := by
  have hc' : (Python.batchedLoop k ops.length ops).map (Python.encodeChunk f) = chunks.map .ok := by
    unfold chunkIterator at hc
    rw [if_neg (by omega)] at hc
    simpa [Python.batched] using hc
  obtain ⟨n, hn⟩ := finishes f k hk (listed ops) put hput ops.length ops (Nat.le_refl _) 0 [] chunks
    (by intro i a ha; simp [listed, ha]) (by simp [listed]) hc'
  refine ⟨n, ?_⟩
  intro m hm
  obtain ⟨d, rfl⟩ := Nat.exists_eq_add_of_le hm
  rw [run_eq_iter, iter_add]
  have h0 : iter f k (listed ops) put n {} = _ := hn
  rw [h0, iter_over (by simp)]
  simp

/-- **C105, chunks are stored while the iterable still goes on.** For an iterable that never ends, if nothing fails, any number of
chunks is stored after some time, when no operation beyond them was drawn. -/
theorem C105_endless {α : Type} (f : Format α) (k : Nat) (hk : 0 < k) (src : Nat → Draw α) (hsrc : ∀ i, ∃ a, src i = .op a)
    (hf : ∀ ops, ∃ c, f.dumps ops = .ok c) (put : Nat → Bool) (hput : ∀ i, put i = true) (m : Nat) :
    ∃ n, (Upload.run f k src put n).stored.length = m ∧ (Upload.run f k src put n).drawn = m * k := by
  suffices ∃ n st, st.length = m ∧ iter f k src put n {} = ({ drawn := m * k, stored := st } : Upload α) by
    obtain ⟨n, st, h1, h2⟩ := this
    exact ⟨n, by rw [run_eq_iter, h2]; exact h1, by rw [run_eq_iter, h2]⟩
  induction m with
  | zero => exact ⟨0, [], rfl, by simp [iter]⟩
  | succ m ih =>
    obtain ⟨n, st, h1, h2⟩ := ih
    obtain ⟨as, hlen, has⟩ : ∃ as : List α, as.length = k ∧ ∀ i a, as[i]? = some a → src (m * k + i) = .op a := by
      refine ⟨(List.range k).map fun i => (hsrc (m * k + i)).choose, by simp, ?_⟩
      intro i a ha
      rw [List.getElem?_map] at ha
      by_cases hi : i < k
      · rw [List.getElem?_range hi] at ha
        simp only [Option.map_some, Option.some.injEq] at ha
        rw [← ha]
        exact (hsrc (m * k + i)).choose_spec
      · rw [List.getElem?_eq_none (by simp; omega)] at ha
        cases ha
    obtain ⟨c, hc⟩ := hf as
    refine ⟨n + (k + 1), st ++ [c], by simp [h1], ?_⟩
    rw [iter_add, h2, block f k src put as (m * k) st c has hlen hk hc (hput _), Nat.succ_mul]

/-- A format for examples: one byte for each operation. -/
def exampleFormat : Format UInt8 where
  dumps ops := .ok ops
  loads b := .ok (some b)

/-- Five operations in chunks of two: after the first chunk was stored, the third operation is drawn; at the end there are three. -/
example :
    ((List.range 13).map fun n =>
      let s := Upload.run exampleFormat 2 (listed [1, 2, 3, 4, 5]) (fun _ => true) n
      (s.drawn, s.stored.length, s.held)) =
    [(0, 0, []), (1, 0, [1]), (2, 0, [1, 2]), (2, 1, []), (3, 1, [3]), (4, 1, [3, 4]), (4, 2, []), (5, 2, [5]), (5, 2, [5]),
     (5, 3, []), (5, 3, []), (5, 3, []), (5, 3, [])] ∧
    ((Upload.run exampleFormat 2 (listed [1, 2, 3, 4, 5]) (fun _ => true) 12).result.map fun r => r.toOption) = some (some 3) ∧
    (chunkIterator exampleFormat 2 [1, 2, 3, 4, 5]).map (·.map fun r => r.toOption) = some [some [1, 2], some [3, 4], some [5]] := by
  decide +kernel

/-- An iterable that raises after three operations: one chunk is stored, and the upload fails. -/
example :
    let src : Nat → Draw UInt8 := fun i => if i < 3 then .op (UInt8.ofNat i) else .raised ⟨"ValueError"⟩
    let s := Upload.run exampleFormat 2 src (fun _ => true) 9
    (s.drawn, s.stored, s.held, s.result.map fun r => r.toOption) = (3, [[0, 1]], [2], some none) := by
  decide +kernel

/-- An endless iterable and a format that never fails. -/
example : (∀ i, ∃ a, (fun i => Draw.op (UInt8.ofNat i) : Nat → Draw UInt8) i = .op a) ∧ (∀ ops, ∃ c, exampleFormat.dumps ops = .ok c) :=
  ⟨fun i => ⟨UInt8.ofNat i, rfl⟩, fun _ => ⟨_, rfl⟩⟩

/-! ## Iterating over results -/

/-- **C105, results of at most one chunk are in memory.** For every way of using the iterator over results, every number of chunks,
format and behaviour of the store: what was given to the caller, and after it what the client holds, are the results of the chunks that
were retrieved so far, in order; and what it holds are results of the last of these. -/
theorem C105_results_of_one_chunk_are_held {α : Type} (f : Format α) (count : Nat) (chunk : Nat → Except PyErr Bytes) (es : List Ask) :
    let s := Download.run f count chunk es
    ∃ chunks : List (List α), chunks.length = s.fetched ∧ s.fetched ≤ count ∧ Decodes f chunk 0 chunks ∧
      s.given ++ s.rest = chunks.flatten ∧ ∃ taken, chunks.getLast?.getD [] = taken ++ s.rest := by
  obtain ⟨chunks, h⟩ := dinv_run f count chunk es
  exact ⟨chunks, h.len, h.le, h.dec, h.all, h.last⟩

/-- **C105, a chunk is retrieved when it is needed**: when the caller has got all results of the chunks before it, and has asked for
one more. -/
theorem C105_retrieved_when_needed {α : Type} (f : Format α) (count : Nat) (chunk : Nat → Except PyErr Bytes) (es : List Ask) (e : Ask)
    (h : (Download.run f count chunk (es ++ [e])).fetched ≠ (Download.run f count chunk es).fetched) :
    (Download.run f count chunk (es ++ [e])).fetched = (Download.run f count chunk es).fetched + 1 ∧
    (Download.run f count chunk es).rest = [] ∧ (Download.run f count chunk es).given.length < es.count .ask := by
  obtain ⟨chunks, hi⟩ := dinv_run f count chunk es
  have hstep : Download.run f count chunk (es ++ [e]) = (Download.run f count chunk es).step f count chunk e := by
    simp [Download.run]
  rw [hstep] at h ⊢
  obtain ⟨hw, hr⟩ := download_fetches h
  refine ⟨?_, hr, ?_⟩
  · generalize Download.run f count chunk es = s at *
    cases e with
    | ask =>
      unfold Download.step at h
      simp only at h
      split at h <;> exact absurd rfl h
    | work =>
      unfold Download.step at h ⊢
      simp only [hw, hr, if_true] at h ⊢
      split at h
      · rename_i hlt
        rw [if_pos hlt]
        split at h
        · exact absurd rfl h
        · rename_i bytes hb
          split at h
          · exact absurd rfl h
          · rename_i ops hd
            simp [hb, hd]
      · exact absurd rfl h
  · have := hi.asked
    rw [hw, if_pos rfl] at this
    exact this

/-- **C105, streaming makes no difference to the results.** When the iteration is over, the caller has got what C46 says, and the
exception, if there was one. -/
theorem C105_same_results {α : Type} (f : Format α) (count : Nat) (chunk : Nat → Except PyErr Bytes) (es : List Ask)
    (e : Option PyErr) (h : (Download.run f count chunk es).over = some e) :
    ((Download.run f count chunk es).given, e) = unchunkIterator f ((List.range count).map chunk) := by
  obtain ⟨chunks, hi⟩ := dinv_run f count chunk es
  obtain ⟨_, h2, h3⟩ := hi.over e h
  have hw := hi.whole
  rw [h3, h2] at hw
  rw [List.range_eq_range', hw]
  simp

/-- **C105, a request is answered**: when the caller has asked, a result is given or the iteration ends after at most one step for
each chunk that was not retrieved yet, and one more. -/
theorem C105_request_is_answered {α : Type} (f : Format α) (count : Nat) (chunk : Nat → Except PyErr Bytes) (es : List Ask)
    (ho : (Download.run f count chunk es).over = none) :
    ∃ m, m ≤ count - (Download.run f count chunk es).fetched + 1 ∧
      let t := Download.run f count chunk (es ++ .ask :: List.replicate m .work)
      t.given.length = (Download.run f count chunk es).given.length + 1 ∨ t.over.isSome := by
  obtain ⟨m, hm, _, h2⟩ := answered f count chunk (count - (Download.run f count chunk es).fetched + 1)
    { Download.run f count chunk es with waiting := true } (by simp only; omega) rfl ho
  refine ⟨m, hm, ?_⟩
  have : Download.run f count chunk (es ++ .ask :: List.replicate m .work) =
      (List.replicate m Ask.work).foldl (Download.step f count chunk) { Download.run f count chunk es with waiting := true } := by
    unfold Download.run
    rw [List.foldl_append, List.foldl_cons]
    congr 1
    unfold Download.run at ho
    simp [Download.step, ho]
  rw [this]
  exact h2

/-- Two chunks of results: the second is retrieved when the caller asks for the third result. -/
example :
    let chunk : Nat → Except PyErr Bytes := fun i => .ok (if i = 0 then [1, 2] else [3])
    (([[], [.ask, .work, .work], [.ask, .work, .work, .ask, .work], [.ask, .work, .work, .ask, .work, .work],
       [.ask, .work, .work, .ask, .work, .ask, .work, .work], [.ask, .work, .work, .ask, .work, .ask, .work, .work, .ask, .work]] :
        List (List Ask)).map fun es =>
      let s := Download.run exampleFormat 2 chunk es
      (s.fetched, s.given, s.over)) =
    [(0, [], none), (1, [1], none), (1, [1, 2], none), (1, [1, 2], none), (2, [1, 2, 3], none), (2, [1, 2, 3], some none)] := by
  decide +kernel

/-! ## There and back -/

private theorem callEach_map {α : Type} (g : α → α) : ∀ ops : List α, Python.callEach (fun op => .ok (g op)) ops = .ok (ops.map g)
  | [] => rfl
  | op :: ops => by simp [Python.callEach, callEach_map g ops]

private theorem encoded {α : Type} (f : Format α) (hf : f.Faithful) : ∀ groups : List (List α),
    ∃ cs : List Bytes, groups.map (Python.encodeChunk f) = cs.map .ok
  | [] => ⟨[], rfl⟩
  | g :: gs => by
    obtain ⟨b, hb, _⟩ := hf g
    obtain ⟨cs, hcs⟩ := encoded f hf gs
    exact ⟨b :: cs, by simp [Python.encodeChunk, hb, hcs]⟩

private theorem raw_outputs {α : Type} (f : Format α) (hf : f.Faithful) (g : α → α) : ∀ (groups : List (List α)) (cs : List Bytes),
    groups.map (Python.encodeChunk f) = cs.map .ok →
    cs.map (Python.rawCallback f fun op => .ok (g op)) = (groups.map (·.map g)).map (Python.encodeChunk f)
  | [], cs, h => by
    have : cs = [] := by simpa using h.symm
    subst this; rfl
  | b :: bs, [], h => by simp at h
  | b :: bs, c :: cs, h => by
    simp only [List.map_cons, List.cons.injEq] at h
    obtain ⟨h1, h2⟩ := h
    obtain ⟨c', hc1, hc2⟩ := hf b
    have : c' = c := by
      have h1 : f.dumps b = .ok c := h1
      rw [hc1] at h1
      exact Except.ok.inj h1
    subst this
    have hd : Python.decodeChunk f c' = .ok b := by simp [Python.decodeChunk, hc2]
    have := raw_outputs f hf g bs cs h2
    simp only [List.map_cons, Python.rawCallback, hd, callEach_map] at this ⊢
    rw [← this]

/-- **C105, there and back.** Operations that are drawn from an iterable and stored chunk by chunk, executed by consumers whose callback
is `g`, and whose results are retrieved chunk by chunk, give the results of `g` on them, in their order, without an exception. For every
format that gives back what it was given, and every way of using the iterator that comes to its end. -/
theorem C105_there_and_back {α : Type} (f : Format α) (hf : f.Faithful) (k : Nat) (hk : 0 < k) (ops : List α) (g : α → α)
    (put : Nat → Bool) (hput : ∀ i, put i = true) :
    ∃ (n : Nat) (inputs : List Bytes), (∀ m, n ≤ m → (Upload.run f k (listed ops) put m).stored = inputs ∧
        (Upload.run f k (listed ops) put m).result = some (.ok inputs.length)) ∧
      ∀ outputs : Nat → Except PyErr Bytes,
        (∀ i input, inputs[i]? = some input → outputs i = Python.rawCallback f (fun op => .ok (g op)) input) →
        ∀ (es : List Ask) (e : Option PyErr), (Download.run f inputs.length outputs es).over = some e →
          e = none ∧ (Download.run f inputs.length outputs es).given = ops.map g := by
  obtain ⟨inputs, hin⟩ := encoded f hf (Python.batched k ops)
  obtain ⟨n, hn⟩ := C105_same_chunks f k hk ops put hput inputs (by
    unfold chunkIterator
    rw [if_neg (by omega)]
    simpa using hin)
  refine ⟨n, inputs, fun m hm => ⟨(hn m hm).1, (hn m hm).2.1⟩, ?_⟩
  intro outputs hout es e he
  have hres := C105_same_results f inputs.length outputs es e he
  have hmap : (List.range inputs.length).map outputs = inputs.map (Python.rawCallback f fun op => .ok (g op)) := by
    apply List.ext_getElem?
    intro i
    rw [List.getElem?_map, List.getElem?_map]
    cases hi : inputs[i]? with
    | none =>
      have := List.getElem?_eq_none_iff.1 hi
      rw [List.getElem?_eq_none (by simpa using this)]; rfl
    | some input =>
      have := (List.getElem?_eq_some_iff.1 hi).1
      rw [List.getElem?_range this, Option.map_some, Option.map_some, hout i input hi]
  rw [hmap, raw_outputs f hf g _ _ hin, Python.unchunk_map f hf] at hres
  have hfl : ((Python.batched k ops).map (·.map g)).flatten = ops.map g := by
    rw [← List.map_flatten]
    exact congrArg _ (Python.batchedLoop_flatten k hk _ ops (Nat.le_refl _))
  rw [hfl] at hres
  exact ⟨(Prod.mk.inj hres).2, (Prod.mk.inj hres).1⟩

example : exampleFormat.Faithful := fun ops => ⟨ops, rfl, rfl⟩

/-- Five operations in chunks of two, of which the consumers compute the successors. -/
example :
    let outputs : Nat → Except PyErr Bytes := fun i => Python.rawCallback exampleFormat (fun op => .ok (op + 1))
      (((Upload.run exampleFormat 2 (listed [1, 2, 3, 4, 5]) (fun _ => true) 12).stored[i]?).getD [])
    let s := Download.run exampleFormat 3 outputs ((List.replicate 6 [Ask.ask, .work, .work]).flatten)
    (s.given, s.over) = ([2, 3, 4, 5, 6], some none) := by decide +kernel

end Opsqueue.Streaming
