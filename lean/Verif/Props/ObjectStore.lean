import Verif.Spec.ObjectStore
import Verif.Proofs.ObjectStore

/-!
# C44, C45: chunks in the object store
-/

namespace Opsqueue.ObjectStore

/-- **C44.** Different (prefix, index, input/output) triples are stored under different paths, for all prefixes
without a slash (and one client, that is, one base path). -/
theorem C44_paths_never_collide (base : List Char) (p q : String) (i j : ChunkIndex) (t u : ChunkType)
    (hp : Plain p) (hq : Plain q) (hne : (p, i, t) ≠ (q, j, u)) :
    chunkPath base p i t ≠ chunkPath base q j u := by
  intro h
  obtain ⟨h1, h2, h3⟩ := chunkPath_inj base hp hq h
  exact hne (by rw [h1, h2, h3])

/-- Prefixes that need encoding, an empty one, `..`, indexes whose texts begin alike, both types. -/
example :
    chunkPath "buck/et".toList "a%2Fb" 1 .input = "buck/et/a%252Fb/1-in.bin".toUTF8.data.toList ∧
    chunkPath "buck/et".toList ".." 12 .output = "buck/et/%2E%2E/12-out.bin".toUTF8.data.toList ∧
    chunkPath "".toList "" 0 .input = "0-in.bin".toUTF8.data.toList ∧
    Plain "a%2Fb" ∧ Plain ".." ∧ Plain "" := by decide +kernel

/-- With slashes in the prefix, chunks of different submissions can share a path: empty parts are dropped. -/
theorem C44_slashes_collide :
    chunkPath "base".toList "a/b" 0 .input = chunkPath "base".toList "a//b" 0 .input ∧ "a/b" ≠ "a//b" := by
  decide +kernel

/-- **C45, storing.** `store_chunks` succeeds with count `n` if and only if the stream yielded `n` contents and all of
them could be put; otherwise, that is, if the stream or a `put` fails, it returns an error. -/
theorem C45_store_succeeds_iff (base : List Char) (pfx : String) (t : ChunkType) (rounds : List Round) (s : Store)
    (n : Nat) :
    (storeChunks base pfx t rounds s).1 = .ok n ↔
      n = rounds.length ∧ ∀ r ∈ rounds, r.put = .ok ∧ ∃ content, r.content = .ok content := by
  unfold storeChunks
  rw [storeFrom_ok]
  simp

/-- Three contents are stored; with a failing stream or a failing `put` there is an error. -/
example :
    (storeChunks [] "p" .input [{ content := .ok [1] }, { content := .ok [] }, { content := .ok [2] }] []).1 = .ok 3 ∧
    (storeChunks [] "p" .input [{ content := .ok [1] }, { content := .error () }] []).1 = .error () ∧
    (storeChunks [] "p" .input [{ content := .ok [1] }, { content := .ok [2], put := .failed true }] []).1 =
      .error () := by decide +kernel

/-- **C45, round trip.** If storing a stream of contents succeeded, then retrieving the chunks yields the same
contents in the same order, whatever else is in the store and whatever is stored under other prefixes or for the other
direction before, during and after, and between the reads. -/
theorem C45_retrieve_what_was_stored (base : List Char) (pfx : String) (t : ChunkType) (rounds : List Round)
    (contents : List Bytes) (s : Store) (n : Nat) (later : List Write) (between : Nat → List Write)
    (hplain : Plain pfx) (hcontents : rounds.map (·.content) = contents.map .ok)
    (hduring : ∀ r ∈ rounds, Elsewhere pfx t r.others) (hlater : Elsewhere pfx t later)
    (hbetween : ∀ i, Elsewhere pfx t (between i))
    (hok : (storeChunks base pfx t rounds s).1 = .ok n) :
    n = contents.length ∧
      retrieveChunks base pfx n t between (writes base (storeChunks base pfx t rounds s).2 later) =
        contents.map .ok := by
  obtain ⟨hn, hall⟩ := (C45_store_succeeds_iff _ _ _ _ _ _).1 hok
  have hlen : rounds.length = contents.length := by
    have := congrArg List.length hcontents
    simpa using this
  refine ⟨hn.trans hlen, ?_⟩
  have hget : ∀ k, (hk : k < contents.length) →
      (storeChunks base pfx t rounds s).2.get (chunkPath base pfx k t) = some contents[k] := by
    intro k hk
    have hk' : k < rounds.length := by omega
    have hc : rounds[k].content = .ok contents[k] := by
      have : (rounds.map (·.content))[k]? = (contents.map Except.ok)[k]? := by rw [hcontents]
      simpa [hk, hk'] using this
    have := storeFrom_get base hplain t rounds 0 s (fun r hr => ⟨(hall r hr).1, (hall r hr).2, hduring r hr⟩) k
      rounds[k] (by simp [hk']) _ hc
    rw [Nat.zero_add] at this
    exact this
  unfold retrieveChunks
  rw [retrieveFrom_get base hplain t between hbetween]
  apply List.ext_getElem
  · simp [hn, hlen]
  · intro k h1 h2
    have hk : k < contents.length := by simpa using h2
    simp only [List.getElem_map, List.getElem_range, Nat.zero_add]
    unfold retrieveChunk
    rw [get_writes_apart base hplain hlater, hget k hk]

/-- Two submissions stored at the same time, and the outputs of the first while it is read. -/
example :
    let rounds : List Round :=
      [{ content := .ok [1, 2], others := [⟨"q", 0, .input, [9]⟩] },
       { content := .ok [], others := [⟨"p", 0, .output, [7]⟩, ⟨"", 0, .input, [8]⟩] }]
    Plain "p" ∧ rounds.map (·.content) = [[1, 2], []].map .ok ∧ (∀ r ∈ rounds, Elsewhere "p" .input r.others) ∧
      (storeChunks "b".toList "p" .input rounds []).1 = .ok 2 ∧
      Elsewhere "p" .input [⟨"p", 1, .output, [5]⟩] ∧
      retrieveChunks "b".toList "p" 2 .input (fun _ => [⟨"p", 1, .output, [5]⟩])
        (storeChunks "b".toList "p" .input rounds []).2 = [.ok [1, 2], .ok []] := by decide +kernel

/-- **C45, missing chunks.** A chunk that nobody stored is an error for its reader, not an empty chunk. -/
theorem C45_missing_is_error (base : List Char) (pfx : String) (t : ChunkType) (i : ChunkIndex) (ws : List Write)
    (hplain : Plain pfx) (hws : ∀ w ∈ ws, Plain w.pfx ∧ (w.pfx, w.index, w.type) ≠ (pfx, i, t)) :
    retrieveChunk base (writes base [] ws) pfx i t = .error () := by
  unfold retrieveChunk
  rw [get_writes_other base ws [] _ (fun w hw => C44_paths_never_collide base _ _ _ _ _ _ (hws w hw).1 hplain (hws w hw).2)]
  rfl

example : retrieveChunk [] (writes [] [] [⟨"p", 0, .input, [1]⟩, ⟨"p", 1, .output, [1]⟩]) "p" 1 .input = .error () := by
  decide +kernel

end Opsqueue.ObjectStore
