import Verif.Model.Python

/-!
# Streaming operations and results

`Model/Python.lean` treats the operations of a submission as a list. In the client they come from any Python iterable, and go through
a chain of iterators: `itertools.batched` and `encode_chunk` (`libs/opsqueue_python/python/opsqueue/producer.py` 395-403),
`std::iter::from_fn` (`libs/opsqueue_python/src/producer.rs` 309-315) and `try_fold` (`opsqueue/src/object_store/mod.rs` 219-236). Each
asks the one before it only when it needs something. The results come back through `retrieve_chunks`
(`opsqueue/src/object_store/mod.rs` 307-326) and `_unchunk_iterator` (producer.py 406-412). Here is when what is asked for.
-/

namespace Opsqueue.Streaming
open Python (PyErr Format encodeChunk decodeChunk)

/-- What the caller's iterable does when it is asked (`__next__`). -/
inductive Draw (α : Type) where
  | op (a : α)
  | stop
  | raised (e : PyErr)

/-- The upload: how many operations were drawn from the iterable, the batch that `batched` is collecting, the chunk that is being
stored (its operations and its bytes), the chunks that are stored, whether `batched` has ended, and the result of `store_chunks`. -/
structure Upload (α : Type) where
  drawn : Nat := 0
  batch : List α := []
  pending : Option (List α × Bytes) := none
  stored : List Bytes := []
  ended : Bool := false
  result : Option (Except Unit Nat) := none

/-- `batched` yields a batch and `encode_chunk` encodes it (producer.py 400-403), and `store_chunk` is called with it
(object_store/mod.rs 221-227). An exception is the error of the stream (src/producer.rs 311-315). -/
def Upload.yields {α} (f : Format α) (s : Upload α) (batch : List α) : Upload α :=
  match encodeChunk f batch with
  | .ok bytes => { s with batch := [], pending := some (batch, bytes) }
  | .error _ => { s with result := some (.error ()) }

/-- The next thing that `store_chunks` does (object_store/mod.rs 213-247) for chunks of size `k`: store the chunk it has, or ask for
the next one, for which `batched` asks the iterable. `put i`: storing the chunk with index `i` succeeds. -/
def Upload.step {α} (f : Format α) (k : Nat) (src : Nat → Draw α) (put : Nat → Bool) (s : Upload α) : Upload α :=
  if s.result.isSome then s
  else match s.pending with
    | some (_, bytes) =>
      if put s.stored.length then { s with pending := none, stored := s.stored ++ [bytes] }
      else { s with result := some (.error ()) }
    | none =>
      if s.ended then { s with result := some (.ok s.stored.length) }
      else match src s.drawn with
        | .op a =>
          let s := { s with drawn := s.drawn + 1, batch := s.batch ++ [a] }
          if s.batch.length = k then s.yields f s.batch else s
        | .stop =>
          let s := { s with ended := true }
          if s.batch.isEmpty then s else s.yields f s.batch
        | .raised _ => { s with result := some (.error ()) }

/-- The first `n` steps of `store_chunks` (object_store/mod.rs 213-247). -/
def Upload.run {α} (f : Format α) (k : Nat) (src : Nat → Draw α) (put : Nat → Bool) : Nat → Upload α
  | 0 => {}
  | n + 1 => (Upload.run f k src put n).step f k src put

/-- Iterating over results: how many chunks were asked for, the results of the last of them that were not given to the caller yet, the
results that were, whether the caller waits for one, and whether the iteration has ended, with an exception or without. -/
structure Download (α : Type) where
  fetched : Nat := 0
  rest : List α := []
  given : List α := []
  waiting : Bool := false
  over : Option (Option PyErr) := none

/-- The caller asks for the next result, or `_unchunk_iterator` does the next thing. -/
inductive Ask where
  | ask
  | work
deriving DecidableEq, Repr

/-- `_unchunk_iterator` (producer.py 406-412) over the stream of `retrieve_chunks` (object_store/mod.rs 307-326) with `count` chunks. A
generator runs only while its caller waits for it. `_async_unchunk_iterator` (producer.py 415-421) does the same with `async for`.
`chunk i`: what retrieving the chunk with index `i` gives. -/
def Download.step {α} (f : Format α) (count : Nat) (chunk : Nat → Except PyErr Bytes) (s : Download α) : Ask → Download α
  | .ask => if s.over.isSome then s else { s with waiting := true }
  | .work =>
    if s.waiting then
      match s.rest with
      | a :: rest => { s with rest := rest, given := s.given ++ [a], waiting := false }
      | [] =>
        if s.fetched < count then
          match chunk s.fetched with
          | .error e => { s with over := some (some e), waiting := false }
          | .ok bytes =>
            match decodeChunk f bytes with
            | .error e => { s with over := some (some e), waiting := false }
            | .ok ops => { s with fetched := s.fetched + 1, rest := ops }
        else { s with over := some none, waiting := false }
    else s

/-- A use of the iterator (producer.py 406-412). -/
def Download.run {α} (f : Format α) (count : Nat) (chunk : Nat → Except PyErr Bytes) (es : List Ask) : Download α :=
  es.foldl (Download.step f count chunk) {}

end Opsqueue.Streaming
