import Verif.Model.PyTypes
import Verif.Model.ObjectStore
import Verif.Model.Http

/-!
# Python exceptions

The classes of exceptions the Python client knows (`python/opsqueue/exceptions.py`), and how the errors of the Rust
extension become exceptions (`libs/opsqueue_python/src/errors.rs`).
-/

namespace Opsqueue.Python

/-- Classes of exceptions: those of Python that occur in the client, those of `python/opsqueue/exceptions.py`
(7-246), `ChunkSizeIsZeroError` of `python/opsqueue/producer.py` (424-426), PyO3's `PanicException`, and classes defined
by the user (name and base class; simplification: single inheritance). -/
inductive Cls where
  | baseException
  | keyboardInterrupt
  | systemExit
  | panic
  | exception
  | systemError
  | typeError
  | overflowError
  | stopAsyncIteration
  | submissionFailed
  | submissionNotCancellable
  | incorrectUsage
  | tryFromInt
  | chunkNotFound
  | submissionNotFound
  | chunkCountIsZero
  | newObjectStoreClient
  | submissionNotCompletedYet
  | tooManyMatchingSubmissions
  | opsqueueInternal
  | unexpectedServerResponse
  | chunkRetrieval
  | chunksStorage
  | chunkStorage
  | internalConsumerClient
  | internalProducerClient
  | chunkSizeIsZero
  | user (name : String) (base : Cls)
deriving DecidableEq, Repr

/-- The class and its base classes (without `object`): the class statements in python/opsqueue/exceptions.py 7, 42,
75, 85, 95, 104, 126, 137, 146, 156, 187, 195, 207, 215, 224, 233, 241 and python/opsqueue/producer.py 424; for the
others, Python's hierarchy of built-in exceptions (`OverflowError` is shown without `ArithmeticError`). -/
def Cls.mro : Cls → List Cls
  | .baseException => [.baseException]
  | .keyboardInterrupt => [.keyboardInterrupt, .baseException]
  | .systemExit => [.systemExit, .baseException]
  | .panic => [.panic, .baseException]
  | .exception => [.exception, .baseException]
  | .systemError => [.systemError, .exception, .baseException]
  | .typeError => [.typeError, .exception, .baseException]
  | .overflowError => [.overflowError, .exception, .baseException]
  | .stopAsyncIteration => [.stopAsyncIteration, .exception, .baseException]
  | .submissionFailed => [.submissionFailed, .exception, .baseException]
  | .submissionNotCancellable => [.submissionNotCancellable, .exception, .baseException]
  | .incorrectUsage => [.incorrectUsage, .typeError, .exception, .baseException]
  | .tryFromInt => [.tryFromInt, .incorrectUsage, .typeError, .exception, .baseException]
  | .chunkNotFound => [.chunkNotFound, .incorrectUsage, .typeError, .exception, .baseException]
  | .submissionNotFound => [.submissionNotFound, .incorrectUsage, .typeError, .exception, .baseException]
  | .chunkCountIsZero => [.chunkCountIsZero, .incorrectUsage, .typeError, .exception, .baseException]
  | .newObjectStoreClient => [.newObjectStoreClient, .incorrectUsage, .typeError, .exception, .baseException]
  | .submissionNotCompletedYet => [.submissionNotCompletedYet, .incorrectUsage, .typeError, .exception, .baseException]
  | .tooManyMatchingSubmissions => [.tooManyMatchingSubmissions, .incorrectUsage, .typeError, .exception, .baseException]
  | .opsqueueInternal => [.opsqueueInternal, .exception, .baseException]
  | .unexpectedServerResponse => [.unexpectedServerResponse, .opsqueueInternal, .exception, .baseException]
  | .chunkRetrieval => [.chunkRetrieval, .opsqueueInternal, .exception, .baseException]
  | .chunksStorage => [.chunksStorage, .opsqueueInternal, .exception, .baseException]
  | .chunkStorage => [.chunkStorage, .opsqueueInternal, .exception, .baseException]
  | .internalConsumerClient => [.internalConsumerClient, .opsqueueInternal, .exception, .baseException]
  | .internalProducerClient => [.internalProducerClient, .opsqueueInternal, .exception, .baseException]
  | .chunkSizeIsZero => [.chunkSizeIsZero, .exception, .baseException]
  | .user name base => .user name base :: base.mro

/-- What an exception object carries: the arguments of the `__init__`s in python/opsqueue/exceptions.py, a message, or
(for exceptions that Python code made) the identity of the object. -/
inductive Args where
  | object (identity : Nat)
  | message (text : String)
  | failed (submission : PyFailed) (chunk : PyChunkFailed)
  | notCancellable (reason : PyNotCancellable) (chunk : Option PyChunkFailed)
  | submissionId (id : Nat)
  | maxSubmissions (max : Nat)
  | notCompleted (text : String) (id : Nat)
deriving DecidableEq, Repr

/-- An exception object. -/
structure Exn where
  cls : Cls
  args : Args
deriving DecidableEq, Repr

/-- `isinstance(e, c)`, and `is_instance_of` (src/consumer.rs 444, 452); also whether `except c` catches `e`. -/
def Exn.isA (e : Exn) (c : Cls) : Bool := e.cls.mro.contains c

/-! ## The errors of the extension -/

/-- `InternalConsumerClientError`, opsqueue/src/consumer/client.rs 525-539. Simplification: without
`UnexpectedSyncResponse`, which is never made. -/
inductive ConsumerErr where
  | websocket
  | oneshotDropped
deriving DecidableEq, Repr

/-- What made `store_chunks` fail (the `source`, an `anyhow::Error`; opsqueue/src/object_store/mod.rs 213-247): an
exception raised while taking the next chunk from the iterator (src/producer.rs 309-315), or a failed upload. -/
inductive StoreSource where
  | iterator (e : Exn)
  | upload (index : ChunkIndex)
deriving DecidableEq, Repr

/-- All errors of the extension. In the code every function has its own sum `E![…]` of the error types that can occur;
the conversion into an exception goes by the type of the error and not by its place in the sum (src/errors.rs
216-227), so that one sum does for all. `producer` stands for `InternalProducerClientError`, `SubmissionNotFound`,
`SubmissionNotCancellable` and `TooManyMatchingSubmissions`; left out are `ChunkNotFound` and
`UnexpectedOpsqueueConsumerServerResponse`, which no function returns. -/
inductive RustErr where
  | fatal (e : Exn)
  | producer (e : Http.ClientErr)
  | consumer (e : ConsumerErr)
  | limitIsZero
  | retrieval (pfx : String) (index : ChunkIndex) (type : ObjectStore.ChunkType)
  | storage (pfx : String) (index : ChunkIndex) (type : ObjectStore.ChunkType)
  | chunksStorage (pfx : String) (type : ObjectStore.ChunkType) (source : StoreSource)
  | submissionFailed (s : PyFailed) (c : PyChunkFailed)
  | notCompletedYet (id : SubmissionId)
  | urlParse
  | objectStoreUrl
  | tryFromInt
deriving DecidableEq, Repr

/-- `(prefix, index, type)` as in the messages of opsqueue/src/object_store/mod.rs 58-78. -/
def chunkText (pfx : String) (index : ChunkIndex) (t : ObjectStore.ChunkType) : String :=
  "(" ++ pfx ++ ", " ++ String.ofList (Decimal.decimal index) ++ ", " ++ String.ofList t.text ++ ")"

/-- `Display for InternalProducerClientError`, opsqueue/src/producer/client.rs 356-364. Simplification: a status is
shown without its name. The other cases are not of this type. -/
def producerText : Http.ClientErr → String
  | .http _ => "HTTP request failed"
  | .decoding => "Error decoding JSON response"
  | .unexpectedStatus s => "Internal client received unexpected status: " ++ String.ofList (Decimal.decimal s)
  | _ => ""

/-- `From<CError<InternalProducerClientError>>`, `From<CError<SubmissionNotFound>>`,
`From<CError<SubmissionNotCancellable>>` and `From<CError<TooManyMatchingSubmissions>>` for `PyErr`, src/errors.rs
100-104, 130-154. -/
def producerToPy : Http.ClientErr → Exn
  | .notFound e => ⟨.submissionNotFound, .submissionId e.id⟩
  | .notCancellable e =>
    ⟨.submissionNotCancellable, .notCancellable (PyNotCancellable.ofRust e)
      (match e with
        | .failed _ c => some (PyChunkFailed.ofRust c)
        | _ => none)⟩
  | .tooMany e => ⟨.tooManyMatchingSubmissions, .maxSubmissions e.max⟩
  | e => ⟨.internalProducerClient, .message (producerText e)⟩

/-- `From<CError<…>> for PyErr`, src/errors.rs 76-202 and 216-233; the messages are those of opsqueue/src/consumer/
client.rs 525-533, opsqueue/src/common/errors.rs 128-147, opsqueue/src/object_store/mod.rs 57-109 and src/producer.rs
491-493. `CError<PyErr>` and `FatalPythonException` become the exception they contain. -/
def toPy : RustErr → Exn
  | .fatal e => e
  | .producer e => producerToPy e
  | .consumer .websocket => ⟨.internalConsumerClient, .message "Low-level error in the websocket connection"⟩
  | .consumer .oneshotDropped => ⟨.internalConsumerClient, .message
      "The oneshot channel to receive a sync response to an earlier request was dropped before a response was received"⟩
  | .limitIsZero => ⟨.incorrectUsage, .message "You are using Opsqueue incorrectly"⟩
  | .retrieval pfx i t => ⟨.chunkRetrieval, .message
      ("Failed to retrieve chunk " ++ chunkText pfx i t ++ " from object store")⟩
  | .storage pfx i t => ⟨.chunkStorage, .message
      ("Failed to store chunk " ++ chunkText pfx i t ++ " to object store")⟩
  | .chunksStorage _ _ _ => ⟨.chunksStorage, .message "Failed to read chunk element from stream/iterator"⟩
  | .submissionFailed s c => ⟨.submissionFailed, .failed s c⟩
  | .notCompletedYet id => ⟨.submissionNotCompletedYet, .notCompleted
      ("The submission with ID SubmissionId { id: " ++ String.ofList (Decimal.decimal id) ++ " } is not completed yet. ")
      id⟩
  | .urlParse => ⟨.newObjectStoreClient, .message "Failed to parse URL"⟩
  | .objectStoreUrl => ⟨.newObjectStoreClient, .message "URL is not valid object store URL"⟩
  | .tryFromInt => ⟨.tryFromInt, .message "out of range integral type conversion attempted"⟩

end Opsqueue.Python
