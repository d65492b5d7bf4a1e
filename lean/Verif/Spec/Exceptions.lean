import Verif.Spec.Http
import Verif.Spec.Python
import Verif.Model.PyCalls

/-!
# Vocabulary for statements about exceptions
-/

namespace Opsqueue.Python

/-- The class written in the parentheses of the class statement (python/opsqueue/exceptions.py, producer.py 424; for
classes of Python itself, see its documentation; `OverflowError` is taken as a direct subclass of `Exception`). -/
def Cls.base : Cls → Option Cls
  | .baseException => none
  | .keyboardInterrupt | .systemExit | .panic | .exception => some .baseException
  | .systemError | .typeError | .overflowError | .stopAsyncIteration | .submissionFailed | .submissionNotCancellable
  | .opsqueueInternal | .chunkSizeIsZero => some .exception
  | .incorrectUsage => some .typeError
  | .tryFromInt | .chunkNotFound | .submissionNotFound | .chunkCountIsZero | .newObjectStoreClient
  | .submissionNotCompletedYet | .tooManyMatchingSubmissions => some .incorrectUsage
  | .unexpectedServerResponse | .chunkRetrieval | .chunksStorage | .chunkStorage | .internalConsumerClient
  | .internalProducerClient => some .opsqueueInternal
  | .user _ base => some base

/-- `issubclass(c, d)`. -/
inductive Subclass : Cls → Cls → Prop where
  | refl (c : Cls) : Subclass c c
  | base {c d e : Cls} : c.base = some d → Subclass d e → Subclass c e

/-- The exception carries the status, as its fields `submission` and `chunk`. -/
def Carries (e : Exn) : PyStatus → Prop
  | .inProgress _ => False
  | .completed s => e.args = .notCancellable (.completed s) none
  | .failed s c => e.args = .notCancellable (.failed s c) (some c)
  | .cancelled s => e.args = .notCancellable (.cancelled s) none

/-- The kinds of exceptions the documentation tells apart: an expected outcome for the submission, incorrect usage of
the library, a failure that is not the caller's. -/
inductive Kind where
  | outcome
  | usage
  | internal
deriving DecidableEq, Repr

/-- `e` is of this kind, going by what an `except` clause would catch. -/
def OfKind (e : Exn) : Kind → Prop
  | .outcome => e.isA .submissionFailed = true ∨ e.isA .submissionNotCancellable = true
  | .usage => e.isA .incorrectUsage = true
  | .internal => e.isA .opsqueueInternal = true

/-- `e` is an `Exception` of exactly one kind. -/
def OfOneKind (e : Exn) : Prop := e.isA .exception = true ∧ ∃ k, OfKind e k ∧ ∀ k', OfKind e k' → k' = k

/-- The exceptions raised by the code of the caller in the course of an upload. -/
def raisedByIterator (uploads : List Upload) (e : Exn) : Prop := ∃ u ∈ uploads, u.item = .error e

/-- The exceptions with which the surroundings of the consumer's loop can end it: an interrupt while it waits, or
while it reports, or an exception of the callback that is not an `Exception`. -/
def EndsLoop (e : Surroundings) (x : Exn) : Prop :=
  e.reserved = .error (.fatal x) ∨
  ∃ cs c, e.reserved = .ok cs ∧ c ∈ cs ∧
    (e.reported c = .error (.fatal x) ∨
      (e.reported c = .ok () ∧ endsConsumer e c = true ∧ ∃ text, e.call c = .raised x text))

end Opsqueue.Python
