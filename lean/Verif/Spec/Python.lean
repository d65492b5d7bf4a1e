import Verif.Spec.Observe
import Verif.Model.Python

/-!
# Vocabulary for statements about the Python client
-/

namespace Opsqueue.Python

/-- The serialization format gives back what it was given. -/
def Format.Faithful {α : Type} (f : Format α) : Prop := ∀ ops, ∃ b, f.dumps ops = .ok b ∧ f.loads b = .ok (some ops)

/-- The answer is that the submission is in progress. -/
def StillRunning (a : Answer) : Prop := ∃ s, a = .ok (some (.inProgress s))

/-- What the Python interface does not show of a status: the prefix, the chunk size and the trace carrier (and the
input content of a failed chunk). -/
def hideInternals : SubmissionStatus → SubmissionStatus
  | .inProgress s => .inProgress { s with pfx := none, chunkSize := 0, otel := "" }
  | .completed s => .completed { s with pfx := none, chunkSize := 0, otel := "" }
  | .failed s c => .failed { s with pfx := none, chunkSize := 0, otel := "" } { c with inputContent := none }
  | .cancelled s => .cancelled { s with pfx := none }

/-- The report that belongs to what the callback did with the chunk: complete with the returned bytes, or fail with
the text of the exception. -/
def dueReport (e : Surroundings) (c : PyChunk) : Sent :=
  match e.call c with
  | .returned out => .complete c out
  | .raised _ text => .fail c text

/-- The exception raised for the chunk, if any, is one that ends the consumer: not an `Exception`, or a
`SystemError`. -/
def endsConsumer (e : Surroundings) (c : PyChunk) : Bool :=
  match e.call c with
  | .raised x _ => ¬ x.isA .exception ∨ x.isA .systemError
  | .returned _ => false

/-- In every round a chunk is reserved, the callback deals with it and the report arrives: no errors, no fatal
exceptions. -/
def AllWell (es : List Surroundings) : Prop :=
  ∀ e ∈ es, ∃ c, e.reserved = .ok [c] ∧ endsConsumer e c = false ∧ e.reported c = .ok ()

/-- Each successful reservation is of one chunk: `reserve_chunks_gilless` is called with limit 1 and asks again until
there is a chunk. -/
def OneAtATime (es : List Surroundings) : Prop := ∀ e ∈ es, ∀ cs, e.reserved = .ok cs → ∃ c, cs = [c]

/-- The reports a consumer should make: for every chunk it gets the report that is due, until a fatal exception or an
interrupt ends it. Other errors do not matter. -/
def dueReports : List Surroundings → List Sent
  | [] => []
  | e :: es =>
    match e.reserved with
    | .error (.fatal _) => []
    | .error .rust => dueReports es
    | .ok [] => dueReports es
    | .ok (c :: _) =>
      dueReport e c :: match e.reported c with
        | .error (.fatal _) => []
        | .error .rust => dueReports es
        | .ok _ => if endsConsumer e c then [] else dueReports es

end Opsqueue.Python
