import Verif.Model.Python

/-!
# Waiting for the end of a submission, in time

Models `stream_completed_submission_chunks`, libs/opsqueue_python/src/producer.rs 510-540, with the times at which its
requests are made and answered. Times are milliseconds.
-/

namespace Opsqueue.Polling
open Python

/-- What is up to the surroundings in one round of the loop (producer.rs 523-534): how long the request took (with all its
retries, producer.rs 542-552), how long after its start the server looked at the database, and how much longer than asked
for the sleep took. -/
structure Poll where
  took : Nat
  seen : Nat
  lag : Nat := 0
deriving Repr

/-- The loop, producer.rs 522-539: at most `fuel` rounds, of which the `k`-th is next, at the time `t`, and followed by a
sleep of `interval`. `look` is what the server answers if it looks at a given time. The result is when the loop ended, and
how; `none` if it did not end within the rounds. -/
def loop (look : Time → Answer) (polls : Nat → Poll) : Nat → Nat → Time → Nat → Option (Time × Waited)
  | 0, _, _, _ => none
  | fuel + 1, k, t, interval =>
    match maybeStream (look (t + (polls k).seen)) with
    | some w => some (t + (polls k).took, w)
    | none => loop look polls fuel (k + 1) (t + (polls k).took + interval + (polls k).lag) (nextInterval interval)

/-- `stream_completed_submission_chunks` called at the time `start`, producer.rs 510-540. -/
def wait (look : Time → Answer) (polls : Nat → Poll) (start : Time) (fuel : Nat) : Option (Time × Waited) :=
  loop look polls fuel 0 start 10

end Opsqueue.Polling
