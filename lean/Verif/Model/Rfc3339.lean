import Verif.Model.Decimal
import Verif.Model.Types

/-!
# The text of a time

`Serialize for DateTime<Utc>` of chrono (its source is not in /repo), by which the times of finished submissions and
failed chunks (opsqueue/src/common/submission.rs 181, 195, 212, opsqueue/src/common/chunk.rs 222) get into the answers of
the producer's HTTP interface: RFC 3339 in UTC, with as many of 0, 3, 6 or 9 decimals as are needed. A time is the number
of nanoseconds since the beginning of 1970. Simplification: of the texts that stand for a time, only the one written is
read; the server never reads one, and the client reads only what the server wrote.
-/

namespace Opsqueue.Rfc3339
open Decimal (digitChar decimal parseLoop)

/-- A leap year (chrono, used by submission.rs 181). -/
def leap (y : Nat) : Bool := y % 4 == 0 && (y % 100 != 0 || y % 400 == 0)

/-- The number of days of a year (chrono, used by submission.rs 181). -/
def yearLength (y : Nat) : Nat := if leap y then 366 else 365

/-- The numbers of days of the months of a year (chrono, used by submission.rs 181). -/
def monthLengths (y : Nat) : List Nat := [31, if leap y then 29 else 28, 31, 30, 31, 30, 31, 31, 30, 31, 30, 31]

/-- The year of a day counted from the beginning of year `y`, and its number in that year, counted from 0; `fuel` bounds
the number of years (chrono, used by submission.rs 181). -/
def yearOf : Nat → Nat → Nat → Nat × Nat
  | 0, y, d => (y, d)
  | fuel + 1, y, d => if d < yearLength y then (y, d) else yearOf fuel (y + 1) (d - yearLength y)

/-- The month of a day counted from the beginning of month `m`, and its number in that month, both counted from 0
(chrono, used by submission.rs 181). -/
def monthOf : List Nat → Nat → Nat → Nat × Nat
  | [], m, d => (m, d)
  | l :: ls, m, d => if d < l then (m, d) else monthOf ls (m + 1) (d - l)

/-- The last `k` digits of a number (chrono, used by submission.rs 181). -/
def pad : Nat → Nat → List Char
  | 0, _ => []
  | k + 1, n => pad k (n / 10) ++ [digitChar (n % 10)]

/-- The year: four digits, or more with a sign (chrono, used by submission.rs 181). -/
def yearText (y : Nat) : List Char := if y ≤ 9999 then pad 4 y else '+' :: decimal y

/-- The decimals of a second (chrono's `SecondsFormat::AutoSi`, used by submission.rs 181). -/
def fraction (nanos : Nat) : List Char :=
  if nanos = 0 then []
  else if nanos % 1000000 = 0 then '.' :: pad 3 (nanos / 1000000)
  else if nanos % 1000 = 0 then '.' :: pad 6 (nanos / 1000)
  else '.' :: pad 9 nanos

/-- The text of a time (`Serialize for DateTime<Utc>`, used by submission.rs 181, 195, 212 and chunk.rs 222). -/
def print (t : Time) : List Char :=
  let nanos := t % 1000000000
  let secs := t / 1000000000
  let (y, dy) := yearOf (secs / 86400 + 1) 1970 (secs / 86400)
  let (m, d) := monthOf (monthLengths y) 0 dy
  let s := secs % 86400
  yearText y ++ '-' :: (pad 2 (m + 1) ++ '-' :: (pad 2 (d + 1) ++ 'T' :: (pad 2 (s / 3600) ++ ':' ::
    (pad 2 (s / 60 % 60) ++ ':' :: (pad 2 (s % 60) ++ (fraction nanos ++ ['Z']))))))

/-- The first day of a year, counted from the beginning of 1970 (chrono, used by submission.rs 181). -/
def firstDay (y : Nat) : Nat := ((List.range (y - 1970)).map fun i => yearLength (1970 + i)).sum

/-- The decimals of a second, up to the final `Z` (chrono, used by submission.rs 181). -/
def readFraction : List Char → Option Nat
  | '.' :: cs =>
    let ds := cs.takeWhile (· ≠ 'Z')
    (parseLoop 0 ds).map fun n => n * 10 ^ (9 - ds.length)
  | _ => some 0

/-- The time a text stands for, if it has the form of one (`Deserialize for DateTime<Utc>`, submission.rs 181). -/
def readFields (cs : List Char) : Option Time :=
  match cs.dropWhile (· ≠ '-') with
  | '-' :: m1 :: m2 :: '-' :: d1 :: d2 :: 'T' :: h1 :: h2 :: ':' :: i1 :: i2 :: ':' :: s1 :: s2 :: rest => do
    let y ← Decimal.parse (cs.takeWhile (· ≠ '-'))
    let m ← parseLoop 0 [m1, m2]
    let d ← parseLoop 0 [d1, d2]
    let h ← parseLoop 0 [h1, h2]
    let i ← parseLoop 0 [i1, i2]
    let s ← parseLoop 0 [s1, s2]
    let nanos ← readFraction rest
    let day := firstDay y + ((monthLengths y).take (m - 1)).sum + (d - 1)
    some (((day * 86400) + h * 3600 + i * 60 + s) * 1000000000 + nanos)
  | _ => none

/-- `Deserialize for DateTime<Utc>` (submission.rs 181, 195, 212, chunk.rs 222). -/
def parse (cs : List Char) : Option Time := (readFields cs).filter fun t => print t == cs

end Opsqueue.Rfc3339
