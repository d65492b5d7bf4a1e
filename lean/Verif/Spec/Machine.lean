import Verif.Spec.Observe

/-!
# The life of one submission, as a small machine

What the database layer promises about a single submission, written without tables: a submission is a `Record`, and
each call changes it as `Record.apply` says. `C61` compares this with the database of the model.
-/

namespace Opsqueue.Machine
open SubmissionDb (InsertArgs CancelErr)

/-- What the producer said about the submission and every later status repeats. -/
structure Info where
  pfx : Option String
  total : Nat
  metadata : Option Metadata
  strategic : StrategicMetadata
deriving DecidableEq, Repr

/-- A chunk still to be worked on. -/
structure Waiting where
  index : Nat
  input : Content
  retries : Nat
deriving DecidableEq, Repr

/-- A stored output. -/
structure Output where
  index : Nat
  output : Content
  storedAt : Time
deriving DecidableEq, Repr

/-- A chunk that will not be worked on any more. -/
structure Failure where
  index : Nat
  input : Content
  message : String
  failedAt : Time
  skipped : Bool
deriving DecidableEq, Repr

/-- What is still known of the chunk size and the trace carrier of a submission that has ended: nothing. An earlier release may have
left a record that says more. -/
structure Remains where
  chunkSize : Option Int := none
  otel : String := "{}"
deriving DecidableEq, Repr

/-- Where a submission is in its life. The chunk size, and the number of chunks that were done before a failure, are not known of
some submissions of earlier releases. -/
inductive Life where
  | running (i : Info) (chunkSize : Option Int) (otel : String) (waiting : List Waiting)
  | completed (i : Info) (completedAt : Time) (rest : Remains)
  | failed (i : Info) (done : Option Nat) (culprit : Nat) (failedAt : Time) (rest : Remains)
  | cancelled (i : Info) (done : Nat) (cancelledAt : Time)
deriving DecidableEq, Repr

/-- Everything kept about one submission id. -/
structure Record where
  life : Option Life := none
  outputs : List Output := []
  failures : List Failure := []
deriving DecidableEq, Repr

/-- The chunks still to be worked on. -/
def Record.waiting (r : Record) : List Waiting :=
  match r.life with
  | some (.running _ _ _ w) => w
  | _ => []

/-- What is said about the submission, while anything is. -/
def Life.info : Life → Info
  | .running i _ _ _ | .completed i _ _ | .failed i _ _ _ _ | .cancelled i _ _ => i

/-- The submission ended before `t`. -/
def Life.endedBefore (t : Time) : Life → Bool
  | .running _ _ _ _ => false
  | .completed _ e _ | .failed _ _ _ e _ | .cancelled _ _ e => decide (e < t)

/-- The chunk given up on because the submission ended. -/
def Waiting.skip (t : Time) (c : Waiting) : Failure := ⟨c.index, c.input, "", t, true⟩

/-- The information in an insert. -/
def infoOf (a : InsertArgs) : Info := ⟨a.pfx, a.contents.length, a.metadata, a.strategic⟩

/-- The chunks of an insert. -/
def chunksOf (a : InsertArgs) : List Waiting := a.contents.zipIdx.map fun (c, i) => ⟨i, c, 0⟩

/-- What a call does to the record of submission `me`. -/
def Record.apply (me : SubmissionId) (r : Record) : Op → Record
  | .insert a now _ =>
    if a.id ≠ me then r
    else if a.contents = [] then { r with life := some (.completed (infoOf a) now {}) }
    else { r with life := some (.running (infoOf a) (some a.chunkSize) a.otel (chunksOf a)) }
  | .complete cid out t1 t2 _ =>
    if cid.submissionId ≠ me then r
    else match r.life with
      | some (.running i size otel w) =>
        if cid.chunkIndex ∈ w.map (·.index) then
          let rest := w.filter fun c => !(c.index == cid.chunkIndex)
          { r with
            life := some (if rest = [] then .completed i t2 {} else .running i size otel rest)
            outputs := r.outputs ++ [⟨cid.chunkIndex, out, t1⟩] }
        else r
      | _ => r
  | .fail cid message m t1 t2 t3 _ =>
    if cid.submissionId ≠ me then r
    else match r.life with
      | some (.running i size otel w) =>
        match w.find? fun c => c.index == cid.chunkIndex with
        | none => r
        | some c =>
          if c.retries + 1 < m then
            { r with life := some (.running i size otel
              (w.map fun d => if d.index == c.index then { d with retries := d.retries + 1 } else d)) }
          else
            { r with
              life := some (.failed i (some (i.total - w.length)) c.index t1 {})
              failures := r.failures ++ ⟨c.index, c.input, message, t2, false⟩ ::
                (w.filter fun d => !(d.index == c.index)).map (Waiting.skip t3) }
      | _ => r
  | .cancel id t1 t2 _ =>
    if id ≠ me then r
    else match r.life with
      | some (.running i _ _ w) =>
        { r with
          life := some (.cancelled i (i.total - w.length) t1)
          failures := r.failures ++ w.map (Waiting.skip t2) }
      | _ => r
  | .cleanup t _ =>
    { life := r.life.filter fun l => !l.endedBefore t
      outputs := r.outputs.filter fun o => decide (t ≤ o.storedAt)
      failures := r.failures.filter fun f => decide (t ≤ f.failedAt) }

/-- How much of a call happened. `created`: the first half of the insert of an empty submission. -/
inductive Extent where
  | nothing
  | created
  | all
deriving DecidableEq, Repr

/-- One call, of which `e` happened. -/
def Record.step (me : SubmissionId) (r : Record) (op : Op) : Extent → Record
  | .nothing => r
  | .all => r.apply me op
  | .created =>
    match op with
    | .insert a _ _ =>
      if a.id ≠ me then r else { r with life := some (.running (infoOf a) (some a.chunkSize) a.otel []) }
    | _ => r

/-- A history of calls, with what happened of each. -/
def replay (me : SubmissionId) (h : List (Op × Extent)) : Record :=
  h.foldl (fun r p => r.step me p.1 p.2) {}

/-! ### What the record shows -/

/-- The failure recorded for a chunk. -/
def Record.failureOf (r : Record) (me : SubmissionId) (i : Nat) : Res DbErr ChunkFailed :=
  match r.failures.find? fun f => f.index == i with
  | none => .err .rowNotFound
  | some f => .ok ⟨me, i, f.input, f.message, f.failedAt⟩

/-- The status of the submission. Its chunk size and trace carrier are shown while it runs and forgotten after; a chunk size that
is not known is shown as 1. -/
def Record.status (r : Record) (me : SubmissionId) : Res DbErr (Option SubmissionStatus) :=
  match r.life with
  | none => .ok none
  | some (.running i size otel w) => .ok (some (.inProgress
      { id := me, pfx := i.pfx, chunksTotal := i.total, chunksDone := i.total - w.length, chunkSize := size.getD 1,
        metadata := i.metadata, strategic := i.strategic, otel := otel }))
  | some (.completed i t rest) => .ok (some (.completed
      { id := me, pfx := i.pfx, chunksTotal := i.total, chunkSize := rest.chunkSize.getD 1, metadata := i.metadata,
        strategic := i.strategic, completedAt := t, otel := rest.otel }))
  | some (.failed i done culprit t rest) =>
    match r.failureOf me culprit with
    | .ok f => .ok (some (.failed
        { id := me, pfx := i.pfx, chunksTotal := i.total, chunksDone := done, chunkSize := rest.chunkSize.getD 1,
          metadata := i.metadata, strategic := i.strategic, failedAt := t, failedChunkId := culprit,
          otel := rest.otel } f))
    | .err e => .err e
    | .crash => .crash
  | some (.cancelled i done t) => .ok (some (.cancelled
      { id := me, pfx := i.pfx, chunksTotal := i.total, chunksDone := done, metadata := i.metadata,
        strategic := i.strategic, cancelledAt := t }))

/-- The backlog entry of a chunk. -/
def Record.chunk (r : Record) (me : SubmissionId) (i : Nat) : Res DbErr ChunkRow :=
  match r.waiting.find? fun c => c.index == i with
  | none => .err .rowNotFound
  | some c => .ok ⟨me, i, c.input, c.retries⟩

/-- The stored output of a chunk. -/
def Record.outputOf (r : Record) (me : SubmissionId) (i : Nat) : Res DbErr ChunkCompletedRow :=
  match r.outputs.find? fun o => o.index == i with
  | none => .err .rowNotFound
  | some o => .ok ⟨me, i, o.output, o.storedAt⟩

/-- The strategic metadata. -/
def Record.strategic (r : Record) : StrategicMetadata :=
  match r.life with
  | none => []
  | some l => l.info.strategic

/-- The database shows, about submission `me`, what the record says. -/
structure Shows (db : DB) (me : SubmissionId) (r : Record) : Prop where
  status : statusAt db me = r.status me
  chunk : ∀ i, chunkAt db ⟨me, i⟩ = r.chunk me i
  output : ∀ i, chunkCompletedAt db ⟨me, i⟩ = r.outputOf me i
  failure : ∀ i, chunkFailedAt db ⟨me, i⟩ = r.failureOf me i
  skipped : ∀ i, skippedAt db ⟨me, i⟩ = (r.failures.find? fun f => f.index == i).map (·.skipped)
  strategic : strategicAt db me = .ok r.strategic
  backlog : backlogSize db me = r.waiting.length

/-- What an undisturbed call answers, given the record of the submission it is about. -/
def Record.answer (r : Record) : Op → Out
  | .insert a _ _ => .inserted (.ok a.id)
  | .complete _ _ _ _ _ => .completed (.ok ())
  | .fail cid _ m _ _ _ _ =>
    match r.waiting.find? fun c => c.index == cid.chunkIndex with
    | none => .failed (.err .rowNotFound)
    | some c => .failed (.ok (decide (m ≤ c.retries + 1)))
  | .cancel id _ _ _ =>
    match r.status id with
    | .ok none => .cancelled (.err (.err (.R (.L ⟨id⟩))))
    | .ok (some (.inProgress _)) => .cancelled (.ok ())
    | .ok (some (.completed s)) => .cancelled (.err (.err (.R (.R (.completed s)))))
    | .ok (some (.failed s c)) => .cancelled (.err (.err (.R (.R (.failed s c)))))
    | .ok (some (.cancelled s)) => .cancelled (.err (.err (.R (.R (.cancelled s)))))
    | .err e => .cancelled (.err (.err (.L e)))
    | .crash => .cancelled .crash
  | .cleanup _ _ => .cleaned (.ok ())

/-- `e` is what happened of call `op` made on database `db`: all of an undisturbed call, and of one that returned
successfully (a completion report excepted, which reports success whatever happened); not all of a disturbed call
that returned an error; and `created` only of the insert of an empty submission. -/
structure Happened (db : DB) (op : Op) (e : Extent) : Prop where
  undisturbed : op.clean = op → e = .all
  success : (Opsqueue.step db op).1.isOk = true → (∀ cid out t1 t2 o, op ≠ .complete cid out t1 t2 o) → e = .all
  error : (Opsqueue.step db op).1.isErr = true → op.clean ≠ op → e ≠ .all
  created : e = .created → op.insertsEmpty = true

/-- The calls' strategic metadata are maps: no key occurs twice. -/
def MapArgs (ops : List Op) : Prop :=
  ∀ a now o, Op.insert a now o ∈ ops → (a.strategic.map (·.1)).Nodup

end Opsqueue.Machine
