import Verif.Model.Reconnect
import Verif.Model.Client

/-!
# A consumer client and its connections

`Model/Reconnect` (`OuterClient`, opsqueue/src/consumer/client.rs 48-192) put together with `Model/Client` (`Client`,
client.rs 248-522), one for each connection made: how a call over a connection ends, and whether the connection is healthy, is
now determined by what has happened on the connection.
-/

namespace Opsqueue.Recovery

open Reconnect (Result Phase)

/-- The three operations of a consumer, client.rs 77, 106 and 134. -/
inductive Op where
  | reserve (max : Nat) (strategy : Strategy)
  | complete (id : ChunkId) (output : Content)
  | fail (id : ChunkId) (failure : String)
deriving DecidableEq, Repr

/-- A call. `inner`: its number among the calls of its connection, once it has a nonce (client.rs 445; only
`reserve_chunks`). -/
structure Job where
  op : Op
  inner : Option Nat := none
deriving DecidableEq, Repr

/-- The consumer client; `conns`: the connections made so far; `jobs`: the calls made so far. -/
structure State where
  outer : Reconnect.State := {}
  conns : List Client.State := []
  jobs : List Job := []
deriving DecidableEq, Repr

/-- What happens on a connection apart from the calls: the iterations of `background_task`, client.rs 327-435. See
`Client.Event`. -/
inductive Incoming where
  | cancelled
  | tick
  | closed
  | readError (sinkClosed : Bool)
  | ping
  | unreadable
  | sync (nonce : Nat) (contents : Conn.Response) (sendOk : ChunkId → Bool)
  | expired (id : ChunkId) (sendOk : Bool)
  | init

/-- The event of `Model/Client`. -/
def Incoming.event : Incoming → Client.Event
  | .cancelled => .cancelled
  | .tick => .tick
  | .closed => .closed
  | .readError b => .readError b
  | .ping => .ping
  | .unreadable => .unreadable
  | .sync n r ok => .sync n r ok
  | .expired id ok => .expired id ok
  | .init => .init

/-- What can happen. `connect i m`: an attempt to connect, which fails or leads to a connection on which `m` heartbeats may be
missed. `request i`: the call gets its nonce (client.rs 445). `send i ok`: its message is sent (450 or 465).
`finish i`: it ends (451-452). `drop i sent`: the caller gives it up, possibly with the message on its way.
`incoming c e`: on connection `c`. -/
inductive Event where
  | call (op : Op)
  | check (i : Nat)
  | connect (i : Nat) (m : Option Nat)
  | store (i : Nat)
  | load (i : Nat)
  | request (i : Nat)
  | send (i : Nat) (ok : Bool)
  | finish (i : Nat)
  | reset (i : Nat)
  | drop (i : Nat) (sent : Bool)
  | incoming (c : Nat) (e : Incoming)

/-- The connection call `i` is using, with its state. -/
def connOf (s : State) (i : Nat) : Option (Nat × Client.State) :=
  match s.outer.calls[i]? with
  | some (.busy c) => s.conns[c]?.map (c, ·)
  | _ => none

/-- Something happens on connection `c`. -/
def onConn (s : State) (c : Nat) (e : Client.Event) : State :=
  { s with conns := s.conns.modify c (Client.step · e) }

/-- A step of the reconnecting client. -/
def outerStep (s : State) (e : Reconnect.Event) : State := { s with outer := Reconnect.step s.outer e }

/-- `reserve_chunks`, client.rs 475-486: what it makes of the outcome of `sync_request`. -/
def resultOf : Client.Outcome → Result
  | .error => .failed
  | .response none => .misused
  | .response (some _) => .ok

/-- The send of a report, client.rs 488-522, which is all there is to it. -/
def report (s : State) (i c : Nat) (closed : Bool) (ok : Bool) (e : Bool → Client.Event) : State :=
  outerStep (onConn s c (e ok)) (.finish i (if ok && !closed then .ok else .failed))

/-- One step. -/
def step (s : State) : Event → State
  | .call op => { outerStep s .call with jobs := s.jobs ++ [{ op }] }
  | .check i => outerStep s (.check i)
  -- `Client::new`, client.rs 264-320
  | .connect i m =>
    match m with
    | none => outerStep s (.connect i false)
    | some m =>
      if s.outer.calls[i]? = some .connecting then
        { outerStep s (.connect i true) with conns := s.conns ++ [Client.init m] }
      else s
  | .store i => outerStep s (.store i)
  | .load i => outerStep s (.load i)
  -- `next_nonce_with_oneshot`, client.rs 445
  | .request i =>
    match connOf s i, s.jobs[i]? with
    | some (c, cl), some ⟨.reserve max st, none⟩ =>
      { onConn s c (.call max st) with jobs := s.jobs.set i ⟨.reserve max st, some cl.calls.length⟩ }
    | _, _ => s
  -- `ws_sink.send`, client.rs 450 and 465
  | .send i ok =>
    match connOf s i, s.jobs[i]? with
    | some (c, _), some ⟨.reserve _ _, some j⟩ => onConn s c (.send j ok)
    | some (c, cl), some ⟨.complete id output, _⟩ => report s i c cl.sinkClosed ok (.complete id output)
    | some (c, cl), some ⟨.fail id failure, _⟩ => report s i c cl.sinkClosed ok (.fail id failure)
    | _, _ => s
  -- client.rs 450-452
  | .finish i =>
    match connOf s i, s.jobs[i]? with
    | some (_, cl), some ⟨.reserve _ _, some j⟩ =>
      match cl.calls[j]?.bind Client.Call.outcome with
      | some o => outerStep s (.finish i (resultOf o))
      | none => s
    | _, _ => s
  | .reset i => outerStep s (.reset i)
  -- dropping the future
  | .drop i sent =>
    let s' := match connOf s i, s.jobs[i]? with
      | some (c, _), some ⟨.reserve _ _, some j⟩ => onConn s c (.abandon j sent)
      | some (c, _), some ⟨.complete id output, _⟩ => onConn s c (.complete id output sent)
      | some (c, _), some ⟨.fail id failure, _⟩ => onConn s c (.fail id failure sent)
      | _, _ => s
    outerStep s' (.drop i)
  -- an iteration of `background_task`; it is cancelled only when nobody uses the connection any more (`DropGuard`,
  -- client.rs 253)
  | .incoming c e =>
    match e with
    | .cancelled =>
      if s.outer.slot = some c ∨ .busy c ∈ s.outer.calls ∨ .connected c ∈ s.outer.calls then s
      else onConn s c .cancelled
    | e =>
      let s' := onConn s c e.event
      match s'.conns[c]? with
      | some cl => if cl.healthy then s' else outerStep s' (.unhealthy c)
      | none => s'

/-- A run from `s`. -/
def exec (s : State) (es : List Event) : State := es.foldl step s

/-- A run of a new client. -/
def run (es : List Event) : State := exec {} es

/-- `is_healthy`, client.rs 177-180. -/
def isHealthy (s : State) : Bool :=
  match s.outer.slot with
  | none => false
  | some c => (s.conns[c]?.map Client.State.healthy).getD false

end Opsqueue.Recovery
