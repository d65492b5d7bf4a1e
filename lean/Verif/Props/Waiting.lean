import Verif.Proofs.Waiting
import Verif.Proofs.Answering
import Verif.Props.Fetch

/-!
# C36: waiting requests

The server is in the state after an arbitrary history `h` of actions of any number of consumers and
producers, the completer and the clock.
-/

namespace Opsqueue
open Server
open Conn (Request Report)

/-- Full statement of C36, in a very weak form: if a request of consumer `c` for at least one chunk was
tried in vain and has not been answered, and now a chunk is free and the consumer's connection is not
busy, then *some* continuation without a further insert and without a further request of `c` answers a
request of `c`. -/
def C36_full : Prop :=
  ∀ (ttl m : Nat) (h : List Action) (c : ConnId) (r : Request) (id : ChunkId),
    let s := Server.run ttl m h
    0 < ttl → FreshIds s.calls → Unanswered s c r → r.max ≠ 0 → Idle s c → Free s id →
    ∃ es : List Action, (∀ a ∈ es, a.inserts = false) ∧ (∀ a ∈ es, a.requestsBy c = false) ∧
      answersTo s c ≠ answersTo (exec s es) c

/-- The consumer's request finds nothing; a submission is inserted and `notify_waiters` called before the
task of the request starts waiting. -/
def lostWakeup : List Action :=
  [.connect 1, .request 1 ⟨0, 1, .oldest⟩ ⟨0, fun _ => false, fun _ => []⟩, .row 1,
   .producer (.insert { id := 1, contents := [some [10]] } 0 []), .notify, .register 1 0]

/-- **C36, refuted** by a lost wake-up. Nothing but another insert or another request will ever wake
the consumer, although a chunk is free. -/
theorem C36_refuted_by_lost_wakeup : ¬ C36_full := by
  intro h
  obtain ⟨es, h1, h2, h3⟩ := h 1000 3 lostWakeup 1 ⟨0, 1, .oldest⟩ ⟨1, 0⟩ (by decide) (by decide +kernel)
    ⟨(((Server.run 1000 3 lostWakeup).conn 1).getD {}), by decide +kernel, by decide +kernel⟩ (by decide)
    (by decide +kernel) ⟨⟨⟨1, 0, some [10], 0⟩, by decide +kernel⟩, by decide +kernel⟩
  exact h3 (stuck_exec (stuck_of (s := Server.run 1000 3 lostWakeup) (c := 1)
    (by decide +kernel) (by decide +kernel)) es h1 h2).symm

/-- Consumer 1 holds the only chunk; consumer 2 is properly waiting; consumer 1 fails the chunk, which
is free again thereafter. -/
def silentRelease : List Action :=
  [.connect 1, .connect 2, .producer (.insert { id := 1, contents := [some [10]] } 0 []), .notify,
   .request 1 ⟨0, 1, .oldest⟩ ⟨0, fun _ => false, fun _ => []⟩, .row 1, .join 1,
   .request 2 ⟨0, 1, .oldest⟩ ⟨0, fun _ => true, fun _ => []⟩, .row 2, .row 2, .register 2 0,
   .report 1 (.fail ⟨1, 0⟩ "try again"), .handle true 5 5 5 [], .release true]

/-- **C36, refuted** without any race: nobody wakes the waiting consumers when a chunk becomes free
because it is given back. -/
theorem C36_refuted_by_silent_release : ¬ C36_full := by
  intro h
  obtain ⟨es, h1, h2, h3⟩ := h 1000 3 silentRelease 2 ⟨0, 1, .oldest⟩ ⟨1, 0⟩ (by decide) (by decide +kernel)
    ⟨(((Server.run 1000 3 silentRelease).conn 2).getD {}), by decide +kernel, by decide +kernel⟩ (by decide)
    (by decide +kernel) ⟨⟨⟨1, 0, some [10], 1⟩, by decide +kernel⟩, by decide +kernel⟩
  exact h3 (stuck_exec (stuck_of (s := Server.run 1000 3 silentRelease) (c := 2)
    (by decide +kernel) (by decide +kernel)) es h1 h2).symm

/-- **C36, inserts wake.** The task of request `r` is waiting when an insert succeeds. Whatever happens
then, as long as the connection stays up, the wake-up call that follows the insert (the next one, at the
latest) makes the connection try `r` again. (Missing: requests whose task is not waiting yet when the
wake-up call is made, and chunks that become free otherwise.) -/
theorem C36_insert_wakes_partial (ttl m : Nat) (h es : List Action) (c : ConnId) (k : ConnState)
    (r : Request) (a : SubmissionDb.InsertArgs) (now : Time) (o : List Fault) (id : SubmissionId)
    (hk : (Server.run ttl m h).conn c = some k) (hw : r ∈ k.waiting)
    (hok : (Opsqueue.step (Server.run ttl m h).db (.insert a now o)).1 = .inserted (.ok id))
    (hes : ∀ b ∈ es, b.notifies = false)
    (hup : ((Server.run ttl m (h ++ [.producer (.insert a now o)] ++ es)).conn c).isSome) :
    ∃ k', (Server.run ttl m (h ++ [.producer (.insert a now o)] ++ es ++ [.notify])).conn c = some k' ∧
      r ∈ k'.retry := by
  have e1 : ∀ h a, Server.run ttl m (h ++ [a]) = Server.step (Server.run ttl m h) a :=
    fun _ _ => exec_snoc _ _ _
  have e2 : ∀ h es, Server.run ttl m (h ++ es) = exec (Server.run ttl m h) es := fun _ _ => exec_append _ _ _
  rw [e2, e1] at hup
  rw [e1, e2, e1]
  generalize Server.run ttl m h = s at *
  obtain ⟨hout, ⟨id', hi, hs⟩ | ⟨hi, hs⟩⟩ := producer_cases s (.insert a now o)
  · obtain ⟨h1, h2, h3, h4, h5⟩ := dbCall_spec s (.insert a now o)
    have hc : (Opsqueue.step s.db (.insert a now o)).1.crashed = false := by rw [hok]; rfl
    have hcn : (Server.step s (.producer (.insert a now o))).conn c = some k := by
      rw [hs]
      show (dbCall s (.insert a now o)).2.conn c = some k
      rw [h4 hc]; exact hk
    have hn : 0 < (Server.step s (.producer (.insert a now o))).notifies := by rw [hs]; exact Nat.succ_pos _
    obtain ⟨⟨k', h6, h7⟩, h8⟩ := waiting_exec hcn hw hn es hes hup
    exact notify_wakes h6 h7 h8
  · exact absurd (hout.trans hok) (hi id)

/-- **C36, woken requests are served.** A request that is tried again after a wake-up call is answered
with at least one chunk if one is free, if it is served undisturbed. -/
theorem C36_served_when_woken_partial (ttl m : Nat) (h : List Action) (c : ConnId) (k : ConnState)
    (r : Request) (rest : List Request) (id : ChunkId) (offset n : Nat) (ht : 0 < ttl)
    (hf : FreshIds (Server.run ttl m h).calls) (hk : (Server.run ttl m h).conn c = some k)
    (hidle : Idle (Server.run ttl m h) c) (hr : k.retry = r :: rest) (hmax : r.max ≠ 0)
    (hfree : Free (Server.run ttl m h) id) (hn : (Server.run ttl m h).db.chunks.length < n) :
    let s := Server.run ttl m h
    ∃ ids, ids ≠ [] ∧ answersTo (exec s (.retry c (s.view offset) :: undisturbed c n)) c =
      answersTo s c ++ [(r.nonce, some ids)] ∧
      ∀ i ∈ ids, holder (exec s (.retry c (s.view offset) :: undisturbed c n)) i = some c := by
  have htt : (Server.run ttl m h).reserver.ttl = ttl := ttl_exec _ _
  have hdb := db_run ttl m h
  have hwf : ∀ k, Map.WF ((Server.run ttl m h).counters.countsOf k) := fun k =>
    MetaConc.fieldsWF_getD (fieldsWF_run ttl m h) k
  generalize Server.run ttl m h = s at *
  intro s0
  have hI : Inv s.db := by rw [hdb]; exact inv_run hf
  have hkf : k.fetching = none := by have := hidle.2; unfold fetchOf at this; rw [hk] at this; exact this
  obtain ⟨hkg, hkl⟩ := conn_eq.1 hk
  have e1 : exec s (.retry c (s.view offset) :: undisturbed c n) =
      exec (begin s c { k with retry := rest } r (s.view offset)) (undisturbed c n) := by
    show exec (Server.step s (.retry c (s.view offset))) _ = _
    have : Server.step s (.retry c (s.view offset)) =
        begin s c { k with retry := rest } r (s.view offset) := by
      simp [Server.step, State.withIdle, State.withConn, hk, hkf, hr]
    rw [this]
  obtain ⟨h1, h2, h3, h4, h5, h6⟩ := begin_served (c := c) (k := { k with retry := rest }) hI hwf (by omega) hkl r
    offset hmax hn
  rw [← e1] at h1 h2 h3
  have hne := mt h6.1 (fun hall => hall id hfree)
  refine ⟨_, hne, ?_, h3⟩
  show answersTo (exec s _) c = answersTo s c ++ _
  unfold answersTo
  rw [h1 hne, hkg]; rfl

/-- Consumer 1 waits properly; a submission is inserted; other things happen; it is woken and served. -/
example :
    let h : List Action := [.connect 1, .connect 2,
      .request 1 ⟨4, 1, .oldest⟩ ⟨0, fun _ => false, fun _ => []⟩, .row 1, .register 1 0]
    let ins : Action := .producer (.insert { id := 1, contents := [some [10], some [20]] } 0 [])
    let es : List Action := [.request 2 ⟨0, 1, .oldest⟩ ⟨0, fun _ => false, fun _ => []⟩, .row 2, .join 2,
      .tick (.advance 5)]
    let s := Server.run 1000 3 (h ++ [ins] ++ es ++ [.notify])
    ((Server.run 1000 3 h).conn 1).map (·.waiting) = some [⟨4, 1, .oldest⟩] ∧
    (∀ b ∈ es, b.notifies = false) ∧
    FreshIds s.calls ∧ Idle s 1 ∧ (s.conn 1).map (·.retry) = some [⟨4, 1, .oldest⟩] ∧
    s.reserver.isReserved ⟨1, 1⟩ = false ∧ s.db.chunks.length = 2 ∧
    answersTo (exec s (.retry 1 (s.view 0) :: undisturbed 1 3)) 1 = [(4, some [⟨1, 1⟩])] := by
  decide +kernel

/-- **C37, in the whole server.** After any history, of any number of consumers and with crashes, a consumer has received at
most as many responses with a nonce as it made requests with that nonce; and while its connection is up, every request
that it made has been answered or is still being dealt with, exactly once. -/
theorem C37_one_answer_per_request (ttl m : Nat) (h : List Action) (c : ConnId) (nonce : Nat) :
    let s := Server.run ttl m h
    let asked := askedFrom (Server.init ttl m) c h
    let answered := (answersTo s c).map (·.1)
    answered.count nonce ≤ asked.count nonce ∧
    ∀ k, s.conn c = some k → asked.count nonce = answered.count nonce + (unanswered k).count nonce := by
  have hb := Server.book_run ttl m h c
  dsimp only
  unfold answersTo
  cases hg : (Server.run ttl m h).conns.get c with
  | none =>
    refine ⟨by simp, fun k hk => ?_⟩
    have := (conn_eq.1 hk).1
    rw [hg] at this; cases this
  | some k =>
    refine ⟨hb.atMost k hg nonce, fun k' hk' => ?_⟩
    have := (conn_eq.1 hk').1
    rw [hg] at this; cases this
    exact hb.exact k hk' nonce

/-- Two requests wait, an insert wakes both, one gets the chunk and the other keeps waiting. -/
def twoWait : List Action :=
  [.connect 1, .request 1 ⟨5, 1, .oldest⟩ ⟨0, fun _ => false, fun _ => []⟩, .row 1, .register 1 0,
   .request 1 ⟨6, 1, .oldest⟩ ⟨0, fun _ => false, fun _ => []⟩, .row 1, .register 1 0,
   .producer (.insert { id := 1, contents := [some [10]] } 0 []), .notify,
   .retry 1 ⟨0, fun _ => false, fun _ => []⟩, .row 1, .join 1,
   .retry 1 ⟨0, fun _ => false, fun _ => []⟩, .row 1, .row 1]

example : askedFrom (Server.init 10 3) 1 twoWait = [5, 6] ∧
    answersTo (Server.run 10 3 twoWait) 1 = [(5, some [⟨1, 0⟩])] ∧
    ((Server.run 10 3 twoWait).conn 1).map unanswered = some [6] := by decide +kernel

end Opsqueue
