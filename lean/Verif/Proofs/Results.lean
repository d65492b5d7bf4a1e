import Verif.Spec.EndToEnd
import Verif.Proofs.Outputs
import Verif.Proofs.Progress

/-!
# Lemmas for C68: the results can always be had
-/

namespace Opsqueue.EndToEnd
open ObjectStore (Store PutResult chunkPath Plain retrieveChunk)
open Python (PyChunk Format PyErr)
open Server (ConnId ConnState Fetching fetchOf)
open Conn (Request Report)

/-- Everything a connection was given has been handed out. -/
def Given (w : World) (c : ConnId) : Prop :=
  ∀ k, w.server.conns.get c = some k →
    (∀ f, k.fetching = some f → ∀ id ∈ f.got, ∃ x ∈ w.handed, x.1.key = id) ∧
    ∀ a ∈ k.answers, ∀ ids, a.2 = some ids → ∀ id ∈ ids, ∃ x ∈ w.handed, x.1.key = id

theorem given_finishFetch {w : World} {c : ConnId} {k : ConnState} {f : Fetching} {H : List (ChunkRow × Submission)}
    (hk : w.server.conns.get c = some k) (hg : Given w c) (hH : ∀ x ∈ w.handed, x ∈ H)
    (hgot : ∀ id ∈ f.got, ∃ x ∈ H, x.1.key = id) :
    (∀ f', (Server.finishFetch k f).fetching = some f' → ∀ id ∈ f'.got, ∃ x ∈ H, x.1.key = id) ∧
    ∀ a ∈ (Server.finishFetch k f).answers, ∀ ids, a.2 = some ids → ∀ id ∈ ids, ∃ x ∈ H, x.1.key = id := by
  obtain ⟨g1, g2⟩ := hg k hk
  have up : ∀ a ∈ k.answers, ∀ ids, a.2 = some ids → ∀ id ∈ ids, ∃ x ∈ H, x.1.key = id := by
    intro a ha ids h1 id hid
    obtain ⟨x, hx, e⟩ := g2 a ha ids h1 id hid
    exact ⟨x, hH x hx, e⟩
  unfold Server.finishFetch
  split
  · exact ⟨by simp, up⟩
  · refine ⟨by simp [ConnState.answer], ?_⟩
    intro a ha ids h1 id hid
    simp only [ConnState.answer, List.mem_append, List.mem_singleton] at ha
    rcases ha with ha | rfl
    · exact up a ha ids h1 id hid
    · cases h1; exact hgot id hid

theorem given_step {base : List Char} {callback : Bytes → List Bytes} {w : World} (hi : Inv base callback w)
    {c : ConnId} (hg : Given w c) {a : Server.Action}
    (ha : (∃ r v, a = .request c r v) ∨ a = .row c ∨ a = .join c) : Given (serve w a) c := by
  have same : ∀ k, w.server.conns.get c = some k → ∀ H : List (ChunkRow × Submission), (∀ x ∈ w.handed, x ∈ H) →
      (∀ f, k.fetching = some f → ∀ id ∈ f.got, ∃ x ∈ H, x.1.key = id) ∧
      ∀ a ∈ k.answers, ∀ ids, a.2 = some ids → ∀ id ∈ ids, ∃ x ∈ H, x.1.key = id := by
    intro k hk H hH
    obtain ⟨g1, g2⟩ := hg k hk
    refine ⟨fun f hf id hid => ?_, fun a ha ids h1 id hid => ?_⟩
    · obtain ⟨x, hx, e⟩ := g1 f hf id hid; exact ⟨x, hH x hx, e⟩
    · obtain ⟨x, hx, e⟩ := g2 a ha ids h1 id hid; exact ⟨x, hH x hx, e⟩
  have hsub : ∀ x ∈ w.handed, x ∈ (serve w a).handed := fun x hx => List.mem_append_left _ hx
  intro k' hk'
  show (∀ f, k'.fetching = some f → ∀ id ∈ f.got, ∃ x ∈ (serve w a).handed, x.1.key = id) ∧ _
  replace hk' : (Server.step w.server a).conns.get c = some k' := hk'
  cases hc : w.server.conn c with
  | none =>
    have : Server.step w.server a = w.server := by
      rcases ha with ⟨r, v, rfl⟩ | rfl | rfl <;>
        simp [Server.step, Server.State.withIdle, Server.State.withFetch, Server.State.withConn, hc]
    rw [this] at hk'
    exact same k' hk' _ hsub
  | some k =>
    obtain ⟨hk, hl⟩ := Server.conn_eq.1 hc
    obtain ⟨g1, g2⟩ := hg k hk
    rcases ha with ⟨r, v, rfl⟩ | rfl | rfl
    · simp only [Server.step, Server.State.withIdle, Server.State.withConn, hc] at hk'
      split at hk'
      · exact same k' hk' _ hsub
      · unfold Server.begin at hk'
        split at hk'
        · rw [Server.get_setConn, if_pos rfl] at hk'
          cases hk'
          refine ⟨by simp [ConnState.answer], ?_⟩
          intro a ha ids h1 id hid
          simp only [ConnState.answer, List.mem_append, List.mem_singleton] at ha
          rcases ha with ha | rfl
          · exact (same k hk _ hsub).2 a ha ids h1 id hid
          · cases h1
        · dsimp only at hk'
          rw [Server.get_setConn, if_pos rfl] at hk'
          cases hk'
          refine ⟨?_, (same k hk _ hsub).2⟩
          intro f hf id hid
          cases hf
          cases hid
    · simp only [Server.step, Server.State.withFetch, Server.State.withConn, hc] at hk'
      cases hf : k.fetching with
      | none => rw [hf] at hk'; exact same k' hk' _ hsub
      | some f =>
        rw [hf] at hk'
        dsimp only at hk'
        have hgot : ∀ id ∈ f.got, ∃ x ∈ (serve w (.row c)).handed, x.1.key = id := (same k hk _ hsub).1 f hf
        cases hj : f.joining with
        | some id => rw [hj] at hk'; exact same k' hk' _ hsub
        | none =>
          rw [hj] at hk'
          dsimp only at hk'
          unfold Server.fetchRow at hk'
          split at hk'
          · rw [Server.get_setConn, if_pos rfl] at hk'
            cases hk'
            exact given_finishFetch hk hg hsub hgot
          · split at hk' <;>
            · rw [Server.get_setConn, if_pos rfl] at hk'
              cases hk'
              refine ⟨?_, (same k hk _ hsub).2⟩
              intro f' hf' id hid
              cases hf'
              exact hgot id hid
    · simp only [Server.step, Server.State.withFetch, Server.State.withConn, hc] at hk'
      cases hf : k.fetching with
      | none => rw [hf] at hk'; exact same k' hk' _ hsub
      | some f =>
        rw [hf] at hk'
        dsimp only at hk'
        cases hj : f.joining with
        | none => rw [hj] at hk'; exact same k' hk' _ hsub
        | some id =>
          rw [hj] at hk'
          dsimp only at hk'
          obtain ⟨_, hrow⟩ := hi.rows c f (Server.fetchOf_eq.2 ⟨k, hk, hl, hf⟩)
          obtain ⟨row, hr1, hr2, _⟩ := hrow id hj
          unfold Server.fetchJoin at hk'
          cases hs : (SubmissionDb.getSubmission id.submissionId ⟨[], w.server.db⟩).1 with
          | ok s =>
            rw [hs] at hk'
            dsimp only at hk'
            rw [Server.get_setConn, if_pos rfl] at hk'
            have hnew : (row, s) ∈ (serve w (.join c)).handed := by
              refine List.mem_append_right _ ?_
              simp only [handedBy, hc, hr1, hf, hj, hs, List.mem_singleton]
            have hgot : ∀ x ∈ f.got ++ [id], ∃ y ∈ (serve w (.join c)).handed, y.1.key = x := by
              intro x hx
              rcases List.mem_append.1 hx with hx | hx
              · exact (same k hk _ hsub).1 f hf x hx
              · rw [List.mem_singleton] at hx
                exact ⟨_, hnew, by rw [hx]; exact hr2⟩
            cases hk'
            split
            · exact given_finishFetch (f := { f with joining := none, got := f.got ++ [id] }) hk hg hsub hgot
            · refine ⟨?_, (same k hk _ hsub).2⟩
              intro f' hf' x hx
              cases hf'
              exact hgot x hx
          | err e =>
            rw [hs] at hk'
            simp only [Server.dropConn] at hk'
            rw [Map.get_set, if_pos rfl] at hk'
            cases hk'
            exact ⟨by simp, (same k hk _ hsub).2⟩
          | crash =>
            rw [hs] at hk'
            simp only [Server.dropConn] at hk'
            rw [Map.get_set, if_pos rfl] at hk'
            cases hk'
            exact ⟨by simp, (same k hk _ hsub).2⟩

/-! ### Events of the server only -/

theorem exec_append (base : List Char) (callback : Bytes → List Bytes) (w : World) (xs ys : List Ev) :
    exec base callback w (xs ++ ys) = exec base callback (exec base callback w xs) ys := by
  unfold exec; rw [List.foldl_append]

theorem run_append (base : List Char) (callback : Bytes → List Bytes) (ttl m : Nat) (xs ys : List Ev) :
    run base callback ttl m (xs ++ ys) = exec base callback (run base callback ttl m xs) ys :=
  exec_append _ _ _ _ _

theorem serving_server (base : List Char) (callback : Bytes → List Bytes) (acts : List Server.Action) : ∀ w : World,
    (∀ a ∈ acts, allowed a = true) →
    (exec base callback w (acts.map .server)).server = Server.exec w.server acts := by
  induction acts with
  | nil => intro w _; rfl
  | cons a acts ih =>
    intro w h
    have e : exec base callback w ((a :: acts).map .server) = exec base callback (serve w a) (acts.map .server) := by
      show exec base callback (step base callback w (.server a)) _ = _
      simp only [step, h a List.mem_cons_self, if_true]
    rw [e, ih _ fun x hx => h x (List.mem_cons_of_mem _ hx)]
    rfl

/-- The calls of a longer history. -/
theorem calls_exec (base : List Char) (callback : Bytes → List Bytes) (es : List Ev) : ∀ w : World,
    ∃ ops, (exec base callback w es).server.calls = w.server.calls ++ ops := by
  induction es with
  | nil => intro w; exact ⟨[], (List.append_nil _).symm⟩
  | cons e es ih =>
    intro w
    obtain ⟨o1, h1⟩ := calls_step base callback w e
    obtain ⟨o2, h2⟩ := ih (step base callback w e)
    exact ⟨o1 ++ o2, by rw [show exec base callback w (e :: es) = exec base callback (step base callback w e) es from rfl,
      h2, h1, List.append_assoc]⟩

theorem handed_step (base : List Char) (callback : Bytes → List Bytes) (w : World) (e : Ev) :
    ∀ x ∈ w.handed, x ∈ (step base callback w e).handed := by
  intro x hx
  cases e <;> simp only [step, upload] <;> repeat' split
  all_goals first | exact hx | exact List.mem_append_left _ hx

theorem handed_exec (base : List Char) (callback : Bytes → List Bytes) (es : List Ev) : ∀ w : World,
    ∀ x ∈ w.handed, x ∈ (exec base callback w es).handed := by
  induction es with
  | nil => intro w x h; exact h
  | cons e es ih => intro w x h; exact ih _ x (handed_step base callback w e x h)

theorem given_exec {base : List Char} {callback : Bytes → List Bytes} {c : ConnId} (acts : List Server.Action) :
    ∀ w : World, Inv base callback w → FreshIds w.server.calls → Given w c →
    (∀ a ∈ acts, (∃ r v, a = .request c r v) ∨ a = .row c ∨ a = .join c) →
    Given (exec base callback w (acts.map .server)) c := by
  induction acts with
  | nil => intro w _ _ h _; exact h
  | cons a acts ih =>
    intro w hi hf hg ha
    have hal : allowed a = true := by
      rcases ha a List.mem_cons_self with ⟨r, v, rfl⟩ | rfl | rfl <;> rfl
    have e : step base callback w (.server a) = serve w a := by simp only [step, hal, if_true]
    have hi' := step_inv hi hf (.server a)
    rw [e] at hi'
    have hc : (serve w a).server.calls = w.server.calls :=
      (Server.fetchStep_frame w.server c (ha a List.mem_cons_self)).2.1
    have := ih (serve w a) hi' (by rw [hc]; exact hf) (given_step hi hg (ha a List.mem_cons_self))
      fun x hx => ha x (List.mem_cons_of_mem _ hx)
    show Given (exec base callback (step base callback w (.server a)) (acts.map .server)) c
    rw [e]; exact this

/-! ### A consumer at work -/

/-- A chunk that was handed out is read, executed and its output stored and reported; the completer deals with the
report. -/
theorem work {base : List Char} {callback : Bytes → List Bytes} {w : World} {x : ChunkRow × Submission} {p : String}
    {input : Bytes} (hx : x ∈ w.handed) (hc : x.1.inputContent = none) (hp : x.2.pfx = some p)
    (hin : w.store.get (chunkPath base p x.1.chunkIndex .input) = some input) (hcb : callback input ≠ [])
    (c : ConnId) (t : Time) : ∃ k j,
    (exec base callback w [.take k true, .finish j 0 .ok, .send j c, .server (.handle true t t t []),
      .server (.release true)]).server = Server.exec w.server (Server.finishing c (fun _ => none) t [x.1.key]) := by
  obtain ⟨k, hk⟩ := List.getElem?_of_mem hx
  obtain ⟨out, outs, ho⟩ := List.exists_cons_of_ne_nil hcb
  refine ⟨k, w.jobs.length, ?_⟩
  have e1 : ∃ chunk, Python.fromInternal base w.store true x.1 x.2 = .ok chunk ∧ chunk.inputContent = input ∧
      chunk.submissionPrefix = some p ∧ chunk.id = x.1.key := by
    refine ⟨⟨x.1.submissionId, x.1.chunkIndex, input, x.1.retries, some p⟩, ?_, rfl, rfl, rfl⟩
    unfold Python.fromInternal
    rw [hc, hp]
    simp only [if_true, ObjectStore.retrieveChunk, hin]
  obtain ⟨chunk, e1, e2, e3, e4⟩ := e1
  have s1 : step base callback w (.take k true) = { w with jobs := w.jobs ++ [{ chunk }] } := by
    simp only [step, hk]
    rw [e1]
  obtain ⟨w1, hw1⟩ : ∃ w1, w1 = step base callback w (.take k true) := ⟨_, rfl⟩
  obtain ⟨w2, hw2⟩ : ∃ w2, w2 = step base callback w1 (.finish w.jobs.length 0 .ok) := ⟨_, rfl⟩
  have j1 : w1.jobs[w.jobs.length]? = some { chunk } := by rw [hw1, s1]; simp
  have v1 : w1.server = w.server := by rw [hw1, s1]
  have s2 : w2.server = w.server ∧ w2.jobs[w.jobs.length]? = some { chunk, ready := some (.complete x.1.key none) } := by
    simp only [step, j1, e2, ho, List.getElem?_cons_zero, Python.completeChunk, e3, ObjectStore.storeChunk, e4] at hw2
    rw [hw2]
    refine ⟨v1, ?_⟩
    have hlt : w.jobs.length < w1.jobs.length := (List.getElem?_eq_some_iff.1 j1).1
    simp [hlt]
  have s3 : step base callback w2 (.send w.jobs.length c) = serve w2 (.report c (.complete x.1.key none)) := by
    simp only [step, s2.2]
  show (exec base callback (step base callback (step base callback (step base callback w (.take k true))
    (.finish w.jobs.length 0 .ok)) (.send w.jobs.length c))
    ([.handle true t t t [], .release true].map .server)).server = _
  rw [← hw1, ← hw2, s3, serving_server _ _ _ _ (by simp [allowed])]
  rw [show (serve w2 (.report c (.complete x.1.key none))).server =
    Server.step w2.server (.report c (.complete x.1.key none)) from rfl, s2.1]
  rfl

theorem calm_tasks {base : List Char} {callback : Bytes → List Bytes} {w : World} {e : Ev} (h : Calm e) :
    (step base callback w e).tasks = w.tasks := by
  cases e <;> simp only [Calm] at h
  all_goals simp only [step]
  all_goals repeat' split
  all_goals rfl

theorem fresh_act {s : Server.State} {a : Server.Action} (h : ∀ call, a ≠ .producer call) (hf : FreshIds s.calls) :
    FreshIds (Server.step s a).calls := by
  rcases Server.calls_step s a with h1 | ⟨call, h1, _⟩ | ⟨w, n1, n2, n3, o, c, r, q, _, _, h1⟩
  · rw [h1]; exact hf
  · exact absurd h1 (h call)
  · rw [h1]; exact Server.fresh_append hf (by simp [Server.insertId_reportOp])

theorem calm_fresh {base : List Char} {callback : Bytes → List Bytes} {w : World} {e : Ev} (h : Calm e)
    (hf : FreshIds w.server.calls) : FreshIds (step base callback w e).server.calls := by
  cases e with
  | server a =>
    simp only [step]
    split
    · refine fresh_act ?_ hf
      rintro call rfl
      exact h
    · exact hf
  | send k c =>
    simp only [step]
    repeat' split
    · exact fresh_act (by simp) hf
    · exact hf
    · exact hf
  | start => exact h.elim
  | upload => exact h.elim
  | submit => exact h.elim
  | take => simp only [step]; repeat' split
            all_goals exact hf
  | finish => simp only [step]; repeat' split
              all_goals exact hf

theorem calm_exec {base : List Char} {callback : Bytes → List Bytes} (es : List Ev) : ∀ w : World,
    (∀ e ∈ es, Calm e) → FreshIds w.server.calls → Inv base callback w →
    (exec base callback w es).tasks = w.tasks ∧ FreshIds (exec base callback w es).server.calls ∧
    Inv base callback (exec base callback w es) := by
  induction es with
  | nil => intro w _ hf hi; exact ⟨rfl, hf, hi⟩
  | cons e es ih =>
    intro w h hf hi
    have hc := h e List.mem_cons_self
    obtain ⟨h1, h2, h3⟩ := ih (step base callback w e) (fun x hx => h x (List.mem_cons_of_mem _ hx))
      (calm_fresh hc hf) (step_inv hi hf e)
    exact ⟨h1.trans (calm_tasks hc), h2, h3⟩

/-- All the chunks. -/
theorem work_all {base : List Char} {callback : Bytes → List Bytes} {p : String} {t : Task} (htp : t.pfx = p)
    (htd : t.done = t.contents.length) (hcb : ∀ b ∈ t.contents, callback b ≠ []) (c : ConnId) (now : Time)
    (ids : List ChunkId) : ∀ w : World, Inv base callback w → FreshIds w.server.calls → t ∈ w.tasks →
    (∀ id ∈ ids, ∃ x ∈ w.handed, x.1.key = id ∧ x.1.inputContent = none ∧ x.2.pfx = some p ∧
      x.1.chunkIndex < t.contents.length) →
    ∃ evs, (∀ e ∈ evs, Calm e) ∧ (exec base callback w evs).server =
      Server.exec w.server (Server.finishing c (fun _ => none) now ids) := by
  induction ids with
  | nil => intro w _ _ _ _; exact ⟨[], by simp, rfl⟩
  | cons id ids ih =>
    intro w hi hf ht hids
    obtain ⟨x, hx, rfl, h1, h2, h3⟩ := hids id List.mem_cons_self
    have hin : w.store.get (chunkPath base p x.1.chunkIndex .input) = some (t.contents[x.1.chunkIndex]'h3) := by
      have := (hi.inputs t ht).2 x.1.chunkIndex (by rw [htd]; exact h3)
      rw [htp] at this
      rw [this, List.getElem?_eq_getElem h3]
    obtain ⟨k, j, hw⟩ := work hx h1 h2 hin (hcb _ (List.getElem_mem h3)) c now
    obtain ⟨es, hes⟩ : ∃ es : List Ev, es = [.take k true, .finish j 0 .ok, .send j c,
      .server (.handle true now now now []), .server (.release true)] := ⟨_, rfl⟩
    rw [← hes] at hw
    have hcalm : ∀ e ∈ es, Calm e := by rw [hes]; simp [Calm]
    obtain ⟨c1, c2, c3⟩ := calm_exec es w hcalm hf hi
    obtain ⟨evs, e1, e2⟩ := ih (exec base callback w es) c3 c2 (by rw [c1]; exact ht) (by
      intro id hid
      obtain ⟨y, hy, h⟩ := hids id (List.mem_cons_of_mem _ hid)
      exact ⟨y, handed_exec base callback es w y hy, h⟩)
    refine ⟨es ++ evs, ?_, ?_⟩
    · intro e he
      rcases List.mem_append.1 he with he | he
      · exact hcalm e he
      · exact e1 e he
    · rw [exec_append, e2, hw, ← Server.exec_append]
      rfl

end Opsqueue.EndToEnd
