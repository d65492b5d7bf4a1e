import Verif.Spec.Delivery
import Verif.Proofs.Holding
import Verif.Proofs.EndToEnd
import Verif.Proofs.Calls
import Verif.Proofs.Settled
import Verif.Props.Cleanup

/-!
# Lemmas about what a consumer gets
-/

namespace Opsqueue.Delivery
open Server (ConnId ConnState Fetching fetchOf answersTo)
open Conn (Request)

theorem run_snoc (ttl m : Nat) (h : List Server.Action) (a : Server.Action) :
    run ttl m (h ++ [a]) = step (run ttl m h) a := by
  unfold run exec; rw [List.foldl_append]; rfl

theorem srun_snoc (ttl m : Nat) (h : List Server.Action) (a : Server.Action) :
    Server.run ttl m (h ++ [a]) = Server.step (Server.run ttl m h) a := Server.exec_snoc _ _ _

theorem server_step (s : State) (a : Server.Action) : (step s a).server = Server.step s.server a := rfl

theorem server_run (ttl m : Nat) (h : List Server.Action) : (run ttl m h).server = Server.run ttl m h := by
  induction h using snoc_induction with
  | nil => rfl
  | snoc h a ih => rw [run_snoc, srun_snoc, server_step, ih]

theorem fetching_eq (s : State) (c : ConnId) : fetching s c = fetchOf s.server c := rfl

theorem finish_current (s : State) (c : ConnId) (n : Nat) (got : List (ChunkRow × Submission)) :
    (finish s c n got).current = s.current := by unfold finish; split <;> rfl

theorem finish_sent (s : State) (c : ConnId) (n : Nat) (got : List (ChunkRow × Submission)) :
    (finish s c n got).sent = s.sent ++ if got = [] then [] else [(c, n, got)] := by
  unfold finish
  split
  · simp
  · rename_i h
    rw [if_neg h]

theorem currentOf_set (s : State) (c c' : ConnId) (k : Current) (t : State) (h : t.current = s.current.set c k) :
    t.currentOf c' = if c = c' then k else s.currentOf c' := by
  unfold State.currentOf
  rw [h, Map.get_set]
  split <;> rfl

/-- Other connections are not touched. -/
theorem currentOf_other {s : State} {a : Server.Action} {c : ConnId} (ha : a.actor ≠ some c) :
    (step s a).currentOf c = s.currentOf c := by
  have hs : ∀ (s : State) (c' : ConnId) (k : Current), c' ≠ c →
      State.currentOf { s with current := s.current.set c' k } c = s.currentOf c := by
    intro s c' k hne
    rw [currentOf_set s c' c k _ rfl, if_neg hne]
  have hf : ∀ c' n got, (finish s c' n got).currentOf c = s.currentOf c := by
    intro c' n got; unfold State.currentOf; rw [finish_current]
  cases a with
  | request c' r v =>
    have hne : c' ≠ c := fun h => ha (by rw [h]; rfl)
    show (start s c').currentOf c = _
    unfold start; split
    · exact hs _ _ _ hne
    · rfl
  | retry c' v =>
    have hne : c' ≠ c := fun h => ha (by rw [h]; rfl)
    show (start s c').currentOf c = _
    unfold start; split
    · exact hs _ _ _ hne
    · rfl
  | row c' =>
    have hne : c' ≠ c := fun h => ha (by rw [h]; rfl)
    show (row s c').currentOf c = _
    unfold row; split
    · split
      · exact hf _ _ _
      · exact hs _ _ _ hne
    · rfl
  | join c' =>
    have hne : c' ≠ c := fun h => ha (by rw [h]; rfl)
    show (join s c').currentOf c = _
    unfold join; split
    · split
      · dsimp only
        split
        · exact hf _ _ _
        · exact hs _ _ _ hne
      · rfl
    · rfl
  | _ => rfl

/-- The fetch of a connection, after the history `h`. -/
structure Fetch (ttl m : Nat) (h : List Server.Action) (c : ConnId) (f : Fetching) (k : Current) : Prop where
  began : ∃ h1 b h2, h = h1 ++ b :: h2 ∧ (∀ q, q <+: h2 → Trying (Server.run ttl m (h1 ++ b :: q)) c f.req) ∧
    (∀ row ∈ f.rows, row ∈ (Server.run ttl m h1).db.chunks) ∧
    (∀ id, f.joining = some id → ∃ row, k.row = some row ∧ row.key = id ∧ row ∈ (Server.run ttl m h1).db.chunks) ∧
    ∀ v ∈ k.got, v.1 ∈ (Server.run ttl m h1).db.chunks ∧ ∃ q, q <+: h2 ∧
      (SubmissionDb.getSubmission v.1.submissionId ⟨[], (Server.run ttl m (h1 ++ b :: q)).db⟩).1 = .ok v.2
  got : k.got.map (·.1.key) = f.got

/-- An answer. -/
def Answer (ttl m : Nat) (h : List Server.Action) (x : ConnId × Nat × List (ChunkRow × Submission)) : Prop :=
  ∃ h1 b h2 h3 r, h = h1 ++ b :: h2 ++ h3 ∧ r.nonce = x.2.1 ∧
    (∀ q, q <+: h2 → Trying (Server.run ttl m (h1 ++ b :: q)) x.1 r) ∧
    ∀ v ∈ x.2.2, v.1 ∈ (Server.run ttl m h1).db.chunks ∧ ∃ q, q <+: h2 ∧
      (SubmissionDb.getSubmission v.1.submissionId ⟨[], (Server.run ttl m (h1 ++ b :: q)).db⟩).1 = .ok v.2

theorem Answer.mono {ttl m : Nat} {h : List Server.Action} {x : ConnId × Nat × List (ChunkRow × Submission)}
    (ha : Answer ttl m h x) (a : Server.Action) : Answer ttl m (h ++ [a]) x := by
  obtain ⟨h1, b, h2, h3, r, e, e1, e2, e3⟩ := ha
  exact ⟨h1, b, h2, h3 ++ [a], r, by rw [e]; simp, e1, e2, e3⟩

/-- The fetch goes on over a step. -/
theorem Fetch.go {ttl m : Nat} {h : List Server.Action} {c : ConnId} {f f' : Fetching} {k k' : Current}
    (hF : Fetch ttl m h c f k) (a : Server.Action) (hf' : fetchOf (Server.run ttl m (h ++ [a])) c = some f')
    (hreq : f'.req = f.req)
    (hrows : ∀ row ∈ f'.rows, row ∈ f.rows)
    (hjoin : ∀ id, f'.joining = some id → (f.joining = some id ∧ k'.row = k.row) ∨
      ∃ row ∈ f.rows, k'.row = some row ∧ row.key = id)
    (hgot : ∀ v ∈ k'.got, v ∈ k.got ∨ ∃ id, f.joining = some id ∧ k.row = some v.1 ∧
      (SubmissionDb.getSubmission id.submissionId ⟨[], (Server.run ttl m h).db⟩).1 = .ok v.2)
    (hids : k'.got.map (·.1.key) = f'.got) : Fetch ttl m (h ++ [a]) c f' k' := by
  obtain ⟨⟨h1, b, h2, e, e1, e2, e3, e4⟩, hg⟩ := hF
  refine ⟨⟨h1, b, h2 ++ [a], by rw [e]; simp, ?_, fun row hr => e2 row (hrows row hr), ?_, ?_⟩, hids⟩
  · intro q hq
    rcases List.prefix_concat_iff.1 hq with rfl | hq
    · refine ⟨f', ?_, rfl⟩
      rw [← hf', e]; simp
    · rw [hreq]; exact e1 q hq
  · intro id hj
    rcases hjoin id hj with ⟨hj, hk⟩ | ⟨row, hr, hk, hid⟩
    · rw [hk]; exact e3 id hj
    · exact ⟨row, hk, hid, e2 row hr⟩
  · intro v hv
    rcases hgot v hv with hv | ⟨id, hj, hk, hsub⟩
    · obtain ⟨i1, q, i2, i3⟩ := e4 v hv
      exact ⟨i1, q, i2.trans (List.prefix_append _ _), i3⟩
    · obtain ⟨row, hr, hid, hm⟩ := e3 id hj
      rw [hk] at hr
      cases hr
      refine ⟨hm, h2, List.prefix_append _ _, ?_⟩
      rw [← e]
      have : v.1.submissionId = id.submissionId := by rw [← hid]; rfl
      rw [this]; exact hsub

theorem Fetch.answer {ttl m : Nat} {h : List Server.Action} {c : ConnId} {f : Fetching} {k : Current}
    (hF : Fetch ttl m h c f k) (a : Server.Action) {got : List (ChunkRow × Submission)}
    (hgot : ∀ v ∈ got, v ∈ k.got ∨ ∃ id, f.joining = some id ∧ k.row = some v.1 ∧
      (SubmissionDb.getSubmission id.submissionId ⟨[], (Server.run ttl m h).db⟩).1 = .ok v.2) :
    Answer ttl m (h ++ [a]) (c, f.req.nonce, got) := by
  obtain ⟨⟨h1, b, h2, e, e1, e2, e3, e4⟩, hg⟩ := hF
  refine ⟨h1, b, h2, [a], f.req, by rw [e], rfl, e1, ?_⟩
  intro v hv
  rcases hgot v hv with hv | ⟨id, hj, hk, hsub⟩
  · exact e4 v hv
  · obtain ⟨row, hr, hid, hm⟩ := e3 id hj
    rw [hk] at hr
    cases hr
    refine ⟨hm, h2, List.prefix_refl _, ?_⟩
    rw [← e]
    have : v.1.submissionId = id.submissionId := by rw [← hid]; rfl
    rw [this]; exact hsub


theorem passive {s : Server.State} {a : Server.Action} {c : ConnId} (ha : a.actor ≠ some c) :
    (∀ f, fetchOf (Server.step s a) c = some f → fetchOf s c = some f) ∧
    answersTo (Server.step s a) c = answersTo s c := by
  cases hk : s.conns.get c with
  | none =>
    have := Server.conns_none hk ha
    refine ⟨fun f hf => ?_, by unfold answersTo; rw [this, hk]⟩
    obtain ⟨k, h, _⟩ := Server.fetchOf_eq.1 hf
    rw [this] at h; cases h
  | some k =>
    obtain ⟨k', hk', hp⟩ := Server.passive_step hk ha
    have h2 : answersTo (Server.step s a) c = k'.answers := by unfold answersTo; rw [hk']; rfl
    have h3 : answersTo s c = k.answers := by unfold answersTo; rw [hk]; rfl
    rw [h2, h3]
    cases hp with
    | same => exact ⟨fun f hf => (by
        obtain ⟨k2, h, hl, hf⟩ := Server.fetchOf_eq.1 hf
        rw [hk'] at h; cases h
        exact Server.fetchOf_eq.2 ⟨_, hk, hl, hf⟩), rfl⟩
    | wake _ => exact ⟨fun f hf => (by
        obtain ⟨k2, h, hl, hf⟩ := Server.fetchOf_eq.1 hf
        rw [hk'] at h; cases h
        exact Server.fetchOf_eq.2 ⟨_, hk, hl, hf⟩), rfl⟩
    | unhold => exact ⟨fun f hf => (by
        obtain ⟨k2, h, hl, hf⟩ := Server.fetchOf_eq.1 hf
        rw [hk'] at h; cases h
        exact Server.fetchOf_eq.2 ⟨_, hk, hl, hf⟩), rfl⟩
    | crashed => exact ⟨fun f hf => (by
        obtain ⟨k2, h, hl, hf⟩ := Server.fetchOf_eq.1 hf
        rw [hk'] at h; cases h
        cases hl), rfl⟩

/-- The answers with chunks in a list of answers. -/
def withChunks (l : List (Nat × Conn.Response)) : List (Nat × List ChunkId) :=
  l.filterMap fun x => match x.2 with
    | some (id :: ids) => some (x.1, id :: ids)
    | _ => none

theorem answersWithChunks_eq (s : Server.State) (c : ConnId) :
    answersWithChunks s c = withChunks (answersTo s c) := rfl

theorem withChunks_append (l l' : List (Nat × Conn.Response)) : withChunks (l ++ l') = withChunks l ++ withChunks l' :=
  List.filterMap_append

theorem dropConn_self (s : Server.State) (c : ConnId) (k : ConnState) (hk : s.conns.get c = some k) :
    fetchOf (Server.dropConn s c k) c = none ∧ answersTo (Server.dropConn s c k) c = answersTo s c := by
  constructor
  · unfold fetchOf Server.State.conn Server.dropConn
    simp [Map.get_set, Option.filter_some]
  · unfold answersTo Server.dropConn
    simp [Map.get_set, hk]

theorem fetchOf_none {s : Server.State} {c : ConnId} (h : s.conn c = none) : fetchOf s c = none := by
  unfold fetchOf; rw [h]; rfl

theorem answersTo_conn {s : Server.State} {c : ConnId} {k : ConnState} (h : s.conn c = some k) :
    answersTo s c = k.answers := by
  unfold answersTo; rw [(Server.conn_eq.1 h).1]; rfl

/-- Actions of a consumer that do not bear on what it gets. -/
theorem quiet {s : Server.State} {a : Server.Action} {c : ConnId}
    (ha : a = .connect c ∨ a = .fetchFails c ∨ (∃ i, a = .register c i) ∨ (∃ r, a = .report c r) ∨ a = .disconnect c) :
    (∀ f, fetchOf (Server.step s a) c = some f → fetchOf s c = some f) ∧
    withChunks (answersTo (Server.step s a) c) = withChunks (answersTo s c) := by
  have same : Server.step s a = s → _ := fun h =>
    (⟨fun f hf => by rw [h] at hf; exact hf, by rw [h]⟩ :
      (∀ f, fetchOf (Server.step s a) c = some f → fetchOf s c = some f) ∧
      withChunks (answersTo (Server.step s a) c) = withChunks (answersTo s c))
  rcases ha with rfl | rfl | ⟨i, rfl⟩ | ⟨r, rfl⟩ | rfl
  · cases hc : s.conns.get c with
    | some k => exact same (by simp only [Server.step, hc])
    | none =>
      have hs : Server.step s (.connect c) = s.setConn c {} := by simp only [Server.step, hc]
      rw [hs]
      refine ⟨fun f hf => ?_, ?_⟩
      · rw [Server.fetchOf_setConn _ _ _ rfl] at hf; cases hf
      · rw [Server.answersTo_setConn]; unfold answersTo; rw [hc]; rfl
  · cases hk : s.conn c with
    | none => exact same (by simp only [Server.step, Server.State.withFetch, Server.State.withConn, hk])
    | some k =>
      cases hf : k.fetching with
      | none => exact same (by simp only [Server.step, Server.State.withFetch, Server.State.withConn, hk, hf])
      | some f =>
        have hl := (Server.conn_eq.1 hk).2
        have hs : Server.step s (.fetchFails c) = s.setConn c (k.answer f.req (some [])) := by
          simp only [Server.step, Server.State.withFetch, Server.State.withConn, hk, hf]
        rw [hs]
        refine ⟨fun f' hf' => ?_, ?_⟩
        · rw [Server.fetchOf_setConn] at hf'
          · cases hf'
          · exact hl
        · rw [Server.answersTo_setConn, answersTo_conn hk]
          show withChunks (k.answers ++ [_]) = _
          rw [withChunks_append]
          exact List.append_nil _
  · cases hk : s.conn c with
    | none => exact same (by simp only [Server.step, Server.State.withConn, hk])
    | some k =>
      cases hi : k.spawned[i]? with
      | none => exact same (by simp only [Server.step, Server.State.withConn, hk, hi])
      | some r =>
        have hl := (Server.conn_eq.1 hk).2
        have hs : Server.step s (.register c i) = s.setConn c
            { k with spawned := k.spawned.eraseIdx i, waiting := k.waiting ++ [r] } := by
          simp only [Server.step, Server.State.withConn, hk, hi]
        rw [hs]
        refine ⟨fun f' hf' => ?_, ?_⟩
        · rw [Server.fetchOf_setConn] at hf'
          · exact Server.fetchOf_eq.2 ⟨k, (Server.conn_eq.1 hk).1, hl, hf'⟩
          · exact hl
        · rw [Server.answersTo_setConn, answersTo_conn hk]
  · have : (Server.step s (.report c r)).conns = s.conns := by
      simp only [Server.step, Server.State.withIdle, Server.State.withConn]
      split
      · rfl
      · split <;> rfl
    unfold fetchOf answersTo Server.State.conn
    rw [this]
    exact ⟨fun f h => h, rfl⟩
  · cases hk : s.conn c with
    | none => exact same (by simp only [Server.step, Server.State.withConn, hk])
    | some k =>
      have hs : Server.step s (.disconnect c) = Server.dropConn s c k := by
        simp only [Server.step, Server.State.withConn, hk]
      have := dropConn_self s c k (Server.conn_eq.1 hk).1
      rw [hs, this.1, this.2]
      exact ⟨fun f h => (by cases h), rfl⟩

/-- The state after a history. -/
structure Good (ttl m : Nat) (h : List Server.Action) : Prop where
  fetch : ∀ c f, fetchOf (Server.run ttl m h) c = some f → Fetch ttl m h c f ((run ttl m h).currentOf c)
  sent : ∀ x ∈ (run ttl m h).sent, Answer ttl m h x
  ans : ∀ c, idsSent (run ttl m h) c = answersWithChunks (Server.run ttl m h) c

theorem idsSent_append (s t : State) (c : ConnId) (new : List (ConnId × Nat × List (ChunkRow × Submission)))
    (h : t.sent = s.sent ++ new) :
    idsSent t c = idsSent s c ++ (new.filter (·.1 == c)).map fun x => (x.2.1, x.2.2.map (·.1.key)) := by
  unfold idsSent; rw [h, List.filter_append, List.map_append]

/-- What a step does for the consumer that acts (or for nobody). -/
theorem good_of {ttl m : Nat} {h : List Server.Action} (hG : Good ttl m h) (a : Server.Action)
    (new : List (ConnId × Nat × List (ChunkRow × Submission)))
    (hnew : (run ttl m (h ++ [a])).sent = (run ttl m h).sent ++ new)
    (hone : ∀ x ∈ new, a.actor = some x.1)
    (hans : ∀ x ∈ new, Answer ttl m (h ++ [a]) x)
    (hown : ∀ c, a.actor = some c →
      withChunks (answersTo (Server.run ttl m (h ++ [a])) c) =
        withChunks (answersTo (Server.run ttl m h) c) ++ new.map fun x => (x.2.1, x.2.2.map (·.1.key)))
    (hfetch : ∀ c, a.actor = some c → ∀ f, fetchOf (Server.run ttl m (h ++ [a])) c = some f →
      Fetch ttl m (h ++ [a]) c f ((run ttl m (h ++ [a])).currentOf c)) : Good ttl m (h ++ [a]) where
  fetch c f hf := by
    by_cases hc : a.actor = some c
    · exact hfetch c hc f hf
    · have hf0 := hf
      rw [srun_snoc] at hf
      have h1 := (passive hc).1 f hf
      have hF := hG.fetch c f h1
      have hcur : (run ttl m (h ++ [a])).currentOf c = (run ttl m h).currentOf c := by
        rw [run_snoc]; exact currentOf_other hc
      rw [hcur]
      exact hF.go a hf0 rfl (fun row hr => hr) (fun id hj => .inl ⟨hj, rfl⟩) (fun v hv => .inl hv) hF.got
  sent x hx := by
    rw [hnew] at hx
    rcases List.mem_append.1 hx with hx | hx
    · exact (hG.sent x hx).mono a
    · exact hans x hx
  ans c := by
    rw [idsSent_append _ _ c new hnew, hG.ans c]
    by_cases hc : a.actor = some c
    · rw [answersWithChunks_eq, answersWithChunks_eq, hown c hc]
      congr 1
      congr 1
      rw [List.filter_eq_self]
      intro x hx
      have := hone x hx
      rw [hc] at this
      cases this
      simp
    · have h1 : new.filter (·.1 == c) = [] := by
        rw [List.filter_eq_nil_iff]
        intro x hx he
        have := hone x hx
        rw [show x.1 = c by simpa using he] at this
        exact hc this
      rw [h1, List.map_nil, List.append_nil, answersWithChunks_eq, answersWithChunks_eq, srun_snoc, (passive hc).2]

theorem good_quiet {ttl m : Nat} {h : List Server.Action} (hG : Good ttl m h) {a : Server.Action}
    (hsent : (run ttl m (h ++ [a])).sent = (run ttl m h).sent)
    (hcur : ∀ c f, fetchOf (Server.run ttl m h) c = some f →
      (run ttl m (h ++ [a])).currentOf c = (run ttl m h).currentOf c)
    (hq : ∀ c, a.actor = some c → (∀ f, fetchOf (Server.run ttl m (h ++ [a])) c = some f →
        fetchOf (Server.run ttl m h) c = some f) ∧
      withChunks (answersTo (Server.run ttl m (h ++ [a])) c) = withChunks (answersTo (Server.run ttl m h) c)) :
    Good ttl m (h ++ [a]) := by
  refine good_of hG a [] (by rw [hsent, List.append_nil]) (fun x h => by cases h) (fun x h => by cases h) ?_ ?_
  · intro c hc
    rw [(hq c hc).2]; simp
  · intro c hc f hf
    have h1 := (hq c hc).1 f hf
    rw [hcur c f h1]
    exact (hG.fetch c f h1).go a hf rfl (fun row hr => hr) (fun id hj => .inl ⟨hj, rfl⟩) (fun v hv => .inl hv)
      (hG.fetch c f h1).got

theorem good_start {ttl m : Nat} {h : List Server.Action} (hG : Good ttl m h) {a : Server.Action} {c : ConnId}
    (ha : a.actor = some c) (hstep : step (run ttl m h) a =
      { start (run ttl m h) c with server := Server.step (run ttl m h).server a })
    (hbegin : fetchOf (Server.run ttl m h) c = none →
      (Server.step (Server.run ttl m h) a = Server.run ttl m h ∨
       ∃ k0 k r v, (Server.run ttl m h).conn c = some k0 ∧ k.live = true ∧ k.answers = k0.answers ∧
        Server.step (Server.run ttl m h) a = Server.begin (Server.run ttl m h) c k r v))
    (hbusy : fetchOf (Server.run ttl m h) c ≠ none → Server.step (Server.run ttl m h) a = Server.run ttl m h) :
    Good ttl m (h ++ [a]) := by
  have hsent : (run ttl m (h ++ [a])).sent = (run ttl m h).sent := by
    rw [run_snoc, hstep]
    show (start (run ttl m h) c).sent = _
    unfold start; split <;> rfl
  have hsrv : Server.run ttl m (h ++ [a]) = Server.step (Server.run ttl m h) a := srun_snoc _ _ _ _
  cases hf0 : fetchOf (Server.run ttl m h) c with
  | some f =>
    have hs := hbusy (by rw [hf0]; simp)
    refine good_quiet hG hsent ?_ ?_
    · intro c' f' hf'
      by_cases hc : a.actor = some c'
      · rw [ha] at hc; cases hc
        rw [run_snoc, hstep]
        unfold State.currentOf start
        rw [fetching_eq, server_run, hf0]
      · rw [run_snoc]; exact currentOf_other hc
    · intro c' hc
      rw [hsrv, hs]
      exact ⟨fun f h => h, rfl⟩
  | none =>
    refine good_of hG a [] (by rw [hsent, List.append_nil]) (fun x h => by cases h) (fun x h => by cases h) ?_ ?_
    · intro c' hc
      rw [ha] at hc; cases hc
      rw [hsrv]
      rcases hbegin hf0 with hs | ⟨k0, k, r, v, hk0, hl, hka, hs⟩
      · rw [hs]; simp
      · rw [hs, answersTo_conn hk0]
        unfold Server.begin
        split
        · rw [Server.answersTo_setConn]
          show withChunks (k.answers ++ [_]) = _
          rw [withChunks_append, hka]; rfl
        · dsimp only
          rw [Server.answersTo_setConn, hka]; simp
    · intro c' hc f hf
      rw [ha] at hc; cases hc
      have hf1 := hf
      rw [hsrv] at hf
      rcases hbegin hf0 with hs | ⟨k0, k, r, v, hk0, hl, hka, hs⟩
      · rw [hs, hf0] at hf; cases hf
      · rw [hs] at hf
        unfold Server.begin at hf
        split at hf
        · rw [Server.fetchOf_setConn] at hf
          · cases hf
          · exact hl
        · dsimp only at hf
          rw [Server.fetchOf_setConn _ _ _ (by exact hl)] at hf
          have hf := Option.some.inj hf
          have hcur : (run ttl m (h ++ [a])).currentOf c = {} := by
            rw [run_snoc, hstep]
            unfold start
            rw [fetching_eq, server_run, hf0]
            exact (currentOf_set (run ttl m h) c c {} _ rfl).trans (if_pos rfl)
          rw [hcur]
          refine ⟨⟨h, a, [], rfl, ?_, ?_, ?_, ?_⟩, ?_⟩
          · intro q hq
            rw [List.prefix_nil.1 hq]
            exact ⟨f, hf1, rfl⟩
          · intro row hr
            rw [← hf] at hr
            exact mem_chunkRows hr
          · intro id hj
            rw [← hf] at hj; cases hj
          · intro v hv; cases hv
          · rw [← hf]; rfl

theorem good_row {ttl m : Nat} {h : List Server.Action} (hG : Good ttl m h) (c : ConnId) :
    Good ttl m (h ++ [.row c]) := by
  have hsrv : Server.run ttl m (h ++ [.row c]) = Server.step (Server.run ttl m h) (.row c) := srun_snoc _ _ _ _
  have hrun : run ttl m (h ++ [.row c]) = { row (run ttl m h) c with
      server := Server.step (run ttl m h).server (.row c) } := run_snoc _ _ _ _
  have noop : row (run ttl m h) c = run ttl m h → Server.step (Server.run ttl m h) (.row c) = Server.run ttl m h →
      Good ttl m (h ++ [.row c]) := by
    intro h1 h2
    refine good_quiet hG (by rw [hrun, h1]) (fun c' f hf => by rw [hrun, h1]; rfl) ?_
    intro c' _
    rw [hsrv, h2]
    exact ⟨fun f h => h, rfl⟩
  cases hf0 : fetchOf (Server.run ttl m h) c with
  | none =>
    refine noop ?_ ?_
    · unfold row; rw [fetching_eq, server_run, hf0]
    · simp only [Server.step, Server.State.withFetch, Server.State.withConn]
      unfold fetchOf at hf0
      cases hk : (Server.run ttl m h).conn c with
      | none => rfl
      | some k =>
        rw [hk] at hf0
        have : k.fetching = none := hf0
        simp only [this]
  | some f =>
    obtain ⟨k, hkc, hkl, hkf⟩ := Server.fetchOf_eq.1 hf0
    have hk := Server.conn_eq.2 ⟨hkc, hkl⟩
    have hF := hG.fetch c f hf0
    rcases Server.row_cases hk hkf with ⟨hj, hs⟩ | ⟨hj, hr, hs⟩ | ⟨r, rest, hj, hr, hcase⟩
    · refine noop ?_ hs
      obtain ⟨id, hj⟩ := Option.isSome_iff_exists.1 hj
      obtain ⟨req, rows, joining, got⟩ := f
      dsimp only at hj
      unfold row; rw [fetching_eq, server_run, hf0, hj]
    · -- the end of the rows
      have hrow : row (run ttl m h) c = finish (run ttl m h) c f.req.nonce ((run ttl m h).currentOf c).got := by
        obtain ⟨req, rows, joining, got⟩ := f
        dsimp only at hj hr
        unfold row; rw [fetching_eq, server_run, hf0, hj, hr]
      have hl : (Server.finishFetch k f).live = true := by
        unfold Server.finishFetch; cases f.got <;> exact hkl
      refine good_of hG _ (if ((run ttl m h).currentOf c).got = [] then []
        else [(c, f.req.nonce, ((run ttl m h).currentOf c).got)]) ?_ ?_ ?_ ?_ ?_
      · rw [hrun, hrow]; exact finish_sent _ _ _ _
      · intro x hx
        split at hx
        · cases hx
        · rw [List.mem_singleton.1 hx]; rfl
      · intro x hx
        split at hx
        · cases hx
        · rw [List.mem_singleton.1 hx]
          exact hF.answer _ fun v hv => .inl hv
      · intro c' hc
        cases hc
        rw [hsrv, hs, Server.answersTo_setConn, answersTo_conn hk]
        have hg := hF.got
        unfold Server.finishFetch
        cases hgot : ((run ttl m h).currentOf c).got with
        | nil => rw [hgot] at hg; rw [← hg]; simp
        | cons x xs =>
          rw [hgot] at hg
          rw [← hg]
          show withChunks (k.answers ++ [_]) = _
          rw [withChunks_append, if_neg (by simp)]
          rfl
      · intro c' hc f' hf'
        cases hc
        rw [hsrv, hs, Server.fetchOf_setConn _ _ _ hl, Server.finishFetch_fetching] at hf'
        cases hf'
    · -- a row
      have hrow : row (run ttl m h) c = { run ttl m h with
          current := (run ttl m h).current.set c { (run ttl m h).currentOf c with row := some r } } := by
        obtain ⟨req, rows, joining, got⟩ := f
        dsimp only at hj hr
        have hff : fetching (run ttl m h) c = some ⟨req, rows, joining, got⟩ := by
          rw [fetching_eq, server_run]; exact hf0
        unfold row; rw [hff, hj, hr]
      have hcur : (run ttl m (h ++ [.row c])).currentOf c = { (run ttl m h).currentOf c with row := some r } := by
        rw [hrun, hrow]
        exact (currentOf_set (run ttl m h) c c _ _ rfl).trans (if_pos rfl)
      refine good_of hG _ [] (by rw [hrun, hrow]; simp) (fun x h => by cases h) (fun x h => by cases h) ?_ ?_
      · intro c' hc
        cases hc
        rw [hsrv, answersTo_conn hk]
        rcases hcase with ⟨_, hs⟩ | ⟨_, hs⟩
        · rw [hs, Server.answersTo_setConn]; simp
        · rw [hs, Server.answersTo_setConn]; simp
      · intro c' hc f' hf'
        cases hc
        have hf1 := hf'
        rw [hsrv] at hf'
        rw [hcur]
        rcases hcase with ⟨_, hs⟩ | ⟨_, hs⟩
        · rw [hs, Server.fetchOf_setConn _ _ _ (by exact hkl)] at hf'
          have e := Option.some.inj hf'
          refine hF.go _ hf1 (by rw [← e]) ?_ ?_ (fun v hv => .inl hv) ?_
          · intro x hx; rw [← e] at hx; rw [hr]; exact List.mem_cons_of_mem _ hx
          · intro id hid; rw [← e] at hid; dsimp only at hid; rw [hj] at hid; cases hid
          · rw [← e]; exact hF.got
        · rw [hs, Server.fetchOf_setConn _ _ _ (by exact hkl)] at hf'
          have e := Option.some.inj hf'
          refine hF.go _ hf1 (by rw [← e]) ?_ ?_ (fun v hv => .inl hv) ?_
          · intro x hx; rw [← e] at hx; rw [hr]; exact List.mem_cons_of_mem _ hx
          · intro id hid; rw [← e] at hid; dsimp only at hid
            exact .inr ⟨r, by rw [hr]; exact List.mem_cons_self .., rfl, Option.some.inj hid⟩
          · rw [← e]; exact hF.got

theorem good_join {ttl m : Nat} {h : List Server.Action} (hG : Good ttl m h) (c : ConnId) :
    Good ttl m (h ++ [.join c]) := by
  have hsrv : Server.run ttl m (h ++ [.join c]) = Server.step (Server.run ttl m h) (.join c) := srun_snoc _ _ _ _
  have hrun : run ttl m (h ++ [.join c]) = { join (run ttl m h) c with
      server := Server.step (run ttl m h).server (.join c) } := run_snoc _ _ _ _
  have noop : join (run ttl m h) c = run ttl m h →
      ((∀ f, fetchOf (Server.step (Server.run ttl m h) (.join c)) c = some f → fetchOf (Server.run ttl m h) c = some f) ∧
        answersTo (Server.step (Server.run ttl m h) (.join c)) c = answersTo (Server.run ttl m h) c) →
      Good ttl m (h ++ [.join c]) := by
    intro h1 h2
    refine good_quiet hG (by rw [hrun, h1]) (fun c' f hf => by rw [hrun, h1]; rfl) ?_
    intro c' hc
    cases hc
    rw [hsrv, h2.2]
    exact ⟨h2.1, rfl⟩
  cases hf0 : fetchOf (Server.run ttl m h) c with
  | none =>
    have hs : Server.step (Server.run ttl m h) (.join c) = Server.run ttl m h := by
      simp only [Server.step, Server.State.withFetch, Server.State.withConn]
      unfold fetchOf at hf0
      cases hk : (Server.run ttl m h).conn c with
      | none => rfl
      | some k =>
        rw [hk] at hf0
        have : k.fetching = none := hf0
        simp only [this]
    refine noop ?_ (by rw [hs]; exact ⟨fun f h => (by rw [hf0] at h; cases h), rfl⟩)
    unfold join; rw [fetching_eq, server_run, hf0]
  | some f =>
    obtain ⟨k, hkc, hkl, hkf⟩ := Server.fetchOf_eq.1 hf0
    have hk := Server.conn_eq.2 ⟨hkc, hkl⟩
    have hF := hG.fetch c f hf0
    rcases Server.join_cases hk hkf with ⟨hj, hs⟩ | ⟨id, hj, ⟨sub, hsub, hs⟩ | ⟨hsub, hs⟩⟩
    · refine noop ?_ (by rw [hs]; exact ⟨fun f h => h, rfl⟩)
      obtain ⟨req, rows, joining, got⟩ := f
      dsimp only at hj
      unfold join; rw [fetching_eq, server_run, hf0, hj]
    · obtain ⟨h1, b, h2, _, _, _, e3, _⟩ := hF.began
      obtain ⟨r, hr, hrid, _⟩ := e3 id hj
      have hjoin : join (run ttl m h) c =
          let got := ((run ttl m h).currentOf c).got ++ [(r, sub)]
          if got.length = f.req.max then finish (run ttl m h) c f.req.nonce got
          else { run ttl m h with current := (run ttl m h).current.set c { row := none, got } } := by
        obtain ⟨req, rows, joining, got⟩ := f
        dsimp only at hj
        have hff : fetching (run ttl m h) c = some ⟨req, rows, joining, got⟩ := by
          rw [fetching_eq, server_run]; exact hf0
        have hdb : (SubmissionDb.getSubmission id.submissionId ⟨[], (run ttl m h).server.db⟩).1 = .ok sub := by
          rw [server_run]; exact hsub
        unfold join; rw [hff, hj, hr]
        dsimp only
        rw [hdb]
      have hlen : (((run ttl m h).currentOf c).got ++ [(r, sub)]).length = (f.joined id).got.length := by
        have := congrArg List.length hF.got
        rw [List.length_map] at this
        simp [Server.Fetching.joined, this]
      have hids : (((run ttl m h).currentOf c).got ++ [(r, sub)]).map (·.1.key) = (f.joined id).got := by
        rw [List.map_append, hF.got]
        simp [Server.Fetching.joined, hrid]
      have hvals : ∀ v ∈ ((run ttl m h).currentOf c).got ++ [(r, sub)], v ∈ ((run ttl m h).currentOf c).got ∨
          ∃ id, f.joining = some id ∧ ((run ttl m h).currentOf c).row = some v.1 ∧
            (SubmissionDb.getSubmission id.submissionId ⟨[], (Server.run ttl m h).db⟩).1 = .ok v.2 := by
        intro v hv
        rcases List.mem_append.1 hv with hv | hv
        · exact .inl hv
        · rw [List.mem_singleton.1 hv]
          exact .inr ⟨id, hj, hr, hsub⟩
      dsimp only at hjoin
      by_cases hmax : (f.joined id).got.length = f.req.max
      · rw [hlen, if_pos hmax] at hjoin
        rw [if_pos hmax] at hs
        have hl : (Server.finishFetch k (f.joined id)).live = true := by
          unfold Server.finishFetch; cases (f.joined id).got <;> exact hkl
        refine good_of hG _ [(c, f.req.nonce, ((run ttl m h).currentOf c).got ++ [(r, sub)])] ?_ ?_ ?_ ?_ ?_
        · rw [hrun, hjoin]
          exact (finish_sent _ _ _ _).trans (by rw [if_neg (by simp)])
        · intro x hx; rw [List.mem_singleton.1 hx]; rfl
        · intro x hx
          rw [List.mem_singleton.1 hx]
          exact hF.answer _ hvals
        · intro c' hc
          cases hc
          rw [hsrv, hs, Server.answersTo_setConn, answersTo_conn hk]
          unfold Server.finishFetch
          rw [← hids]
          cases hgot : ((run ttl m h).currentOf c).got with
          | nil =>
            show withChunks (k.answers ++ [_]) = _
            rw [withChunks_append]; rfl
          | cons x xs =>
            show withChunks (k.answers ++ [_]) = _
            rw [withChunks_append]; rfl
        · intro c' hc f' hf'
          cases hc
          rw [hsrv, hs, Server.fetchOf_setConn _ _ _ hl, Server.finishFetch_fetching] at hf'
          cases hf'
      · rw [hlen, if_neg hmax] at hjoin
        rw [if_neg hmax] at hs
        have hcur : (run ttl m (h ++ [.join c])).currentOf c =
            { row := none, got := ((run ttl m h).currentOf c).got ++ [(r, sub)] } := by
          rw [hrun, hjoin]
          exact (currentOf_set (run ttl m h) c c _ _ rfl).trans (if_pos rfl)
        refine good_of hG _ [] (by rw [hrun, hjoin]; simp) (fun x h => by cases h) (fun x h => by cases h) ?_ ?_
        · intro c' hc
          cases hc
          rw [hsrv, hs, Server.answersTo_setConn, answersTo_conn hk]; simp
        · intro c' hc f' hf'
          cases hc
          have hf1 := hf'
          rw [hsrv, hs, Server.fetchOf_setConn _ _ _ (by exact hkl)] at hf'
          have e := Option.some.inj hf'
          rw [hcur]
          refine hF.go _ hf1 (by rw [← e]; rfl) ?_ ?_ hvals ?_
          · intro x hx; rw [← e] at hx; exact hx
          · intro id' hid; rw [← e] at hid; cases hid
          · rw [← e]; exact hids
    · refine noop ?_ ?_
      · obtain ⟨req, rows, joining, got⟩ := f
        dsimp only at hj
        unfold join; rw [fetching_eq, server_run, hf0, hj]
        cases ((run ttl m h).currentOf c).row with
        | none => rfl
        | some r =>
          dsimp only
          split
          · rename_i sub hsub'
            exact absurd hsub' (hsub sub)
          · rfl
      · have := dropConn_self _ c k hkc
        rw [hs, this.1, this.2]
        exact ⟨fun f h => (by cases h), rfl⟩

theorem good_run (ttl m : Nat) (h : List Server.Action) : Good ttl m h := by
  induction h using snoc_induction with
  | nil =>
    refine ⟨fun c f hf => ?_, fun x hx => (by cases hx), fun c => rfl⟩
    cases hf
  | snoc h a ih =>
    have calm : (a.actor = none ∨ ∃ c, a.actor = some c ∧ (a = .connect c ∨ a = .fetchFails c ∨
        (∃ i, a = .register c i) ∨ (∃ r, a = .report c r) ∨ a = .disconnect c)) →
        step (run ttl m h) a = { run ttl m h with server := Server.step (run ttl m h).server a } →
        Good ttl m (h ++ [a]) := by
      intro hc hstep
      refine good_quiet ih (by rw [run_snoc, hstep]) (fun c f _ => by rw [run_snoc, hstep]; rfl) ?_
      intro c ha
      rcases hc with hc | ⟨c', hc, hq⟩
      · rw [hc] at ha; cases ha
      · rw [hc] at ha; cases ha
        rw [srun_snoc]
        exact quiet hq
    cases a with
    | connect c => exact calm (.inr ⟨c, rfl, .inl rfl⟩) rfl
    | fetchFails c => exact calm (.inr ⟨c, rfl, .inr (.inl rfl)⟩) rfl
    | register c i => exact calm (.inr ⟨c, rfl, .inr (.inr (.inl ⟨i, rfl⟩))⟩) rfl
    | report c r => exact calm (.inr ⟨c, rfl, .inr (.inr (.inr (.inl ⟨r, rfl⟩)))⟩) rfl
    | disconnect c => exact calm (.inr ⟨c, rfl, .inr (.inr (.inr (.inr rfl)))⟩) rfl
    | row c => exact good_row ih c
    | join c => exact good_join ih c
    | request c r v =>
      refine good_start ih (c := c) rfl rfl ?_ ?_
      · intro hf
        cases hk : (Server.run ttl m h).conn c with
        | none => exact .inl (by simp only [Server.step, Server.State.withIdle, Server.State.withConn, hk])
        | some k =>
          have hkf : k.fetching = none := by unfold fetchOf at hf; rw [hk] at hf; exact hf
          exact .inr ⟨k, k, r, v, rfl, (Server.conn_eq.1 hk).2, rfl, Server.request_cases hk hkf r v⟩
      · intro hf
        obtain ⟨f, hf⟩ := Option.ne_none_iff_exists'.1 hf
        obtain ⟨k, hkc, hkl, hkf⟩ := Server.fetchOf_eq.1 hf
        exact Server.idle_noop (Server.conn_eq.2 ⟨hkc, hkl⟩) hkf _
    | retry c v =>
      refine good_start ih (c := c) rfl rfl ?_ ?_
      · intro hf
        cases hk : (Server.run ttl m h).conn c with
        | none => exact .inl (by simp only [Server.step, Server.State.withIdle, Server.State.withConn, hk])
        | some k =>
          have hkf : k.fetching = none := by unfold fetchOf at hf; rw [hk] at hf; exact hf
          cases hr : k.retry with
          | nil => exact .inl (by simp [Server.step, Server.State.withIdle, Server.State.withConn, hk, hkf, hr])
          | cons r rest =>
            exact .inr ⟨k, { k with retry := rest }, r, v, rfl, (Server.conn_eq.1 hk).2, rfl,
              by simp [Server.step, Server.State.withIdle, Server.State.withConn, hk, hkf, hr]⟩
      · intro hf
        obtain ⟨f, hf⟩ := Option.ne_none_iff_exists'.1 hf
        obtain ⟨k, hkc, hkl, hkf⟩ := Server.fetchOf_eq.1 hf
        exact Server.idle_noop (Server.conn_eq.2 ⟨hkc, hkl⟩) hkf _
    | handle w n1 n2 n3 o => exact calm (.inl rfl) rfl
    | release b => exact calm (.inl rfl) rfl
    | producer call => exact calm (.inl rfl) rfl
    | notify => exact calm (.inl rfl) rfl
    | tick t => exact calm (.inl rfl) rfl

theorem answers_run (ttl m : Nat) (h : List Server.Action) (c : ConnId) :
    (run ttl m h).server = Server.run ttl m h ∧ idsSent (run ttl m h) c = answersWithChunks (Server.run ttl m h) c :=
  ⟨server_run ttl m h, (good_run ttl m h).ans c⟩

theorem fresh_prefix {ttl m : Nat} {h1 h2 : List Server.Action} (hf : FreshIds (Server.run ttl m (h1 ++ h2)).calls) :
    FreshIds (Server.run ttl m h1).calls := by
  obtain ⟨ops, e⟩ := Server.calls_prefix ttl m h1 h2
  rw [e] at hf
  exact hf.prefix

theorem inv_server {ttl m : Nat} {h : List Server.Action} (hf : FreshIds (Server.run ttl m h).calls) :
    Inv (Server.run ttl m h).db := by
  rw [Server.db_run]; exact inv_run hf

theorem status_of_get {db : DB} (hI : Inv db) {id : SubmissionId} {sub : Submission}
    (h : (SubmissionDb.getSubmission id ⟨[], db⟩).1 = .ok sub) : statusAt db id = .ok (some (.inProgress sub)) := by
  cases hs : Stmt.selectSubmission id db with
  | none =>
    simp [SubmissionDb.getSubmission, Sql.bind_run, Sql.mapErr_run, Sql.query_nil, hs, Sql.throw_run] at h
  | some s =>
    have : s = sub := by
      simpa [SubmissionDb.getSubmission, Sql.bind_run, Sql.mapErr_run, Sql.query_nil, hs, Sql.pure_run] using h
    subst this
    obtain ⟨r, hr, rfl, rfl⟩ := selectSubmission_some hs
    exact statusAt_sub hI hr

theorem as_stored (ttl m : Nat) (h : List Server.Action) (hf : FreshIds (Server.run ttl m h).calls)
    (c : Server.ConnId) (n : Nat) (vals : List (ChunkRow × Submission))
    (hs : (c, n, vals) ∈ (run ttl m h).sent) :
    ∃ h1 b h2 h3 r, h = h1 ++ b :: h2 ++ h3 ∧ r.nonce = n ∧
      (∀ q, q <+: h2 → Trying (Server.run ttl m (h1 ++ b :: q)) c r) ∧
      ∀ chunk sub, (chunk, sub) ∈ vals →
        chunkAt (Server.run ttl m h1).db chunk.key = .ok chunk ∧
        ∃ q, q <+: h2 ∧
          statusAt (Server.run ttl m (h1 ++ b :: q)).db chunk.submissionId = .ok (some (.inProgress sub)) := by
  obtain ⟨h1, b, h2, h3, r, e, e1, e2, e3⟩ := (good_run ttl m h).sent _ hs
  refine ⟨h1, b, h2, h3, r, e, e1, e2, fun chunk sub hv => ?_⟩
  obtain ⟨i1, q, i2, i3⟩ := e3 (chunk, sub) hv
  subst e
  refine ⟨?_, q, i2, ?_⟩
  · have hf1 : FreshIds (Server.run ttl m h1).calls := by
      rw [List.append_assoc] at hf; exact fresh_prefix hf
    exact (chunkAt_ok_iff (inv_server hf1).chunkKeys).2 ⟨i1, rfl⟩
  · obtain ⟨rest, rfl⟩ := i2
    have hf1 : FreshIds (Server.run ttl m (h1 ++ b :: q)).calls := by
      have : h1 ++ b :: (q ++ rest) ++ h3 = (h1 ++ b :: q) ++ (rest ++ h3) := by simp
      rw [this] at hf; exact fresh_prefix hf
    exact status_of_get (inv_server hf1) i3

/-- Calls are only added. -/
theorem calls_mono {ttl m : Nat} {h h1 h2 : List Server.Action} (e : h = h1 ++ h2) {op : Op}
    (hop : op ∈ (Server.run ttl m h1).calls) : op ∈ (Server.run ttl m h).calls := by
  obtain ⟨ops, e'⟩ := Server.calls_prefix ttl m h1 h2
  rw [e, e']; exact List.mem_append_left _ hop

theorem as_given (ttl m : Nat) (h : List Server.Action) (hf : FreshIds (Server.run ttl m h).calls)
    (c : Server.ConnId) (n : Nat) (vals : List (ChunkRow × Submission))
    (hs : (c, n, vals) ∈ (run ttl m h).sent) (chunk : ChunkRow) (sub : Submission)
    (hv : (chunk, sub) ∈ vals) :
    ∃ a now o, Op.insert a now o ∈ (Server.run ttl m h).calls ∧
      chunk.submissionId = a.id ∧ a.contents[chunk.chunkIndex]? = some chunk.inputContent ∧
      sub.id = a.id ∧ sub.pfx = a.pfx ∧ sub.chunksTotal = a.contents.length ∧ sub.chunkSize = a.chunkSize ∧
      sub.metadata = a.metadata ∧ sub.strategic = a.strategic ∧ sub.otel = a.otel := by
  obtain ⟨h1, b, h2, h3, r, e, e1, e2, e3⟩ := as_stored ttl m h hf c n vals hs
  obtain ⟨i1, q, ⟨rest, i2⟩, i3⟩ := e3 chunk sub hv
  have eh1 : h = h1 ++ (b :: h2 ++ h3) := by rw [e]; simp
  have ehq : h = (h1 ++ b :: q) ++ (rest ++ h3) := by rw [e, ← i2]; simp
  have hf1 : FreshIds (Server.run ttl m h1).calls := by rw [eh1] at hf; exact fresh_prefix hf
  have hfq : FreshIds (Server.run ttl m (h1 ++ b :: q)).calls := by rw [ehq] at hf; exact fresh_prefix hf
  have hm : chunk ∈ (Opsqueue.run (Server.run ttl m h1).calls).chunks := by
    rw [← Server.db_run]
    exact ((chunkAt_ok_iff (inv_server hf1).chunkKeys).1 i1).1
  obtain ⟨a, now, o, ha, hid, hc⟩ := (prov_run _ hf1).chunk chunk hm
  have i3' := i3
  rw [Server.db_run] at i3
  obtain ⟨a', now', o', ha', hid', g1, g2, g3, g4, g5⟩ := C21_attributes_partial _ hfq _ _ i3
  have := insert_unique hf (calls_mono eh1 ha) (calls_mono ehq ha') (hid.trans hid'.symm)
  injection this with hab
  subst hab
  have hsid : sub.id = chunk.submissionId := by
    obtain ⟨r', _, hr1, hr2⟩ := statusAt_inProgress i3
    rw [hr2]; exact hr1
  exact ⟨a, now, o, calls_mono eh1 ha, hid.symm, hc, hsid.trans hid.symm, g1, g2, (g5 sub rfl).1, g3, g4, (g5 sub rfl).2⟩

theorem retries_sent (ttl m : Nat) (h : List Server.Action) (hf : FreshIds (Server.run ttl m h).calls)
    (c : Server.ConnId) (n : Nat) (vals : List (ChunkRow × Submission))
    (hs : (c, n, vals) ∈ (run ttl m h).sent) (chunk : ChunkRow) (sub : Submission)
    (hv : (chunk, sub) ∈ vals) :
    chunk.retries ≤ ((Server.run ttl m h).calls.filter (Op.fails chunk.key)).length ∧
    chunk.retries < max 1 m := by
  obtain ⟨h1, b, h2, h3, r, e, e1, e2, e3⟩ := as_stored ttl m h hf c n vals hs
  obtain ⟨i1, -⟩ := e3 chunk sub hv
  have eh1 : h = h1 ++ (b :: h2 ++ h3) := by rw [e]; simp
  have hf1 : FreshIds (Server.run ttl m h1).calls := by rw [eh1] at hf; exact fresh_prefix hf
  have hm : chunk ∈ (Opsqueue.run (Server.run ttl m h1).calls).chunks := by
    rw [← Server.db_run]
    exact ((chunkAt_ok_iff (inv_server hf1).chunkKeys).1 i1).1
  obtain ⟨a, now, o, ha, hid, hc⟩ := (prov_run _ hf1).chunk chunk hm
  obtain ⟨pre, post, hpp⟩ := List.append_of_mem ha
  have hpp : (Server.run ttl m h1).calls = (pre ++ [.insert a now o]) ++ post := by rw [hpp]; simp
  have hm' := hm
  rw [hpp] at hm hf1
  obtain ⟨j1, -, j3⟩ := retries_run hf1 hm hid.symm
  refine ⟨?_, j3 m fun f m' t1 t2 t3 o' hop => Server.budget_run (ttl := ttl) (h := h1) (by
    rw [hpp]; exact List.mem_append_right _ hop)⟩
  obtain ⟨ops, e'⟩ := Server.calls_prefix ttl m h1 (b :: h2 ++ h3)
  rw [eh1, e', hpp, List.filter_append, List.filter_append, List.length_append, List.length_append]
  omega

end Opsqueue.Delivery
