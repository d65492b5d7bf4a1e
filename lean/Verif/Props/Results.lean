import Verif.Proofs.Results
import Verif.Props.EndToEnd
import Verif.Props.Progress

/-!
# C68: the results can always be had

Producers, server, consumers and object store are in the state after an arbitrary history `h` (with crashes, lost
connections, failed uploads, chunks that were given out and forgotten, and so on). A submission that is in progress can
then be brought to its end by the ordinary working of server and consumers alone (`Calm`), and its producer gets the
results of all its operations.
-/

namespace Opsqueue.EndToEnd
open ObjectStore (Store PutResult chunkPath Plain retrieveChunk)
open Python (PyChunk Format PyErr)
open Server (ConnId)

theorem serve_server (w : World) (a : Server.Action) : (serve w a).server = Server.step w.server a := rfl

theorem server_step (base : List Char) (callback : Bytes → List Bytes) (w : World) (e : Ev) :
    (step base callback w e).server = w.server ∨ ∃ a, (step base callback w e).server = Server.step w.server a := by
  cases e <;> simp only [step, upload] <;> repeat' split
  all_goals first | exact .inl rfl | exact .inr ⟨_, serve_server w _⟩

theorem reach_run (base : List Char) (callback : Bytes → List Bytes) (ttl m : Nat) (h : List Ev) :
    ∃ acts, (run base callback ttl m h).server = Server.run ttl m acts := by
  refine snoc_induction (P := fun h => ∃ acts, (run base callback ttl m h).server = Server.run ttl m acts)
    ⟨[], rfl⟩ ?_ h
  rintro h e ⟨acts, ih⟩
  rw [run_snoc]
  rcases server_step base callback (run base callback ttl m h) e with h1 | ⟨a, h1⟩
  · exact ⟨acts, by rw [h1, ih]⟩
  · refine ⟨acts ++ [a], ?_⟩
    rw [h1, ih]
    exact (Server.exec_append _ acts [a]).symm

theorem exists_unused (l : Map ConnId Server.ConnState) : ∃ c, l.get c = none := by
  have : ∃ b : Nat, ∀ c : Nat, b ≤ c → l.get c = none := by
    induction l with
    | nil => exact ⟨0, fun _ _ => rfl⟩
    | cons x l ih =>
      obtain ⟨b, hb⟩ := ih
      refine ⟨max b (x.1 + 1), fun c hc => ?_⟩
      have h1 := hb c (Nat.le_trans (Nat.le_max_left _ _) hc)
      have h2 : ¬ x.1 = c := fun e => absurd hc (by
        have e : (x.1 : Nat) = c := e
        rw [← e]
        exact fun h => absurd h (by
          have := Nat.le_max_right b (x.1 + 1)
          exact fun h => absurd (Nat.le_trans this h) (Nat.not_succ_le_self _)))
      simp only [Map.get, List.find?_cons, decide_eq_false h2]
      exact h1
  obtain ⟨b, hb⟩ := this
  exact ⟨b, hb b (Nat.le_refl _)⟩

/-- **C68.** A submission of the operations `ops` in chunks of `k` is in progress, and the callback does not raise for
any of its chunks. Unless the failure report of one of its chunks had already arrived at the server, the ordinary
working of server and consumers can complete it, and the producer that then asks for the results gets those of all
operations, in order. -/
theorem C68_results_can_always_be_had {α : Type} (F : Format α) (hF : F.Faithful) (g : α → Except PyErr α)
    (base : List Char) (ttl maxRetries : Nat) (ht : 0 < ttl) (k : Int) (ops : List α) (chunks : List Bytes)
    (hchunks : Python.chunkIterator F k ops = some (chunks.map .ok)) (hne : chunks ≠ [])
    (hg : ∀ input ∈ chunks, ∃ output, Python.rawCallback F g input = .ok output) (h : List Ev)
    (hf : FreshIds (run base (applying F g) ttl maxRetries h).server.calls)
    (hm : Machine.MapArgs (run base (applying F g) ttl maxRetries h).server.calls)
    (p : String) (hs : Started h p chunks) (id : SubmissionId) (sub : Submission)
    (hst : statusAt (run base (applying F g) ttl maxRetries h).server.db id = .ok (some (.inProgress sub)))
    (hp : sub.pfx = some p)
    (hq : ∀ c cid msg, (c, .fail cid msg) ∈ (run base (applying F g) ttl maxRetries h).server.queue →
      cid.submissionId ≠ id) :
    ∃ more s rs, (∀ e ∈ more, Calm e) ∧
      statusAt (run base (applying F g) ttl maxRetries (h ++ more)).server.db id = .ok (some (.completed s)) ∧
      ops.map g = rs.map .ok ∧
      results F base (.ok (some (.completed s)))
        (fun _ => (run base (applying F g) ttl maxRetries (h ++ more)).store) = some (rs, none) := by
  obtain ⟨acts, hacts⟩ := reach_run base (applying F g) ttl maxRetries h
  have hi := run_inv base (applying F g) ttl maxRetries h hf
  obtain ⟨u, hu, hup, huc⟩ := task_of_started hs base (applying F g) ttl maxRetries
  obtain ⟨w, hw⟩ : ∃ w, w = run base (applying F g) ttl maxRetries h := ⟨_, rfl⟩
  rw [← hw] at hacts hi hu hf hm hst hq
  obtain ⟨c, hc⟩ := exists_unused w.server.conns
  have hdb : w.server.db = Opsqueue.run w.server.calls := by rw [hacts]; exact Server.db_run _ _ _
  -- the insert of the submission
  obtain ⟨a0, n0, o0, ha0, hid0, hpfx0⟩ : ∃ a now o, Op.insert a now o ∈ w.server.calls ∧ a.id = id ∧ a.pfx = some p := by
    obtain ⟨r, hr, hrid, e⟩ := statusAt_inProgress hst
    obtain ⟨a, n, o, hmem, he⟩ := (prov_run _ hf).sub r (hdb ▸ hr)
    refine ⟨a, n, o, hmem, ?_, ?_⟩
    · rw [← hrid, he]; rfl
    · have : r.pfx = sub.pfx := by rw [e]; rfl
      rw [← hp, ← this, he]; rfl
  have htot : sub.chunksTotal ≠ 0 := by
    obtain ⟨r, hr, hrid, e⟩ := statusAt_inProgress hst
    obtain ⟨a, n, o, hmem, he⟩ := (prov_run _ hf).sub r (hdb ▸ hr)
    have hid : a.id = a0.id := by rw [hid0, ← hrid, he]; rfl
    cases insert_unique hf hmem ha0 hid
    obtain ⟨t, htm, htp, htd, htc⟩ := hi.inserts a0 n0 o0 p ha0 hpfx0
    cases same_task hi.distinct hu htm (hup.trans htp.symm)
    have e1 : sub.chunksTotal = r.chunksTotal := by rw [e]; rfl
    have e2 : r.chunksTotal = a0.contents.length := by rw [he]; rfl
    rw [e1, e2, htc, List.length_replicate, htd, huc]
    exact fun h0 => hne (List.length_eq_zero_iff.1 h0)
  -- recovery
  obtain ⟨as1, has1⟩ : ∃ as1, as1 = Server.catchUp 0 w.server.queue.length ++
    [.tick (.advance w.server.reserver.ttl), .connect c] := ⟨_, rfl⟩
  obtain ⟨s1, hs1⟩ : ∃ s1, s1 = recover w.server 0 c := ⟨_, rfl⟩
  have al1 : ∀ a ∈ as1, allowed a = true ∧ Calm (.server a) := by
    intro a ha
    rw [has1] at ha
    simp only [Server.catchUp, List.cons_append, List.mem_cons, List.mem_append, List.mem_flatten,
      List.mem_replicate, List.not_mem_nil, or_false] at ha
    rcases ha with rfl | ⟨l, ⟨_, rfl⟩, hl⟩ | rfl | rfl
    · exact ⟨rfl, rfl⟩
    · simp only [List.mem_cons, List.not_mem_nil, or_false] at hl
      rcases hl with rfl | rfl
      · exact ⟨rfl, rfl, rfl⟩
      · exact ⟨rfl, rfl⟩
    · exact ⟨rfl, trivial⟩
    · exact ⟨rfl, trivial⟩
  obtain ⟨w1, hw1⟩ : ∃ w1, w1 = exec base (applying F g) w (as1.map .server) := ⟨_, rfl⟩
  have sv1 : w1.server = s1 := by
    rw [hw1, serving_server _ _ _ _ fun a ha => (al1 a ha).1, hs1, has1]; rfl
  have calm1 : ∀ e ∈ as1.map Ev.server, Calm e := by
    intro e he
    obtain ⟨a, ha, rfl⟩ := List.mem_map.1 he
    exact (al1 a ha).2
  obtain ⟨t1, f1, i1⟩ := calm_exec _ w calm1 hf hi
  rw [← hw1] at t1 f1 i1
  -- the fetch
  obtain ⟨r, hr⟩ : ∃ r : Conn.Request, r = ⟨0, s1.db.chunks.length + 1, .oldest⟩ := ⟨_, rfl⟩
  obtain ⟨as2, has2⟩ : ∃ as2, as2 = .request c r (s1.view 0) :: Server.undisturbed c (s1.db.chunks.length + 1) :=
    ⟨_, rfl⟩
  obtain ⟨s2, hs2⟩ : ∃ s2, s2 = Server.exec s1 as2 := ⟨_, rfl⟩
  have hund : ∀ n, ∀ a ∈ Server.undisturbed c n, a = .row c ∨ a = .join c := by
    intro n
    induction n with
    | zero => intro a ha; cases ha
    | succ n ih =>
      intro a ha
      simp only [Server.undisturbed, List.mem_cons] at ha
      rcases ha with rfl | rfl | ha
      · exact .inl rfl
      · exact .inr rfl
      · exact ih a ha
  have al2 : ∀ a ∈ as2, (∃ r v, a = .request c r v) ∨ a = .row c ∨ a = .join c := by
    intro a ha
    rw [has2] at ha
    rcases List.mem_cons.1 ha with rfl | ha
    · exact .inl ⟨_, _, rfl⟩
    · exact .inr (hund _ a ha)
  obtain ⟨w2, hw2⟩ : ∃ w2, w2 = exec base (applying F g) w1 (as2.map .server) := ⟨_, rfl⟩
  have calm2 : ∀ e ∈ as2.map Ev.server, Calm e := by
    intro e he
    obtain ⟨a, ha, rfl⟩ := List.mem_map.1 he
    rcases al2 a ha with ⟨_, _, rfl⟩ | rfl | rfl <;> trivial
  have sv2 : w2.server = s2 := by
    rw [hw2, serving_server _ _ _ _ fun a ha => by rcases al2 a ha with ⟨_, _, rfl⟩ | rfl | rfl <;> rfl, hs2, sv1]
  obtain ⟨t2, f2, i2⟩ := calm_exec _ w1 calm2 f1 i1
  rw [← hw2] at t2 f2 i2
  -- what is known of the server
  have hf' : FreshIds (Server.run ttl maxRetries acts).calls := hacts ▸ hf
  have hm' : Machine.MapArgs (Server.run ttl maxRetries acts).calls := hacts ▸ hm
  have hc' : (Server.run ttl maxRetries acts).conns.get c = none := hacts ▸ hc
  obtain ⟨g1, g2, g3, g4, g5, g6, g7, g8, g9⟩ := recover_spec ttl maxRetries acts c 0 hf' hm' hc'
  obtain ⟨k1, k2, k3, k4, k5, k6⟩ := offer_spec ttl maxRetries acts c 0 r 0
    (s1.db.chunks.length + 1) ht hf' hm' hc' (by rw [hr, ← hacts, ← hs1]; exact Nat.lt_succ_self _)
    (by rw [← hacts, ← hs1]; exact Nat.lt_succ_self _)
  rw [← hacts, ← hs1] at g1 g2 g3 g4 g5 g6 g7 g8 k1 k2 k3 k4 k5 k6
  rw [← has2, ← hs2] at k1 k2 k3 k4 k5 k6
  -- the chunks of the submission
  have given2 : Given w2 c := by
    rw [hw2]
    refine given_exec as2 w1 i1 f1 ?_ al2
    intro kk hk
    rw [sv1, g7] at hk
    cases hk
    exact ⟨by simp, by simp⟩
  obtain ⟨ids, hids⟩ : ∃ ids, ids = (offered s2 c).filter (·.submissionId == id) := ⟨_, rfl⟩
  have hhand : ∀ x ∈ ids, ∃ y ∈ w2.handed, y.1.key = x ∧ y.1.inputContent = none ∧ y.2.pfx = some p ∧
      y.1.chunkIndex < u.contents.length := by
    intro x hx
    rw [hids, List.mem_filter] at hx
    obtain ⟨hx, hxs⟩ := hx
    have hxs : x.submissionId = id := by simpa using hxs
    obtain ⟨y, hy, hyk⟩ : ∃ y ∈ w2.handed, y.1.key = x := by
      unfold offered Server.answersTo at hx
      cases hk : s2.conns.get c with
      | none => rw [hk] at hx; simp at hx
      | some kk =>
        rw [hk] at hx
        obtain ⟨a, ha, hxa⟩ := List.mem_flatMap.1 hx
        cases e : a.2 with
        | none => rw [e] at hxa; cases hxa
        | some l =>
          rw [e] at hxa
          exact (given2 kk (by rw [sv2]; exact hk)).2 a ha l e x hxa
    refine ⟨y, hy, hyk, ?_⟩
    obtain ⟨a, n, o, hmem, haid, hcont, hpf⟩ := i2.handed y hy
    have hsub2 : ∀ op ∈ w.server.calls, op ∈ w2.server.calls := by
      intro op hop
      rw [sv2, k2, g3]
      exact List.mem_append_left _ hop
    have hsame : a.id = a0.id := by
      rw [haid, hid0, ← hxs, ← hyk]; rfl
    cases insert_unique f2 hmem (hsub2 _ ha0) hsame
    obtain ⟨t, htm, htp, htd, htc⟩ := i2.inserts a0 n0 o0 p (hsub2 _ ha0) hpfx0
    have hu2 : u ∈ w2.tasks := by rw [t2, t1]; exact hu
    cases same_task i2.distinct hu2 htm (hup.trans htp.symm)
    rw [htc] at hcont
    have hlt := (List.getElem?_eq_some_iff.1 hcont).1
    rw [List.length_replicate] at hlt
    rw [List.getElem?_replicate, if_pos hlt] at hcont
    exact ⟨(Option.some.inj hcont).symm, by rw [hpf]; exact hpfx0, by rw [← htd]; exact hlt⟩
  have hud : u.done = u.contents.length := by
    obtain ⟨t, htm, htp, htd, _⟩ := hi.inserts a0 n0 o0 p ha0 hpfx0
    cases same_task hi.distinct hu htm (hup.trans htp.symm)
    exact htd
  obtain ⟨evs, hev1, hev2⟩ := work_all (callback := applying F g) hup hud (by
    intro b hb
    rw [huc] at hb
    obtain ⟨out, ho⟩ := hg b hb
    unfold applying
    rw [ho]
    exact List.cons_ne_nil _ _) c 0 ids w2 i2 f2 (by rw [t2, t1]; exact hu) hhand
  rw [sv2] at hev2
  obtain ⟨x1, x2, x3, x4, x5, x6⟩ := Server.finishing_spec c (fun _ => none) 0 ids s2 k3 (by rw [k2]; exact g5) k5 k4 k6
  rw [← hev2] at x4 x5 x6
  -- the end
  have hend := status_after hf hm w.server.maxRetries 0 0 w.server.queue (fun _ => none) ids (hdb ▸ hst) htot (by
    intro calls1 row hrow hsub
    rw [hids, List.mem_filter]
    refine ⟨(k1 _).2 (List.mem_map_of_mem ?_), by simpa [ChunkRow.key] using hsub⟩
    rw [g4, g3]; exact hrow)
  have hdb3 : (exec base (applying F g) w2 evs).server.db = Opsqueue.run (w.server.calls ++ w.server.queue.map
      (fun x => Server.reportOp w.server.maxRetries 0 0 0 [] x.2) ++ Machine.completes (fun _ => none) 0 ids) := by
    rw [x5, x4, k2, g3]; rfl
  rcases hend with ⟨s, hs1', _, hs3⟩ | ⟨s, f, _, _, c', cid, msg, hin, hcid⟩
  · have hall : run base (applying F g) ttl maxRetries (h ++ (as1.map .server ++ as2.map .server ++ evs)) =
        exec base (applying F g) w2 evs := by
      rw [run_append, ← hw, exec_append, exec_append, ← hw1, ← hw2]
    have hst3 : statusAt (run base (applying F g) ttl maxRetries
        (h ++ (as1.map .server ++ as2.map .server ++ evs))).server.db id = .ok (some (.completed s)) := by
      rw [hall, hdb3]; exact hs1'
    have hfr : FreshIds (run base (applying F g) ttl maxRetries
        (h ++ (as1.map .server ++ as2.map .server ++ evs))).server.calls := by rw [hall]; exact x6
    obtain ⟨rs, hr1, hr2⟩ := C47_results_in_order F hF g base ttl maxRetries k ops chunks hchunks _ (fun _ => [])
      hfr (fun _ => by rw [List.append_nil]; exact hfr) p (by
        obtain ⟨h0, h1, h2, e, hn⟩ := hs
        exact ⟨h0, h1, h2 ++ (as1.map .server ++ as2.map .server ++ evs), by rw [e]; simp, hn⟩) id s hst3 (by rw [hs3]; exact hp)
    refine ⟨_, s, rs, ?_, hst3, hr1, ?_⟩
    · intro e he
      rcases List.mem_append.1 he with he | he
      · rcases List.mem_append.1 he with he | he
        · exact calm1 e he
        · exact calm2 e he
      · exact hev1 e he
    · simpa using hr2
  · exact absurd hcid (hq c' cid msg hin)

/-- **C68, from the start.** Whatever happened before: a producer that now submits the operations `ops` in chunks of `k`,
and meets no errors, gets the results of all of them, in order, by the ordinary working of server and consumers. (The
prefix and the id are new, and no failure report for the id arrived before it was given out.) -/
theorem C68_from_the_start {α : Type} (F : Format α) (hF : F.Faithful) (g : α → Except PyErr α)
    (base : List Char) (ttl maxRetries : Nat) (ht : 0 < ttl) (k : Int) (ops : List α) (chunks : List Bytes)
    (hchunks : Python.chunkIterator F k ops = some (chunks.map .ok)) (hne : chunks ≠ [])
    (hg : ∀ input ∈ chunks, ∃ output, Python.rawCallback F g input = .ok output) (h : List Ev)
    (hf : FreshIds (run base (applying F g) ttl maxRetries h).server.calls)
    (hm : Machine.MapArgs (run base (applying F g) ttl maxRetries h).server.calls)
    (p : String) (hplain : Plain p) (hnew : ∀ other, Ev.start p other ∉ h)
    (a : SubmissionDb.InsertArgs) (now : Time) (ha : (a.strategic.map (·.1)).Nodup)
    (hid : a.id ∉ (run base (applying F g) ttl maxRetries h).server.calls.filterMap Op.insertId)
    (hq : ∀ c cid msg, (c, .fail cid msg) ∈ (run base (applying F g) ttl maxRetries h).server.queue →
      cid.submissionId ≠ a.id) :
    ∃ n more s rs, (∀ e ∈ more, Calm e) ∧ ops.map g = rs.map .ok ∧
      let all := h ++ ([.start p chunks] ++ List.replicate chunks.length (.upload n .ok) ++ [.submit n a now []]) ++ more
      statusAt (run base (applying F g) ttl maxRetries all).server.db a.id = .ok (some (.completed s)) ∧
      results F base (.ok (some (.completed s))) (fun _ => (run base (applying F g) ttl maxRetries all).store) =
        some (rs, none) := by
  obtain ⟨acts, hacts⟩ := reach_run base (applying F g) ttl maxRetries h
  obtain ⟨w, hw⟩ : ∃ w, w = run base (applying F g) ttl maxRetries h := ⟨_, rfl⟩
  have hts := task_started base (applying F g) ttl maxRetries h
  rw [← hw] at hacts hf hm hid hq hts
  have hdb : w.server.db = Opsqueue.run w.server.calls := by rw [hacts]; exact Server.db_run _ _ _
  -- the task
  have h1 : step base (applying F g) w (.start p chunks) =
      { w with tasks := w.tasks ++ [{ pfx := p, contents := chunks }] } := by
    simp only [step]
    rw [if_neg]
    simp only [Bool.or_eq_true, List.contains_iff_mem, List.any_eq_true, beq_iff_eq, not_or, not_exists, not_and]
    refine ⟨hplain, fun t ht e => ?_⟩
    obtain ⟨cs, hcs⟩ := hts t ht
    exact hnew cs (e ▸ hcs)
  -- the uploads
  have h2 : ∀ j ≤ chunks.length, ∃ store,
      exec base (applying F g) { w with tasks := w.tasks ++ [{ pfx := p, contents := chunks }] }
        (List.replicate j (.upload w.tasks.length .ok)) =
      { w with store, tasks := w.tasks ++ [{ pfx := p, contents := chunks, done := j }] } := by
    intro j
    induction j with
    | zero => intro _; exact ⟨w.store, rfl⟩
    | succ j ih =>
      intro hj
      obtain ⟨store, e⟩ := ih (by omega)
      rw [List.replicate_succ', exec_append, e]
      have hget : chunks[j]? = some chunks[j] := List.getElem?_eq_getElem (by omega)
      refine ⟨(ObjectStore.storeChunk base store ⟨p, j, .input, chunks[j]⟩ .ok).2, ?_⟩
      simp only [exec, List.foldl_cons, List.foldl_nil, step, List.getElem?_append_right (Nat.le_refl _), Nat.sub_self,
        List.getElem?_cons_zero, upload, hget, ObjectStore.storeChunk]
      congr 1
      rw [List.set_append_right _ _ (Nat.le_refl _)]
      simp
  obtain ⟨store, h2⟩ := h2 chunks.length (Nat.le_refl _)
  -- the request
  let t : Task := { pfx := p, contents := chunks, done := chunks.length }
  have hnn : (request t a).contents ≠ [] := by
    intro e
    have := congrArg List.length e
    simp only [request, t, List.length_replicate, List.length_nil] at this
    exact hne (List.length_eq_zero_iff.1 this)
  have hstep : Opsqueue.step w.server.db (.insert (request t a) now []) =
      (.inserted (.ok a.id), Eff.insert (request t a) w.server.db) := by
    rw [hdb, step_insert_ok (a := request t a) (inv_run hf) now (fun hu => hid (used_run hf hu)) ha, if_neg hnn]
    rfl
  let w' : World := serve { w with store, tasks := w.tasks ++ [t] } (.producer (.insert (request t a) now []))
  have h3 : step base (applying F g) { w with store, tasks := w.tasks ++ [t] } (.submit w.tasks.length a now []) = w' := by
    simp only [step, List.getElem?_append_right (Nat.le_refl _), Nat.sub_self, List.getElem?_cons_zero, t]
    simp [w', t]
  have hsrv : w'.server.calls = w.server.calls ++ [.insert (request t a) now []] ∧
      w'.server.queue = w.server.queue ∧ w'.server.db = Eff.insert (request t a) w.server.db := by
    simp only [w', serve, Server.step, Server.producerCall, Server.dbCall, Server.ProducerCall.op, hstep]
    exact ⟨rfl, rfl, rfl⟩
  have hrun : run base (applying F g) ttl maxRetries
      (h ++ ([.start p chunks] ++ List.replicate chunks.length (.upload w.tasks.length .ok) ++
        [.submit w.tasks.length a now []])) = w' := by
    rw [run_append, ← hw, exec_append, exec_append]
    rw [show exec base (applying F g) w [.start p chunks] = step base (applying F g) w (.start p chunks) from rfl, h1, h2]
    exact h3
  have hfr : FreshIds w'.server.calls := by
    rw [hsrv.1]
    unfold FreshIds at hf ⊢
    rw [List.filterMap_append, List.nodup_append]
    refine ⟨hf, by simp [Op.insertId], fun x hx y hy e => ?_⟩
    simp only [List.filterMap_cons, List.filterMap_nil, Op.insertId, List.mem_singleton] at hy
    rw [e, hy] at hx
    exact hid hx
  have hIw : Opsqueue.Inv w'.server.db := by
    obtain ⟨acts', hacts'⟩ := reach_run base (applying F g) ttl maxRetries
      (h ++ ([.start p chunks] ++ List.replicate chunks.length (.upload w.tasks.length .ok) ++
        [.submit w.tasks.length a now []]))
    rw [hrun] at hacts'
    have : w'.server.db = Opsqueue.run w'.server.calls := by rw [hacts']; exact Server.db_run _ _ _
    rw [this]
    exact inv_run hfr
  have hst : statusAt w'.server.db a.id = .ok (some (.inProgress (subView w'.server.db (request t a).row))) := by
    refine statusAt_sub (r := (request t a).row) hIw ?_
    rw [hsrv.2.2]
    simp [Eff.insert]
  obtain ⟨more, s, rs, m1, m2, m3, m4⟩ := C68_results_can_always_be_had F hF g base ttl maxRetries ht k ops chunks hchunks hne hg
    (h ++ ([.start p chunks] ++ List.replicate chunks.length (.upload w.tasks.length .ok) ++
      [.submit w.tasks.length a now []]))
    (by rw [hrun]; exact hfr)
    (by
      rw [hrun, hsrv.1]
      intro b n o hb
      rcases List.mem_append.1 hb with hb | hb
      · exact hm b n o hb
      · cases List.mem_singleton.1 hb
        exact ha)
    p ⟨hplain, h, List.replicate chunks.length (.upload w.tasks.length .ok) ++ [.submit w.tasks.length a now []], by simp,
      hnew⟩ a.id _ (by rw [hrun]; exact hst) rfl
    (by
      rw [hrun, hsrv.2.1]
      exact hq)
  exact ⟨w.tasks.length, more, s, rs, m1, m3, m2, m4⟩

/-- A producer that comes after all that happened in `exampleHistory`. -/
example :
    let w := run "b".toList (applying Python.byteFormat addOne) 100 5 exampleHistory
    FreshIds w.server.calls ∧ Plain "u3" ∧ (exampleHistory.all fun | .start p _ => p != "u3" | _ => true) = true ∧
    8 ∉ w.server.calls.filterMap Op.insertId ∧ w.server.queue = [] ∧
    (w.server.calls.all fun | .insert a _ _ => decide (a.strategic.map (·.1)).Nodup | _ => true) = true := by
  decide +kernel

/-- The hypotheses are met, with something left to do: `exampleHistory` broken off after the crash of the server, where
one chunk is completed, one failed once and one is lost with the connection of its consumer. -/
example :
    let h := exampleHistory.take 31
    let w := run "b".toList (applying Python.byteFormat addOne) 100 5 h
    statusAt w.server.db 7 = .ok (some (.inProgress
      { id := 7, pfx := some "u1", chunksTotal := 3, chunksDone := 1, chunkSize := 1, metadata := none, strategic := []
        otel := "{}" })) ∧
    (∀ b ∈ [[1, 2], [3, 4], [5]], (Python.rawCallback Python.byteFormat addOne b).toOption.isSome = true) ∧
    FreshIds w.server.calls ∧ w.server.queue = [] ∧ w.server.db.chunks.length = 2 ∧
    (w.server.calls.all fun | .insert a _ _ => decide (a.strategic.map (·.1)).Nodup | _ => true) = true := by
  decide +kernel

example : Started (exampleHistory.take 31) "u1" [[1, 2], [3, 4], [5]] := ⟨by decide, [], _, rfl, by simp⟩

end Opsqueue.EndToEnd
