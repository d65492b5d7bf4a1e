import Verif.Spec.EndToEnd
import Verif.Proofs.EndToEnd
import Verif.Props.Lifecycle
import Verif.Props.Cleanup
import Verif.Props.Python

/-!
# Lemmas about completed submissions and their outputs
-/

namespace Opsqueue.EndToEnd
open ObjectStore (Store PutResult chunkPath Plain retrieveChunk)
open Python (PyChunk Format PyErr)

/-! ### helper lemmas about the history -/

theorem tasks_persist_step {base : List Char} {callback : Bytes → List Bytes} {w : World} {e : Ev} {t : Task}
    (ht : t ∈ w.tasks) : ∃ t' ∈ (step base callback w e).tasks, t'.pfx = t.pfx ∧ t'.contents = t.contents := by
  have same : ∃ t' ∈ w.tasks, t'.pfx = t.pfx ∧ t'.contents = t.contents := ⟨t, ht, rfl, rfl⟩
  cases e with
  | upload k put =>
    simp only [step]
    split
    · rename_i u hk
      simp only [upload]
      repeat' split
      all_goals first
        | exact same
        | (rcases mem_set_of_mem (y := { u with done := u.done + 1 }) hk ht with hm | rfl
           · exact ⟨t, hm, rfl, rfl⟩
           · exact ⟨_, List.mem_set (List.getElem?_eq_some_iff.1 hk).1 _, rfl, rfl⟩)
        | (rcases mem_set_of_mem (y := { u with aborted := true }) hk ht with hm | rfl
           · exact ⟨t, hm, rfl, rfl⟩
           · exact ⟨_, List.mem_set (List.getElem?_eq_some_iff.1 hk).1 _, rfl, rfl⟩)
    · exact same
  | start p cs =>
    simp only [step]
    split
    · exact same
    · exact ⟨t, List.mem_append_left _ ht, rfl, rfl⟩
  | _ =>
    simp only [step]
    repeat' split
    all_goals exact same

theorem tasks_persist {base : List Char} {callback : Bytes → List Bytes} {w : World} (h : List Ev) {t : Task}
    (ht : t ∈ w.tasks) : ∃ t' ∈ (exec base callback w h).tasks, t'.pfx = t.pfx ∧ t'.contents = t.contents := by
  induction h generalizing w t with
  | nil => exact ⟨t, ht, rfl, rfl⟩
  | cons e h ih =>
    obtain ⟨t', ht', h1, h2⟩ := tasks_persist_step (base := base) (callback := callback) (e := e) ht
    obtain ⟨t2, ht2, h3, h4⟩ := ih ht'
    exact ⟨t2, ht2, h3.trans h1, h4.trans h2⟩

theorem task_started (base : List Char) (callback : Bytes → List Bytes) (ttl m : Nat) (h : List Ev) :
    ∀ t ∈ (run base callback ttl m h).tasks, ∃ cs, Ev.start t.pfx cs ∈ h := by
  refine snoc_induction (P := fun h => ∀ t ∈ (run base callback ttl m h).tasks, ∃ cs, Ev.start t.pfx cs ∈ h)
    (by simp [run, exec, init]) ?_ h
  intro h e ih t ht
  rw [run_snoc] at ht
  have old : ∀ u ∈ (run base callback ttl m h).tasks, u.pfx = t.pfx → ∃ cs, Ev.start t.pfx cs ∈ h ++ [e] := by
    intro u hu hp
    obtain ⟨cs, hcs⟩ := ih u hu
    exact ⟨cs, List.mem_append_left _ (hp ▸ hcs)⟩
  cases e with
  | upload k put =>
    simp only [step] at ht
    split at ht
    · rename_i u hk
      have hu := List.mem_of_getElem? hk
      simp only [upload] at ht
      repeat' split at ht
      all_goals first
        | exact old t ht rfl
        | (rcases List.mem_or_eq_of_mem_set ht with hm | rfl
           · exact old t hm rfl
           · exact old u hu rfl)
    · exact old t ht rfl
  | start p cs =>
    simp only [step] at ht
    split at ht
    · exact old t ht rfl
    · rcases List.mem_append.1 ht with ht | ht
      · exact old t ht rfl
      · cases List.mem_singleton.1 ht
        exact ⟨cs, List.mem_append_right _ (List.mem_singleton.2 rfl)⟩
  | _ =>
    simp only [step] at ht
    repeat' split at ht
    all_goals exact old t ht rfl

theorem task_of_started {h : List Ev} {pfx : String} {chunks : List Bytes} (hs : Started h pfx chunks)
    (base : List Char) (callback : Bytes → List Bytes) (ttl m : Nat) :
    ∃ t ∈ (run base callback ttl m h).tasks, t.pfx = pfx ∧ t.contents = chunks := by
  obtain ⟨hp, h1, h2, rfl, hn⟩ := hs
  have : run base callback ttl m (h1 ++ Ev.start pfx chunks :: h2) =
      exec base callback (step base callback (run base callback ttl m h1) (.start pfx chunks)) h2 := by
    unfold run exec; rw [List.foldl_append]; rfl
  rw [this]
  have hnew : ({ pfx, contents := chunks } : Task) ∈
      (step base callback (run base callback ttl m h1) (.start pfx chunks)).tasks := by
    simp only [step]
    rw [if_neg]
    · exact List.mem_append_right _ (List.mem_singleton.2 rfl)
    · simp only [Bool.or_eq_true, List.contains_iff_mem, List.any_eq_true, beq_iff_eq, not_or, not_exists, not_and]
      refine ⟨hp, fun t ht e => ?_⟩
      obtain ⟨cs, hcs⟩ := task_started base callback ttl m h1 t ht
      exact hn cs (e ▸ hcs)
  obtain ⟨t, ht, e1, e2⟩ := tasks_persist (base := base) (callback := callback) h2 hnew
  exact ⟨t, ht, e1, e2⟩

/-- What is known of a completed submission with a prefix. -/
theorem completed_outputs {base : List Char} {callback : Bytes → List Bytes} {w : World} (hi : Inv base callback w)
    (hf : FreshIds w.server.calls) {id : SubmissionId} {s : SubmissionCompleted} {p : String}
    (hst : statusAt w.server.db id = .ok (some (.completed s))) (hp : s.pfx = some p) :
    (∃ t ∈ w.tasks, t.pfx = p ∧ t.contents.length = s.chunksTotal) ∧
    ∀ i, i < s.chunksTotal → ∃ b, w.store.get (chunkPath base p i .output) = some b := by
  obtain ⟨ttl, m, acts, hserver⟩ := hi.reach
  have hdb : w.server.db = Opsqueue.run w.server.calls := by rw [hserver]; exact Server.db_run ttl m acts
  rw [hdb] at hst
  obtain ⟨a, now, o, hm, hid, hpfx, htot, _⟩ := C21_attributes_partial _ hf id _ hst
  have hap : a.pfx = some p := hpfx.symm.trans hp
  constructor
  · obtain ⟨t, ht, h1, h2, h3⟩ := hi.inserts a now o p hm hap
    refine ⟨t, ht, h1, ?_⟩
    rw [← h2, show s.chunksTotal = a.contents.length from htot, h3, List.length_replicate]
  · intro i hlt
    obtain ⟨_, _, _, _, _, _, _, _, hall⟩ := C04_completed_means_all_reported _ hf id s hst
    obtain ⟨pre, out, t1, t2, o', post, hsplit, _⟩ := (hall i hlt).1
    have hc : Op.complete ⟨id, i⟩ out t1 t2 o' ∈ w.server.calls := by
      rw [hsplit]; exact List.mem_append_right _ List.mem_cons_self
    obtain ⟨b, now', o2, hm', hid', hb⟩ := hi.called _ _ _ _ _ hc
    have := insert_unique hf hm hm' (hid.trans hid'.symm)
    injection this with hab
    exact hb p (hab ▸ hap)

theorem callEach_spec {α} (g : α → Except PyErr α) (ops rs : List α) (h : Python.callEach g ops = .ok rs) :
    ops.map g = rs.map .ok := by
  induction ops generalizing rs with
  | nil => cases h; rfl
  | cons op ops ih =>
    rw [Python.callEach] at h
    split at h
    · cases h
    · rename_i r hr
      split at h
      · cases h
      · rename_i rs' hrs
        cases h
        rw [List.map_cons, List.map_cons, hr, ih _ hrs]

theorem applying_dumps {α} {F : Format α} (hF : F.Faithful) (g : α → Except PyErr α) {group : List α}
    {input output : Bytes} (hin : F.dumps group = .ok input) (hout : output ∈ applying F g input) :
    ∃ rs, group.map g = rs.map .ok ∧ F.dumps rs = .ok output := by
  unfold applying at hout
  split at hout
  · rename_i out hraw
    cases List.mem_singleton.1 hout
    unfold Python.rawCallback at hraw
    obtain ⟨b, hb1, hb2⟩ := hF group
    rw [hin] at hb1
    cases hb1
    unfold Python.decodeChunk at hraw
    rw [hb2] at hraw
    dsimp only at hraw
    split at hraw
    · cases hraw
    · rename_i rs hrs
      exact ⟨rs, callEach_spec g group rs hrs, hraw⟩
  · cases hout

/-- The groups of results. -/
theorem gather {α} {F : Format α} (hF : F.Faithful) (g : α → Except PyErr α) (groups : List (List α))
    (chunks : List Bytes) (hc : groups.map F.dumps = chunks.map .ok) (outs : List (Except PyErr Bytes))
    (hlen : outs.length = chunks.length)
    (h : ∀ (i : Nat) input, chunks[i]? = some input → ∃ b, outs[i]? = some (.ok b) ∧ b ∈ applying F g input) :
    ∃ rss : List (List α), groups.flatten.map g = rss.flatten.map .ok ∧
      outs = rss.map (Python.encodeChunk F) := by
  induction groups generalizing chunks outs with
  | nil =>
    cases chunks with
    | cons _ _ => cases hc
    | nil =>
      cases outs with
      | cons _ _ => cases hlen
      | nil => exact ⟨[], rfl, rfl⟩
  | cons group groups ih =>
    cases chunks with
    | nil => cases hc
    | cons input chunks =>
      rw [List.map_cons, List.map_cons] at hc
      injection hc with hc1 hc2
      cases outs with
      | nil => cases hlen
      | cons out outs =>
        obtain ⟨b, hb1, hb2⟩ := h 0 input rfl
        cases hb1
        obtain ⟨rs, hr1, hr2⟩ := applying_dumps hF g hc1 hb2
        obtain ⟨rss, h1, h2⟩ := ih chunks hc2 outs (by simpa using hlen) (fun i x hx => h (i + 1) x hx)
        refine ⟨rs :: rss, ?_, ?_⟩
        · simp only [List.flatten_cons, List.map_append, hr1, h1]
        · rw [List.map_cons, ← h2]
          unfold Python.encodeChunk
          rw [hr2]

end Opsqueue.EndToEnd
