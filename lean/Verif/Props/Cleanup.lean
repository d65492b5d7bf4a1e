import Verif.Proofs.Reads
import Verif.Props.Reads

/-!
# C16, C17, C21, C22: cleanup, metadata, attributes, independence of submissions
-/

set_option linter.unusedSimpArgs false

namespace Opsqueue
open SubmissionDb

private theorem filter_key_of_proj {ρ : Type} (key : ρ → ChunkId) (sub : ρ → SubmissionId)
    (hk : ∀ r, (key r).submissionId = sub r) {l l' : List ρ} (cid : ChunkId)
    (h : l'.filter (fun r => sub r == cid.submissionId) = l.filter (fun r => sub r == cid.submissionId)) :
    l'.filter (fun r => key r == cid) = l.filter (fun r => key r == cid) := by
  have e : ∀ m : List ρ, m.filter (fun r => key r == cid) =
      (m.filter (fun r => sub r == cid.submissionId)).filter (fun r => key r == cid) := by
    intro m
    rw [List.filter_filter]
    apply List.filter_congr
    intro r _
    by_cases hr : key r = cid
    · have : sub r = cid.submissionId := by rw [← hk, hr]
      simp [hr, this]
    · simp [hr]
  rw [e l', e l, h]

/-- **C22.** A complete, fail, cancel or insert call about submission `x`, whatever faults strike it,
leaves everything that can be observed about another submission `id` unchanged. -/
theorem C22_other_submissions_unaffected (ops : List Op) (op : Op) (hf : FreshIds (ops ++ [op]))
    (x id : SubmissionId) (hx : op.target = some x) (hne : x ≠ id) (i : ChunkIndex) :
    let db := run ops
    let db' := (step db op).2
    statusAt db' id = statusAt db id ∧ strategicAt db' id = strategicAt db id ∧
    backlogSize db' id = backlogSize db id ∧
    backlogCount db' ⟨id, i⟩ = backlogCount db ⟨id, i⟩ ∧
    chunkAt db' ⟨id, i⟩ = chunkAt db ⟨id, i⟩ ∧
    chunkCompletedAt db' ⟨id, i⟩ = chunkCompletedAt db ⟨id, i⟩ ∧
    chunkFailedAt db' ⟨id, i⟩ = chunkFailedAt db ⟨id, i⟩ ∧
    skippedAt db' ⟨id, i⟩ = skippedAt db ⟨id, i⟩ := by
  have he := effect_run hf
  rw [run_snoc] at he
  have hp := he.frame hx hne
  intro db db'
  have hp : proj id db' = proj id db := hp
  have hch := congrArg DB.chunks hp
  have hcc := congrArg DB.chunksCompleted hp
  have hcf := congrArg DB.chunksFailed hp
  simp only [proj] at hch hcc hcf
  refine ⟨statusAt_of_proj hp, ?_, congrArg List.length hch, backlogCount_of_proj hp,
    chunkAt_congr (filter_key_of_proj ChunkRow.key ChunkRow.submissionId (fun _ => rfl) ⟨id, i⟩ hch),
    chunkCompletedAt_congr (filter_key_of_proj ChunkCompletedRow.key ChunkCompletedRow.submissionId
      (fun _ => rfl) ⟨id, i⟩ hcc),
    chunkFailedAt_congr (filter_key_of_proj ChunkFailedRow.key ChunkFailedRow.submissionId
      (fun _ => rfl) ⟨id, i⟩ hcf)⟩
  rw [strategicAt_eq, strategicAt_eq, ← strategicOf_proj, hp, strategicOf_proj]

example : FreshIds (exampleMeta ++ [.cancel 9 20 21 []]) ∧
    (Op.cancel 9 20 21 []).target = some 9 ∧
    (step (run exampleMeta) (.cancel 9 20 21 [])).2 ≠ run exampleMeta ∧
    chunkAt (run exampleMeta) ⟨5, 0⟩ = .ok ⟨5, 0, none, 0⟩ := by decide +kernel

/-- **C17.** Strategic metadata exists only for known submissions, has one value per key, and is exactly
what the submission was inserted with, whatever state it is in (also as shown in its status). -/
theorem C17_metadata_lifetime (ops : List Op) (hf : FreshIds ops) (id : SubmissionId) :
    ∃ m, strategicAt (run ops) id = .ok m ∧ (m.map (·.1)).Nodup ∧
    (m ≠ [] → statusAt (run ops) id ≠ .ok none) ∧
    (statusAt (run ops) id ≠ .ok none →
      ∃ a now o, Op.insert a now o ∈ ops ∧ a.id = id ∧ m = a.strategic) ∧
    (∀ st, statusAt (run ops) id = .ok (some st) → st.strategic = m) := by
  have hI := inv_run hf
  refine ⟨_, strategicAt_eq _ _, ?_, ?_, ?_, ?_⟩
  · have h := hI.metaPk
    have h2 : (((run ops).submissionsMetadata.filter (·.submissionId == id)).map MetaRow.pk).Nodup :=
      nodup_map_filter h _
    have e : ((run ops).submissionsMetadata.filter (·.submissionId == id)).map MetaRow.pk =
        ((Stmt.strategicOf id (run ops)).map (·.1)).map (fun k => (id, k)) := by
      simp only [Stmt.strategicOf, List.map_map]
      apply List.map_congr_left
      intro r hr
      have := (List.mem_filter.1 hr).2
      simp only [beq_iff_eq] at this
      simp [MetaRow.pk, this]
    rw [e] at h2
    exact List.Pairwise.of_map (fun k => (id, k)) (fun a b hab e => hab (by rw [e])) h2
  · intro hm hn
    rw [statusAt_eq_none] at hn
    apply hm
    simp only [Stmt.strategicOf, List.map_eq_nil_iff, List.filter_eq_nil_iff, beq_iff_eq]
    intro r hr e
    exact hn (e ▸ hI.metaOwner r hr)
  · intro hn
    rw [ne_eq, statusAt_eq_none, Classical.not_not] at hn
    obtain ⟨a, n, o, hm, hid, e⟩ := (prov_run ops hf).strategic id hn
    exact ⟨a, n, o, hm, hid, e⟩
  · intro st h
    cases st with
    | inProgress s => obtain ⟨r, hr, rfl, rfl⟩ := statusAt_inProgress h; rfl
    | completed s => obtain ⟨r, hr, rfl, rfl⟩ := statusAt_completed h; rfl
    | failed s c => obtain ⟨r, hr, rfl, rfl, _⟩ := statusAt_failed h; rfl
    | cancelled s => obtain ⟨r, hr, rfl, rfl⟩ := statusAt_cancelled h; rfl

/-- Metadata is there before and after the submission is cancelled, and goes with the cleanup. -/
example : strategicAt (run exampleMeta) 3 = .ok [("b", 2)] ∧
    strategicAt (run exampleMeta) 4 = .ok [("b", 2), ("a", 1)] ∧
    strategicAt (run (exampleMeta ++ [.cleanup 15 []])) 3 = .ok [] ∧
    statusAt (run (exampleMeta ++ [.cleanup 15 []])) 3 = .ok none := by decide +kernel

/-- **C21**, without chunk size and trace carrier: in every state the status shows the prefix, total,
user metadata and strategic metadata given at insertion; while in progress also the chunk size and
trace carrier.

What is missing: chunk size and trace carrier of completed and failed submissions, see
`C21_refuted_chunk_size_lost`. -/
theorem C21_attributes_partial (ops : List Op) (hf : FreshIds ops) (id : SubmissionId)
    (st : SubmissionStatus) (h : statusAt (run ops) id = .ok (some st)) :
    ∃ a now o, Op.insert a now o ∈ ops ∧ a.id = id ∧ st.pfx = a.pfx ∧
      st.chunksTotal = a.contents.length ∧ st.metadata = a.metadata ∧ st.strategic = a.strategic ∧
      (∀ s, st = .inProgress s → s.chunkSize = a.chunkSize ∧ s.otel = a.otel) := by
  have hprov := prov_run ops hf
  have strat : ∀ {x : SubmissionId} {a : InsertArgs} {n : Time} {o : List Fault},
      x ∈ allIds (run ops) → Op.insert a n o ∈ ops → a.id = x →
      Stmt.strategicOf x (run ops) = a.strategic := by
    intro x a n o hx hm hid
    obtain ⟨b, n', o', hm', hid', e⟩ := hprov.strategic x hx
    have := insert_unique hf hm hm' (hid.trans hid'.symm)
    injection this with hab
    rw [e, hab]
  cases st with
  | inProgress s =>
    obtain ⟨r, hr, rfl, rfl⟩ := statusAt_inProgress h
    obtain ⟨a, n, o, hm, e⟩ := hprov.sub r hr
    have hid : a.id = r.id := by rw [e]; rfl
    refine ⟨a, n, o, hm, hid, by rw [e]; rfl, by rw [e]; rfl, by rw [e]; rfl,
      strat (mem_allIds_sub hr) hm hid, ?_⟩
    rintro s hs
    injection hs with hs
    subst hs
    exact ⟨by rw [e]; rfl, by rw [e]; rfl⟩
  | completed s =>
    obtain ⟨r, hr, rfl, rfl⟩ := statusAt_completed h
    obtain ⟨a, n, o, hm, e⟩ := hprov.comp r hr
    have hid : a.id = r.id := by rw [e]; rfl
    exact ⟨a, n, o, hm, hid, by rw [e]; rfl, by rw [e]; rfl, by rw [e]; rfl,
      strat (mem_allIds_comp hr) hm hid, by simp⟩
  | failed s c =>
    obtain ⟨r, hr, rfl, rfl, _⟩ := statusAt_failed h
    obtain ⟨a, n, o, hm, d, i, e, _⟩ := hprov.fail r hr
    have hid : a.id = r.id := by rw [e]; rfl
    exact ⟨a, n, o, hm, hid, by rw [e]; rfl, by rw [e]; rfl, by rw [e]; rfl,
      strat (mem_allIds_fail hr) hm hid, by simp⟩
  | cancelled s =>
    obtain ⟨r, hr, rfl, rfl⟩ := statusAt_cancelled h
    obtain ⟨a, n, o, hm, d, e, _⟩ := hprov.canc r hr
    have hid : a.id = r.id := by rw [e]; rfl
    exact ⟨a, n, o, hm, hid, by rw [e]; rfl, by rw [e]; rfl, by rw [e]; rfl,
      strat (mem_allIds_canc hr) hm hid, by simp⟩

/-- The chunk size and trace carrier shown for a completed or failed submission are always the
defaults, whatever the submission was inserted with. -/
theorem C21_refuted_chunk_size_lost (ops : List Op) (hf : FreshIds ops) (id : SubmissionId) :
    (∀ s, statusAt (run ops) id = .ok (some (.completed s)) → s.chunkSize = 1 ∧ s.otel = "{}") ∧
    (∀ s c, statusAt (run ops) id = .ok (some (.failed s c)) → s.chunkSize = 1 ∧ s.otel = "{}") := by
  refine ⟨?_, ?_⟩
  · intro s h
    obtain ⟨r, hr, rfl, rfl⟩ := statusAt_completed h
    obtain ⟨a, n, o, hm, e⟩ := (prov_run ops hf).comp r hr
    exact ⟨by rw [e]; rfl, by rw [e]; rfl⟩
  · intro s c h
    obtain ⟨r, hr, rfl, rfl, _⟩ := statusAt_failed h
    obtain ⟨a, n, o, hm, d, i, e, _⟩ := (prov_run ops hf).fail r hr
    exact ⟨by rw [e]; rfl, by rw [e]; rfl⟩

/-- A submission of chunk size 100 is shown with chunk size 1 once completed. -/
example :
    let ops : List Op := [.insert { id := 7, contents := [none], chunkSize := 100, pfx := some "p" } 10 []]
    (∃ s, statusAt (run ops) 7 = .ok (some (.inProgress s)) ∧ s.chunkSize = 100) ∧
    (∃ s, statusAt (run (ops ++ [.complete ⟨7, 0⟩ none 11 12 []])) 7 = .ok (some (.completed s)) ∧
      s.chunkSize = 1 ∧ s.pfx = some "p") := by
  refine ⟨⟨⟨7, some "p", 1, 0, 100, none, [], "{}"⟩, ?_⟩, ⟨⟨7, some "p", 1, 1, none, [], 12, "{}"⟩, ?_⟩⟩ <;>
    decide +kernel

theorem mem_of_eq {ρ : Type} {f : ρ → SubmissionId} {l : List ρ} {x : ρ} {i : SubmissionId} (e : f x = i) (h : x ∈ l) :
    i ∈ l.map f := e ▸ List.mem_map_of_mem h

/-- **C16.** An undisturbed cleanup of everything older than `t` succeeds; afterwards
* a finished submission that ended before `t` is unknown and has no metadata;
* every other finished submission has the metadata it had, and the status it had; unless it is a failed one whose failed
  chunk is dated before the submission itself and before `t`, whose status call ends in an error from then on (see C15);
* a submission in progress has the status (counters and metadata included) and backlog it had;
* an unknown submission is still unknown;
* of the stored completed and failed chunks exactly those from before `t` are gone. -/
theorem C16_cleanup_exact (ops : List Op) (hf : FreshIds ops) (t : Time) (out : Out) (db' : DB)
    (hstep : step (run ops) (.cleanup t []) = (out, db')) :
    out = .cleaned (.ok ()) ∧
    (∀ id st e, statusAt (run ops) id = .ok (some st) → st.endedAt = some e → e < t →
      statusAt db' id = .ok none ∧ strategicAt db' id = .ok []) ∧
    (∀ id st e, statusAt (run ops) id = .ok (some st) → st.endedAt = some e → t ≤ e →
      strategicAt db' id = strategicAt (run ops) id ∧
      (statusAt db' id = .ok (some st) ∨
        ∃ s c, st = .failed s c ∧ c.failedAt < t ∧ c.failedAt < s.failedAt ∧ statusAt db' id = .err .rowNotFound)) ∧
    (∀ id s, statusAt (run ops) id = .ok (some (.inProgress s)) →
      statusAt db' id = .ok (some (.inProgress s)) ∧ strategicAt db' id = strategicAt (run ops) id) ∧
    (∀ id, statusAt (run ops) id = .ok none → statusAt db' id = .ok none) ∧
    (∀ cid, chunkAt db' cid = chunkAt (run ops) cid) ∧
    (∀ cid c, chunkCompletedAt db' cid = .ok c ↔
      chunkCompletedAt (run ops) cid = .ok c ∧ t ≤ c.completedAt) ∧
    (∀ cid c, chunkFailedAt db' cid = .ok c ↔
      chunkFailedAt (run ops) cid = .ok c ∧ t ≤ c.failedAt) := by
  have hI := inv_run hf
  have hI' := inv_step hf (op := .cleanup t []) rfl
  have hI' : Inv db' := by rw [hstep] at hI'; exact hI'
  have hs : step (run ops) (.cleanup t []) = (.cleaned (.ok ()), Eff.cleanup t (run ops)) := by
    simp only [step, cleanup_ok]
  rw [hs] at hstep
  obtain ⟨rfl, rfl⟩ := Prod.mk.injEq _ _ _ _ ▸ hstep
  have strat : ∀ x, x ∈ allIds (Eff.cleanup t (run ops)) →
      Stmt.strategicOf x (Eff.cleanup t (run ops)) = Stmt.strategicOf x (run ops) := by
    intro x hx
    simp only [Stmt.strategicOf, Eff.cleanup, List.filter_filter]
    congr 1
    apply List.filter_congr
    intro m _
    by_cases hm : m.submissionId = x
    · have : x ∉ oldIds t (run ops) := fun ho => oldIds_gone hI ho hx
      simp [hm, this]
    · simp [hm]
  have gone : ∀ x, x ∈ oldIds t (run ops) → statusAt (Eff.cleanup t (run ops)) x = .ok none ∧
      strategicAt (Eff.cleanup t (run ops)) x = .ok [] := by
    intro x hx
    refine ⟨statusAt_none (oldIds_gone hI hx), ?_⟩
    rw [strategicAt_eq]
    simp only [Res.ok.injEq, Stmt.strategicOf, List.map_eq_nil_iff, List.filter_eq_nil_iff, beq_iff_eq]
    intro m hm e
    exact oldIds_gone hI hx (e ▸ hI'.metaOwner m hm)
  refine ⟨rfl, ?_, ?_, ?_, ?_, ?_, ?_, ?_⟩
  · intro id st e h he hlt
    cases st with
    | inProgress s => simp [SubmissionStatus.endedAt] at he
    | completed s =>
      obtain ⟨r, hr, rfl, rfl⟩ := statusAt_completed h
      simp only [SubmissionStatus.endedAt, Option.some.injEq, compView] at he
      exact gone _ (oldIds_comp hr (he ▸ hlt))
    | failed s c =>
      obtain ⟨r, hr, rfl, rfl, _⟩ := statusAt_failed h
      simp only [SubmissionStatus.endedAt, Option.some.injEq, failView] at he
      exact gone _ (oldIds_fail hr (he ▸ hlt))
    | cancelled s =>
      obtain ⟨r, hr, rfl, rfl⟩ := statusAt_cancelled h
      simp only [SubmissionStatus.endedAt, Option.some.injEq, cancView] at he
      exact gone _ (oldIds_canc hr (he ▸ hlt))
  · intro id st e h he hle
    cases st with
    | inProgress s => simp [SubmissionStatus.endedAt] at he
    | completed s =>
      obtain ⟨r, hr, rfl, rfl⟩ := statusAt_completed h
      simp only [SubmissionStatus.endedAt, Option.some.injEq, compView] at he
      have hr' : r ∈ (Eff.cleanup t (run ops)).submissionsCompleted := by
        simp only [Eff.cleanup, List.mem_filter, Bool.not_eq_true', decide_eq_false_iff_not]
        exact ⟨hr, fun h => Nat.not_lt.2 hle (he ▸ h)⟩
      have hst := strat _ (mem_allIds_comp hr')
      refine ⟨by rw [strategicAt_eq, strategicAt_eq, hst], .inl ?_⟩
      rw [statusAt_comp hI' hr', compView, hst]
      rfl
    | failed s c =>
      obtain ⟨r, hr, rfl, rfl, d, hd, hk, rfl⟩ := statusAt_failed h
      simp only [SubmissionStatus.endedAt, Option.some.injEq, failView] at he
      have hr' : r ∈ (Eff.cleanup t (run ops)).submissionsFailed := by
        simp only [Eff.cleanup, List.mem_filter, Bool.not_eq_true', decide_eq_false_iff_not]
        exact ⟨hr, fun h => Nat.not_lt.2 hle (he ▸ h)⟩
      have hst := strat _ (mem_allIds_fail hr')
      refine ⟨by rw [strategicAt_eq, strategicAt_eq, hst], ?_⟩
      by_cases hdt : d.failedAt < t
      · right
        refine ⟨_, _, rfl, hdt, Nat.lt_of_lt_of_le hdt (show t ≤ r.failedAt from he ▸ hle), ?_⟩
        rcases statusAt_inv (rfl : statusAt (Eff.cleanup t (run ops)) r.id = _) with
          ⟨x, hx, hxe, -⟩ | ⟨x, hx, hxe, -⟩ | ⟨x, hx, hxe, ⟨c, hc, hck, -⟩ | ⟨-, hres⟩⟩ | ⟨x, hx, hxe, -⟩ | ⟨hno, -⟩
        · exact absurd (mem_of_eq hxe hx) (not_sub_of_fail hI' (List.mem_map_of_mem hr'))
        · exact absurd (mem_of_eq hxe hx) fun h => hI'.comp_fail h (List.mem_map_of_mem hr')
        · have hxr := eq_of_key_eq hI'.failIds hx hr' hxe
          subst hxr
          simp only [Eff.cleanup, List.mem_filter, Bool.not_eq_true', decide_eq_false_iff_not] at hc
          have := eq_of_key_eq hI.cfKeys hc.1 hd (hck.trans hk.symm)
          subst this
          exact absurd hdt hc.2
        · exact hres
        · exact absurd (mem_of_eq hxe hx) fun h => hI'.fail_canc (List.mem_map_of_mem hr') h
        · exact absurd (mem_allIds_fail hr') hno
      · left
        have hd2 : d ∈ (Eff.cleanup t (run ops)).chunksFailed := by
          simp only [Eff.cleanup, List.mem_filter, Bool.not_eq_true', decide_eq_false_iff_not]
          exact ⟨hd, hdt⟩
        rw [statusAt_fail_ok hI' hr' hd2 hk, failView, hst]
        rfl
    | cancelled s =>
      obtain ⟨r, hr, rfl, rfl⟩ := statusAt_cancelled h
      simp only [SubmissionStatus.endedAt, Option.some.injEq, cancView] at he
      have hr' : r ∈ (Eff.cleanup t (run ops)).submissionsCancelled := by
        simp only [Eff.cleanup, List.mem_filter, Bool.not_eq_true', decide_eq_false_iff_not]
        exact ⟨hr, fun h => Nat.not_lt.2 hle (he ▸ h)⟩
      have hst := strat _ (mem_allIds_canc hr')
      refine ⟨by rw [strategicAt_eq, strategicAt_eq, hst], .inl ?_⟩
      rw [statusAt_canc hI' hr', cancView, hst]
      rfl
  · intro id s h
    obtain ⟨r, hr, rfl, rfl⟩ := statusAt_inProgress h
    have hr' : r ∈ (Eff.cleanup t (run ops)).submissions := hr
    have hst := strat _ (mem_allIds_sub hr')
    refine ⟨?_, by rw [strategicAt_eq, strategicAt_eq, hst]⟩
    rw [statusAt_sub hI' hr', subView, hst]
    rfl
  · intro id h
    rw [statusAt_eq_none] at h ⊢
    have he : Effect (run ops) (.cleanup t []) (Eff.cleanup t (run ops)) := .cleanup _ t []
    exact fun hx => h (he.ids_new hI hx (by simp [Op.insertId]))
  · intro cid
    exact chunkAt_congr rfl
  · intro cid c
    have key : ∀ db : DB, (db.chunksCompleted.map ChunkCompletedRow.key).Nodup →
        (chunkCompletedAt db cid = .ok c ↔ c ∈ db.chunksCompleted ∧ c.key = cid) := by
      intro db hn
      constructor
      · intro h
        rw [chunkCompletedAt_eq, Stmt.selectChunkCompleted] at h
        cases hx : db.chunksCompleted.find? (fun c => c.key == cid) with
        | none => rw [hx] at h; simp [resOf] at h
        | some d =>
          rw [hx] at h
          simp only [resOf, Res.ok.injEq] at h
          exact h ▸ mem_of_find?_key hx
      · rintro ⟨hc, rfl⟩
        exact chunkCompletedAt_ok hn hc
    rw [key _ hI.ccKeys, key _ hI'.ccKeys]
    simp only [Eff.cleanup, List.mem_filter, Bool.not_eq_true', decide_eq_false_iff_not, Nat.not_lt]
    constructor
    · rintro ⟨⟨a, b⟩, c⟩; exact ⟨⟨a, c⟩, b⟩
    · rintro ⟨⟨a, c⟩, b⟩; exact ⟨⟨a, b⟩, c⟩
  · intro cid c
    have key : ∀ db : DB, (db.chunksFailed.map ChunkFailedRow.key).Nodup →
        (chunkFailedAt db cid = .ok c ↔ ∃ d ∈ db.chunksFailed, d.key = cid ∧ chunkFailedView d = c) := by
      intro db hn
      constructor
      · intro h
        rw [chunkFailedAt_eq] at h
        cases hx : Stmt.selectChunkFailed cid db with
        | error e => rw [hx] at h; simp [resOf] at h
        | ok d =>
          rw [hx] at h
          simp only [resOf, Res.ok.injEq] at h
          obtain ⟨r, hr, hk, e⟩ := selectChunkFailed_ok hx
          exact ⟨r, hr, hk, by rw [← h, e]⟩
      · rintro ⟨d, hd, rfl, rfl⟩
        exact (chunkFailedAt_ok hn hd).1
    rw [key _ hI.cfKeys, key _ hI'.cfKeys]
    simp only [Eff.cleanup, List.mem_filter, Bool.not_eq_true', decide_eq_false_iff_not, Nat.not_lt]
    constructor
    · rintro ⟨d, ⟨hd, ht⟩, hk, rfl⟩; exact ⟨⟨d, hd, hk, rfl⟩, ht⟩
    · rintro ⟨⟨d, hd, hk, rfl⟩, ht⟩; exact ⟨d, ⟨hd, ht⟩, hk, rfl⟩

/-- A mix of old and new finished submissions and one in progress. Note that the record of the completed
chunk 1 of submission 7, which is still in progress, is removed: C16 says so in its last part. -/
example :
    let ops := exampleBeforeFail ++
      [ .insert { id := 3, contents := [] } 5 [], .insert { id := 4, contents := [] } 30 [] ]
    FreshIds ops ∧
    (∃ s, statusAt (run ops) 3 = .ok (some (.completed s)) ∧ s.completedAt = 5) ∧
    (∃ s, statusAt (run ops) 4 = .ok (some (.completed s)) ∧ s.completedAt = 30) ∧
    (∃ s, statusAt (run ops) 7 = .ok (some (.inProgress s))) ∧
    chunkCompletedAt (run ops) ⟨7, 1⟩ = .ok ⟨7, 1, some [9], 11⟩ ∧
    chunkCompletedAt (step (run ops) (.cleanup 20 [])).2 ⟨7, 1⟩ = .err .rowNotFound := by
  refine ⟨by decide +kernel, ⟨⟨3, none, 0, 1, none, [], 5, "{}"⟩, by decide +kernel⟩,
    ⟨⟨4, none, 0, 1, none, [], 30, "{}"⟩, by decide +kernel⟩,
    ⟨⟨7, none, 3, 1, 1, some [5], [], "{}"⟩, by decide +kernel⟩, by decide +kernel⟩

end Opsqueue
