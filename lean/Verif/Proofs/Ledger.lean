import Verif.Proofs.Holding

/-!
# Lemmas about the in-flight counters of the server
-/

namespace Opsqueue

/-! ### one submission's metadata -/

namespace MetaState

/-- No count is zero. -/
def Pos (m : MetaState) : Prop := ∀ k v n, m.count k v = some n → 0 < n

theorem increment_eq (m : MetaState) (k : String) (v : Int) :
    m.increment k v = Map.set m k (MetaStateField.increment ((m.get k).getD []) v) := by
  unfold increment; cases m.get k <;> rfl

theorem cnt_increment (m : MetaState) (k : String) (v : Int) (k' : String) (v' : Int) :
    cnt (m.increment k v) k' v' = cnt m k' v' + if k = k' ∧ v = v' then 1 else 0 := by
  rw [increment_eq, MetaConc.cnt_set_inc]

theorem pos_increment {m : MetaState} (h : Pos m) (k : String) (v : Int) : Pos (m.increment k v) := by
  rw [increment_eq]
  intro k' v' n hn
  rw [count_set] at hn
  split at hn
  · rw [MetaStateField.get_increment] at hn
    split at hn
    · cases hn; omega
    · rename_i hk _; subst hk; rw [count_getD] at hn; exact h _ _ _ hn
  · exact h _ _ _ hn

theorem decrement_spec {m : MetaState} (h : Pos m) (k : String) (v : Int) :
    Pos ((m.decrement k v).getD m) ∧
    ∀ k' v', cnt ((m.decrement k v).getD m) k' v' = cnt m k' v' - if k = k' ∧ v = v' then 1 else 0 := by
  cases hg : m.get k with
  | none =>
    have : m.decrement k v = some m := by unfold decrement; rw [hg]
    rw [this]
    refine ⟨h, fun k' v' => ?_⟩
    rw [Option.getD_some]
    split
    · rename_i e; obtain ⟨rfl, rfl⟩ := e
      simp [cnt, count, hg]
    · omega
  | some f =>
    cases hf : f.get v with
    | none =>
      have e : f.decrement v = some f := MetaStateField.decrement_absent hf
      have e2 : m.decrement k v = some (if f.isEmpty then Map.erase m k else Map.set m k f) := by
        unfold decrement; rw [hg]; simp only [e]
      rw [e2, Option.getD_some]
      have hcount : ∀ k' v', count (if f.isEmpty then Map.erase m k else Map.set m k f) k' v' =
          m.count k' v' := by
        intro k' v'
        split
        · rename_i he
          rw [count_erase]
          split
          · rename_i hk; subst hk
            simp [count, hg, (MetaStateField.isEmpty_iff f).1 he v']
          · rfl
        · rw [count_set]
          split
          · rename_i hk; subst hk; simp [count, hg]
          · rfl
      refine ⟨fun k' v' n hn => h k' v' n (by rwa [hcount] at hn), fun k' v' => ?_⟩
      unfold cnt
      rw [hcount]
      split
      · rename_i e; obtain ⟨rfl, rfl⟩ := e
        simp [count, hg, hf]
      · omega
    | some n =>
      cases n with
      | zero => exact absurd (h k v 0 (by simp [count, hg, hf])) (by omega)
      | succ n =>
        obtain ⟨f', hf', hget⟩ := MetaStateField.decrement_present hf
        have e2 : m.decrement k v = some (if f'.isEmpty then Map.erase m k else Map.set m k f') := by
          unfold decrement; rw [hg]; simp only [hf']
        rw [e2, Option.getD_some]
        have hcount : ∀ k' v', count (if f'.isEmpty then Map.erase m k else Map.set m k f') k' v' =
            if k = k' then f'.get v' else m.count k' v' := by
          intro k' v'
          split
          · rename_i he
            rw [count_erase]
            split
            · exact ((MetaStateField.isEmpty_iff f').1 he v').symm
            · rfl
          · rw [count_set]
        constructor
        · intro k' v' x hx
          rw [hcount] at hx
          split at hx
          · rename_i hk; subst hk
            rw [hget] at hx
            split at hx
            · split at hx
              · cases hx
              · cases hx; omega
            · exact h k v' x (by simp [count, hg, hx])
          · exact h _ _ _ hx
        · intro k' v'
          unfold cnt
          rw [hcount]
          by_cases hk : k = k'
          · subst hk
            rw [if_pos rfl, hget]
            by_cases hv : v = v'
            · subst hv
              simp only [if_true, and_self, count, hg, Option.bind_some, hf, Option.getD_some]
              split
              · simp only [Option.getD_none]; omega
              · simp only [Option.getD_some]; omega
            · simp [hv, count, hg]
          · simp [hk]

end MetaState

namespace Server
open Conn (Request Response Report)

theorem insertMetadata_spec {m : MetaState} (h : m.Pos) (md : StrategicMetadata) :
    (insertMetadata m md).Pos ∧
    ∀ k v, (insertMetadata m md).cnt k v = m.cnt k v + md.count (k, v) := by
  unfold insertMetadata
  induction md generalizing m with
  | nil => exact ⟨h, fun k v => by simp⟩
  | cons kv md ih =>
    obtain ⟨h1, h2⟩ := ih (MetaState.pos_increment h kv.1 kv.2)
    refine ⟨h1, fun k v => ?_⟩
    rw [List.foldl_cons, h2, MetaState.cnt_increment, List.count_cons]
    have : (kv == (k, v)) = true ↔ kv.1 = k ∧ kv.2 = v := by
      obtain ⟨a, b⟩ := kv; simp
    by_cases hc : kv.1 = k ∧ kv.2 = v
    · rw [if_pos hc, if_pos (this.2 hc)]; omega
    · rw [if_neg hc, if_neg (mt this.1 hc)]; omega

theorem removeMetadata_spec {m : MetaState} (h : m.Pos) (md : StrategicMetadata) :
    (removeMetadata m md).Pos ∧
    ∀ k v, (removeMetadata m md).cnt k v = m.cnt k v - md.count (k, v) := by
  unfold removeMetadata
  induction md generalizing m with
  | nil => exact ⟨h, fun k v => by simp⟩
  | cons kv md ih =>
    obtain ⟨h0, h0'⟩ := MetaState.decrement_spec h kv.1 kv.2
    obtain ⟨h1, h2⟩ := ih h0
    refine ⟨h1, fun k v => ?_⟩
    rw [List.foldl_cons, h2, h0', List.count_cons]
    have : (kv == (k, v)) = true ↔ kv.1 = k ∧ kv.2 = v := by
      obtain ⟨a, b⟩ := kv; simp
    by_cases hc : kv.1 = k ∧ kv.2 = v
    · rw [if_pos hc, if_pos (this.2 hc)]; omega
    · rw [if_neg hc, if_neg (mt this.1 hc)]; omega

theorem strategic_nodup {db : DB} (hI : Inv db) (x : SubmissionId) : (Stmt.strategicOf x db).Nodup := by
  unfold Stmt.strategicOf
  have h1 : ((db.submissionsMetadata.filter (·.submissionId == x)).map MetaRow.pk).Nodup :=
    hI.metaPk.sublist (List.filter_sublist.map _)
  have h2 := List.Pairwise.of_map (R := (· ≠ ·)) (S := (· ≠ ·)) MetaRow.pk (fun a b h e => h (by rw [e])) h1
  refine List.Pairwise.map _ (R := fun a b => a ∈ db.submissionsMetadata.filter (·.submissionId == x) ∧
    b ∈ db.submissionsMetadata.filter (·.submissionId == x) ∧ a.pk ≠ b.pk) ?_ ?_
  · rintro a b ⟨ha, hb, hne⟩ e
    apply hne
    have ha := (List.mem_filter.1 ha).2
    have hb := (List.mem_filter.1 hb).2
    simp only [beq_iff_eq] at ha hb
    unfold MetaRow.pk
    injection e with e1 e2
    rw [ha, hb, e1]
  · have h3 : (db.submissionsMetadata.filter (·.submissionId == x)).Pairwise fun a b => a.pk ≠ b.pk :=
      List.pairwise_map.1 h1
    exact List.Pairwise.imp_of_mem (fun ha hb h => ⟨ha, hb, h⟩) h3

/-- A call that is not a cleanup does not change the metadata of earlier submissions. -/
theorem strategic_step {ops : List Op} {op : Op} (hf : FreshIds (ops ++ [op])) {x : SubmissionId}
    (hx : x ∈ ops.filterMap Op.insertId) (hc : op.isCleanup = false) :
    Stmt.strategicOf x (Opsqueue.run (ops ++ [op])) = Stmt.strategicOf x (Opsqueue.run ops) := by
  have he := effect_run hf
  have hins : ∀ (a : SubmissionDb.InsertArgs) (now : Time) (o : List Fault), op = .insert a now o →
      ∀ db' : DB, db'.submissionsMetadata = (Eff.insert a (Opsqueue.run ops)).submissionsMetadata →
      Stmt.strategicOf x db' = Stmt.strategicOf x (Opsqueue.run ops) := by
    intro a now o e db' hdb
    rw [strategic_congr hdb]
    simp only [Stmt.strategicOf, Eff.insert]
    rw [filter_append_id (Opsqueue.run ops).submissionsMetadata _ MetaRow.submissionId]
    intro m hm
    simp only [metaRows, List.mem_map] at hm
    obtain ⟨_, _, rfl⟩ := hm
    intro e2
    have := hf.snoc.2 a.id (by rw [e]; rfl)
    replace e2 : a.id = x := e2
    rw [e2] at this
    exact this hx
  generalize Opsqueue.run (ops ++ [op]) = db' at he
  generalize Opsqueue.run ops = db at he hins
  cases he with
  | none => rfl
  | insert a now o h => exact hins a now o rfl _ rfl
  | insertEmpty a now o h he => exact hins a now o rfl _ rfl
  | cleanup => cases hc
  | _ => exact strategic_congr rfl x

/-! ### an orderly server -/

/-- The chunks collected and handed out by a connection. -/
def ConnState.flight (k : ConnState) : List ChunkId := k.held ++ (k.fetching.map (·.got)).getD []

def State.claimsOf (s : State) (c : ConnId) : List ChunkId := ((s.conns.get c).map (·.claims)).getD []
def State.flightOf (s : State) (c : ConnId) : List ChunkId := ((s.conns.get c).map (·.flight)).getD []

theorem flight_claims {s : State} {c : ConnId} {id : ChunkId} (h : id ∈ s.flightOf c) :
    id ∈ s.claimsOf c := by
  unfold State.flightOf at h
  unfold State.claimsOf
  cases hk : s.conns.get c with
  | none => rw [hk] at h; cases h
  | some k =>
    rw [hk] at h
    replace h : id ∈ k.held ++ (k.fetching.map (·.got)).getD [] := h
    show id ∈ k.held ++ (k.fetching.map Fetching.taken).getD []
    rcases List.mem_append.1 h with h | h
    · exact List.mem_append_left _ h
    · refine List.mem_append_right _ ?_
      cases hf : k.fetching with
      | none => rw [hf] at h; cases h
      | some f => rw [hf] at h; exact List.mem_append_left _ h

/-- The reservations are those of the chunks in `cl` and of those about to be removed. -/
structure ResCalm (r : Reserver ChunkId ChunkId ConnId) (cl : ConnId → List ChunkId) : Prop where
  claimed : ∀ c id, id ∈ cl c → ∃ e, r.lookup id = some e ∧ e.sender = c ∧ id ∉ r.pending.map (·.1)
  known : ∀ id e, r.lookup id = some e → id ∈ cl e.sender ∨ id ∈ r.pending.map (·.1)
  nodup : (r.pending.map (·.1)).Nodup
  there : ∀ id ∈ r.pending.map (·.1), r.lookup id ≠ none

theorem lookup_drop (r : Reserver ChunkId ChunkId ConnId) (k id : ChunkId) :
    (r.drop k).lookup id = if k = id then none else r.lookup id := by
  unfold Reserver.lookup
  rw [Reserver.drop_get]
  have : (r.drop k).alive = r.alive := by funext e; exact Reserver.drop_alive r k e
  rw [this]
  split <;> rfl

theorem lookup_evict (r : Reserver ChunkId ChunkId ConnId) (k id : ChunkId) :
    (r.evict k).lookup id = r.lookup id ∧ (r.evict k).pending = r.pending := by
  unfold Reserver.evict
  cases hg : r.cache.get k with
  | none => exact ⟨rfl, rfl⟩
  | some e =>
    dsimp only
    split
    · exact ⟨rfl, rfl⟩
    · rename_i ha
      refine ⟨?_, Reserver.drop_pending _ _⟩
      rw [lookup_drop]
      split
      · rename_i hk; subst hk
        unfold Reserver.lookup; rw [hg, Option.filter_some, if_neg ha]
      · rfl

theorem ResCalm.congr {r r' : Reserver ChunkId ChunkId ConnId} {cl : ConnId → List ChunkId}
    (h : ResCalm r cl) (h1 : ∀ id, r'.lookup id = r.lookup id) (h2 : r'.pending = r.pending) :
    ResCalm r' cl := by
  obtain ⟨a, b, c, d⟩ := h
  refine ⟨?_, ?_, ?_, ?_⟩
  · intro x id hx; rw [h1, h2]; exact a x id hx
  · intro id e he; rw [h1] at he; rw [h2]; exact b id e he
  · rw [h2]; exact c
  · intro id hid; rw [h2] at hid; rw [h1]; exact d id hid

theorem ResCalm.purgeNext {r : Reserver ChunkId ChunkId ConnId} {cl : ConnId → List ChunkId}
    (h : ResCalm r cl) : ResCalm r.purgeNext cl := by
  unfold Reserver.purgeNext
  cases hf : r.pending.find? (fun p => decide (p.2 ≤ r.now)) with
  | none => exact h
  | some p =>
    dsimp only
    obtain ⟨-, pre, post, h1, h2⟩ := List.find?_eq_some_iff_append.1 hf
    have hp := List.find?_some (p := fun p : ChunkId × Nat => decide (p.2 ≤ r.now)) hf
    have he : r.pending.eraseP (fun p => decide (p.2 ≤ r.now)) = pre ++ post := by
      rw [h1, List.eraseP_append_right, List.eraseP_cons_of_pos (p := fun p : ChunkId × Nat => decide (p.2 ≤ r.now)) hp]
      intro a ha; have := h2 a ha; simpa using this
    rw [he]
    have hmem : ∀ id, id ∈ (pre ++ post).map (·.1) ↔ id ∈ r.pending.map (·.1) ∧ id ≠ p.1 := by
      have hn := h.nodup
      rw [h1, List.map_append, List.map_cons] at hn
      have hn' := List.perm_middle.nodup_iff.1 hn
      have hnot := (List.nodup_cons.1 hn').1
      intro id
      rw [h1, List.map_append, List.map_append, List.map_cons]
      simp only [List.mem_append, List.mem_cons] at hnot ⊢
      constructor
      · rintro (hh | hh)
        · exact ⟨.inl hh, fun e => hnot (.inl (e ▸ hh))⟩
        · exact ⟨.inr (.inr hh), fun e => hnot (.inr (e ▸ hh))⟩
      · rintro ⟨hh | hh | hh, hne⟩
        · exact .inl hh
        · exact absurd hh hne
        · exact .inr hh
    have hpm : p.1 ∈ r.pending.map (·.1) := List.mem_map_of_mem (List.mem_of_find?_eq_some hf)
    have hl : ∀ id, ({ r with pending := pre ++ post }.drop p.1).lookup id =
        if p.1 = id then none else r.lookup id := fun id => lookup_drop _ _ _
    have hpend : ({ r with pending := pre ++ post }.drop p.1).pending = pre ++ post :=
      Reserver.drop_pending _ _
    refine ⟨?_, ?_, ?_, ?_⟩
    · intro c id hid
      obtain ⟨e, e1, e2, e3⟩ := h.claimed c id hid
      have hne : p.1 ≠ id := fun e => e3 (e ▸ hpm)
      rw [hl, if_neg hne, hpend]
      exact ⟨e, e1, e2, fun hh => e3 ((hmem id).1 hh).1⟩
    · intro id e hid
      rw [hl] at hid
      split at hid
      · cases hid
      · rename_i hne
        rw [hpend]
        rcases h.known id e hid with hh | hh
        · exact .inl hh
        · exact .inr ((hmem id).2 ⟨hh, Ne.symm hne⟩)
    · rw [hpend]
      have hn := h.nodup
      rw [h1, List.map_append, List.map_cons] at hn
      rw [List.map_append]
      exact (List.nodup_cons.1 (List.perm_middle.nodup_iff.1 hn)).2
    · intro id hid
      rw [hpend] at hid
      obtain ⟨h5, h6⟩ := (hmem id).1 hid
      rw [hl, if_neg (Ne.symm h6)]
      exact h.there id h5

theorem ResCalm.tick {r : Reserver ChunkId ChunkId ConnId} {cl : ConnId → List ChunkId}
    (h : ResCalm r cl) (t : Tick)
    (ho : ∀ d, t = .advance d → ∀ id e, r.lookup id = some e → r.now + d < e.reservedAt + r.ttl) :
    ResCalm (r.step t.op) cl := by
  cases t with
  | purgeNext => exact h.purgeNext
  | evict k => exact h.congr (fun id => (lookup_evict r k id).1) (lookup_evict r k ⟨0, 0⟩).2
  | runPendingTasks =>
    show ResCalm r.runPendingTasks cl
    unfold Reserver.runPendingTasks
    have hp : ResCalm r.purge cl := by
      unfold Reserver.purge
      generalize r.pending.filter (fun p => decide (p.2 ≤ r.now)) = l
      induction l generalizing r with
      | nil => exact h
      | cons x l ih =>
        rw [List.foldl_cons]
        refine ih h.purgeNext ?_
        intro d e; cases e
    generalize r.purge = r1 at *
    dsimp only
    generalize r1.cache.map (·.1) = l
    clear h ho
    induction l generalizing r1 with
    | nil => exact hp
    | cons x l ih =>
      exact ih _ (hp.congr (fun id => (lookup_evict r1 x id).1) (lookup_evict r1 x ⟨0, 0⟩).2)
  | advance d =>
    refine h.congr (fun id => ?_) rfl
    have ho := ho d rfl id
    show Option.filter _ (r.cache.get id) = Option.filter _ (r.cache.get id)
    unfold Reserver.lookup at ho
    cases hg : r.cache.get id with
    | none => rfl
    | some e =>
      rw [hg, Option.filter_some] at ho
      rw [Option.filter_some, Option.filter_some]
      have e1 : Reserver.alive (r.step (Tick.advance d).op) e = decide (r.now + d < e.reservedAt + r.ttl) := rfl
      by_cases ha : r.alive e = true
      · have := ho e (if_pos ha)
        rw [if_pos ha, e1, if_pos (decide_eq_true this)]
      · rw [if_neg ha, e1, if_neg]
        intro hh
        apply ha
        have := of_decide_eq_true hh
        exact decide_eq_true (by omega)

/-- The invariant of orderly histories. -/
structure Calm (s : State) : Prop where
  res : ResCalm s.reserver s.claimsOf
  nodup : ∀ c, (s.claimsOf c).Nodup
  pos : s.counters.Pos
  inserted : ∀ c id, id ∈ s.flightOf c → id.submissionId ∈ s.calls.filterMap Op.insertId
  ledger : ∃ out : List ChunkId, out.Nodup ∧ (∀ id, id ∈ out ↔ ∃ c, id ∈ s.flightOf c) ∧
    ∀ k v, s.counters.cnt k v =
      (out.filter fun id => decide ((k, v) ∈ Stmt.strategicOf id.submissionId s.db)).length

/-- Nothing that matters changes. -/
theorem Calm.congr {s s' : State} (h : Calm s) (hr : s'.reserver = s.reserver)
    (hc : ∀ c, s'.claimsOf c = s.claimsOf c) (hf : ∀ c, s'.flightOf c = s.flightOf c)
    (hm : s'.counters = s.counters) (hd : s'.db = s.db) (hl : s'.calls = s.calls) : Calm s' := by
  have e1 : s'.claimsOf = s.claimsOf := funext hc
  have e2 : s'.flightOf = s.flightOf := funext hf
  obtain ⟨a, b, c, d, e⟩ := h
  constructor
  · rw [hr, e1]; exact a
  · rw [e1]; exact b
  · rw [hm]; exact c
  · rw [e2, hl]; exact d
  · rw [e2, hm, hd]; exact e

theorem claimsOf_set (s : State) (c x : ConnId) (k : ConnState) :
    (s.setConn c k).claimsOf x = if c = x then k.claims else s.claimsOf x := by
  unfold State.claimsOf; rw [get_setConn]; split <;> rfl

theorem flightOf_set (s : State) (c x : ConnId) (k : ConnState) :
    (s.setConn c k).flightOf x = if c = x then k.flight else s.flightOf x := by
  unfold State.flightOf; rw [get_setConn]; split <;> rfl

theorem claimsOf_get {s : State} {c : ConnId} {k : ConnState} (h : s.conns.get c = some k) :
    s.claimsOf c = k.claims := by unfold State.claimsOf; rw [h]; rfl

theorem flightOf_get {s : State} {c : ConnId} {k : ConnState} (h : s.conns.get c = some k) :
    s.flightOf c = k.flight := by unfold State.flightOf; rw [h]; rfl

/-- The connection changes, but not its chunks. -/
theorem Calm.setConn {s s' : State} (h : Calm s) {c : ConnId} {k : ConnState}
    (hs : s' = s.setConn c k) (h1 : k.claims = s.claimsOf c) (h2 : k.flight = s.flightOf c) : Calm s' := by
  subst hs
  refine h.congr rfl (fun x => ?_) (fun x => ?_) rfl rfl rfl
  · rw [claimsOf_set]; split
    · rename_i e; rw [h1, e]
    · rfl
  · rw [flightOf_set]; split
    · rename_i e; rw [h2, e]
    · rfl

/-- Everything is gone. -/
theorem Calm.wiped {s s' : State} (h : Wiped s s') : Calm s' := by
  obtain ⟨h1, h2, h3, h4, h5, h6⟩ := h
  have e1 : ∀ c, s'.claimsOf c = [] := by
    intro c; unfold State.claimsOf; rw [h6]; cases s.conns.get c <;> rfl
  have e2 : ∀ c, s'.flightOf c = [] := by
    intro c; unfold State.flightOf; rw [h6]; cases s.conns.get c <;> rfl
  have hl : ∀ id, s'.reserver.lookup id = none := by rw [h1]; intro id; rfl
  have hp : s'.reserver.pending = [] := by rw [h1]; rfl
  refine ⟨⟨?_, ?_, ?_, ?_⟩, ?_, ?_, ?_, [], List.nodup_nil, ?_, ?_⟩
  · intro c id hid; rw [e1] at hid; cases hid
  · intro id e he; rw [hl] at he; cases he
  · rw [hp]; exact List.nodup_nil
  · intro id hid; rw [hp] at hid; cases hid
  · intro c; rw [e1]; exact List.nodup_nil
  · rw [h2]; intro k v n hn; cases hn
  · intro c id hid; rw [e2] at hid; cases hid
  · intro id
    constructor
    · intro hh; cases hh
    · rintro ⟨c, hh⟩; rw [e2] at hh; cases hh
  · intro k v; rw [h2]; rfl

/-- A database call that is not a cleanup. -/
theorem Calm.call {s s' : State} {op : Op} (h : Calm s) (hf : FreshIds (s.calls ++ [op]))
    (hdb : s.db = Opsqueue.run s.calls) (hc : op.isCleanup = false)
    (hr : s'.reserver = s.reserver) (hcl : s'.claimsOf = s.claimsOf) (hfl : s'.flightOf = s.flightOf)
    (hm : s'.counters = s.counters) (hd : s'.db = (Opsqueue.step s.db op).2)
    (hl : s'.calls = s.calls ++ [op]) : Calm s' := by
  obtain ⟨a, b, c, d, out, e1, e2, e3⟩ := h
  refine ⟨by rw [hr, hcl]; exact a, by rw [hcl]; exact b, by rw [hm]; exact c, ?_, out, e1,
    by rw [hfl]; exact e2, ?_⟩
  · intro x id hid
    rw [hfl] at hid
    rw [hl, List.filterMap_append]
    exact List.mem_append_left _ (d x id hid)
  · intro k v
    rw [hm, e3]
    congr 1
    apply List.filter_congr
    intro id hid
    obtain ⟨x, hx⟩ := (e2 id).1 hid
    have hd' : s'.db = Opsqueue.run (s.calls ++ [op]) := by rw [run_snoc, hd, hdb]
    rw [hd', hdb, strategic_step hf (d x id hx) hc]

/-- A chunk is reserved for a fetch. -/
theorem Calm.row {s : State} (h : Calm s) (ht : 0 < s.reserver.ttl) {c : ConnId} {k k' : ConnState}
    {id : ChunkId} (hk : s.conns.get c = some k) (hres : s.reserver.isReserved id = false)
    (h1 : k'.claims = k.claims ++ [id]) (h2 : k'.flight = k.flight) :
    Calm ({ s with reserver := (s.reserver.tryReserve id id c).2 }.setConn c k') := by
  have hl := isReserved_eq_false.1 hres
  have hnot : ∀ x, id ∉ s.claimsOf x := by
    intro x hx
    obtain ⟨e, e1, _⟩ := h.res.claimed x id hx
    rw [hl] at e1; cases e1
  have hnp : id ∉ s.reserver.pending.map (·.1) := fun hh => h.res.there id hh hl
  have e1 : ∀ x, ({ s with reserver := (s.reserver.tryReserve id id c).2 }.setConn c k').claimsOf x =
      if c = x then s.claimsOf c ++ [id] else s.claimsOf x := by
    intro x; rw [claimsOf_set, h1, claimsOf_get hk]; rfl
  have e2 : ∀ x, ({ s with reserver := (s.reserver.tryReserve id id c).2 }.setConn c k').flightOf x =
      s.flightOf x := by
    intro x; rw [flightOf_set, h2]
    split
    · rename_i e; rw [← e, flightOf_get hk]
    · rfl
  have hown := holder_tryReserve (c := c) ht hres
  have hpend : (s.reserver.tryReserve id id c).2.pending = s.reserver.pending := by
    rw [Reserver.tryReserve_some hl]; exact Reserver.drop_pending _ _
  refine ⟨⟨?_, ?_, ?_, ?_⟩, ?_, h.pos, ?_, ?_⟩
  · intro x i hi
    show ∃ e, (s.reserver.tryReserve id id c).2.lookup i = some e ∧ _ ∧ _
    rw [e1] at hi
    have old : i ∈ s.claimsOf x → ∃ e, (s.reserver.tryReserve id id c).2.lookup i = some e ∧
        e.sender = x ∧ i ∉ (s.reserver.tryReserve id id c).2.pending.map (·.1) := by
      intro hi
      have hne : id ≠ i := fun e => hnot x (e ▸ hi)
      rw [lookup_tryReserve_ne hne, hpend]
      exact h.res.claimed x i hi
    split at hi
    · rename_i e; subst e
      rcases List.mem_append.1 hi with hi | hi
      · exact old hi
      · rw [List.mem_singleton.1 hi]
        cases hh : (s.reserver.tryReserve id id c).2.lookup id with
        | none => rw [hh] at hown; cases hown
        | some e =>
          rw [hh] at hown
          refine ⟨e, rfl, Option.some.inj hown, ?_⟩
          show id ∉ (s.reserver.tryReserve id id c).2.pending.map (·.1)
          rw [hpend]; exact hnp
    · exact old hi
  · intro i e he
    replace he : (s.reserver.tryReserve id id c).2.lookup i = some e := he
    show _ ∨ i ∈ (s.reserver.tryReserve id id c).2.pending.map (·.1)
    rw [e1, hpend]
    by_cases hne : id = i
    · subst hne
      rw [he] at hown
      have : e.sender = c := Option.some.inj hown
      left; rw [if_pos this.symm]; exact List.mem_append_right _ (List.mem_singleton.2 rfl)
    · rw [lookup_tryReserve_ne hne] at he
      rcases h.res.known i e he with hh | hh
      · left
        split
        · rename_i ec; exact List.mem_append_left _ (ec ▸ hh)
        · exact hh
      · exact .inr hh
  · show ((s.reserver.tryReserve id id c).2.pending.map (·.1)).Nodup
    rw [hpend]; exact h.res.nodup
  · intro i hi
    replace hi : i ∈ (s.reserver.tryReserve id id c).2.pending.map (·.1) := hi
    rw [hpend] at hi
    show (s.reserver.tryReserve id id c).2.lookup i ≠ none
    rw [lookup_tryReserve_ne (fun e : id = i => hnp (e ▸ hi))]
    exact h.res.there i hi
  · intro x
    rw [e1]
    split
    · refine List.nodup_append.2 ⟨h.nodup c, List.nodup_cons.2 ⟨List.not_mem_nil, List.nodup_nil⟩, ?_⟩
      intro a ha b hb
      rw [List.mem_singleton.1 hb]
      intro e; exact hnot c (e ▸ ha)
    · exact h.nodup x
  · intro x i hi; rw [e2] at hi; exact h.inserted x i hi
  · obtain ⟨out, o1, o2, o3⟩ := h.ledger
    refine ⟨out, o1, ?_, o3⟩
    intro i; rw [o2]
    constructor <;> rintro ⟨x, hx⟩ <;> exact ⟨x, by first | rw [e2]; exact hx | rw [e2] at hx; exact hx⟩

/-- The reserved chunk joins those collected, and is counted. -/
theorem Calm.join {s : State} (h : Calm s) (hI : Inv s.db) {c : ConnId} {k k' : ConnState} {id : ChunkId}
    (hk : s.conns.get c = some k) (hid : id ∈ k.claims) (hnf : id ∉ k.flight)
    (h1 : k'.claims = k.claims) (h2 : k'.flight = k.flight ++ [id])
    (hins : id.submissionId ∈ s.calls.filterMap Op.insertId) :
    Calm ({ s with
      counters := insertMetadata s.counters (Stmt.strategicOf id.submissionId s.db) }.setConn c k') := by
  obtain ⟨s', hs'⟩ : ∃ s', s' = { s with
      counters := insertMetadata s.counters (Stmt.strategicOf id.submissionId s.db) }.setConn c k' := ⟨_, rfl⟩
  rw [← hs']
  have e1 : ∀ x, s'.claimsOf x = s.claimsOf x := by
    intro x; rw [hs', claimsOf_set, h1]
    split
    · rename_i e; rw [← e, claimsOf_get hk]
    · rfl
  have e2 : ∀ x, s'.flightOf x = if c = x then s.flightOf c ++ [id] else s.flightOf x := by
    intro x; rw [hs', flightOf_set, h2, flightOf_get hk]; rfl
  have e3 : s'.claimsOf = s.claimsOf := funext e1
  have hr : s'.reserver = s.reserver := by rw [hs']; rfl
  have hd : s'.db = s.db := by rw [hs']; rfl
  have hl : s'.calls = s.calls := by rw [hs']; rfl
  have hm : s'.counters = insertMetadata s.counters (Stmt.strategicOf id.submissionId s.db) := by
    rw [hs']; rfl
  obtain ⟨m1, m2⟩ := insertMetadata_spec h.pos (Stmt.strategicOf id.submissionId s.db)
  have hnew : ∀ x, id ∉ s.flightOf x := by
    intro x hx
    by_cases e : x = c
    · subst e; rw [flightOf_get hk] at hx; exact hnf hx
    · obtain ⟨r1, q1, q2, _⟩ := h.res.claimed x id (flight_claims hx)
      obtain ⟨r2, q3, q4, _⟩ := h.res.claimed c id (by rw [claimsOf_get hk]; exact hid)
      rw [q1] at q3; cases q3
      exact e (q2.symm.trans q4)
  refine ⟨by rw [hr, e3]; exact h.res, by rw [e3]; exact h.nodup, by rw [hm]; exact m1, ?_, ?_⟩
  · intro x i hi
    rw [hl]
    rw [e2] at hi
    split at hi
    · rcases List.mem_append.1 hi with hi | hi
      · exact h.inserted c i hi
      · rw [List.mem_singleton.1 hi]; exact hins
    · exact h.inserted x i hi
  · obtain ⟨out, o1, o2, o3⟩ := h.ledger
    refine ⟨id :: out, List.nodup_cons.2 ⟨fun hh => ?_, o1⟩, ?_, ?_⟩
    · obtain ⟨x, hx⟩ := (o2 id).1 hh; exact hnew x hx
    · intro i
      rw [List.mem_cons, o2]
      constructor
      · rintro (rfl | ⟨x, hx⟩)
        · exact ⟨c, by rw [e2, if_pos rfl]; exact List.mem_append_right _ (List.mem_singleton.2 rfl)⟩
        · refine ⟨x, ?_⟩
          rw [e2]
          split
          · rename_i ec; rw [ec]; exact List.mem_append_left _ hx
          · exact hx
      · rintro ⟨x, hx⟩
        rw [e2] at hx
        split at hx
        · rcases List.mem_append.1 hx with hx | hx
          · exact .inr ⟨c, hx⟩
          · exact .inl (List.mem_singleton.1 hx)
        · exact .inr ⟨x, hx⟩
    · intro key v
      rw [hm, m2, o3, hd, List.filter_cons]
      have hn := strategic_nodup hI id.submissionId
      by_cases hmem : (key, v) ∈ Stmt.strategicOf id.submissionId s.db
      · rw [if_pos (decide_eq_true hmem), hn.count, if_pos hmem]; rfl
      · rw [if_neg (by simpa using hmem), hn.count, if_neg hmem]; rfl

/-- A chunk is released by its holder. -/
theorem Calm.release {s : State} (h : Calm s) (hI : Inv s.db) {c : ConnId} {id : ChunkId} {d : Bool}
    {k : ConnState} (hcomp : s.completing = some (c, id, d)) (hk : s.conns.get c = some k)
    (hheld : id ∈ k.held) : Calm (Server.release s true) := by
  obtain ⟨k', hk'⟩ : ∃ k' : ConnState, k' = { k with held := k.held.filter (· ≠ id) } := ⟨_, rfl⟩
  obtain ⟨s', hs'⟩ : ∃ s', s' = Server.release s true := ⟨_, rfl⟩
  have hrel : s' = { s with
      completing := none
      conns := s.conns.set c k'
      reserver := (s.reserver.finish id d).2
      counters := removeMetadata s.counters (Stmt.strategicOf id.submissionId s.db) } := by
    rw [hs', hk']; unfold Server.release; rw [hcomp]; dsimp only; rw [hk]; rfl
  rw [← hs']
  have hget : ∀ x, s'.conns.get x = if c = x then some k' else s.conns.get x := by
    intro x; rw [hrel]; exact Map.get_set _ _ _ _
  have hclk : k.claims.Nodup := by have := h.nodup c; rwa [claimsOf_get hk] at this
  have hcm : id ∈ k.claims := List.mem_append_left _ hheld
  have hntak : id ∉ k.taken := by
    intro hh
    exact (List.nodup_append.1 hclk).2.2 id hheld id hh rfl
  have hcl : k'.claims = k.claims.filter (· ≠ id) := by
    show k'.held ++ k'.taken = (k.held ++ k.taken).filter (· ≠ id)
    rw [List.filter_append, hk']
    congr 1
    show k.taken = k.taken.filter _
    symm
    rw [List.filter_eq_self]
    intro a ha
    simp only [ne_eq, decide_not, Bool.not_eq_eq_eq_not, Bool.not_true, decide_eq_false_iff_not]
    intro e; exact hntak (e ▸ ha)
  have hfl : k'.flight = k.flight.filter (· ≠ id) := by
    show k'.held ++ (k'.fetching.map (·.got)).getD [] = (k.held ++ (k.fetching.map (·.got)).getD []).filter (· ≠ id)
    rw [List.filter_append, hk']
    congr 1
    symm
    rw [List.filter_eq_self]
    intro a ha
    simp only [ne_eq, decide_not, Bool.not_eq_eq_eq_not, Bool.not_true, decide_eq_false_iff_not]
    intro e; subst e
    apply hntak
    cases hf : k.fetching with
    | none => rw [hf] at ha; cases ha
    | some f => rw [taken_of hf]; rw [hf] at ha; exact List.mem_append_left _ ha
  have e1 : ∀ x, s'.claimsOf x = if c = x then (s.claimsOf c).filter (· ≠ id) else s.claimsOf x := by
    intro x
    rw [claimsOf_get hk, ← hcl]
    unfold State.claimsOf; rw [hget]; split <;> rfl
  have e2 : ∀ x, s'.flightOf x = if c = x then (s.flightOf c).filter (· ≠ id) else s.flightOf x := by
    intro x
    rw [flightOf_get hk, ← hfl]
    unfold State.flightOf; rw [hget]; split <;> rfl
  obtain ⟨e, l1, l2, l3⟩ := h.res.claimed c id (by rw [claimsOf_get hk]; exact hcm)
  have only : ∀ x, id ∈ s.claimsOf x → x = c := by
    intro x hx
    obtain ⟨e', q1, q2, _⟩ := h.res.claimed x id hx
    rw [l1] at q1; cases q1; exact q2.symm.trans l2
  have clsub : ∀ x i, i ∈ s'.claimsOf x ↔ i ∈ s.claimsOf x ∧ i ≠ id := by
    intro x i
    rw [e1]
    split
    · rename_i ec; subst ec; simp
    · rename_i ec
      constructor
      · intro hi; exact ⟨hi, fun ei => ec (only x (ei ▸ hi)).symm⟩
      · exact fun hh => hh.1
  have flsub : ∀ x i, i ∈ s'.flightOf x ↔ i ∈ s.flightOf x ∧ i ≠ id := by
    intro x i
    rw [e2]
    split
    · rename_i ec; subst ec; simp
    · rename_i ec
      constructor
      · intro hi; exact ⟨hi, fun ei => ec (only x (flight_claims (ei ▸ hi))).symm⟩
      · exact fun hh => hh.1
  have hres : s'.reserver = (s.reserver.finish id d).2 := by rw [hrel]
  have hfin : (s.reserver.finish id d).2 = if d then s.reserver.schedule id else s.reserver.drop id := by
    unfold Reserver.finish; rw [l1]; cases d <;> rfl
  obtain ⟨m1, m2⟩ := removeMetadata_spec h.pos (Stmt.strategicOf id.submissionId s.db)
  have hm : s'.counters = removeMetadata s.counters (Stmt.strategicOf id.submissionId s.db) := by rw [hrel]
  have hd : s'.db = s.db := by rw [hrel]
  have hl : s'.calls = s.calls := by rw [hrel]
  refine ⟨?_, ?_, by rw [hm]; exact m1, ?_, ?_⟩
  · rw [hres, hfin]
    cases d with
    | true =>
      have hpm : ∀ i, i ∈ (s.reserver.schedule id).pending.map (·.1) ↔
          i ∈ s.reserver.pending.map (·.1) ∨ i = id := by
        intro i; unfold Reserver.schedule; simp
      refine ⟨?_, ?_, ?_, ?_⟩
      · intro x i hi
        obtain ⟨g1, g2⟩ := (clsub x i).1 hi
        obtain ⟨e', q1, q2, q3⟩ := h.res.claimed x i g1
        refine ⟨e', q1, q2, fun hh => ?_⟩
        rcases (hpm i).1 hh with hh | hh
        · exact q3 hh
        · exact g2 hh
      · intro i e' he
        rcases h.res.known i e' he with hh | hh
        · by_cases ei : i = id
          · exact .inr ((hpm i).2 (.inr ei))
          · exact .inl ((clsub _ i).2 ⟨hh, ei⟩)
        · exact .inr ((hpm i).2 (.inl hh))
      · show ((s.reserver.pending ++ [(id, s.reserver.now + Reserver.removalDelay)]).map (·.1)).Nodup
        rw [List.map_append]
        refine List.nodup_append.2 ⟨h.res.nodup, List.nodup_cons.2 ⟨List.not_mem_nil, List.nodup_nil⟩, ?_⟩
        intro a ha b hb
        rw [List.mem_singleton.1 hb]
        intro ea
        replace ea : a = id := ea
        exact l3 (ea ▸ ha)
      · intro i hi
        show s.reserver.lookup i ≠ none
        rcases (hpm i).1 hi with hh | hh
        · exact h.res.there i hh
        · rw [hh, l1]; exact fun hh => by cases hh
    | false =>
      simp only [Bool.false_eq_true, if_false]
      refine ⟨?_, ?_, ?_, ?_⟩
      · intro x i hi
        obtain ⟨g1, g2⟩ := (clsub x i).1 hi
        rw [lookup_drop, if_neg (Ne.symm g2), Reserver.drop_pending]
        exact h.res.claimed x i g1
      · intro i e' he
        rw [lookup_drop] at he
        split at he
        · cases he
        · rename_i hne
          rw [Reserver.drop_pending]
          rcases h.res.known i e' he with hh | hh
          · exact .inl ((clsub _ i).2 ⟨hh, Ne.symm hne⟩)
          · exact .inr hh
      · rw [Reserver.drop_pending]; exact h.res.nodup
      · intro i hi
        rw [Reserver.drop_pending] at hi
        rw [lookup_drop, if_neg (fun ei : id = i => l3 (ei ▸ hi))]
        exact h.res.there i hi
  · intro x
    rw [e1]
    split
    · exact (h.nodup c).sublist List.filter_sublist
    · exact h.nodup x
  · intro x i hi
    rw [hl]; exact h.inserted x i ((flsub x i).1 hi).1
  · obtain ⟨out, o1, o2, o3⟩ := h.ledger
    have hmemout : id ∈ out := (o2 id).2 ⟨c, by rw [flightOf_get hk]; exact List.mem_append_left _ hheld⟩
    refine ⟨out.erase id, o1.erase id, ?_, ?_⟩
    · intro i
      rw [o1.mem_erase_iff, o2]
      constructor
      · rintro ⟨hne, x, hx⟩; exact ⟨x, (flsub x i).2 ⟨hx, hne⟩⟩
      · rintro ⟨x, hx⟩
        obtain ⟨g1, g2⟩ := (flsub x i).1 hx
        exact ⟨g2, x, g1⟩
    · intro key v
      rw [hm, m2, o3, hd]
      have hp := (List.perm_cons_erase hmemout).filter
        (fun i => decide ((key, v) ∈ Stmt.strategicOf i.submissionId s.db))
      rw [hp.length_eq, List.filter_cons]
      have hn := strategic_nodup hI id.submissionId
      by_cases hmem : (key, v) ∈ Stmt.strategicOf id.submissionId s.db
      · rw [if_pos (decide_eq_true hmem), hn.count, if_pos hmem]; rfl
      · rw [if_neg (by simpa using hmem), hn.count, if_neg hmem]; rfl

theorem claims_finishFetch {k : ConnState} {f : Fetching} :
    (finishFetch k f).claims = k.held ++ f.got ∧ (finishFetch k f).flight = k.held ++ f.got := by
  unfold ConnState.claims ConnState.flight
  rw [taken_finishFetch, finishFetch_fetching]
  unfold finishFetch
  cases hg : f.got with
  | nil => exact ⟨rfl, rfl⟩
  | cons x xs => exact ⟨List.append_nil _, List.append_nil _⟩

theorem claims_of {k : ConnState} {f : Fetching} (h : k.fetching = some f) :
    k.claims = k.held ++ (f.got ++ f.joining.toList) := by
  unfold ConnState.claims; rw [taken_of h]; rfl

theorem flight_of {k : ConnState} {f : Fetching} (h : k.fetching = some f) :
    k.flight = k.held ++ f.got := by
  unfold ConnState.flight; rw [h]; rfl

theorem Calm.begin {s s' : State} (h : Calm s) {c : ConnId} {k k0 : ConnState} {r : Request} {v : View}
    (hk : s.conns.get c = some k) (hf : k.fetching = none) (h0 : k0.held = k.held)
    (hs : s' = Server.begin s c k0 r v) : Calm s' := by
  have e1 : s.claimsOf c = k.held ++ [] := by
    rw [claimsOf_get hk]; unfold ConnState.claims ConnState.taken; rw [hf]; rfl
  have e2 : s.flightOf c = k.held ++ [] := by
    rw [flightOf_get hk]; unfold ConnState.flight; rw [hf]; rfl
  unfold Server.begin at hs
  split at hs
  · exact h.setConn hs (by rw [e1, ← h0]; rfl) (by rw [e2, ← h0]; rfl)
  · exact h.setConn hs (by rw [e1, ← h0]; rfl) (by rw [e2, ← h0]; rfl)

theorem getSubmission_inserted {ops : List Op} (hf : FreshIds ops) {x : SubmissionId} {sub : Submission}
    (h : (SubmissionDb.getSubmission x ⟨[], Opsqueue.run ops⟩).1 = .ok sub) :
    x ∈ ops.filterMap Op.insertId := by
  have hx : x ∈ (Opsqueue.run ops).submissions.map SubmissionRow.id := by
    simp only [SubmissionDb.getSubmission, Sql.bind_run, Sql.mapErr_run, Sql.query_nil,
      Stmt.selectSubmission] at h
    cases hg : (Opsqueue.run ops).submissions.find? (·.id == x) with
    | none => rw [hg] at h; cases h
    | some r =>
      have := List.find?_some hg
      simp only [beq_iff_eq] at this
      exact List.mem_map.2 ⟨r, List.mem_of_find?_eq_some hg, this⟩
  refine known_inserted hf ?_
  unfold allIds
  simp only [List.mem_append]
  exact .inl (.inl (.inl hx))

theorem submission_of_status {db : DB} {x : SubmissionId} {sub : Submission}
    (h : statusAt db x = .ok (some (.inProgress sub))) :
    ∃ sub, (SubmissionDb.getSubmission x ⟨[], db⟩).1 = .ok sub := by
  obtain ⟨r, hr, he, _⟩ := statusAt_inProgress h
  cases hg : db.submissions.find? (·.id == x) with
  | none =>
    have := List.find?_eq_none.1 hg r hr
    simp [he] at this
  | some r' =>
    simp [SubmissionDb.getSubmission, Sql.bind_run, Sql.mapErr_run, Sql.query_nil, Stmt.selectSubmission,
      hg, Sql.pure_run]

theorem calm_step {s : State} (h : Calm s) (ht : 0 < s.reserver.ttl) (hdb : s.db = Opsqueue.run s.calls)
    {a : Action} (ho : Orderly s a) (hf : FreshIds (step s a).calls) : Calm (step s a) := by
  have hfs : FreshIds s.calls := by
    rcases db_step s a with ⟨op, _, h1⟩ | ⟨_, h1⟩
    · rw [h1] at hf; exact hf.prefix
    · rw [h1] at hf; exact hf
  have hI : Inv s.db := by rw [hdb]; exact inv_run hfs
  have callOk : ∀ (s' : State) (op : Op), op.isCleanup = false → FreshIds (s.calls ++ [op]) →
      s'.reserver = s.reserver → s'.conns = s.conns → s'.counters = s.counters →
      s'.db = (Opsqueue.step s.db op).2 → s'.calls = s.calls ++ [op] → Calm s' := by
    intro s' op h1 h2 h3 h4 h5 h6 h7
    exact h.call h2 hdb h1 h3 (by unfold State.claimsOf; rw [h4]) (by unfold State.flightOf; rw [h4]) h5 h6 h7
  have same : step s a = s → Calm (step s a) := fun e => by rw [e]; exact h
  cases a with
  | connect c =>
    simp only [step]
    cases hc : s.conns.get c with
    | some k => exact h
    | none =>
      refine h.setConn rfl ?_ ?_
      · unfold State.claimsOf; rw [hc]; rfl
      · unfold State.flightOf; rw [hc]; rfl
  | request c r v =>
    cases hk : s.conn c with
    | none => apply same; simp [step, State.withIdle, State.withConn, hk]
    | some k =>
      cases hff : k.fetching with
      | some f => exact same (idle_noop hk hff _)
      | none => exact h.begin (conn_eq.1 hk).1 hff rfl (request_cases hk hff r v)
  | retry c v =>
    cases hk : s.conn c with
    | none => apply same; simp [step, State.withIdle, State.withConn, hk]
    | some k =>
      cases hff : k.fetching with
      | some f => exact same (idle_noop hk hff _)
      | none =>
        cases hr : k.retry with
        | nil => apply same; simp [step, State.withIdle, State.withConn, hk, hff, hr]
        | cons r rest =>
          have : step s (.retry c v) = Server.begin s c { k with retry := rest } r v := by
            simp [step, State.withIdle, State.withConn, hk, hff, hr]
          exact h.begin (k0 := { k with retry := rest }) (conn_eq.1 hk).1 hff rfl this
  | row c =>
    cases hk : s.conn c with
    | none => apply same; simp [step, State.withFetch, State.withConn, hk]
    | some k =>
      have hkc := (conn_eq.1 hk).1
      cases hff : k.fetching with
      | none => apply same; simp [step, State.withFetch, State.withConn, hk, hff]
      | some f =>
        have hcl := claims_of hff
        have hfl := flight_of hff
        rcases row_cases hk hff with ⟨hj, hs⟩ | ⟨hj, hr, hs⟩ | ⟨row, rest, hj, hr, ⟨hres, hs⟩ | ⟨hres, hs⟩⟩
        · exact same hs
        · refine h.setConn hs ?_ ?_
          · rw [claimsOf_get hkc, hcl, hj, claims_finishFetch.1]; simp
          · rw [flightOf_get hkc, hfl, claims_finishFetch.2]
        · refine h.setConn hs ?_ ?_
          · rw [claimsOf_get hkc, hcl]; rfl
          · rw [flightOf_get hkc, hfl]; rfl
        · rw [hs]
          refine h.row ht hkc hres ?_ ?_
          · rw [hcl, hj]
            show k.held ++ (f.got ++ [row.key]) = _
            simp
          · rw [hfl]; rfl
  | join c =>
    cases hk : s.conn c with
    | none => apply same; simp [step, State.withFetch, State.withConn, hk]
    | some k =>
      have hkc := (conn_eq.1 hk).1
      cases hff : k.fetching with
      | none => apply same; simp [step, State.withFetch, State.withConn, hk, hff]
      | some f =>
        have hcl := claims_of hff
        have hfl := flight_of hff
        have hfo : fetchOf s c = some f := by unfold fetchOf; rw [hk]; exact hff
        rcases join_cases hk hff with ⟨hj, hs⟩ | ⟨id, hj, ⟨sub, hsub, hs⟩ | ⟨hsub, hs⟩⟩
        · exact same hs
        · rw [hs]
          have hn : k.claims.Nodup := by have := h.nodup c; rwa [claimsOf_get hkc] at this
          rw [hcl, hj] at hn
          refine h.join hI hkc ?_ ?_ ?_ ?_ ?_
          · rw [hcl, hj]; simp
          · rw [hfl]
            intro hh
            replace hn : (k.held ++ (f.got ++ [id])).Nodup := hn
            rw [← List.append_assoc] at hn
            exact (List.nodup_append.1 hn).2.2 id hh id (List.mem_singleton.2 rfl) rfl
          · rw [hcl, hj]
            split
            · rw [claims_finishFetch.1]; rfl
            · show k.held ++ ((f.got ++ [id]) ++ []) = k.held ++ (f.got ++ [id])
              rw [List.append_nil]
          · rw [hfl]
            split
            · rw [claims_finishFetch.2]
              show k.held ++ (f.got ++ [id]) = _
              rw [List.append_assoc]
            · show k.held ++ (f.got ++ [id]) = _
              rw [List.append_assoc]
          · rw [hdb] at hsub; exact getSubmission_inserted hfs hsub
        · exfalso
          obtain ⟨sub, hst⟩ := ho f id hfo hj
          obtain ⟨x, hx⟩ := submission_of_status hst
          exact hsub x hx
  | fetchFails c =>
    cases hk : s.conn c with
    | none => apply same; simp [step, State.withFetch, State.withConn, hk]
    | some k =>
      have hkc := (conn_eq.1 hk).1
      cases hff : k.fetching with
      | none => apply same; simp [step, State.withFetch, State.withConn, hk, hff]
      | some f =>
        obtain ⟨g1, g2⟩ := ho f (by unfold fetchOf; rw [hk]; exact hff)
        have hs : step s (.fetchFails c) = s.setConn c (k.answer f.req (some [])) := by
          simp only [step]; rw [withFetch_eq hk hff]
        refine h.setConn hs ?_ ?_
        · rw [claimsOf_get hkc, claims_of hff, g1, g2]; rfl
        · rw [flightOf_get hkc, flight_of hff, g1]; rfl
  | register c i =>
    cases hk : s.conn c with
    | none => apply same; simp [step, State.withConn, hk]
    | some k =>
      have hkc := (conn_eq.1 hk).1
      cases hr : k.spawned[i]? with
      | none => apply same; simp [step, State.withConn, hk, hr]
      | some r =>
        simp only [step, State.withConn, hk, hr]
        exact h.setConn rfl (by rw [claimsOf_get hkc]; rfl) (by rw [flightOf_get hkc]; rfl)
  | report c r =>
    refine h.congr ?_ ?_ ?_ ?_ ?_ ?_ <;> simp only [step, State.withIdle, State.withConn] <;> repeat' split
    all_goals first | rfl | exact fun _ => rfl
  | handle w n1 n2 n3 o =>
    simp only [step] at *
    rcases handle_cases s w n1 n2 n3 o with e | ⟨c', r, queue, hcomp, hq, e⟩
    · rw [e]; exact h
    · rcases e with ⟨hw, e⟩ | ⟨hw, e1, e2⟩
      · rw [e]; exact h.congr rfl (fun _ => rfl) (fun _ => rfl) rfl rfl rfl
      · cases hc : (dbCall { s with queue := queue } (reportOp s.maxRetries n1 n2 n3 o r)).1.crashed with
        | true => rw [e1 hc]; exact Calm.wiped (wiped_dbCall hc)
        | false =>
          have hd := dbCall_ok hc
          rw [e2 hc] at hf ⊢
          rw [hd] at hf ⊢
          exact callOk _ (reportOp s.maxRetries n1 n2 n3 o r) (by cases r <;> rfl) hf rfl rfl rfl rfl rfl
  | release ok =>
    cases hcomp : s.completing with
    | none => apply same; simp only [step, Server.release]; rw [hcomp]
    | some p =>
      obtain ⟨c, id, d⟩ := p
      obtain ⟨rfl, k, hk, hheld⟩ := ho c id d hcomp
      exact h.release hI hcomp (conn_eq.1 hk).1 hheld
  | disconnect c =>
    cases hk : s.conn c with
    | none => apply same; simp [step, State.withConn, hk]
    | some k =>
      have hkc := (conn_eq.1 hk).1
      obtain ⟨hh, hff⟩ := ho k hk
      have hs : step s (.disconnect c) = s.setConn c { live := false, answers := k.answers } := by
        simp [step, State.withConn, hk, dropConn, hh, finishReservationsSync, State.setConn]
      refine h.setConn hs ?_ ?_
      · rw [claimsOf_get hkc]; unfold ConnState.claims ConnState.taken; rw [hh, hff]
      · rw [flightOf_get hkc]; unfold ConnState.flight; rw [hh, hff]
  | producer call =>
    have hcl : call.op.isCleanup = false := by cases call <;> first | rfl | exact ho.elim
    obtain ⟨hout, ⟨id, hi, e⟩ | ⟨hi, e⟩⟩ := producer_cases s call
    · have hc : (dbCall s call.op).1.crashed = false := by rw [hi]; rfl
      rw [e, dbCall_ok hc] at hf
      rw [e, dbCall_ok hc]
      exact callOk _ call.op hcl hf rfl rfl rfl rfl rfl
    · cases hc : (dbCall s call.op).1.crashed with
      | true => rw [e]; exact Calm.wiped (wiped_dbCall hc)
      | false =>
        rw [e, dbCall_ok hc] at hf
        rw [e, dbCall_ok hc]
        exact callOk _ call.op hcl hf rfl rfl rfl rfl rfl
  | notify =>
    simp only [step]
    cases s.notifies with
    | zero => exact h
    | succ n =>
      refine h.congr rfl (fun c => ?_) (fun c => ?_) rfl rfl rfl
      · unfold State.claimsOf
        dsimp only
        rw [get_mapValues s.conns ConnState.wake]
        cases s.conns.get c <;> rfl
      · unfold State.flightOf
        dsimp only
        rw [get_mapValues s.conns ConnState.wake]
        cases s.conns.get c <;> rfl
  | tick t =>
    obtain ⟨a, b, c, d, e⟩ := h
    refine ⟨?_, b, c, d, e⟩
    refine a.tick t ?_
    intro d' e'; subst e'; exact ho

theorem calm_init (ttl m : Nat) : Calm (init ttl m) := by
  refine ⟨⟨?_, ?_, List.nodup_nil, ?_⟩, fun _ => List.nodup_nil, ?_, ?_, [], List.nodup_nil, ?_, fun _ _ => rfl⟩
  · intro c id hid; cases hid
  · intro id e he; cases he
  · intro id hid; cases hid
  · intro k v n hn; cases hn
  · intro c id hid; cases hid
  · intro id
    constructor
    · intro hh; cases hh
    · rintro ⟨c, hh⟩; cases hh

theorem calm_exec {s : State} (h : Calm s) (ht : 0 < s.reserver.ttl) (hdb : s.db = Opsqueue.run s.calls)
    (es : List Action) (ho : OrderlyFrom s es) (hf : FreshIds (exec s es).calls) : Calm (exec s es) := by
  induction es generalizing s with
  | nil => exact h
  | cons a es ih =>
    obtain ⟨ops, h2, h1⟩ := db_exec s [a]
    have h1 : (step s a).calls = s.calls ++ ops := h1
    have h2 : (step s a).db = runFrom s.db ops := h2
    obtain ⟨ops2, _, h3⟩ := db_exec (step s a) es
    have hfa : FreshIds (step s a).calls := by
      have : FreshIds (exec (step s a) es).calls := hf
      rw [h3] at this; exact this.prefix
    refine ih (calm_step h ht hdb ho.1 hfa) (by rw [ttl_step]; exact ht) ?_ ho.2 hf
    rw [h1, h2, hdb, ← Opsqueue.run_append]

/-- A connection that has ended fetches nothing. -/
def DeadIdle (s : State) : Prop := ∀ c k, s.conns.get c = some k → k.live = false → k.fetching = none

theorem deadIdle_step {s : State} (h : DeadIdle s) (a : Action) : DeadIdle (step s a) := by
  intro c k' hk' hl'
  cases hk : s.conns.get c with
  | none =>
    by_cases ha : a = .connect c
    · subst ha
      have e : step s (.connect c) = s.setConn c {} := by simp only [step]; rw [hk]
      rw [e, get_setConn_self] at hk'
      cases hk'; cases hl'
    · by_cases hb : a.actor = some c
      · have hn : s.conn c = none := by unfold State.conn; rw [hk]; rfl
        have e : step s a = s := by
          cases a with
          | connect c' => cases hb; exact absurd rfl ha
          | _ => first
            | (cases hb; simp [step, State.withIdle, State.withConn, State.withFetch, hn]; done)
            | (cases hb; done)
        rw [e, hk] at hk'; cases hk'
      · rw [conns_none hk hb] at hk'; cases hk'
  | some k =>
    by_cases ha : a.actor = some c
    · cases hl : k.live with
      | true =>
        rcases own_step (conn_eq.2 ⟨hk, hl⟩) ha with e | ⟨k2, h1, h2⟩
        · rw [e] at hk'
          unfold dropConn at hk'
          replace hk' : Map.get (Map.set _ _ _) _ = _ := hk'
          rw [Map.get_set, if_pos rfl] at hk'
          cases hk'; rfl
        · rw [h1] at hk'; cases hk'
          rw [h2.live] at hl'; cases hl'
      | false =>
        have hn : s.conn c = none := by unfold State.conn; rw [hk]; simp [hl]
        have e : step s a = s ∨ (step s a).conns.get c = s.conns.get c := by
          cases a with
          | connect c' => cases ha; left; simp only [step]; rw [hk]
          | _ => first
            | (cases ha; left; simp [step, State.withIdle, State.withConn, State.withFetch, hn])
            | (cases ha)
        have e : (step s a).conns.get c = s.conns.get c := by
          rcases e with e | e
          · rw [e]
          · exact e
        rw [e, hk] at hk'; cases hk'
        exact h c _ hk hl
    · obtain ⟨k2, h1, h2⟩ := passive_step hk ha
      rw [h1] at hk'; cases hk'
      cases h2 with
      | same => exact h c _ hk hl'
      | wake => exact h c k hk hl'
      | unhold => exact h c k hk hl'
      | crashed => rfl

theorem deadIdle_exec {s : State} (h : DeadIdle s) (es : List Action) : DeadIdle (exec s es) := by
  induction es generalizing s with
  | nil => exact h
  | cons a es ih => exact ih (deadIdle_step h a)

theorem inHand_iff {s : State} (h : Calm s) (hd : DeadIdle s) (id : ChunkId) :
    InHand s id ↔ ∃ c, id ∈ s.flightOf c := by
  constructor
  · rintro ⟨h1, h2, h3⟩
    obtain ⟨e, he⟩ := Option.isSome_iff_exists.1 (isReserved_eq_true.1 h1)
    rcases h.res.known id e he with hh | hh
    · refine ⟨e.sender, ?_⟩
      cases hk : s.conns.get e.sender with
      | none => unfold State.claimsOf at hh; rw [hk] at hh; cases hh
      | some k =>
        rw [claimsOf_get hk] at hh
        rw [flightOf_get hk]
        rcases List.mem_append.1 hh with hh | hh
        · exact List.mem_append_left _ hh
        · cases hf : k.fetching with
          | none => unfold ConnState.taken at hh; rw [hf] at hh; cases hh
          | some f =>
            rw [taken_of hf] at hh
            rw [flight_of hf]
            rcases List.mem_append.1 hh with hh | hh
            · exact List.mem_append_right _ hh
            · exfalso
              have hj : f.joining = some id := by simpa using hh
              refine h2 e.sender f ?_ hj
              have hl : k.live = true := by
                cases hl : k.live with
                | true => rfl
                | false => rw [hd _ k hk hl] at hf; cases hf
              unfold fetchOf; rw [conn_eq.2 ⟨hk, hl⟩]; exact hf
    · exact absurd hh h3
  · rintro ⟨c, hc⟩
    obtain ⟨e, e1, e2, e3⟩ := h.res.claimed c id (flight_claims hc)
    refine ⟨isReserved_eq_true.2 (by rw [e1]; rfl), ?_, e3⟩
    intro c' f hf hj
    obtain ⟨k, hk, hkf⟩ := Option.bind_eq_some_iff.1 hf
    have hkc := (conn_eq.1 hk).1
    have hcl : id ∈ s.claimsOf c' := by
      rw [claimsOf_get hkc, claims_of hkf, hj]; simp
    obtain ⟨e', q1, q2, _⟩ := h.res.claimed c' id hcl
    rw [e1] at q1; cases q1
    have : c' = c := q2.symm.trans e2
    subst this
    have hn := h.nodup c'
    rw [claimsOf_get hkc, claims_of hkf, hj, ← List.append_assoc] at hn
    rw [flightOf_get hkc, flight_of hkf] at hc
    exact (List.nodup_append.1 hn).2.2 id hc id (List.mem_singleton.2 rfl) rfl

/-- A test for `Orderly`, used to show that concrete histories are orderly. -/
def orderlyTest (s : State) : Action → Bool
  | .disconnect c => (s.conn c).all fun k => k.held.isEmpty && k.fetching.isNone
  | .fetchFails c => (fetchOf s c).all fun f => f.got.isEmpty && f.joining.isNone
  | .join c => (fetchOf s c).all fun f => f.joining.all fun id =>
      match statusAt s.db id.submissionId with
      | .ok (some (.inProgress _)) => true
      | _ => false
  | .release metadataOk => s.completing.all fun x =>
      metadataOk && (s.conn x.1).any fun k => k.held.contains x.2.1
  | .tick (.advance d) => s.reserver.cache.all fun e => decide (s.reserver.now + d < e.2.reservedAt + s.reserver.ttl)
  | .producer (.cleanup _ _) => false
  | _ => true

theorem orderly_of_test {s : State} {a : Action} (h : orderlyTest s a = true) : Orderly s a := by
  unfold orderlyTest at h
  unfold Orderly
  split
  · intro k hk; simp [hk] at h; exact h
  · intro f hf; simp [hf] at h; exact h
  · intro f id hf hj
    simp only [hf, Option.all_some, hj] at h
    split at h
    · rename_i sub hs; exact ⟨sub, hs⟩
    · cases h
  · intro c id d hc
    simp only [hc, Option.all_some, Bool.and_eq_true] at h
    refine ⟨h.1, ?_⟩
    cases hk : s.conn c with
    | none => rw [hk] at h; cases h.2
    | some k =>
      rw [hk] at h
      exact ⟨k, rfl, by simpa using h.2⟩
  · intro id e he
    simp only [List.all_eq_true] at h
    have hm := Map.mem_of_get (Option.filter_eq_some_iff.1 he).1
    simpa using h _ hm
  · cases h
  · trivial

def orderlyFromTest (s : State) : List Action → Bool
  | [] => true
  | a :: es => orderlyTest s a && orderlyFromTest (step s a) es

theorem orderlyFrom_of_test {s : State} {es : List Action} (h : orderlyFromTest s es = true) :
    OrderlyFrom s es := by
  induction es generalizing s with
  | nil => trivial
  | cons a es ih =>
    simp only [orderlyFromTest, Bool.and_eq_true] at h
    exact ⟨orderly_of_test h.1, ih h.2⟩

end Server
end Opsqueue
