import Verif.Spec.Client
import Verif.Proofs.Conn
import Verif.Proofs.Map

/-!
# Lemmas about the consumer client
-/

namespace Opsqueue.Client

open Conn (ClientMsg Response Request)

/-- The table of requests in flight lists exactly the outstanding calls. -/
structure Table (s : State) : Prop where
  wf : Map.WF s.inFlight
  lt : ∀ n i, s.inFlight.get n = some i → n < s.nextNonce
  iff : ∀ n i, s.inFlight.get n = some i ↔ ∃ c, s.calls[i]? = some c ∧ c.request.nonce = n ∧ c.slot = .empty

/-- As long as the background task has not returned, nonces are never reused. `rs`: nonces of the
responses received so far. -/
structure Fresh (rs : List Nat) (s : State) : Prop where
  inj : ∀ (i j : Nat) c d, s.calls[i]? = some c → s.calls[j]? = some d → c.request.nonce = d.request.nonce → i = j
  lt : ∀ (i : Nat) c, s.calls[i]? = some c → c.request.nonce < s.nextNonce
  sent : ∀ n ∈ requestNonces s.wire, ∃ (i : Nat) (c : Call), s.calls[i]? = some c ∧ c.request.nonce = n ∧ c.phase ≠ .sending
  nodup : (requestNonces s.wire).Nodup
  replied : ∀ (i : Nat) c, s.calls[i]? = some c → c.slot ≠ .empty → c.request.nonce ∈ rs

theorem Fresh.mono {rs rs' : List Nat} {s : State} (h : Fresh rs s) (hs : ∀ n ∈ rs, n ∈ rs') : Fresh rs' s :=
  ⟨h.inj, h.lt, h.sent, h.nodup, fun i c hc he => hs _ (h.replied i c hc he)⟩

structure Good (rs : List Nat) (s : State) : Prop where
  table : Table s
  fresh : s.background ≠ .returned → Fresh rs s

theorem requestNonces_append (l m : List ClientMsg) :
    requestNonces (l ++ m) = requestNonces l ++ requestNonces m := by
  simp [requestNonces]

/-! ### updating calls -/

theorem update_get (s : State) (i j : Nat) (f : Call → Call) :
    (update s i f).calls[j]? = if i = j then s.calls[j]?.map f else s.calls[j]? := by
  show (s.calls.modify i f)[j]? = _
  rw [List.getElem?_modify]
  split <;> rename_i h
  · simp
  · cases s.calls[j]? <;> simp

/-- `f` keeps the request and the slot. -/
theorem update_exists {s : State} {i : Nat} {f : Call → Call} (hr : ∀ c, (f c).request = c.request)
    {j : Nat} {c : Call} (h : (update s i f).calls[j]? = some c) :
    ∃ c0, s.calls[j]? = some c0 ∧ c.request = c0.request ∧ (c = c0 ∨ (i = j ∧ c = f c0)) := by
  rw [update_get] at h
  split at h
  · rename_i hij
    cases h0 : s.calls[j]? with
    | none => rw [h0] at h; cases h
    | some c0 =>
      rw [h0] at h; cases h
      exact ⟨c0, rfl, hr c0, Or.inr ⟨hij, rfl⟩⟩
  · exact ⟨c, h, rfl, Or.inl rfl⟩

theorem table_update {s : State} (h : Table s) (i : Nat) (f : Call → Call)
    (hr : ∀ c, (f c).request = c.request) (hs : ∀ c, (f c).slot = c.slot) : Table (update s i f) := by
  refine ⟨h.wf, h.lt, fun n j => ?_⟩
  show s.inFlight.get n = some j ↔ _
  rw [h.iff, update_get]
  split
  · constructor
    · rintro ⟨c, h1, h2, h3⟩
      exact ⟨f c, by rw [h1]; rfl, (congrArg Request.nonce (hr c)).trans h2, (hs c).trans h3⟩
    · rintro ⟨c, h1, h2, h3⟩
      cases h0 : s.calls[j]? with
      | none => rw [h0] at h1; cases h1
      | some c0 =>
        rw [h0] at h1; cases h1
        exact ⟨c0, rfl, (congrArg Request.nonce (hr c0)).symm.trans h2, (hs c0).symm.trans h3⟩
  · exact Iff.rfl

theorem put_eq (s : State) (i : Nat) (b : Bool) :
    put s i b = { s with wire := s.wire ++ (match s.calls[i]? with
      | some c => if b ∧ c.phase = .sending then [.wantToReserve c.request] else []
      | none => []) } := by
  unfold put
  cases s.calls[i]? with
  | none => simp
  | some c => dsimp only; split <;> simp

theorem good_put_update {rs : List Nat} {s : State} (h : Good rs s) (i : Nat) (b : Bool) (f : Call → Call)
    (hr : ∀ c, (f c).request = c.request) (hs : ∀ c, (f c).slot = c.slot)
    (hp : ∀ c, (f c).phase = .sending → c.phase = .sending ∧ b = false ∨ False)
    (hp2 : ∀ c, c.phase ≠ .sending → (f c).phase ≠ .sending) :
    Good rs (update (put s i b) i f) := by
  constructor
  · refine table_update ?_ i f hr hs
    rw [put_eq]
    exact ⟨h.table.wf, h.table.lt, h.table.iff⟩
  · intro hb
    have hb' : s.background ≠ .returned := by
      intro h'; apply hb
      rw [put_eq]; exact h'
    have hf := h.fresh hb'
    rw [put_eq]
    generalize hs' : ({ s with wire := s.wire ++ (match s.calls[i]? with
      | some c => if b ∧ c.phase = .sending then [.wantToReserve c.request] else []
      | none => []) } : State) = s'
    have hcalls : s'.calls = s.calls := by rw [← hs']
    have hnext : s'.nextNonce = s.nextNonce := by rw [← hs']
    have hex : ∀ {j : Nat} {c : Call}, (update s' i f).calls[j]? = some c →
        ∃ c0, s.calls[j]? = some c0 ∧ c.request = c0.request ∧ (c = c0 ∨ (i = j ∧ c = f c0)) := by
      intro j c hc
      obtain ⟨c0, h1, h2⟩ := update_exists hr hc
      rw [hcalls] at h1
      exact ⟨c0, h1, h2⟩
    refine ⟨?_, ?_, ?_, ?_, ?_⟩
    · intro j k c d hc hd heq
      obtain ⟨c0, h1, h2, _⟩ := hex hc
      obtain ⟨d0, h3, h4, _⟩ := hex hd
      rw [h2, h4] at heq
      exact hf.inj j k c0 d0 h1 h3 heq
    · intro j c hc
      obtain ⟨c0, h1, h2, _⟩ := hex hc
      show _ < s'.nextNonce
      rw [h2, hnext]; exact hf.lt j c0 h1
    · -- sent
      intro n hn
      have hn' : n ∈ requestNonces s'.wire := hn
      rw [← hs', requestNonces_append, List.mem_append] at hn'
      rcases hn' with hn' | hn'
      · obtain ⟨j, c, h1, h2, h3⟩ := hf.sent n hn'
        rw [← hcalls] at h1
        by_cases hij : i = j
        · refine ⟨j, f c, ?_, (congrArg Request.nonce (hr c)).trans h2, hp2 c h3⟩
          rw [update_get, if_pos hij, h1]; rfl
        · exact ⟨j, c, by rw [update_get, if_neg hij, h1], h2, h3⟩
      · cases hi : s.calls[i]? with
        | none => rw [hi] at hn'; simp [requestNonces] at hn'
        | some c =>
          rw [hi] at hn'
          dsimp only at hn'
          split at hn'
          · rename_i hcond
            simp only [requestNonces, List.filterMap_cons, List.filterMap_nil, List.mem_singleton] at hn'
            refine ⟨i, f c, ?_, ?_, ?_⟩
            · rw [update_get, if_pos rfl, hcalls, hi]; rfl
            · rw [hr, hn']
            · intro hsend
              rcases hp c hsend with ⟨_, h2⟩ | h
              · rw [h2] at hcond; cases hcond.1
              · exact h
          · simp [requestNonces] at hn'
    · -- nodup
      show (requestNonces s'.wire).Nodup
      rw [← hs', requestNonces_append]
      rw [List.nodup_append]
      refine ⟨hf.nodup, ?_, ?_⟩
      · cases hi : s.calls[i]? with
        | none => exact List.nodup_nil
        | some c =>
          dsimp only; split
          · simp [requestNonces]
          · exact List.nodup_nil
      · intro a ha b' hb' heq
        subst heq
        cases hi : s.calls[i]? with
        | none => rw [hi] at hb'; simp [requestNonces] at hb'
        | some c =>
          rw [hi] at hb'
          dsimp only at hb'
          split at hb'
          · rename_i hcond
            simp only [requestNonces, List.filterMap_cons, List.filterMap_nil, List.mem_singleton] at hb'
            obtain ⟨j, d, h1, h2, h3⟩ := hf.sent a ha
            have : j = i := hf.inj j i d c h1 hi (h2.trans hb')
            subst this
            rw [hi] at h1; cases h1
            exact h3 hcond.2
          · simp [requestNonces] at hb'
    · intro j c hc hne
      obtain ⟨c0, h1, h2, h3⟩ := hex hc
      rw [h2]
      refine hf.replied j c0 h1 ?_
      rcases h3 with rfl | ⟨_, rfl⟩
      · exact hne
      · rw [← hs c0]; exact hne

/-! ### messages that are not requests -/

/-- Only the counter goes up and the wire gets messages that are not requests. -/
structure Side (s s' : State) : Prop where
  inFlight : s'.inFlight = s.inFlight
  calls : s'.calls = s.calls
  background : s'.background = s.background
  next : s.nextNonce ≤ s'.nextNonce
  wire : requestNonces s'.wire = requestNonces s.wire

theorem good_side {rs : List Nat} {s s' : State} (h : Good rs s) (hs : Side s s') : Good rs s' := by
  constructor
  · refine ⟨hs.inFlight ▸ h.table.wf, fun n i hg => ?_, fun n i => ?_⟩
    · rw [hs.inFlight] at hg; exact Nat.lt_of_lt_of_le (h.table.lt n i hg) hs.next
    · rw [hs.inFlight, hs.calls]; exact h.table.iff n i
  · intro hb
    have hf := h.fresh (hs.background ▸ hb)
    refine ⟨?_, ?_, ?_, ?_, ?_⟩
    · rw [hs.calls]; exact hf.inj
    · intro i c hc
      rw [hs.calls] at hc
      exact Nat.lt_of_lt_of_le (hf.lt i c hc) hs.next
    · rw [hs.wire, hs.calls]; exact hf.sent
    · rw [hs.wire]; exact hf.nodup
    · rw [hs.calls]; exact hf.replied

theorem side_refl (s : State) : Side s s := ⟨rfl, rfl, rfl, Nat.le_refl _, rfl⟩

theorem side_trans {a b c : State} (h : Side a b) (h' : Side b c) : Side a c :=
  ⟨h'.inFlight.trans h.inFlight, h'.calls.trans h.calls, h'.background.trans h.background,
    Nat.le_trans h.next h'.next, h'.wire.trans h.wire⟩

theorem side_asyncFail (s : State) (id : ChunkId) (f : String) (b : Bool) : Side s (asyncFail s id f b) := by
  refine ⟨rfl, rfl, rfl, Nat.le_succ _, ?_⟩
  show requestNonces (if b then _ else _) = _
  split
  · rw [requestNonces_append]; exact List.append_nil _
  · rfl

theorem side_asyncComplete (s : State) (id : ChunkId) (o : Content) (b : Bool) :
    Side s (asyncComplete s id o b) := by
  refine ⟨rfl, rfl, rfl, Nat.le_succ _, ?_⟩
  show requestNonces (if b then _ else _) = _
  split
  · rw [requestNonces_append]; exact List.append_nil _
  · rfl

theorem side_giveBack (s : State) (ids : List ChunkId) (ok : ChunkId → Bool) : Side s (giveBack s ids ok) := by
  unfold giveBack
  induction ids generalizing s with
  | nil => exact side_refl s
  | cons id ids ih => exact side_trans (side_asyncFail s id _ _) (ih _)

/-! ### the other steps -/

theorem good_begin {rs : List Nat} {s : State} (h : Good rs s) (max : Nat) (st : Strategy) :
    Good rs (begin s max st) := by
  have hlt := h.table.lt
  have hnew : s.inFlight.get s.nextNonce = none := by
    cases hg : s.inFlight.get s.nextNonce with
    | none => rfl
    | some i => exact absurd (hlt _ _ hg) (Nat.lt_irrefl _)
  have hget : ∀ j, (begin s max st).calls[j]? =
      if j = s.calls.length then some { request := ⟨s.nextNonce, max, st⟩ } else s.calls[j]? := by
    intro j
    show (s.calls ++ [_])[j]? = _
    split
    · rename_i hj; subst hj; simp
    · rename_i hj
      by_cases hl : j < s.calls.length
      · rw [List.getElem?_append_left hl]
      · rw [List.getElem?_eq_none (by simp; omega), List.getElem?_eq_none (by omega)]
  constructor
  · refine ⟨Map.wf_set h.table.wf _ _, fun n i hg => ?_, fun n i => ?_⟩
    · replace hg : Map.get (Map.set _ _ _) _ = _ := hg
      rw [Map.get_set] at hg
      show n < s.nextNonce + 1
      split at hg
      · rename_i he; omega
      · have := hlt n i hg; omega
    · rw [hget]
      show Map.get (Map.set _ _ _) _ = _ ↔ _
      rw [Map.get_set]
      by_cases hn : n = s.nextNonce
      · subst hn
        rw [if_pos rfl]
        constructor
        · intro he; cases he
          rw [if_pos rfl]
          exact ⟨_, rfl, rfl, rfl⟩
        · rintro ⟨c, hc, hcn, hce⟩
          split at hc
          · rename_i hi; rw [hi]
          · have := (h.table.iff s.nextNonce i).2 ⟨c, hc, hcn, hce⟩
            rw [hnew] at this; cases this
      · rw [if_neg (by first | exact hn | exact fun h => hn h.symm)]
        rw [h.table.iff]
        split
        · rename_i hi
          subst hi
          constructor
          · rintro ⟨c, hc, _⟩
            rw [List.getElem?_eq_none (Nat.le_refl _)] at hc; cases hc
          · rintro ⟨c, hc, hcn, _⟩
            cases hc
            exact absurd hcn.symm hn
        · exact Iff.rfl
  · intro hb
    have hf := h.fresh hb
    refine ⟨?_, ?_, ?_, hf.nodup, ?_⟩
    · intro i j c d hc hd heq
      rw [hget] at hc hd
      split at hc <;> split at hd
      · omega
      · cases hc
        have := hf.lt j d hd
        rw [← heq] at this
        exact absurd this (Nat.lt_irrefl _)
      · cases hd
        have := hf.lt i c hc
        rw [heq] at this
        exact absurd this (Nat.lt_irrefl _)
      · exact hf.inj i j c d hc hd heq
    · intro i c hc
      show _ < s.nextNonce + 1
      rw [hget] at hc
      split at hc
      · cases hc; exact Nat.lt_succ_self _
      · have := hf.lt i c hc; omega
    · intro n hn
      obtain ⟨i, c, h1, h2⟩ := hf.sent n hn
      refine ⟨i, c, ?_, h2⟩
      rw [hget, if_neg]
      · exact h1
      · intro hi; subst hi
        rw [List.getElem?_eq_none (Nat.le_refl _)] at h1; cases h1
    · intro i c hc hne
      rw [hget] at hc
      split at hc
      · cases hc; exact absurd rfl hne
      · exact hf.replied i c hc hne

theorem dropSender_request (c : Call) : c.dropSender.request = c.request := by
  unfold Call.dropSender; split <;> rfl
theorem dropSender_cases (c : Call) : c.dropSender.slot = c.slot ∨ (c.slot = .empty ∧ c.dropSender.slot = .dropped) := by
  unfold Call.dropSender
  split
  · rename_i h; exact Or.inr ⟨h, rfl⟩
  · exact Or.inl rfl
theorem dropSender_phase (c : Call) : c.dropSender.phase = c.phase := by
  unfold Call.dropSender; split <;> rfl
theorem dropSender_slot (c : Call) : c.dropSender.slot ≠ .empty := by
  unfold Call.dropSender
  split
  · intro h; cases h
  · rename_i h; exact h

/-- After `clear` no call is outstanding. -/
theorem clear_slot {s : State} (h : Table s) {i : Nat} {c : Call} (hc : (clear s).calls[i]? = some c) :
    c.slot ≠ .empty := by
  replace hc : (s.calls.mapIdx _)[i]? = some c := hc
  rw [List.getElem?_mapIdx] at hc
  cases h0 : s.calls[i]? with
  | none => rw [h0] at hc; cases hc
  | some c0 =>
    rw [h0] at hc
    simp only [Option.map_some, Option.some.injEq] at hc
    split at hc
    · rw [← hc]; exact dropSender_slot c0
    · rename_i hany
      intro he
      rw [← hc] at he
      have := Map.mem_of_get ((h.iff _ i).2 ⟨c0, h0, rfl, he⟩)
      exact hany (List.any_eq_true.2 ⟨_, this, decide_eq_true rfl⟩)

theorem good_exit {rs : List Nat} {s : State} (h : Table s) : Good rs (exit s) := by
  constructor
  · refine ⟨Map.wf_nil, (fun n i hg => by cases hg), fun n i => ?_⟩
    constructor
    · intro hg; cases hg
    · rintro ⟨c, hc, _, he⟩
      exact absurd he (clear_slot h hc)
  · intro hb; exact absurd rfl hb

theorem good_take {rs : List Nat} {s : State} (h : Good rs s) (hrun : s.background = .running) {n i : Nat}
    (hg : s.inFlight.get n = some i) (g : Call → Call) (hr : ∀ c, (g c).request = c.request)
    (hp : ∀ c, (g c).phase = c.phase) (hs : ∀ c, (g c).slot ≠ .empty) :
    Good (rs ++ [n]) (update { s with inFlight := s.inFlight.erase n } i g) := by
  have hf := h.fresh (by rw [hrun]; intro h; cases h)
  have hex : ∀ {j : Nat} {c : Call}, (update { s with inFlight := s.inFlight.erase n } i g).calls[j]? = some c →
      ∃ c0, s.calls[j]? = some c0 ∧ c.request = c0.request ∧ (c = c0 ∨ (i = j ∧ c = g c0)) :=
    fun hc => update_exists (s := { s with inFlight := s.inFlight.erase n }) hr hc
  obtain ⟨ci, hci, hcin, hcie⟩ := (h.table.iff n i).1 hg
  constructor
  · refine ⟨Map.wf_erase h.table.wf _, fun m j hm => ?_, fun m j => ?_⟩
    · replace hm : Map.get (Map.erase _ _) _ = _ := hm
      rw [Map.get_erase] at hm
      split at hm
      · cases hm
      · exact h.table.lt m j hm
    · show Map.get (Map.erase _ _) _ = _ ↔ _
      rw [Map.get_erase, update_get]
      show _ ↔ ∃ c, (if i = j then s.calls[j]?.map g else s.calls[j]?) = some c ∧ _
      by_cases hm : m = n
      · subst hm
        rw [if_pos rfl]
        constructor
        · intro h; cases h
        · rintro ⟨c, hc, hcn, hce⟩
          split at hc
          · rename_i hij; subst hij
            rw [hci] at hc
            simp only [Option.map_some, Option.some.injEq] at hc
            rw [← hc] at hce
            exact absurd hce (hs ci)
          · rename_i hij
            have := (h.table.iff m j).2 ⟨c, hc, hcn, hce⟩
            rw [hg] at this
            exact absurd (Option.some.inj this) hij
      · rw [if_neg (by first | exact hm | exact fun h => hm h.symm)]
        rw [h.table.iff]
        split
        · rename_i hij; subst hij
          constructor
          · rintro ⟨c, hc, hcn, _⟩
            rw [hci] at hc; cases hc
            exact absurd (hcn.symm.trans hcin) hm
          · rintro ⟨c, hc, hcn, hce⟩
            rw [hci] at hc
            simp only [Option.map_some, Option.some.injEq] at hc
            rw [← hc] at hce
            exact absurd hce (hs ci)
        · exact Iff.rfl
  · intro _
    refine ⟨?_, ?_, ?_, hf.nodup, ?_⟩
    · intro j k c d hc hd heq
      obtain ⟨c0, h1, h2, _⟩ := hex hc
      obtain ⟨d0, h3, h4, _⟩ := hex hd
      rw [h2, h4] at heq
      exact hf.inj j k c0 d0 h1 h3 heq
    · intro j c hc
      obtain ⟨c0, h1, h2, _⟩ := hex hc
      rw [h2]; exact hf.lt j c0 h1
    · intro m hm
      obtain ⟨j, c, h1, h2, h3⟩ := hf.sent m hm
      by_cases hij : i = j
      · refine ⟨j, g c, ?_, (congrArg Request.nonce (hr c)).trans h2, by rw [hp]; exact h3⟩
        rw [update_get, if_pos hij]
        show s.calls[j]?.map g = _
        rw [h1]; rfl
      · refine ⟨j, c, ?_, h2, h3⟩
        rw [update_get, if_neg hij]
        exact h1
    · intro j c hc hne
      obtain ⟨c0, h1, h2, h3⟩ := hex hc
      rw [h2, List.mem_append]
      rcases h3 with rfl | ⟨hij, rfl⟩
      · exact Or.inl (hf.replied j c h1 hne)
      · subst hij
        rw [hci] at h1; cases h1
        exact Or.inr (List.mem_singleton.2 hcin)

theorem good_deliver {rs : List Nat} {s : State} (h : Good rs s) (hrun : s.background = .running)
    (n : Nat) (r : Response) (ok : ChunkId → Bool) : Good (rs ++ [n]) (deliver s n r ok) := by
  unfold deliver
  cases hg : s.inFlight.get n with
  | none =>
    have hf := h.fresh (by rw [hrun]; intro h; cases h)
    exact ⟨⟨h.table.wf, h.table.lt, h.table.iff⟩, fun _ =>
      ⟨hf.inj, hf.lt, hf.sent, hf.nodup, fun i c hc he => List.mem_append_left _ (hf.replied i c hc he)⟩⟩
  | some i =>
    dsimp only
    split
    · exact good_side (good_take h hrun hg _ dropSender_request dropSender_phase dropSender_slot)
        (side_giveBack _ _ _)
    · exact good_take h hrun hg _ (fun _ => rfl) (fun _ => rfl) (fun _ h => by cases h)

/-- The background task ended. -/
theorem step_stopped {s : State} (h : s.background ≠ .running) (e : Event) :
    (step s e).background = s.background := by
  cases e
  case call => rfl
  case send => simp only [step]; rw [put_eq]; rfl
  case abandon => simp only [step]; rw [put_eq]; rfl
  case complete => rfl
  case fail => rfl
  all_goals (simp only [step]; rw [if_pos h])

theorem good_step {rs : List Nat} {s : State} (h : Good rs s) (e : Event) :
    Good (rs ++ e.responseNonce.toList) (step s e) := by
  cases e
  case call max st => exact (List.append_nil rs).symm ▸ good_begin h max st
  case send i b =>
    refine (List.append_nil rs).symm ▸ good_put_update h i (b && !s.sinkClosed) _ ?_ ?_ ?_ ?_
    · intro c; split <;> rfl
    · intro c; split <;> rfl
    · intro c hc
      split at hc
      · cases hb : (b && !s.sinkClosed) <;> rw [hb] at hc <;> cases hc
      · rename_i hne; exact absurd hc hne
    · intro c hne
      rw [if_neg hne]; exact hne
  case abandon i b =>
    refine (List.append_nil rs).symm ▸ good_put_update h i (b && !s.sinkClosed) _ ?_ ?_ ?_ ?_
    · intro c; split <;> rfl
    · intro c; split <;> rfl
    · intro c hc
      split at hc
      · cases hc
      · rename_i hne; exact absurd (Or.inl hc) hne
    · intro c hne
      split
      · intro h; cases h
      · exact hne
  case complete id o b => exact (List.append_nil rs).symm ▸ good_side h (side_asyncComplete s id o _)
  case fail id f b => exact (List.append_nil rs).symm ▸ good_side h (side_asyncFail s id f _)
  all_goals
    simp only [step]
    by_cases hb : s.background = .running
    · rw [if_neg (not_not_intro hb)]
      have h0 : Good rs { s with missed := 0 } :=
        ⟨⟨h.table.wf, h.table.lt, h.table.iff⟩, fun hr => ⟨(h.fresh hr).inj, (h.fresh hr).lt,
          (h.fresh hr).sent, (h.fresh hr).nodup, (h.fresh hr).replied⟩⟩
      first
      | (refine (List.append_nil rs).symm ▸ good_exit ?_; exact ⟨h.table.wf, h.table.lt, h.table.iff⟩)
      | exact (List.append_nil rs).symm ▸ h0
      | exact good_deliver h0 hb _ _ _
      | exact (List.append_nil rs).symm ▸ good_side h0 (side_asyncFail _ _ _ _)
      | exact (List.append_nil rs).symm ▸ (⟨⟨h.table.wf, h.table.lt, h.table.iff⟩, fun _ =>
          ⟨(h.fresh (by rw [hb]; intro h; cases h)).inj, (h.fresh (by rw [hb]; intro h; cases h)).lt,
            (h.fresh (by rw [hb]; intro h; cases h)).sent, (h.fresh (by rw [hb]; intro h; cases h)).nodup,
            (h.fresh (by rw [hb]; intro h; cases h)).replied⟩⟩ : Good rs { s with missed := 0, background := .panicked })
      | (split
         · exact (List.append_nil rs).symm ▸ good_exit (s := { s with healthy := false, sinkClosed := true })
            ⟨h.table.wf, h.table.lt, h.table.iff⟩
         · exact (List.append_nil rs).symm ▸ (⟨⟨h.table.wf, h.table.lt, h.table.iff⟩, fun hr =>
            ⟨(h.fresh hr).inj, (h.fresh hr).lt, (h.fresh hr).sent, (h.fresh hr).nodup,
            (h.fresh hr).replied⟩⟩ : Good rs { s with missed := s.missed + 1 }))
    · rw [if_pos hb]
      exact ⟨h.table, fun hr => (h.fresh hr).mono fun _ hm => List.mem_append_left _ hm⟩

theorem good_init (m : Nat) : Good [] (init m) := by
  refine ⟨⟨Map.wf_nil, (fun n i h => by cases h), fun n i => ?_⟩, fun _ => ⟨?_, ?_, ?_, ?_, ?_⟩⟩
  · constructor
    · intro h; cases h
    · rintro ⟨c, hc, _⟩
      simp [init] at hc
  · intro i j c d hc; simp [init] at hc
  · intro i c hc; simp [init] at hc
  · intro n hn; simp [init, requestNonces] at hn
  · exact List.nodup_nil
  · intro i c hc; simp [init] at hc

theorem run_snoc (m : Nat) (es : List Event) (e : Event) : run m (es ++ [e]) = step (run m es) e := by
  simp [run, List.foldl_append]

theorem good_foldl {rs : List Nat} {s : State} (h : Good rs s) (es : List Event) :
    Good (rs ++ es.filterMap Event.responseNonce) (es.foldl step s) := by
  induction es generalizing rs s with
  | nil => simpa using h
  | cons e es ih =>
    have := ih (good_step h e)
    rw [List.foldl_cons]
    rw [List.append_assoc] at this
    rw [List.filterMap_cons]
    cases hr : e.responseNonce <;> rw [hr] at this <;> exact this

theorem good_run (m : Nat) (es : List Event) : Good (es.filterMap Event.responseNonce) (run m es) :=
  good_foldl (good_init m) es

/-! ### slots -/

theorem giveBack_calls (s : State) (ids : List ChunkId) (ok : ChunkId → Bool) :
    (giveBack s ids ok).calls = s.calls := (side_giveBack s ids ok).calls

/-- How a step changes the call at a given index. -/
theorem step_call {s : State} (e : Event) {i : Nat} {c : Call} (hc : s.calls[i]? = some c) :
    ∃ c', (step s e).calls[i]? = some c' ∧ c'.request = c.request ∧
      (c'.slot = c.slot ∨
        (s.background = .running ∧ c.slot = .empty ∧ c'.slot = .dropped) ∨
        (s.background = .running ∧ ∃ n r ok, e = .sync n r ok ∧ s.inFlight.get n = some i ∧
          c'.slot = .value r)) ∧
      (c'.phase = c.phase ∨ e = .abandon i true ∨ e = .abandon i false ∨ ∃ b, e = .send i b) := by
  have hput : ∀ b j (f : Call → Call), (∀ c, (f c).request = c.request) → (∀ c, (f c).slot = c.slot) →
      (i = j ∨ True) → ∃ c', (update (put s j b) j f).calls[i]? = some c' ∧ c'.request = c.request ∧
        c'.slot = c.slot ∧ (i = j ∨ c'.phase = c.phase) := by
    intro b j f hr hs _
    rw [update_get, put_eq]
    show ∃ c', (if j = i then s.calls[i]?.map f else s.calls[i]?) = some c' ∧ _
    rw [hc]
    split
    · rename_i h; exact ⟨f c, rfl, hr c, hs c, Or.inl h.symm⟩
    · exact ⟨c, rfl, rfl, rfl, Or.inr rfl⟩
  have hexit : ∀ s' : State, s'.calls = s.calls → s'.inFlight = s.inFlight → s.background = .running →
      ∃ c', (exit s').calls[i]? = some c' ∧ c'.request = c.request ∧
      (c'.slot = c.slot ∨ (s.background = .running ∧ c.slot = .empty ∧ c'.slot = .dropped)) ∧
      c'.phase = c.phase := by
    intro s' h1 h2 hb
    show ∃ c', (s'.calls.mapIdx _)[i]? = some c' ∧ _
    rw [List.getElem?_mapIdx, h1, hc]
    refine ⟨_, rfl, ?_⟩
    split
    · exact ⟨dropSender_request c, (dropSender_cases c).imp id (fun h => ⟨hb, h⟩), dropSender_phase c⟩
    · exact ⟨rfl, Or.inl rfl, rfl⟩
  cases e
  case call max st =>
    refine ⟨c, ?_, rfl, Or.inl rfl, Or.inl rfl⟩
    show (s.calls ++ [_])[i]? = _
    rw [List.getElem?_append_left]
    · exact hc
    · exact (List.getElem?_eq_some_iff.1 hc).1
  case send j b =>
    obtain ⟨c', h1, h2, h3, h4⟩ := hput (b && !s.sinkClosed) j (fun c =>
      if c.phase = .sending then
        { c with phase := if b && !s.sinkClosed then .awaiting else .sendFailed } else c)
      (by intro c; split <;> rfl) (by intro c; split <;> rfl) (Or.inr trivial)
    refine ⟨c', h1, h2, Or.inl h3, ?_⟩
    rcases h4 with rfl | h4
    · exact Or.inr (Or.inr (Or.inr ⟨b, rfl⟩))
    · exact Or.inl h4
  case abandon j b =>
    obtain ⟨c', h1, h2, h3, h4⟩ := hput (b && !s.sinkClosed) j (fun c =>
      if c.phase = .sending ∨ c.phase = .awaiting then { c with phase := .abandoned } else c)
      (by intro c; split <;> rfl) (by intro c; split <;> rfl) (Or.inr trivial)
    refine ⟨c', h1, h2, Or.inl h3, ?_⟩
    rcases h4 with rfl | h4
    · cases b
      · exact Or.inr (Or.inr (Or.inl rfl))
      · exact Or.inr (Or.inl rfl)
    · exact Or.inl h4
  case complete => exact ⟨c, hc, rfl, Or.inl rfl, Or.inl rfl⟩
  case fail => exact ⟨c, hc, rfl, Or.inl rfl, Or.inl rfl⟩
  all_goals
    simp only [step]
    by_cases hb : s.background = .running
    · rw [if_neg (not_not_intro hb)]
      first
      | exact ⟨c, hc, rfl, Or.inl rfl, Or.inl rfl⟩
      | (obtain ⟨c', h1, h2, h3, h4⟩ := hexit { s with sinkClosed := true } rfl rfl hb
         exact ⟨c', h1, h2, h3.elim Or.inl (fun h => Or.inr (Or.inl h)), Or.inl h4⟩)
      | (obtain ⟨c', h1, h2, h3, h4⟩ := hexit { s with missed := 0, sinkClosed := true } rfl rfl hb
         exact ⟨c', h1, h2, h3.elim Or.inl (fun h => Or.inr (Or.inl h)), Or.inl h4⟩)
      | (rename_i sc
         obtain ⟨c', h1, h2, h3, h4⟩ := hexit { s with missed := 0, sinkClosed := sc } rfl rfl hb
         exact ⟨c', h1, h2, h3.elim Or.inl (fun h => Or.inr (Or.inl h)), Or.inl h4⟩)
      | (split
         · obtain ⟨c', h1, h2, h3, h4⟩ := hexit { s with healthy := false, sinkClosed := true } rfl rfl hb
           exact ⟨c', h1, h2, h3.elim Or.inl (fun h => Or.inr (Or.inl h)), Or.inl h4⟩
         · exact ⟨c, hc, rfl, Or.inl rfl, Or.inl rfl⟩)
      | (rename_i n r ok
         unfold deliver
         dsimp only
         cases hg : Map.get s.inFlight n with
         | none => exact ⟨c, hc, rfl, Or.inl rfl, Or.inl rfl⟩
         | some j =>
           dsimp only
           split
           · rw [giveBack_calls, update_get]
             show ∃ c', (if j = i then s.calls[i]?.map _ else s.calls[i]?) = some c' ∧ _
             rw [hc]
             split
             · refine ⟨_, rfl, dropSender_request c, ?_, Or.inl (dropSender_phase c)⟩
               exact (dropSender_cases c).imp id (fun h => Or.inl ⟨hb, h⟩)
             · exact ⟨c, rfl, rfl, Or.inl rfl, Or.inl rfl⟩
           · rw [update_get]
             show ∃ c', (if j = i then s.calls[i]?.map _ else s.calls[i]?) = some c' ∧ _
             rw [hc]
             split
             · rename_i h
               subst h
               exact ⟨_, rfl, rfl, Or.inr (Or.inr ⟨hb, n, r, ok, rfl, hg, rfl⟩), Or.inl rfl⟩
             · exact ⟨c, rfl, rfl, Or.inl rfl, Or.inl rfl⟩)
    · rw [if_pos hb]
      exact ⟨c, hc, rfl, Or.inl rfl, Or.inl rfl⟩

/-- A call whose slot is filled stays so. -/
theorem slot_stays (es : List Event) (s : State) (i : Nat) (c : Call)
    (hc : s.calls[i]? = some c) (hs : c.slot ≠ .empty) :
    ∃ c', (es.foldl step s).calls[i]? = some c' ∧ c'.slot ≠ .empty := by
  induction es generalizing s c with
  | nil => exact ⟨c, hc, hs⟩
  | cons e es ih =>
    obtain ⟨c', h1, _, h3, _⟩ := step_call e hc
    refine ih _ c' h1 ?_
    rcases h3 with h3 | ⟨_, _, h3⟩ | ⟨_, _, _, _, _, _, h3⟩
    · rw [h3]; exact hs
    · rw [h3]; intro h; cases h
    · rw [h3]; intro h; cases h

/-! ### heartbeats -/

theorem beats_snoc (es : List Event) (e : Event) : beats (es ++ [e]) = beats es ++ e.beat.toList := by
  unfold beats
  rw [List.filterMap_append]
  cases h : e.beat <;> simp [h]

structure ClientBeat (m : Nat) (es : List Event) (s : State) : Prop where
  max : s.maxMissable = m
  missed : s.background = .running → s.missed = Conn.silent (beats es) ∧ s.missed ≤ m + 1
  healthy : s.healthy = false ↔ ∃ pre post, es = pre ++ .tick :: post ∧
    (run m pre).background = .running ∧ List.replicate (m + 1) true <:+ beats pre
  stopped : s.healthy = false → s.background ≠ .running

theorem exists_snoc_iff {m : Nat} {es : List Event} {e : Event} :
    (∃ pre post, es ++ [e] = pre ++ .tick :: post ∧ (run m pre).background = .running ∧
      List.replicate (m + 1) true <:+ beats pre) ↔
    (∃ pre post, es = pre ++ .tick :: post ∧ (run m pre).background = .running ∧
      List.replicate (m + 1) true <:+ beats pre) ∨
    (e = .tick ∧ (run m es).background = .running ∧ List.replicate (m + 1) true <:+ beats es) := by
  constructor
  · rintro ⟨pre, post, he, h1, h2⟩
    rcases List.eq_nil_or_concat post with rfl | ⟨post', x, rfl⟩
    · have := List.append_inj' he rfl
      obtain ⟨rfl, h⟩ := this
      cases h
      exact Or.inr ⟨rfl, h1, h2⟩
    · rw [List.concat_eq_append, ← List.cons_append, ← List.append_assoc] at he
      have := List.append_inj' he rfl
      exact Or.inl ⟨pre, post', this.1, h1, h2⟩
  · rintro (⟨pre, post, rfl, h1, h2⟩ | ⟨rfl, h1, h2⟩)
    · exact ⟨pre, post ++ [e], by simp, h1, h2⟩
    · exact ⟨es, [], rfl, h1, h2⟩

theorem giveBack_fields (s : State) (ids : List ChunkId) (ok : ChunkId → Bool) :
    (giveBack s ids ok).missed = s.missed ∧ (giveBack s ids ok).maxMissable = s.maxMissable ∧
    (giveBack s ids ok).healthy = s.healthy := by
  unfold giveBack
  induction ids generalizing s with
  | nil => exact ⟨rfl, rfl, rfl⟩
  | cons id ids ih => exact ih _

theorem deliver_fields (s : State) (n : Nat) (r : Response) (ok : ChunkId → Bool) :
    (deliver s n r ok).missed = s.missed ∧ (deliver s n r ok).maxMissable = s.maxMissable ∧
    (deliver s n r ok).healthy = s.healthy := by
  unfold deliver
  split
  · exact ⟨rfl, rfl, rfl⟩
  · dsimp only
    split
    · exact giveBack_fields _ _ _
    · exact ⟨rfl, rfl, rfl⟩

theorem clientBeat_run (m : Nat) (es : List Event) : ClientBeat m es (run m es) := by
  have key : ∀ n (es : List Event), es.length = n → ClientBeat m es (run m es) := by
    intro n
    induction n with
    | zero =>
      intro es h
      cases List.eq_nil_of_length_eq_zero h
      refine ⟨rfl, fun _ => ⟨rfl, Nat.zero_le _⟩, ?_, (fun h => by cases h)⟩
      constructor
      · intro h; cases h
      · rintro ⟨pre, post, h, _⟩
        cases pre <;> cases h
    | succ n ih =>
      intro es h
      rcases List.eq_nil_or_concat es with rfl | ⟨es, e, rfl⟩
      · cases h
      rw [List.concat_eq_append] at h ⊢
      have hb := ih es (by simpa using h)
      rw [run_snoc]
      by_cases hrun : (run m es).background = .running
      · have hh : (run m es).healthy = true := by
          cases hh : (run m es).healthy with
          | true => rfl
          | false => exact absurd hrun (hb.stopped hh)
        have hnot : ¬ ∃ pre post, es = pre ++ .tick :: post ∧ (run m pre).background = .running ∧
            List.replicate (m + 1) true <:+ beats pre := by
          rw [← hb.healthy, hh]; intro h; cases h
        obtain ⟨hmiss, hle⟩ := hb.missed hrun
        have hmax := hb.max
        have other : ∀ s' : State, e ≠ .tick → s'.maxMissable = m → s'.healthy = true →
            (s'.background = .running → (e.beat = none ∧ s'.missed = (run m es).missed) ∨
              (e.beat = some false ∧ s'.missed = 0)) →
            ClientBeat m (es ++ [e]) s' := by
          intro s' hne hm' hnh hmi
          refine ⟨hm', fun hn => ?_, ?_, fun h => by rw [hnh] at h; cases h⟩
          · rw [beats_snoc]
            rcases hmi hn with ⟨h1, h2⟩ | ⟨h1, h2⟩
            · rw [h1, h2]; simpa using ⟨hmiss, hle⟩
            · rw [h1, h2]
              exact ⟨(Conn.silent_msg _).symm, Nat.zero_le _⟩
          · rw [exists_snoc_iff]
            constructor
            · intro h; rw [hnh] at h; cases h
            · rintro (h | ⟨h, _⟩)
              · exact absurd h hnot
              · exact absurd h hne
        cases e
        case tick =>
          simp only [step]
          rw [if_neg (not_not_intro hrun)]
          have hsil : List.replicate (m + 1) true <:+ beats es ↔ (run m es).missed > (run m es).maxMissable := by
            rw [Conn.silent_iff, ← hmiss, hmax]; omega
          by_cases hgt : (run m es).missed > (run m es).maxMissable
          · rw [if_pos hgt]
            refine ⟨hmax, (fun h => by cases h), ?_, (fun _ h => by cases h)⟩
            rw [exists_snoc_iff]
            exact ⟨fun _ => Or.inr ⟨rfl, hrun, hsil.2 hgt⟩, fun _ => rfl⟩
          · rw [if_neg hgt]
            refine ⟨hmax, fun _ => ?_, ?_, fun h => ?_⟩
            · rw [beats_snoc]
              refine ⟨?_, ?_⟩
              · show (run m es).missed + 1 = Conn.silent (beats es ++ [true])
                rw [Conn.silent_tick, hmiss]
              · show (run m es).missed + 1 ≤ m + 1
                omega
            · rw [exists_snoc_iff]
              constructor
              · intro h
                replace h : (run m es).healthy = _ := h
                rw [hh] at h; cases h
              · rintro (h | ⟨_, _, h⟩)
                · exact absurd h hnot
                · exact absurd (hsil.1 h) hgt
            · replace h : (run m es).healthy = _ := h
              rw [hh] at h; cases h
        case call => exact other _ (by intro h; cases h) hmax hh (fun _ => Or.inl ⟨rfl, rfl⟩)
        case send =>
          refine other _ (by intro h; cases h) ?_ ?_ (fun _ => Or.inl ⟨rfl, ?_⟩) <;>
            (simp only [step]; rw [put_eq]; first | exact hmax | exact hh | rfl)
        case abandon =>
          refine other _ (by intro h; cases h) ?_ ?_ (fun _ => Or.inl ⟨rfl, ?_⟩) <;>
            (simp only [step]; rw [put_eq]; first | exact hmax | exact hh | rfl)
        case complete => exact other _ (by intro h; cases h) hmax hh (fun _ => Or.inl ⟨rfl, rfl⟩)
        case fail => exact other _ (by intro h; cases h) hmax hh (fun _ => Or.inl ⟨rfl, rfl⟩)
        case sync n r ok =>
          simp only [step]
          rw [if_neg (not_not_intro hrun)]
          obtain ⟨h1, h2, h3⟩ := deliver_fields { run m es with missed := 0 } n r ok
          exact other _ (by intro h; cases h) (h2.trans hmax) (h3.trans hh) (fun _ => Or.inr ⟨rfl, h1⟩)
        all_goals
          simp only [step]
          rw [if_neg (not_not_intro hrun)]
          first
          | exact other _ (by intro h; cases h) hmax hh (fun h => by cases h)
          | exact other _ (by intro h; cases h) hmax hh (fun _ => Or.inr ⟨rfl, rfl⟩)
      · -- the task has ended
        have hrun' : (step (run m es) e).background ≠ .running := by rw [step_stopped hrun]; exact hrun
        have hfields : (step (run m es) e).maxMissable = (run m es).maxMissable ∧
            (step (run m es) e).healthy = (run m es).healthy := by
          cases e
          case call => exact ⟨rfl, rfl⟩
          case send => simp only [step]; rw [put_eq]; exact ⟨rfl, rfl⟩
          case abandon => simp only [step]; rw [put_eq]; exact ⟨rfl, rfl⟩
          case complete => exact ⟨rfl, rfl⟩
          case fail => exact ⟨rfl, rfl⟩
          all_goals (simp only [step]; rw [if_pos hrun]; exact ⟨rfl, rfl⟩)
        refine ⟨hfields.1.trans hb.max, fun h => absurd h hrun', ?_, fun _ => hrun'⟩
        rw [exists_snoc_iff, hfields.2, hb.healthy]
        constructor
        · exact Or.inl
        · rintro (h | ⟨_, h, _⟩)
          · exact h
          · exact absurd h hrun
  exact key _ es rfl

/-! ### after the end of the background task -/

/-- What holds once the background task has returned, if the socket was closed. -/
structure Closed (s : State) : Prop where
  sink : s.background = .returned → s.sinkClosed = true
  none : s.background = .returned → ∀ (i : Nat) c, s.calls[i]? = some c → c.slot = .empty → c.phase = .sending ∨
    c.phase = .sendFailed ∨ c.phase = .abandoned

theorem closed_exit {s : State} (h : Table s) (hs : s.sinkClosed = true) : Closed (exit s) :=
  ⟨fun _ => hs, fun _ _ _ hc he => absurd he (clear_slot h hc)⟩

theorem closed_step {rs : List Nat} {s : State} (hg : Good rs s) (h : Closed s) (e : Event)
    (he : e ≠ .readError false) : Closed (step s e) := by
  have hkeep : ∀ s' : State, s'.background = .running → Closed s' := fun s' h' =>
    ⟨(fun h => by rw [h'] at h; cases h), (fun h => by rw [h'] at h; cases h)⟩
  have hput : ∀ i b f, (∀ c, (f c).request = c.request) → (∀ c, (f c).slot = c.slot) →
      (s.background = .returned → ∀ c, (f c).phase = c.phase ∨ (f c).phase = .sendFailed ∨
        (f c).phase = .abandoned) → Closed (update (put s i b) i f) := by
    intro i b f hr hsl hp
    constructor
    · intro hb
      rw [put_eq] at hb ⊢
      exact h.sink hb
    · intro hb j c hc hce
      have hb' : s.background = .returned := by rw [put_eq] at hb; exact hb
      rw [put_eq] at hc
      obtain ⟨c0, h1, h2, h3⟩ := update_exists hr hc
      replace h1 : s.calls[j]? = some c0 := h1
      rcases h3 with rfl | ⟨_, rfl⟩
      · exact h.none hb' j c h1 hce
      · have h0 := h.none hb' j c0 h1 ((hsl c0).symm.trans hce)
        rcases hp hb' c0 with hq | hq | hq
        · rw [hq]; exact h0
        · exact Or.inr (Or.inl hq)
        · exact Or.inr (Or.inr hq)
  cases e
  case call max st =>
    refine ⟨h.sink, fun hb i c hc hce => ?_⟩
    replace hc : (s.calls ++ [_])[i]? = some c := hc
    rw [List.getElem?_append] at hc
    split at hc
    · exact h.none hb i c hc hce
    · rw [List.getElem?_singleton] at hc
      split at hc
      · cases hc; exact Or.inl rfl
      · cases hc
  case send i b =>
    refine hput i _ _ ?_ ?_ ?_
    · intro c; split <;> rfl
    · intro c; split <;> rfl
    · intro hb c
      split
      · refine Or.inr (Or.inl ?_)
        rw [h.sink hb]
        cases b <;> rfl
      · exact Or.inl rfl
  case abandon i b =>
    refine hput i _ _ ?_ ?_ ?_
    · intro c; split <;> rfl
    · intro c; split <;> rfl
    · intro hb c
      split
      · exact Or.inr (Or.inr rfl)
      · exact Or.inl rfl
  case complete => exact ⟨h.sink, h.none⟩
  case fail => exact ⟨h.sink, h.none⟩
  case sync n r ok =>
    by_cases hrun : s.background = .running
    · by_cases hp : (step s (.sync n r ok)).background = .returned
      · exfalso
        simp only [step] at hp
        rw [if_neg (not_not_intro hrun)] at hp
        unfold deliver at hp
        split at hp
        · cases hp
        · dsimp only at hp
          split at hp
          · rw [(side_giveBack _ _ _).background] at hp
            replace hp : s.background = .returned := hp
            rw [hrun] at hp; cases hp
          · replace hp : s.background = .returned := hp
            rw [hrun] at hp; cases hp
      · exact ⟨fun h => absurd h hp, fun h => absurd h hp⟩
    · simp only [step]; rw [if_pos hrun]; exact h
  case readError b =>
    cases b
    · exact absurd rfl he
    · simp only [step]
      by_cases hrun : s.background = .running
      · rw [if_neg (not_not_intro hrun)]
        refine closed_exit ?_ rfl
        exact ⟨hg.table.wf, hg.table.lt, hg.table.iff⟩
      · rw [if_pos hrun]; exact h
  all_goals
    simp only [step]
    by_cases hrun : s.background = .running
    · rw [if_neg (not_not_intro hrun)]
      first
      | exact hkeep _ hrun
      | (refine closed_exit ?_ rfl; exact ⟨hg.table.wf, hg.table.lt, hg.table.iff⟩)
      | exact ⟨(fun h => by cases h), (fun h => by cases h)⟩
      | (by_cases hgt : s.missed > s.maxMissable
         · rw [if_pos hgt]
           refine closed_exit ?_ rfl
           exact ⟨hg.table.wf, hg.table.lt, hg.table.iff⟩
         · rw [if_neg hgt]; exact hkeep _ hrun)
    · rw [if_pos hrun]; exact h

theorem closed_foldl {rs : List Nat} {s : State} (hg : Good rs s) (h : Closed s) (es : List Event)
    (he : .readError false ∉ es) : Closed (es.foldl step s) := by
  induction es generalizing rs s with
  | nil => exact h
  | cons e es ih =>
    exact ih (good_step hg e) (closed_step hg h e fun h => he (h ▸ List.mem_cons_self))
      (fun hm => he (List.mem_cons_of_mem _ hm))

theorem closed_run (m : Nat) (es : List Event) (he : .readError false ∉ es) : Closed (run m es) :=
  closed_foldl (good_init m) ⟨(fun h => by cases h), (fun h => by cases h)⟩ es he

end Opsqueue.Client
