import Verif.Proofs.Client

/-!
# Lemmas about a client connected to a server
-/

namespace Opsqueue

namespace Conn

theorem out_prefix (s : State) (e : Event) : s.out <+: (step s e).out := by
  have hs : ∀ s' m b, s'.out = s.out → s.out <+: (send s' m b).out := by
    intro s' m b h
    unfold send
    split
    · exact ⟨[m], by rw [h]⟩
    · show s.out <+: s'.out
      rw [h]; exact List.prefix_refl _
  have hr : ∀ s' r f b, s'.out = s.out → s.out <+: (reserve s' r f b).out := by
    intro s' r f b h
    unfold reserve
    split
    · exact hs _ _ _ h
    · split
      · exact hs _ _ _ h
      · show s.out <+: s'.out
        rw [h]; exact List.prefix_refl _
      · exact hs _ _ _ h
  unfold step
  split
  · exact List.prefix_refl _
  · cases e with
    | tick =>
      dsimp only; unfold beatHeart; split
      · exact List.prefix_refl _
      · exact ⟨[.ping], rfl⟩
    | recv m f b =>
      cases m with
      | wantToReserve r => exact hr (alive s) r f b rfl
      | _ => exact List.prefix_refl _
    | wake i => dsimp only; split <;> exact List.prefix_refl _
    | retry f b =>
      dsimp only; split
      · exact List.prefix_refl _
      · exact hr _ _ f b rfl
    | expired id b => exact hs _ _ _ rfl
    | _ => exact List.prefix_refl _

theorem reports_step (s : State) (e : Event) :
    (step s e).reports = s.reports ++ if s.ended.isSome then [] else e.report.toList := by
  by_cases hend : s.ended.isSome
  · rw [if_pos hend, step_ended hend, List.append_nil]
  rw [if_neg hend]
  unfold step
  rw [if_neg hend]
  cases e with
  | recv msg f b =>
    cases msg with
    | wantToReserve r =>
      exact (reserve_missed (alive s) r f b).2.2.1.trans (List.append_nil _).symm
    | _ => rfl
  | tick => dsimp only; unfold beatHeart; split <;> exact (List.append_nil _).symm
  | wake i =>
    dsimp only
    cases hw : s.waiting[i]? <;> exact (List.append_nil _).symm
  | retry f b =>
    dsimp only
    cases hr : s.retry with
    | nil => exact (List.append_nil _).symm
    | cons r rest => exact (reserve_missed _ r f b).2.2.1.trans (List.append_nil _).symm
  | expired id b => exact (send_reports _ _ _).trans (List.append_nil _).symm
  | _ => exact (List.append_nil _).symm

end Conn

namespace Client

theorem giveBack_wire (s : State) (ids : List ChunkId) (ok : ChunkId → Bool) :
    s.wire <+: (giveBack s ids ok).wire ∧
    failReports (giveBack s ids ok).wire =
      failReports s.wire ++ (ids.filter ok).map fun id => (id, "Requester disappeared") := by
  unfold giveBack
  induction ids generalizing s with
  | nil => simp
  | cons id ids ih =>
    obtain ⟨h1, h2⟩ := ih (asyncFail s id "Requester disappeared" (ok id))
    rw [List.foldl_cons]
    refine ⟨List.IsPrefix.trans ?_ h1, h2.trans ?_⟩
    · show s.wire <+: if ok id then _ else _
      split
      · exact ⟨_, rfl⟩
      · exact List.prefix_refl _
    · cases hb : ok id with
      | false => rw [List.filter_cons, if_neg (by rw [hb]; exact Bool.false_ne_true)]; rfl
      | true =>
        rw [List.filter_cons, if_pos hb, List.map_cons]
        show failReports (s.wire ++ [_]) ++ _ = _
        unfold failReports
        rw [List.filterMap_append, List.append_assoc]
        rfl

theorem wire_prefix (s : State) (e : Event) : s.wire <+: (step s e).wire := by
  have hput : ∀ i b f, s.wire <+: (update (put s i b) i f).wire := by
    intro i b f
    rw [put_eq]
    exact ⟨_, rfl⟩
  have hf : ∀ (s' : State) id f (b : Bool), s'.wire = s.wire → s.wire <+: (asyncFail s' id f b).wire := by
    intro s' id f b h
    show s.wire <+: if b then _ else _
    rw [h]
    split
    · exact ⟨_, rfl⟩
    · exact List.prefix_refl _
  cases e
  case call => exact List.prefix_refl _
  case send => exact hput _ _ _
  case abandon => exact hput _ _ _
  case complete id o b =>
    show s.wire <+: if (b && !s.sinkClosed) = true then _ else _
    split
    · exact ⟨_, rfl⟩
    · exact List.prefix_refl _
  case fail => exact hf _ _ _ _ rfl
  all_goals
    simp only [step]
    split
    · exact List.prefix_refl _
    · first
      | exact List.prefix_refl _
      | exact hf _ _ _ _ rfl
      | (split <;> exact List.prefix_refl _)
      | (unfold deliver
         split
         · exact List.prefix_refl _
         · dsimp only
           split
           · refine List.IsPrefix.trans ?_ (giveBack_wire _ _ _).1
             exact List.prefix_refl _
           · exact List.prefix_refl _)

/-- The only ways to panic. -/
theorem panic_cases {s : State} {e : Event} (h : (step s e).background = .panicked)
    (hs : s.background ≠ .panicked) :
    s.background = .running ∧
      (e = .unreadable ∨ ∃ n r ok, e = .sync n r ok ∧ s.inFlight.get n = none) := by
  by_cases hrun : s.background = .running
  · refine ⟨hrun, ?_⟩
    cases e
    case unreadable => exact Or.inl rfl
    case sync n r ok =>
      refine Or.inr ⟨n, r, ok, rfl, ?_⟩
      simp only [step] at h
      rw [if_neg (not_not_intro hrun)] at h
      unfold deliver at h
      cases hg : Map.get s.inFlight n with
      | none => rfl
      | some i =>
        dsimp only at h
        rw [hg] at h
        dsimp only at h
        split at h
        · rw [(side_giveBack _ _ _).background] at h
          replace h : s.background = .panicked := h
          exact absurd h hs
        · replace h : s.background = .panicked := h
          exact absurd h hs
    case call => exact absurd h hs
    case send => simp only [step] at h; rw [put_eq] at h; exact absurd h hs
    case abandon => simp only [step] at h; rw [put_eq] at h; exact absurd h hs
    case complete => exact absurd h hs
    case fail => exact absurd h hs
    all_goals
      simp only [step] at h
      rw [if_neg (not_not_intro hrun)] at h
      first
      | exact absurd h hs
      | cases h
      | (split at h
         · cases h
         · exact absurd h hs)
  · rw [step_stopped hrun] at h
    exact absurd h hs

/-- A request that was sent and not answered is in the table. -/
theorem inFlight_of_requested {rs : List Nat} {s : State} (h : Good rs s) (hrun : s.background = .running)
    {n : Nat} (hn : n ∈ requestNonces s.wire) (hr : n ∉ rs) : s.inFlight.get n ≠ none := by
  have hf := h.fresh (by rw [hrun]; intro h; cases h)
  obtain ⟨i, c, h1, h2, _⟩ := hf.sent n hn
  have he : c.slot = .empty := by
    cases hs : c.slot with
    | empty => rfl
    | _ =>
      exact absurd (h2 ▸ hf.replied i c h1 (by rw [hs]; intro h; cases h)) hr
  rw [(h.table.iff n i).2 ⟨c, h1, h2, he⟩]
  intro h; cases h

end Client

namespace Session

open Conn (Book answered responseNonces)
open Client (requestNonces Good)

theorem take_prefix {α : Type} {l l' : List α} (h : l <+: l') {k : Nat} (hk : k ≤ l.length) :
    l'.take k = l.take k := by
  obtain ⟨t, rfl⟩ := h
  rw [List.take_append_of_le_length hk]

structure Joint (s : State) : Prop where
  up : s.up ≤ s.client.wire.length
  down : s.down ≤ s.server.out.length
  book : ∃ recv, Book recv s.server ∧ ∀ n, recv.count n ≤ (requestNonces (s.client.wire.take s.up)).count n
  good : ∃ rs, Good rs s.client ∧ ∀ n, rs.count n ≤ (responseNonces (s.server.out.take s.down)).count n
  calm : s.client.background ≠ .panicked
  reports : ∃ k, k ≤ s.up ∧ s.server.reports = Client.reports (s.client.wire.take k) ∧
    (s.server.ended = none → k = s.up)

theorem joint_init (m : Nat) : Joint { client := Client.init m, server := Conn.init m } :=
  ⟨Nat.zero_le _, Nat.le_refl _, ⟨[], ⟨[], fun _ => rfl, Nat.zero_le _, fun _ => rfl⟩, fun _ => Nat.zero_le _⟩,
    ⟨[], Client.good_init m, fun _ => Nat.zero_le _⟩, (fun h => by cases h), ⟨0, Nat.le_refl _, rfl, fun _ => rfl⟩⟩

theorem book_step' {rc : List Nat} {s : Conn.State} (hb : Book rc s) (e : Conn.Event) :
    ∃ rc', Book rc' (Conn.step s e) ∧ ∀ n, rc'.count n ≤ rc.count n + e.requestNonce.toList.count n := by
  by_cases hend : s.ended.isSome
  · rw [Conn.step_ended hend]
    exact ⟨rc, hb, fun n => Nat.le_add_right _ _⟩
  · exact ⟨_, Conn.book_step hb hend e, fun n => by rw [List.count_append]; exact Nat.le_refl _⟩

theorem joint_client {s : State} (h : Joint s) (e : Client.Event)
    (hp : (Client.step s.client e).background ≠ .panicked)
    {d : Nat} (hd : d ≤ s.server.out.length)
    (hr : ∃ rs, Good rs (Client.step s.client e) ∧
      ∀ n, rs.count n ≤ (responseNonces (s.server.out.take d)).count n) :
    Joint { s with client := Client.step s.client e, down := d } := by
  have hw := Client.wire_prefix s.client e
  refine ⟨Nat.le_trans h.up hw.length_le, hd, ?_, hr, hp, ?_⟩
  · obtain ⟨rc, h1, h2⟩ := h.book
    refine ⟨rc, h1, fun n => ?_⟩
    show _ ≤ (requestNonces ((Client.step s.client e).wire.take s.up)).count n
    rw [take_prefix hw h.up]; exact h2 n
  · obtain ⟨k, h1, h2, h3⟩ := h.reports
    refine ⟨k, h1, ?_, h3⟩
    show _ = Client.reports ((Client.step s.client e).wire.take k)
    rw [take_prefix hw (Nat.le_trans h1 h.up)]; exact h2

theorem responseNonces_append (l m : List Conn.ServerMsg) :
    responseNonces (l ++ m) = responseNonces l ++ responseNonces m := by
  simp [responseNonces]

theorem reports_append (l m : List Conn.ClientMsg) :
    Client.reports (l ++ m) = Client.reports l ++ Client.reports m := by
  simp [Client.reports]

theorem ended_step {s : Conn.State} {e : Conn.Event} (h : (Conn.step s e).ended = none) : s.ended = none := by
  cases hs : s.ended with
  | none => rfl
  | some x =>
    rw [Conn.step_ended (by rw [hs]; rfl), hs] at h; cases h

theorem joint_step {s : State} (h : Joint s) (e : Event) : Joint (step s e) := by
  cases e with
  | client e =>
    simp only [step]
    split
    · rename_i hl
      refine joint_client h e ?_ h.down ?_
      · intro hp
        obtain ⟨_, hu | ⟨n, r, ok, hu, _⟩⟩ := Client.panic_cases hp h.calm
        · subst hu; cases hl
        · subst hu; cases hl
      · obtain ⟨rs, hg, hc⟩ := h.good
        have hnone : e.responseNonce = none := by cases e <;> first | rfl | cases hl
        have := Client.good_step hg e
        rw [hnone] at this
        exact ⟨rs, (List.append_nil rs) ▸ this, hc⟩
    · exact h
  | server e =>
    simp only [step]
    split
    · rename_i hl
      have hw := Conn.out_prefix s.server e
      refine ⟨h.up, Nat.le_trans h.down hw.length_le, ?_, ?_, h.calm, ?_⟩
      · obtain ⟨rc, hb, hc⟩ := h.book
        obtain ⟨rc', hb', hc'⟩ := book_step' hb e
        have hnone : e.requestNonce = none := by cases e <;> first | rfl | cases hl
        refine ⟨rc', hb', fun n => Nat.le_trans (hc' n) ?_⟩
        rw [hnone]; exact hc n
      · obtain ⟨rs, hg, hc⟩ := h.good
        refine ⟨rs, hg, fun n => ?_⟩
        show _ ≤ (responseNonces ((Conn.step s.server e).out.take s.down)).count n
        rw [take_prefix hw h.down]; exact hc n
      · obtain ⟨k, h1, h2, h3⟩ := h.reports
        have hnone : e.report = none := by cases e <;> first | rfl | cases hl
        refine ⟨k, h1, ?_, fun he => h3 (ended_step he)⟩
        show (Conn.step s.server e).reports = _
        rw [Conn.reports_step, hnone, h2]
        split <;> exact List.append_nil _
    · exact h
  | arrivesAtServer f b =>
    simp only [step]
    cases hm : s.client.wire[s.up]? with
    | none => exact h
    | some m =>
      dsimp only
      have hlt := (List.getElem?_eq_some_iff.1 hm).1
      have hw := Conn.out_prefix s.server (.recv m f b)
      have htake : s.client.wire.take (s.up + 1) = s.client.wire.take s.up ++ [m] := by
        rw [List.take_add_one, hm]; rfl
      refine ⟨hlt, Nat.le_trans h.down hw.length_le, ?_, ?_, h.calm, ?_⟩
      · obtain ⟨rc, hb, hc⟩ := h.book
        obtain ⟨rc', hb', hc'⟩ := book_step' hb (.recv m f b)
        refine ⟨rc', hb', fun n => Nat.le_trans (hc' n) ?_⟩
        show _ ≤ (requestNonces (s.client.wire.take (s.up + 1))).count n
        rw [htake, Client.requestNonces_append, List.count_append]
        have := hc n
        cases m with
        | wantToReserve r => exact Nat.add_le_add_right this _
        | _ => exact Nat.add_le_add_right this _
      · obtain ⟨rs, hg, hc⟩ := h.good
        refine ⟨rs, hg, fun n => ?_⟩
        show _ ≤ (responseNonces ((Conn.step s.server (.recv m f b)).out.take s.down)).count n
        rw [take_prefix hw h.down]; exact hc n
      · obtain ⟨k, h1, h2, h3⟩ := h.reports
        by_cases hend : s.server.ended.isSome
        · refine ⟨k, Nat.le_succ_of_le h1, ?_, fun he => ?_⟩
          · show (Conn.step s.server _).reports = _
            rw [Conn.step_ended hend]; exact h2
          · rw [ended_step he] at hend; cases hend
        · have hnone : s.server.ended = none := by
            cases hh : s.server.ended
            · rfl
            · rw [hh] at hend; exact absurd rfl hend
          refine ⟨s.up + 1, Nat.le_refl _, ?_, fun _ => rfl⟩
          show (Conn.step s.server _).reports = Client.reports (s.client.wire.take (s.up + 1))
          rw [Conn.reports_step, if_neg hend, htake, reports_append, h2, h3 hnone]
          cases m <;> rfl
  | arrivesAtClient ok =>
    simp only [step]
    cases hm : s.server.out[s.down]? with
    | none => exact h
    | some m =>
      dsimp only
      have hlt := (List.getElem?_eq_some_iff.1 hm).1
      have htake : s.server.out.take (s.down + 1) = s.server.out.take s.down ++ [m] := by
        rw [List.take_add_one, hm]; rfl
      obtain ⟨rs, hg, hc⟩ := h.good
      refine joint_client h _ ?_ hlt ?_
      · intro hp
        obtain ⟨hrun, hu | ⟨n, r, ok', hu, hget⟩⟩ := Client.panic_cases hp h.calm
        · cases m <;> cases hu
        · cases m with
          | sync n' r' =>
            cases hu
            obtain ⟨rc, ⟨lost, _, _, hbook⟩, hrc⟩ := h.book
            have h1 : (answered s.server).count n ≥ rs.count n + 1 := by
              obtain ⟨t, ht⟩ := List.take_prefix (s.down + 1) s.server.out
              show (responseNonces s.server.out).count n ≥ _
              rw [← ht, responseNonces_append, List.count_append, htake, responseNonces_append,
                List.count_append]
              have h2 := hc n
              have : (responseNonces [Conn.ServerMsg.sync n r]).count n = 1 := by
                simp [responseNonces]
              omega
            have h2 := hbook n
            have h3 := hrc n
            have hf := hg.fresh (by rw [hrun]; intro h; cases h)
            have h4 : (requestNonces (s.client.wire.take s.up)).count n ≤
                (requestNonces s.client.wire).count n := by
              obtain ⟨t, ht⟩ := List.take_prefix s.up s.client.wire
              conv => rhs; rw [← ht, Client.requestNonces_append, List.count_append]
              omega
            have h5 := List.nodup_iff_count.1 hf.nodup n
            refine Client.inFlight_of_requested hg hrun (n := n) ?_ ?_ hget
            · exact List.count_pos_iff.1 (by omega)
            · intro hmem
              have := List.count_pos_iff.2 hmem
              omega
          | _ => cases hu
      · refine ⟨_, Client.good_step hg _, fun n => ?_⟩
        rw [htake, responseNonces_append, List.count_append, List.count_append]
        have := hc n
        cases m with
        | sync n' r' => exact Nat.add_le_add_right this _
        | _ => exact Nat.add_le_add_right this _

theorem joint_run (m : Nat) (es : List Event) : Joint (run m es) := by
  unfold run
  generalize hs : ({ client := Client.init m, server := Conn.init m } : State) = s
  have h : Joint s := hs ▸ joint_init m
  clear hs
  induction es generalizing s with
  | nil => exact h
  | cons e es ih => exact ih _ (joint_step h e)

end Session
end Opsqueue
