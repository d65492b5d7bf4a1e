import Verif.Proofs.Session

/-!
# C38, C39 and C40 for the consumer client
-/

namespace Opsqueue

open Client

/-! ## C38 -/

/-- **C38** (nonces). Calls that can still get a response have pairwise different nonces. -/
theorem C38_outstanding_nonces_differ (m : Nat) (es : List Client.Event) (i j : Nat) (c d : Call)
    (hc : (Client.run m es).calls[i]? = some c) (hd : (Client.run m es).calls[j]? = some d)
    (hco : c.slot = .empty) (hdo : d.slot = .empty) (hij : i ≠ j) :
    c.request.nonce ≠ d.request.nonce := by
  intro heq
  have ht := (good_run m es).table
  have h1 := (ht.iff _ i).2 ⟨c, hc, rfl, hco⟩
  have h2 := (ht.iff _ j).2 ⟨d, hd, rfl, hdo⟩
  rw [heq, h2] at h1
  exact hij (Option.some.inj h1).symm

/-- **C38** (delivery). When a response arrives for the nonce of a call that is waiting, that call gets
exactly this response, and no other call is affected. -/
theorem C38_delivered_to_its_call (m : Nat) (es : List Client.Event) (r : Conn.Response) (ok : ChunkId → Bool)
    (i : Nat) (c : Call) (hrun : (Client.run m es).background = .running)
    (hc : (Client.run m es).calls[i]? = some c) (hwait : c.phase = .awaiting) (hnone : c.outcome = none) :
    let after := Client.run m (es ++ [.sync c.request.nonce r ok])
    (after.calls[i]?.bind Call.outcome) = some (.response r) ∧
    (∀ j, j ≠ i → after.calls[j]? = (Client.run m es).calls[j]?) ∧
    after.wire = (Client.run m es).wire := by
  have hempty : c.slot = .empty := by
    cases hs : c.slot with
    | empty => rfl
    | _ => simp [Call.outcome, hwait, hs] at hnone
  have hg := ((good_run m es).table.iff _ i).2 ⟨c, hc, rfl, hempty⟩
  intro after
  have hafter : after = update { Client.run m es with missed := 0, inFlight := (Client.run m es).inFlight.erase c.request.nonce } i
      (fun c => { c with slot := .value r }) := by
    show Client.run m (es ++ [_]) = _
    rw [run_snoc]
    simp only [Client.step]
    rw [if_neg (not_not_intro hrun)]
    unfold deliver
    dsimp only
    rw [hg]
    dsimp only
    rw [hc]
    rw [if_neg]
    simp [Call.gone, hwait]
  refine ⟨?_, fun j hj => ?_, by rw [hafter]; rfl⟩
  · rw [hafter, update_get, if_pos rfl]
    show (((Client.run m es).calls[i]?.map _).bind _) = _
    rw [hc]
    simp [Call.outcome, hwait]
  · rw [hafter, update_get, if_neg (fun h => hj h.symm)]

/-- **C38** (no forged response). Whatever a call returns as its response has arrived, earlier, in a message
carrying the nonce of that call. -/
theorem C38_responses_are_genuine (m : Nat) (es : List Client.Event) (i : Nat) (c : Call) (r : Conn.Response)
    (hc : (Client.run m es).calls[i]? = some c) (hout : c.outcome = some (.response r)) :
    ∃ pre ok post, es = pre ++ .sync c.request.nonce r ok :: post ∧
      ∃ c0, (Client.run m pre).calls[i]? = some c0 ∧ c0.request = c.request ∧ c0.slot = .empty := by
  have hslot : c.slot = .value r := by
    unfold Call.outcome at hout
    split at hout <;> first | cases hout; assumption | cases hout
  clear hout
  have key : ∀ n (es : List Client.Event), es.length = n → ∀ (i : Nat) (c : Call), (Client.run m es).calls[i]? = some c →
      c.slot = .value r → ∃ pre ok post, es = pre ++ .sync c.request.nonce r ok :: post ∧
      ∃ c0, (Client.run m pre).calls[i]? = some c0 ∧ c0.request = c.request ∧ c0.slot = .empty := by
    intro n
    induction n with
    | zero =>
      intro es hl i c hc
      cases List.eq_nil_of_length_eq_zero hl
      simp [Client.run, Client.init] at hc
    | succ n ih =>
      intro es hl i c hc hs
      rcases List.eq_nil_or_concat es with rfl | ⟨es, e, rfl⟩
      · cases hl
      rw [List.concat_eq_append] at hl hc ⊢
      rw [run_snoc] at hc
      have hlen : es.length = n := by simpa using hl
      cases h0 : (Client.run m es).calls[i]? with
      | some c0 =>
        obtain ⟨c', h1, h2, h3, _⟩ := step_call e h0
        rw [hc] at h1; cases h1
        rcases h3 with h3 | ⟨_, _, h3⟩ | ⟨_, n', r', ok, he, hg, h3⟩
        · obtain ⟨pre, ok, post, hes, c1, h4, h5, h6⟩ := ih es hlen i c0 h0 (h3.symm.trans hs)
          exact ⟨pre, ok, post ++ [e], by rw [hes, h2]; simp, c1, h4, h5.trans h2.symm, h6⟩
        · rw [hs] at h3; cases h3
        · rw [hs] at h3; cases h3
          obtain ⟨c1, h4, h5, h6⟩ := ((good_run m es).table.iff n' i).1 hg
          rw [h0] at h4; cases h4
          refine ⟨es, ok, [], ?_, c0, h0, h2.symm, h6⟩
          rw [he, h2, h5]
      | none =>
        -- the call is new
        exfalso
        have hlen' : (Client.run m es).calls.length ≤ i := List.getElem?_eq_none_iff.1 h0
        have hnew : ∀ c, (Client.step (Client.run m es) e).calls[i]? = some c → c.slot = .empty := by
          have hlenle : ∀ s : Client.State, s.calls.length = (Client.run m es).calls.length →
              s.calls[i]? = none := fun s h => List.getElem?_eq_none_iff.2 (by omega)
          intro c hc
          cases e
          case call max st =>
            replace hc : (_ ++ [_])[i]? = some c := hc
            rw [List.getElem?_append_right hlen'] at hc
            rw [List.getElem?_singleton] at hc
            split at hc
            · cases hc; rfl
            · cases hc
          all_goals
            rw [hlenle] at hc
            · cases hc
            · simp only [Client.step]
              first
              | rfl
              | (rw [put_eq]; exact List.length_modify ..)
              | (split
                 · rfl
                 · first
                   | rfl
                   | exact List.length_mapIdx
                   | (split
                      · exact List.length_mapIdx
                      · rfl)
                   | (unfold deliver
                      split
                      · rfl
                      · dsimp only
                        split
                        · rw [giveBack_calls]; exact List.length_modify ..
                        · exact List.length_modify ..))
        rw [hnew c hc] at hs; cases hs
  exact key _ es rfl i c hc hslot

/-- **C38** (no panic, any server). If every response that arrives carries the nonce of a request that was
sent and that was not answered before, and every message can be read, then the background task never
panics. -/
theorem C38_no_panic (m : Nat) (es : List Client.Event)
    (hserver : ∀ pre n r ok post, es = pre ++ .sync n r ok :: post →
      n ∈ requestNonces (Client.run m pre).wire ∧ n ∉ pre.filterMap Event.responseNonce)
    (hreadable : Client.Event.unreadable ∉ es) :
    (Client.run m es).background ≠ .panicked := by
  have key : ∀ n (es : List Client.Event), es.length = n →
      (∀ pre n r ok post, es = pre ++ .sync n r ok :: post →
        n ∈ requestNonces (Client.run m pre).wire ∧ n ∉ pre.filterMap Event.responseNonce) →
      Client.Event.unreadable ∉ es → (Client.run m es).background ≠ .panicked := by
    intro n
    induction n with
    | zero =>
      intro es hl _ _ h
      cases List.eq_nil_of_length_eq_zero hl
      cases h
    | succ n ih =>
      intro es hl hsrv hread h
      rcases List.eq_nil_or_concat es with rfl | ⟨es, e, rfl⟩
      · cases hl
      rw [List.concat_eq_append] at hl hsrv hread h
      have hprev := ih es (by simpa using hl)
        (fun pre n r ok post he => hsrv pre n r ok (post ++ [e]) (by rw [he]; simp))
        (fun hm => hread (List.mem_append_left _ hm))
      rw [run_snoc] at h
      obtain ⟨hrun, he | ⟨n, r, ok, he, hg⟩⟩ := panic_cases h hprev
      · exact hread (List.mem_append_right _ (List.mem_singleton.2 he.symm))
      · obtain ⟨h1, h2⟩ := hsrv es n r ok [] (by rw [he])
        exact inFlight_of_requested (good_run m es) hrun h1 h2 hg
  exact key _ es rfl hserver hreadable

/-- **C38** (no panic, this server). Connected to the server of this repository by a socket that delivers
messages in order, the background task never panics: not with any number of concurrent and abandoned
calls, not with retries on the server, not with any failures to send. -/
theorem C38_no_panic_with_this_server (m : Nat) (es : List Session.Event) :
    (Session.run m es).client.background ≠ .panicked :=
  (Session.joint_run m es).calm

/-- **C38** (connection loss), the full statement: once the background task has ended no call waits. -/
def C38_full : Prop := ∀ (m : Nat) (es : List Client.Event) (i : Nat) (c : Call),
  (Client.run m es).background = .returned → (Client.run m es).calls[i]? = some c →
  c.phase = .awaiting → c.outcome ≠ none

/-- **C38** (connection loss), for connections that end as a whole: once the background task has returned, no call
waits, whether it started before or after. Missing: a read error after which the socket still accepts
messages. -/
theorem C38_connection_loss_partial (m : Nat) (es : List Client.Event) (i : Nat) (c : Call)
    (hclosed : (Client.run m es).background = .returned) (herror : Client.Event.readError false ∉ es)
    (hc : (Client.run m es).calls[i]? = some c) (hwait : c.phase = .awaiting) : c.outcome ≠ none := by
  intro hnone
  have hempty : c.slot = .empty := by
    cases hs : c.slot with
    | empty => rfl
    | _ => simp [Call.outcome, hwait, hs] at hnone
  rcases (closed_run m es herror).none hclosed i c hc hempty with h | h | h <;> rw [hwait] at h <;> cases h

/-- **C38** (connection loss), without any assumption on errors: the calls in progress at the moment at which the
background task returns do not hang. -/
theorem C38_calls_in_progress_fail (m : Nat) (pre : List Client.Event) (e : Client.Event) (post : List Client.Event)
    (i : Nat) (c : Call) (hrunning : (Client.run m pre).background = .running)
    (hclosed : (Client.run m (pre ++ [e])).background = .returned)
    (hstarted : i < (Client.run m pre).calls.length)
    (hc : (Client.run m (pre ++ [e] ++ post)).calls[i]? = some c) (hwait : c.phase = .awaiting) :
    c.outcome ≠ none := by
  have hgood := good_run m pre
  rw [run_snoc] at hclosed
  have hexit : ∃ s' : Client.State, Table s' ∧ s'.calls = (Client.run m pre).calls ∧
      Client.step (Client.run m pre) e = exit s' := by
    have hk : ∀ s' : Client.State, s'.background = (Client.run m pre).background → s'.background ≠ .returned := by
      intro s' h; rw [h, hrunning]; intro h; cases h
    cases e
    case call => exact absurd hclosed (hk _ rfl)
    case send => simp only [Client.step] at hclosed; rw [put_eq] at hclosed; exact absurd hclosed (hk _ rfl)
    case abandon => simp only [Client.step] at hclosed; rw [put_eq] at hclosed; exact absurd hclosed (hk _ rfl)
    case complete => exact absurd hclosed (hk _ rfl)
    case fail => exact absurd hclosed (hk _ rfl)
    case tick =>
      simp only [Client.step] at hclosed ⊢
      rw [if_neg (not_not_intro hrunning)] at hclosed
      rw [if_neg (not_not_intro hrunning)]
      by_cases hgt : (Client.run m pre).missed > (Client.run m pre).maxMissable
      · rw [if_pos hgt]
        refine ⟨_, ?_, ?_, rfl⟩
        · exact ⟨hgood.table.wf, hgood.table.lt, hgood.table.iff⟩
        · rfl
      · rw [if_neg hgt] at hclosed
        exact absurd hclosed (hk _ rfl)
    all_goals
      simp only [Client.step] at hclosed ⊢
      rw [if_neg (not_not_intro hrunning)] at hclosed
      rw [if_neg (not_not_intro hrunning)]
      first
      | (refine ⟨_, ?_, ?_, rfl⟩
         · exact ⟨hgood.table.wf, hgood.table.lt, hgood.table.iff⟩
         · rfl)
      | exact absurd hclosed (hk _ rfl)
      | cases hclosed
      | (unfold deliver at hclosed
         split at hclosed
         · cases hclosed
         · dsimp only at hclosed
           split at hclosed
           · rw [(side_giveBack _ _ _).background] at hclosed
             exact absurd hclosed (hk _ rfl)
           · exact absurd hclosed (hk _ rfl))
  obtain ⟨s', ht, hcalls, he⟩ := hexit
  have hlen : i < (exit s').calls.length := by
    show i < (s'.calls.mapIdx _).length
    rw [List.length_mapIdx, hcalls]; exact hstarted
  obtain ⟨c0, hc0⟩ : ∃ c0, (exit s').calls[i]? = some c0 := ⟨_, List.getElem?_eq_getElem hlen⟩
  have h0 := clear_slot ht hc0
  obtain ⟨c', h1, h2⟩ := slot_stays post _ i c0 (by rw [← run_snoc] at he; rw [he]; exact hc0 :
    (Client.run m (pre ++ [e])).calls[i]? = some c0) h0
  have : (Client.run m (pre ++ [e] ++ post)).calls[i]? = some c' := by
    rw [← h1]; simp [Client.run, List.foldl_append]
  rw [hc] at this; cases this
  unfold Call.outcome
  rw [hwait]
  cases hs : c.slot with
  | empty => exact absurd hs h2
  | value r => intro h; cases h
  | dropped => intro h; cases h

/-- **C38**: the full statement about connection loss does not hold of the program. After a read error that
leaves the socket usable the background task is gone but the client still counts as healthy, so that the
next call uses the same client: it sends its message and waits, and nothing that happens later, short of
the caller giving up, makes it return. -/
theorem C38_refuted_call_after_read_error_hangs : ¬ C38_full ∧
    ∀ (m max : Nat) (st : Strategy) (es : List Client.Event),
      (∀ b, Client.Event.abandon 0 b ∉ es) → (∀ b, Client.Event.send 0 b ∉ es) →
      let s := Client.run m ([.readError false, .call max st, .send 0 true] ++ es)
      s.healthy = true ∧ ∃ c, s.calls[0]? = some c ∧ c.phase = .awaiting ∧ c.outcome = none := by
  have main : ∀ (m max : Nat) (st : Strategy) (es : List Client.Event),
      (∀ b, Client.Event.abandon 0 b ∉ es) → (∀ b, Client.Event.send 0 b ∉ es) →
      let s := Client.run m ([.readError false, .call max st, .send 0 true] ++ es)
      s.background = .returned ∧
      s.healthy = true ∧ ∃ c, s.calls[0]? = some c ∧ c.phase = .awaiting ∧ c.outcome = none := by
    intro m max st es ha hs
    have hstart : ∃ s0 : Client.State, Client.run m [.readError false, .call max st, .send 0 true] = s0 ∧
        s0.background = .returned ∧ s0.healthy = true ∧
        ∃ c, s0.calls[0]? = some c ∧ c.phase = .awaiting ∧ c.slot = .empty :=
      ⟨_, rfl, rfl, rfl, _, rfl, rfl, rfl⟩
    obtain ⟨s0, h0, hb, hh, c, hc, hp, hsl⟩ := hstart
    have hsplit : Client.run m ([.readError false, .call max st, .send 0 true] ++ es) = es.foldl Client.step s0 := by
      rw [← h0]; simp [Client.run]
    rw [hsplit]
    clear h0 hsplit
    intro s
    suffices h : s.background = .returned ∧ s.healthy = true ∧
        ∃ c, s.calls[0]? = some c ∧ c.phase = .awaiting ∧ c.slot = .empty by
      obtain ⟨h1, h2, c, h3, h4, h5⟩ := h
      exact ⟨h1, h2, c, h3, h4, by simp [Call.outcome, h4, h5]⟩
    show (es.foldl Client.step s0).background = _ ∧ _
    induction es generalizing s0 c with
    | nil => exact ⟨hb, hh, c, hc, hp, hsl⟩
    | cons e es ih =>
      have hnr : s0.background ≠ .running := by rw [hb]; intro h; cases h
      obtain ⟨c', h1, _, h3, h4⟩ := step_call e hc
      have hslot : c'.slot = .empty := by
        rcases h3 with h3 | ⟨h, _⟩ | ⟨h, _⟩
        · rw [h3]; exact hsl
        · exact absurd h hnr
        · exact absurd h hnr
      have hphase : c'.phase = .awaiting := by
        rcases h4 with h4 | h4 | h4 | ⟨b, h4⟩
        · rw [h4]; exact hp
        · exact absurd (h4 ▸ List.mem_cons_self) (ha true)
        · exact absurd (h4 ▸ List.mem_cons_self) (ha false)
        · exact absurd (h4 ▸ List.mem_cons_self) (hs b)
      refine ih (fun b hm => ha b (List.mem_cons_of_mem _ hm)) (fun b hm => hs b (List.mem_cons_of_mem _ hm))
        (Client.step s0 e) ?_ ?_ c' h1 hphase hslot
      · rw [step_stopped hnr]; exact hb
      · cases e
        case call => exact hh
        case send => simp only [Client.step]; rw [put_eq]; exact hh
        case abandon => simp only [Client.step]; rw [put_eq]; exact hh
        case complete => exact hh
        case fail => exact hh
        all_goals (simp only [Client.step]; rw [if_pos hnr]; exact hh)
  refine ⟨fun hfull => ?_, fun m max st es ha hs => (main m max st es ha hs).2⟩
  obtain ⟨hb, _, c, hc, hp, ho⟩ := main 0 1 .oldest [] (fun _ h => by cases h) (fun _ h => by cases h)
  exact hfull 0 _ 0 c hb hc hp ho

/-- Two calls at the same time, answered out of order, then the connection is lost with a third call
outstanding. -/
def clientExample : List Client.Event :=
  [.call 1 .oldest, .call 2 .newest, .send 1 true, .send 0 true, .ping,
   .sync 1 (some [⟨5, 0⟩, ⟨5, 1⟩]) (fun _ => true), .sync 0 (some [⟨6, 0⟩]) (fun _ => true),
   .complete ⟨5, 0⟩ none true, .call 3 .oldest, .send 2 true]

example : (Client.run 3 clientExample).calls.map Call.outcome =
    [some (.response (some [⟨6, 0⟩])), some (.response (some [⟨5, 0⟩, ⟨5, 1⟩])), none] ∧
    (Client.run 3 (clientExample ++ [.closed])).calls.map Call.outcome =
    [some (.response (some [⟨6, 0⟩])), some (.response (some [⟨5, 0⟩, ⟨5, 1⟩])), some .error] := by
  decide +kernel

/-- The hypotheses of `C38_delivered_to_its_call` are met. -/
example : (Client.run 3 clientExample).background = .running ∧
    ∃ c, (Client.run 3 clientExample).calls[2]? = some c ∧ c.phase = .awaiting ∧ c.outcome = none :=
  ⟨by decide +kernel, _, rfl, by decide +kernel, by decide +kernel⟩

/-- A whole session: the client asks, the server answers, the client reports. -/
example : let s := Session.run 3 [.client (.call 1 .oldest), .client (.send 0 true),
      .arrivesAtServer (.chunks [⟨7, 0⟩]) true, .server .tick, .arrivesAtClient (fun _ => true),
      .client (.complete ⟨7, 0⟩ none true), .arrivesAtServer .dbError true]
    s.client.calls.map Call.outcome = [some (.response (some [⟨7, 0⟩]))] ∧
    s.server.reports = [.complete ⟨7, 0⟩ none] := by decide +kernel

/-! ## C39, the client's side -/

/-- **C39** for the client: it declares itself unhealthy (and closes the connection) if and only if some tick
happens while the background task runs and the `m + 1` ticks before it came without anything received in
between or since. -/
theorem C39_client_exactly_when (m : Nat) (es : List Client.Event) :
    (Client.run m es).healthy = false ↔
      ∃ pre post, es = pre ++ .tick :: post ∧ (Client.run m pre).background = .running ∧
        List.replicate (m + 1) true <:+ Client.beats pre :=
  (clientBeat_run m es).healthy

/-- With `m = 2`: a ping after every third tick keeps the client healthy, four ticks without one do not. -/
example : (Client.run 2 [.tick, .tick, .tick, .ping, .tick, .tick, .tick]).healthy = true ∧
    (Client.run 2 [.tick, .tick, .tick, .ping, .tick, .tick, .tick, .tick]).healthy = false := by
  decide +kernel

/-! ## C40 -/

/-- **C40** (undeliverable response). When a response arrives for a call whose caller has gone away, the client
sends a fail report for each of the chunks in it, in order and each exactly once (those for which sending
succeeds), after everything it has sent before; and no call gets the response. -/
theorem C40_undeliverable_chunks_given_back (m : Nat) (es : List Client.Event) (r : Conn.Response)
    (ok : ChunkId → Bool) (i : Nat) (c : Call) (hrun : (Client.run m es).background = .running)
    (hc : (Client.run m es).calls[i]? = some c) (hgone : c.gone = true) (hopen : c.slot = .empty) :
    let before := Client.run m es
    let after := Client.run m (es ++ [.sync c.request.nonce r ok])
    before.wire <+: after.wire ∧
    failReports after.wire =
      failReports before.wire ++ ((r.getD []).filter ok).map (fun id => (id, "Requester disappeared")) ∧
    after.calls.map Call.outcome = before.calls.map Call.outcome := by
  intro before after
  have hg := ((good_run m es).table.iff _ i).2 ⟨c, hc, rfl, hopen⟩
  have hafter : after = giveBack (update { Client.run m es with missed := 0, inFlight := (Client.run m es).inFlight.erase c.request.nonce } i
      Call.dropSender) (r.getD []) ok := by
    show Client.run m (es ++ [_]) = _
    rw [run_snoc]
    simp only [Client.step]
    rw [if_neg (not_not_intro hrun)]
    unfold deliver
    dsimp only
    rw [hg]
    dsimp only
    rw [hc]
    rw [if_pos]
    exact hgone
  rw [hafter]
  refine ⟨?_, (giveBack_wire _ _ _).2, ?_⟩
  · refine List.IsPrefix.trans ?_ (giveBack_wire _ _ _).1
    exact List.prefix_refl _
  · rw [giveBack_calls]
    apply List.ext_getElem?
    intro j
    rw [List.getElem?_map, List.getElem?_map, update_get]
    show Option.map _ (if i = j then before.calls[j]?.map _ else before.calls[j]?) = _
    split
    · rename_i hij
      subst hij
      rw [hc]
      simp only [Option.map_some, Option.some.injEq]
      have hph : c.phase = .sendFailed ∨ c.phase = .abandoned := by
        simpa [Call.gone] using hgone
      rcases hph with h | h <;> simp [Call.outcome, dropSender_phase, h]
    · rfl

/-- **C40** (expiry notice). A notice that a reservation expired is answered with exactly one fail report for
that chunk, after everything sent before (if sending succeeds). -/
theorem C40_expired_chunk_given_back (m : Nat) (es : List Client.Event) (id : ChunkId)
    (hrun : (Client.run m es).background = .running) :
    let before := Client.run m es
    let after := Client.run m (es ++ [.expired id true])
    before.wire <+: after.wire ∧
    failReports after.wire = failReports before.wire ++ [(id, "Reservation expired")] ∧
    after.wire.length = before.wire.length + 1 := by
  intro before after
  have hafter : after = asyncFail { Client.run m es with missed := 0 } id "Reservation expired" true := by
    show Client.run m (es ++ [_]) = _
    rw [run_snoc]
    simp only [Client.step]
    rw [if_neg (not_not_intro hrun)]
  rw [hafter]
  refine ⟨⟨_, rfl⟩, ?_, ?_⟩
  · show failReports (before.wire ++ [_]) = _
    simp [failReports]
  · show (before.wire ++ [_]).length = _
    simp

/-- **C40** (order). On the server the reports of a client arrive in the order in which it sent them: what the
server has received is always what the client sent first, so the give-back of an expired chunk comes after
any report on it already sent. -/
theorem C40_reports_arrive_in_order (m : Nat) (es : List Session.Event) :
    let s := Session.run m es
    ∃ k, s.server.reports = Client.reports (s.client.wire.take k) ∧ (s.server.ended = none → k = s.up) := by
  obtain ⟨k, _, h1, h2⟩ := (Session.joint_run m es).reports
  exact ⟨k, h1, h2⟩

/-- A caller gives up, then its two chunks arrive; and a reservation expires just after its completion was
sent. -/
example : (Client.run 3 [.call 2 .oldest, .send 0 true, .abandon 0 false,
      .sync 0 (some [⟨5, 0⟩, ⟨5, 1⟩]) (fun _ => true), .complete ⟨6, 0⟩ none true, .expired ⟨6, 0⟩ true]).wire =
    [.wantToReserve ⟨0, 2, .oldest⟩, .failChunk 1 ⟨5, 0⟩ "Requester disappeared",
     .failChunk 2 ⟨5, 1⟩ "Requester disappeared", .completeChunk 3 ⟨6, 0⟩ none,
     .failChunk 4 ⟨6, 0⟩ "Reservation expired"] := by decide +kernel

end Opsqueue
