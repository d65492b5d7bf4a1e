import Verif.Spec.Fairness
import Verif.Proofs.EndToEnd
import Verif.Proofs.Timeline
import Verif.Props.Strategy

/-!
# Lemmas about waiting and overtaking
-/

namespace Opsqueue

theorem length_le_of_nodup_subset {α : Type} [DecidableEq α] {l m : List α} (hn : l.Nodup) (h : ∀ x ∈ l, x ∈ m) :
    l.length ≤ m.length := by
  induction l generalizing m with
  | nil => exact Nat.zero_le _
  | cons a l ih =>
    rw [List.nodup_cons] at hn
    have ha := h a (by simp)
    have := ih (m := m.erase a) hn.2 fun x hx => (List.mem_erase_of_ne (by rintro rfl; exact hn.1 hx)).2 (h x (by simp [hx]))
    rw [List.length_erase_of_mem ha] at this
    have h0 : 0 < m.length := List.length_pos_of_mem ha
    simp only [List.length_cons]
    omega

namespace Reserver
variable {κ ν σ : Type} [DecidableEq κ]

/-- Only `tryReserve` makes a reservation. -/
theorem lookup_none_step {r : Reserver κ ν σ} {key : κ} (h : r.lookup key = none) (op : Op κ ν σ)
    (ho : ∀ v s, op ≠ .tryReserve key v s) : (r.step op).lookup key = none := by
  refine step_pres (P := fun r => r.lookup key = none) (ok := fun k _ _ => k ≠ key) ?_ ?_ (fun _ _ h => h) h op ?_ ?_
  · intro r k h
    unfold lookup at h ⊢
    rw [drop_get]
    split
    · rfl
    · rw [Option.filter_eq_none_iff] at h ⊢
      intro e he
      rw [drop_alive]
      exact h e he
  · intro r k v s _ hk h
    unfold lookup at h ⊢
    show Option.filter _ (Map.get (Map.set _ _ _) _) = _
    rw [Map.get_set, if_neg hk]
    exact h
  · rintro d -
    unfold lookup at h ⊢
    rw [Option.filter_eq_none_iff] at h ⊢
    intro e he
    have := h e he
    simp only [alive, decide_eq_true_eq] at this ⊢
    omega
  · intro k v s hop _ hk
    subst hk
    exact ho v s hop

theorem lookup_none_exec {r : Reserver κ ν σ} {key : κ} (h : r.lookup key = none) (ops : List (Op κ ν σ))
    (ho : ∀ v s, .tryReserve key v s ∉ ops) : (r.exec ops).lookup key = none := by
  induction ops generalizing r with
  | nil => exact h
  | cons op ops ih =>
    exact ih (lookup_none_step h op fun v s e => ho v s (by simp [e])) fun v s hm => ho v s (by simp [hm])

end Reserver

namespace Server
open Conn (Request Response Report)

/-- A new reservation is made only for the next row of a fetch. -/
theorem newly_reserved {s : State} {a : Action} {y : ChunkId} (h : s.reserver.isReserved y = false)
    (h' : (step s a).reserver.isReserved y = true) :
    ∃ c f row rest, a = .row c ∧ fetchOf s c = some f ∧ f.joining = none ∧ f.rows = row :: rest ∧ row.key = y := by
  rw [isReserved_eq_false] at h
  rcases reserver_step s a with hr | hr
  · by_cases hm : ∃ v k, Reserver.Op.tryReserve y v k ∈ resOps s a
    · obtain ⟨v, k, hm⟩ := hm
      unfold resOps at hm
      split at hm
      · rename_i c
        split at hm
        · rename_i f hf
          split at hm
          · rename_i row rest hj hrows
            simp only [List.mem_singleton, Reserver.Op.tryReserve.injEq] at hm
            exact ⟨c, f, row, rest, rfl, hf, hj, hrows, hm.1.symm⟩
          · cases hm
        · cases hm
      · repeat' split at hm
        all_goals simp at hm
      · repeat' split at hm
        all_goals simp at hm
      · repeat' split at hm
        all_goals simp at hm
      · rename_i t
        cases t <;> simp [Tick.op] at hm
      · cases hm
    · have := Reserver.lookup_none_exec h (resOps s a) fun v k hm' => hm ⟨v, k, hm'⟩
      rw [hr, Reserver.isReserved, this] at h'
      cases h'
  · rw [hr.1] at h'
    simp [Reserver.isReserved, Reserver.lookup, Reserver.new, Map.get] at h'

/-- The chunk `x` is still to come, and what comes before it is not after it in the order `le`. -/
def Ahead (le : Nat → Nat → Prop) (x : ChunkId) (f : Fetching) : Prop :=
  ∃ pre row post, f.rows = pre ++ row :: post ∧ row.key = x ∧ ∀ p ∈ pre, le p.submissionId x.submissionId

/-- Rows in order that contain `x`. -/
theorem ahead_of_sorted {le : Nat → Nat → Prop} {x : ChunkId} {f : Fetching} {row : ChunkRow}
    (hm : row ∈ f.rows) (hk : row.key = x) (hp : f.rows.Pairwise fun a b => le a.submissionId b.submissionId) :
    Ahead le x f := by
  obtain ⟨pre, post, he⟩ := List.append_of_mem hm
  refine ⟨pre, row, post, he, hk, fun p hp' => ?_⟩
  rw [he, List.pairwise_append] at hp
  have := hp.2.2 p hp' row (by simp)
  rw [← hk]; exact this

/-- The order in which a strategy delivers the submissions. -/
def Delivers (st : Strategy) (le : Nat → Nat → Prop) : Prop :=
  ∀ ops, FreshIds ops → ∀ offset reserved counts,
    OffersFreeOnce (Opsqueue.run ops) reserved (st.chunkRows offset reserved counts (Opsqueue.run ops)) ∧
    (st.chunkRows offset reserved counts (Opsqueue.run ops)).Pairwise fun a b => le a.submissionId b.submissionId

theorem ahead_step {st : Strategy} {le : Nat → Nat → Prop} (hd : Delivers st le) {ttl m : Nat} (ht : 0 < ttl)
    {h : List Action} (hf : FreshIds (run ttl m h).calls) {c : ConnId} {x : ChunkId} {a : Action}
    (hb : ∀ r v, a.actor = some c → begins (run ttl m h) a = some (r, v) → r.strategy = st ∧ v.reserved x = false)
    (h0 : Free (run ttl m h) x) (h1 : Free (step (run ttl m h) a) x)
    (ha : ∀ f, fetchOf (run ttl m h) c = some f → Ahead le x f) :
    ∀ f, fetchOf (step (run ttl m h) a) c = some f → Ahead le x f := by
  intro f' hf'
  cases fetch_step hf' with
  | same h => exact ha _ h
  | new k r v hk hkf hact hj hr =>
    have hidle : Idle (run ttl m h) c := ⟨by rw [hk]; rfl, by unfold fetchOf; rw [hk]; exact hkf⟩
    have hbeg : a.actor = some c ∧ begins (run ttl m h) a = some (r, v) := by
      rcases hact with rfl | ⟨rfl, hret⟩
      · exact ⟨rfl, by simp only [begins]; rw [if_pos hidle]⟩
      · exact ⟨rfl, by simp only [begins]; rw [if_pos hidle, hk]; simp [hret]⟩
    obtain ⟨hst, hv⟩ := hb r v hbeg.1 hbeg.2
    obtain ⟨row, hrow⟩ := h0.1
    rw [db_run] at hr hrow
    obtain ⟨hoff, hpw⟩ := hd _ hf v.offset v.reserved v.counts
    rw [← hst, ← hr] at hoff hpw
    have hm : row ∈ f'.rows := by
      have := hoff.2 x row hrow hv
      have hmem : row ∈ f'.rows.filter fun d => d.key == x := by rw [this]; simp
      exact (List.mem_filter.1 hmem).1
    exact ahead_of_sorted hm ((chunkAt_ok_iff (inv_run hf).chunkKeys).1 hrow).2 hpw
  | row k f row rest hact hk hkf hj hrows hrest hj' =>
    have hfo : fetchOf (run ttl m h) c = some f := by unfold fetchOf; rw [hk]; exact hkf
    obtain ⟨pre, xrow, post, he, hkey, hle⟩ := ha f hfo
    rw [hrows] at he
    cases pre with
    | nil =>
      -- `x` itself would be reserved
      simp only [List.nil_append, List.cons.injEq] at he
      obtain ⟨rfl, rfl⟩ := he
      exfalso
      subst hact
      rcases row_cases hk hkf with ⟨hj2, _⟩ | ⟨_, hr2, _⟩ | ⟨row2, rest2, _, hr2, ⟨hres, _⟩ | ⟨hres, hs⟩⟩
      · rw [hj] at hj2; cases hj2
      · rw [hr2] at hrows; cases hrows
      · rw [hrows] at hr2; cases hr2
        rw [hkey, h0.2] at hres; cases hres
      · rw [hrows] at hr2; cases hr2
        have h2 := h1.2
        rw [hs] at h2
        have h3 : ((run ttl m h).reserver.tryReserve row.key row.key c).2.isReserved x = false := h2
        have ht' : 0 < (run ttl m h).reserver.ttl := by
          unfold run; rw [ttl_exec]; exact ht
        have h4 := holder_tryReserve (c := c) ht' hres
        rw [hkey] at h3 h4
        rw [isReserved_eq_false] at h3
        rw [h3] at h4
        cases h4
    | cons p pre =>
      simp only [List.cons_append, List.cons.injEq] at he
      obtain ⟨rfl, rfl⟩ := he
      exact ⟨pre, xrow, post, hrest, hkey, fun q hq => hle q (by simp [hq])⟩
  | join f hfo hrows _ =>
    obtain ⟨pre, xrow, post, he, h⟩ := ha f hfo
    exact ⟨pre, xrow, post, hrows.trans he, h⟩

theorem handedOut_step {le : Nat → Nat → Prop} {s : State} {a : Action} {c : ConnId} {x y : ChunkId}
    (hac : a.actor = some c) (h1 : Free (step s a) x)
    (ha : ∀ f, fetchOf s c = some f → Ahead le x f) (hy : y ∈ handedOut s a) :
    le y.submissionId x.submissionId ∧ y ≠ x := by
  unfold handedOut at hy
  rw [List.mem_filter] at hy
  simp only [Bool.and_eq_true, Bool.not_eq_true'] at hy
  obtain ⟨_, hy0, hy1⟩ := hy
  have hne : y ≠ x := by rintro rfl; rw [h1.2] at hy1; cases hy1
  refine ⟨?_, hne⟩
  obtain ⟨c', f, row, rest, rfl, hfo, hj, hrows, hkey⟩ := newly_reserved hy0 hy1
  cases hac
  obtain ⟨pre, xrow, post, he, hxk, hle⟩ := ha f hfo
  rw [hrows] at he
  cases pre with
  | nil =>
    simp only [List.nil_append, List.cons.injEq] at he
    exact absurd (hkey.symm.trans ((congrArg ChunkRow.key he.1).trans hxk)) hne
  | cons p pre =>
    simp only [List.cons_append, List.cons.injEq] at he
    rw [← hkey, he.1]
    exact hle p (by simp)

theorem run_snoc' (ttl m : Nat) (h : List Action) (a : Action) :
    run ttl m (h ++ [a]) = step (run ttl m h) a := exec_snoc _ _ _

theorem run_append (ttl m : Nat) (h es : List Action) : run ttl m (h ++ es) = exec (run ttl m h) es :=
  exec_append _ _ _

theorem fresh_prefix {ttl m : Nat} {h es : List Action} (hf : FreshIds (run ttl m (h ++ es)).calls) :
    FreshIds (run ttl m h).calls := by
  obtain ⟨ops, he⟩ := calls_prefix ttl m h es
  rw [he] at hf
  exact hf.prefix

theorem WaitsFrom.prefix {s : State} {x : ChunkId} {es fs : List Action} (h : WaitsFrom s x (es ++ fs)) :
    WaitsFrom s x es := by
  intro pre post he
  exact h pre (post ++ fs) (by rw [he]; simp)

theorem AsksFrom.prefix {s : State} {c : ConnId} {st : Strategy} {x : ChunkId} {es fs : List Action}
    (h : AsksFrom s c st x (es ++ fs)) : AsksFrom s c st x es := by
  intro pre a post r v he
  exact h pre a (post ++ fs) r v (by rw [he]; simp)

theorem WaitsFrom.tail {s : State} {x : ChunkId} {a : Action} {es : List Action} (h : WaitsFrom s x (a :: es)) :
    WaitsFrom (step s a) x es := by
  intro pre post he
  exact h (a :: pre) post (by rw [he]; simp)

theorem AsksFrom.tail {s : State} {c : ConnId} {st : Strategy} {x : ChunkId} {a : Action} {es : List Action}
    (h : AsksFrom s c st x (a :: es)) : AsksFrom (step s a) c st x es := by
  intro pre b post r v he
  exact h (a :: pre) b post r v (by rw [he]; simp)

theorem ahead_exec {st : Strategy} {le : Nat → Nat → Prop} (hd : Delivers st le) {ttl m : Nat} (ht : 0 < ttl)
    {h es : List Action} (hf : FreshIds (run ttl m (h ++ es)).calls) {c : ConnId} {x : ChunkId}
    (hb : AsksFrom (run ttl m h) c st x es) (hw : WaitsFrom (run ttl m h) x es)
    (ha : ∀ f, fetchOf (run ttl m h) c = some f → Ahead le x f) :
    ∀ f, fetchOf (run ttl m (h ++ es)) c = some f → Ahead le x f := by
  induction es using snoc_induction with
  | nil => rw [List.append_nil]; exact ha
  | snoc es a ih =>
    rw [← List.append_assoc] at hf ⊢
    have hf' := fresh_prefix hf
    rw [run_snoc']
    refine ahead_step hd ht hf' ?_ ?_ ?_ (ih hf' hb.prefix hw.prefix)
    · intro r v hac hbeg
      rw [run_append] at hbeg
      exact hb es a [] r v rfl hac hbeg
    · rw [run_append]; exact hw es [a] rfl
    · rw [run_append, ← exec_snoc]; exact hw (es ++ [a]) [] (by simp)

/-- Nothing is handed out that comes after `x`. -/
theorem in_order {st : Strategy} {le : Nat → Nat → Prop} (hd : Delivers st le) {ttl m : Nat} (ht : 0 < ttl)
    {h es : List Action} (hf : FreshIds (run ttl m (h ++ es)).calls) {c : ConnId} {x : ChunkId}
    (ha : ∀ f, fetchOf (run ttl m h) c = some f → Ahead le x f)
    (hb : AsksFrom (run ttl m h) c st x es) (hw : WaitsFrom (run ttl m h) x es)
    {pre post : List Action} {a : Action} (he : es = pre ++ a :: post) (hac : a.actor = some c)
    {y : ChunkId} (hy : y ∈ handedOut (exec (run ttl m h) pre) a) : le y.submissionId x.submissionId := by
  have he' : es = pre ++ ([a] ++ post) := he
  rw [he', ← List.append_assoc] at hf
  have h1 := ahead_exec hd ht (fresh_prefix hf) (c := c) (x := x) (es := pre)
    (AsksFrom.prefix (fs := a :: post) (he ▸ hb)) (WaitsFrom.prefix (fs := a :: post) (he ▸ hw)) ha
  rw [run_append] at h1
  refine (handedOut_step hac ?_ h1 hy).1
  rw [← exec_snoc]
  exact hw (pre ++ [a]) post (by rw [he]; simp)

/-! ### Counting -/

theorem mem_backlog {ttl m : Nat} {h : List Action} (hf : FreshIds (run ttl m h).calls) {id : ChunkId} :
    id ∈ backlog (run ttl m h) ↔ ∃ row, chunkAt (run ttl m h).db id = .ok row := by
  have hI : Inv (run ttl m h).db := by rw [db_run]; exact inv_run hf
  simp only [backlog, List.mem_map, chunkAt_ok_iff hI.chunkKeys]

theorem nodup_backlog {ttl m : Nat} {h : List Action} (hf : FreshIds (run ttl m h).calls) :
    (backlog (run ttl m h)).Nodup := by
  have hI : Inv (run ttl m h).db := by rw [db_run]; exact inv_run hf
  exact hI.chunkKeys

/-- Only an insert puts chunks into the backlog. -/
theorem backlog_back {ttl m : Nat} {h : List Action} {a : Action} (hf : FreshIds (run ttl m (h ++ [a])).calls)
    {id : ChunkId} (hid : id ∈ backlog (step (run ttl m h) a)) :
    id ∈ backlog (run ttl m h) ∨ ∃ b now o, a = .producer (.insert b now o) ∧ b.id = id.submissionId := by
  rw [run_snoc'] at hf
  rcases calls_step (run ttl m h) a with hc | ⟨call, rfl, hc⟩ | ⟨w, n1, n2, n3, o, c, r, queue, rfl, _, hc⟩
  · left
    have h1 := db_run ttl m (h ++ [a])
    rw [run_snoc', hc, ← db_run] at h1
    unfold backlog at hid ⊢; rw [h1] at hid; exact hid
  · have h1 := db_run ttl m (h ++ [.producer call])
    rw [run_snoc', hc] at h1
    rw [hc] at hf
    have he := effect_run hf
    rw [← h1, ← db_run] at he
    rcases he.keys_new hid with hk | hk
    · exact .inl hk
    · right
      cases call with
      | insert b now o => exact ⟨b, now, o, rfl, by simpa [ProducerCall.op, Op.insertId] using hk⟩
      | cancel => cases hk
      | cleanup => cases hk
  · left
    have h1 := db_run ttl m (h ++ [.handle w n1 n2 n3 o])
    rw [run_snoc', hc] at h1
    rw [hc] at hf
    have he := effect_run hf
    rw [← h1, ← db_run] at he
    rcases he.keys_new hid with hk | hk
    · exact hk
    · cases r <;> cases hk

/-- What is handed out in a step was ahead of `x` before and is not after; what is ahead after the step was ahead
before or has been given back. -/
theorem potential_step {ttl m : Nat} {h : List Action} {a : Action} {x : ChunkId}
    (hf : FreshIds (run ttl m (h ++ [a])).calls)
    (hn : ∀ b now o, a = .producer (.insert b now o) → x.submissionId < b.id)
    (h1 : Free (step (run ttl m h) a) x)
    (ha : ∀ c f, fetchOf (run ttl m h) c = some f → Ahead (· ≤ ·) x f) :
    (handedOut (run ttl m h) a).length + (aheadOf (step (run ttl m h) a) x).length ≤
      (aheadOf (run ttl m h) x).length +
        ((givenBack (run ttl m h) a).filter fun id => decide (id.submissionId ≤ x.submissionId)).length := by
  rw [← List.length_append, ← List.length_append]
  have hf1 := hf
  rw [run_snoc'] at hf1
  have hn0 := nodup_backlog (fresh_prefix hf)
  have hn1 := nodup_backlog hf
  rw [run_snoc'] at hn1
  apply length_le_of_nodup_subset
  · rw [List.nodup_append]
    refine ⟨hn0.filter _, hn1.filter _, ?_⟩
    intro y hy z hz hyz
    subst hyz
    simp only [handedOut, aheadOf, List.mem_filter, Bool.and_eq_true, Bool.not_eq_true'] at hy hz
    rw [hy.2.2] at hz
    cases hz.2.1
  · intro y hy
    rcases List.mem_append.1 hy with hy | hy
    · apply List.mem_append_left
      have hy' := hy
      simp only [handedOut, List.mem_filter, Bool.and_eq_true, Bool.not_eq_true'] at hy'
      obtain ⟨c, f, row, rest, rfl, _⟩ := newly_reserved hy'.2.1 hy'.2.2
      have := handedOut_step (c := c) rfl h1 (ha c) hy
      simp only [aheadOf, List.mem_filter, Bool.and_eq_true, Bool.not_eq_true', decide_eq_true_eq]
      exact ⟨hy'.1, hy'.2.1, this.2, this.1⟩
    · simp only [aheadOf, List.mem_filter, Bool.and_eq_true, Bool.not_eq_true', decide_eq_true_eq] at hy
      obtain ⟨hb, hr, hne, hle⟩ := hy
      cases hr0 : (run ttl m h).reserver.isReserved y with
      | true =>
        apply List.mem_append_right
        simp only [givenBack, List.mem_filter, Bool.and_eq_true, Bool.not_eq_true', decide_eq_true_eq]
        exact ⟨⟨hb, hr0, hr⟩, hle⟩
      | false =>
        apply List.mem_append_left
        simp only [aheadOf, List.mem_filter, Bool.and_eq_true, Bool.not_eq_true', decide_eq_true_eq]
        refine ⟨?_, hr0, hne, hle⟩
        rcases backlog_back hf hb with hb | ⟨b, now, o, rfl, hid⟩
        · exact hb
        · have := hn b now o rfl
          rw [hid] at this
          exact absurd hle (Nat.not_le.2 this)

theorem delivers_oldest : Delivers .oldest (· ≤ ·) := fun ops hf => C29_oldest ops hf

theorem delivers_newest : Delivers .newest (· ≥ ·) := fun ops hf => C29_newest ops hf

/-- While `x` waits, no more is handed out than was ahead of it, plus what was given back. -/
theorem bounded {ttl m : Nat} (ht : 0 < ttl) {x : ChunkId} {es h : List Action}
    (hf : FreshIds (run ttl m (h ++ es)).calls)
    (hn : ∀ b now o, .producer (.insert b now o) ∈ es → x.submissionId < b.id)
    (hb : ∀ c, AsksFrom (run ttl m h) c .oldest x es) (hw : WaitsFrom (run ttl m h) x es)
    (ha : ∀ c f, fetchOf (run ttl m h) c = some f → Ahead (· ≤ ·) x f) :
    (handedOutFrom (run ttl m h) es).length ≤ (aheadOf (run ttl m h) x).length +
      ((givenBackFrom (run ttl m h) es).filter fun id => decide (id.submissionId ≤ x.submissionId)).length := by
  induction es generalizing h with
  | nil => exact Nat.zero_le _
  | cons a es ih =>
    have hf' : FreshIds (run ttl m ((h ++ [a]) ++ es)).calls := by simpa using hf
    have hfa := fresh_prefix hf'
    have hw1 : Free (step (run ttl m h) a) x := hw [a] es rfl
    have h1 := potential_step hfa (fun b now o e => hn b now o (by simp [e])) hw1 ha
    have hstep := run_snoc' ttl m h a
    have hpre := fun c => ahead_exec delivers_oldest ht (es := [a]) hfa (c := c) (x := x)
      (AsksFrom.prefix (fs := es) (hb c)) (WaitsFrom.prefix (fs := es) hw) (ha c)
    have h2 := ih hf' (fun b now o e => hn b now o (by simp [e])) (by rw [hstep]; exact fun c => (hb c).tail)
      (by rw [hstep]; exact hw.tail) hpre
    rw [hstep] at h2
    simp only [handedOutFrom, givenBackFrom, List.length_append, List.filter_append]
    omega

theorem handedOutFrom_append (s : State) (es fs : List Action) :
    handedOutFrom s (es ++ fs) = handedOutFrom s es ++ handedOutFrom (exec s es) fs := by
  induction es generalizing s with
  | nil => rfl
  | cons a es ih =>
    simp only [List.cons_append, handedOutFrom, ih, List.append_assoc]
    rfl

theorem givenBackFrom_append (s : State) (es fs : List Action) :
    givenBackFrom s (es ++ fs) = givenBackFrom s es ++ givenBackFrom (exec s es) fs := by
  induction es generalizing s with
  | nil => rfl
  | cons a es ih =>
    simp only [List.cons_append, givenBackFrom, ih, List.append_assoc]
    rfl

/-! ### Unending sequences -/

/-- The actions number `n` up to `n + k`. -/
def actionsFrom (acts : Nat → Action) (n k : Nat) : List Action := (List.range k).map fun i => acts (n + i)

theorem firstActions_add (acts : Nat → Action) (n k : Nat) :
    firstActions acts (n + k) = firstActions acts n ++ actionsFrom acts n k := by
  unfold firstActions actionsFrom
  rw [List.range_add, List.map_append, List.map_map]
  rfl

theorem actionsFrom_split {acts : Nat → Action} {n k : Nat} {pre post : List Action}
    (h : actionsFrom acts n k = pre ++ post) :
    pre = actionsFrom acts n pre.length ∧ pre.length ≤ k := by
  have hl := congrArg List.length h
  simp only [actionsFrom, List.length_map, List.length_range, List.length_append] at hl
  refine ⟨?_, by omega⟩
  apply List.ext_getElem?
  intro i
  by_cases hi : i < pre.length
  · have := congrArg (·[i]?) h
    simp only [actionsFrom, List.getElem?_map, List.getElem?_append_left hi] at this
    rw [← this]
    simp [actionsFrom, List.getElem?_range hi, List.getElem?_range (show i < k by omega)]
  · rw [List.getElem?_eq_none (by omega), List.getElem?_eq_none (by simp [actionsFrom]; omega)]

theorem actionsFrom_snoc (acts : Nat → Action) (n k : Nat) :
    actionsFrom acts n (k + 1) = actionsFrom acts n k ++ [acts (n + k)] := by
  unfold actionsFrom
  rw [List.range_succ, List.map_append]; rfl

/-- The hypotheses over an unending sequence, for the part from `n` on. -/
theorem from_unending {ttl m : Nat} {acts : Nat → Action} {n0 : Nat} {x : ChunkId}
    (hb : ∀ n r v, n0 ≤ n → begins (run ttl m (firstActions acts n)) (acts n) = some (r, v) →
      r.strategy = .oldest ∧ v.reserved x = (run ttl m (firstActions acts n)).reserver.isReserved x)
    (hw : ∀ n, n0 ≤ n → Free (run ttl m (firstActions acts n)) x) (n k : Nat) (hn : n0 ≤ n) :
    (∀ c, AsksFrom (run ttl m (firstActions acts n)) c .oldest x (actionsFrom acts n k)) ∧
      WaitsFrom (run ttl m (firstActions acts n)) x (actionsFrom acts n k) := by
  constructor
  · intro c pre a post r v he _ hbeg
    have h1 := actionsFrom_split (pre := pre ++ [a]) (post := post) (by rw [he]; simp)
    have h2 := actionsFrom_split he
    have ha : a = acts (n + pre.length) := by
      have := h1.1
      rw [List.length_append, List.length_singleton, actionsFrom_snoc, ← h2.1] at this
      have := List.append_cancel_left this
      simpa using this
    rw [h2.1, ← run_append, ← firstActions_add, ha] at hbeg
    have := hb _ r v (by omega) hbeg
    exact ⟨this.1, this.2.trans (hw _ (by omega)).2⟩
  · intro pre post he
    have h2 := actionsFrom_split he
    rw [h2.1, ← run_append, ← firstActions_add]
    exact hw _ (by omega)

theorem fetchOf_mem {s : State} {c : ConnId} {f : Fetching} (h : fetchOf s c = some f) :
    c ∈ s.conns.map (·.1) := by
  obtain ⟨k, hk, _⟩ := fetchOf_eq.1 h
  exact List.mem_map.2 ⟨(c, k), Map.mem_of_get hk, rfl⟩

/-- If none of finitely many connections fetches forever, there is a time by which all of them have been idle. -/
theorem all_idle_by {ttl m : Nat} {acts : Nat → Action} {n0 : Nat}
    (he : ∀ c n, ∃ k, n ≤ k ∧ fetchOf (run ttl m (firstActions acts k)) c = none) (cs : List ConnId) :
    ∃ n, n0 ≤ n ∧ ∀ c ∈ cs, ∃ k, n0 ≤ k ∧ k ≤ n ∧ fetchOf (run ttl m (firstActions acts k)) c = none := by
  induction cs with
  | nil => exact ⟨n0, Nat.le_refl _, by simp⟩
  | cons c cs ih =>
    obtain ⟨n, hn, h⟩ := ih
    obtain ⟨k, hk, hi⟩ := he c n
    refine ⟨k, by omega, fun d hd => ?_⟩
    rcases List.mem_cons.1 hd with rfl | hd
    · exact ⟨k, by omega, Nat.le_refl _, hi⟩
    · obtain ⟨j, h1, h2, h3⟩ := h d hd
      exact ⟨j, h1, by omega, h3⟩

theorem unbounded_handouts {ttl m : Nat} {acts : Nat → Action} (n0 : Nat)
    (h : ∀ n, ∃ k, n ≤ k ∧ handedOut (run ttl m (firstActions acts k)) (acts k) ≠ []) (j : Nat) :
    ∃ k, j ≤ (handedOutFrom (run ttl m (firstActions acts n0)) (actionsFrom acts n0 k)).length := by
  induction j with
  | zero => exact ⟨0, Nat.zero_le _⟩
  | succ j ih =>
    obtain ⟨k, hk⟩ := ih
    obtain ⟨i, hi, hne⟩ := h (n0 + k)
    refine ⟨(i - n0) + 1, ?_⟩
    rw [actionsFrom_snoc, handedOutFrom_append, List.length_append, ← run_append, ← firstActions_add]
    have e : n0 + (i - n0) = i := by omega
    rw [e]
    have e2 : i - n0 = k + (i - n0 - k) := by omega
    have e3 : actionsFrom acts n0 (i - n0) = actionsFrom acts n0 k ++ actionsFrom acts (n0 + k) (i - n0 - k) := by
      have h1 := firstActions_add acts n0 (i - n0)
      have h2 := firstActions_add acts (n0 + k) (i - n0 - k)
      rw [firstActions_add acts n0 k] at h2
      have e4 : n0 + k + (i - n0 - k) = n0 + (i - n0) := by omega
      rw [e4, h1, List.append_assoc] at h2
      exact List.append_cancel_left h2
    rw [e3, handedOutFrom_append, List.length_append]
    have hpos : 0 < (handedOut (run ttl m (firstActions acts i)) (acts i)).length := List.length_pos_iff.2 hne
    simp only [handedOutFrom, List.append_nil]
    omega

end Server
end Opsqueue
