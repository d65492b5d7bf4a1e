import Verif.Spec.Messages
import Verif.Proofs.Cbor
import Verif.Proofs.Endpoints

/-! # The trees of the messages -/

namespace Opsqueue.Messages

open Wire Conn Cbor

/-! ## Plain trees, and how deep they are -/

theorem plain_nat {n : Nat} (h : n < 2 ^ 64) : Plain (encNat n) := .num (by omega) (by omega)

theorem plain_u63 {n : Nat} (h : n < 2 ^ 63) : Plain (encNat n) := plain_nat (by omega)

theorem plain_int {n : Int} (h : IsI64 n) : Plain (encInt n) := .num (by have := h.1; omega) (by have := h.2; omega)

theorem plain_bytes (b : Bytes) : Plain (encBytes b) := by
  refine .arr fun x hx => ?_
  obtain ⟨a, _, rfl⟩ := List.mem_map.1 hx
  have := a.toNat_lt
  exact .num (by omega) (by omega)

theorem plain_opt {α : Type} {f : α → Json} (h : ∀ a, Plain (f a)) (x : Option α) : Plain (encOpt f x) := by
  cases x with
  | none => exact .null
  | some a => exact h a

theorem plain_strategy (s : Strategy) : Plain (encStrategy s) := by
  induction s with
  | preferDistinct key u ih =>
    refine .obj fun f hf => ?_
    simp only [List.mem_cons, List.not_mem_nil, or_false] at hf
    subst hf
    refine .obj fun f hf => ?_
    simp only [List.mem_cons, List.not_mem_nil, or_false] at hf
    rcases hf with rfl | rfl
    · exact .str _
    · exact ih
  | _ => exact .str _

theorem depth_strategy (s : Strategy) : depth (encStrategy s) = 2 * nesting s := by
  induction s with
  | preferDistinct key u ih =>
    simp only [encStrategy, depth, depthFields, encStr, nesting, ih]
    omega
  | _ => rfl

theorem depthAll_le {xs : List Json} {d : Nat} (h : ∀ x ∈ xs, depth x ≤ d) : depthAll xs ≤ d := by
  induction xs with
  | nil => simp [depthAll]
  | cons x xs ih =>
    have h1 := h x (by simp)
    have h2 := ih fun y hy => h y (by simp [hy])
    simp only [depthAll]; omega

theorem depthFields_le {fs : List (String × Json)} {d : Nat} (h : ∀ f ∈ fs, depth f.2 ≤ d) : depthFields fs ≤ d := by
  induction fs with
  | nil => simp [depthFields]
  | cons f fs ih =>
    obtain ⟨k, v⟩ := f
    have h1 := h (k, v) (by simp)
    have h2 := ih fun y hy => h y (by simp [hy])
    simp only [depthFields]; simp only at h1; omega

theorem depth_list {α : Type} {f : α → Json} {d : Nat} (h : ∀ a, depth (f a) ≤ d) (xs : List α) :
    depth (encList f xs) ≤ d + 1 := by
  have := depthAll_le (xs := xs.map f) (d := d) (by
    intro x hx
    obtain ⟨a, _, rfl⟩ := List.mem_map.1 hx
    exact h a)
  simp only [encList, depth]; omega

theorem depth_bytes (b : Bytes) : depth (encBytes b) ≤ 1 := depth_list (f := encU8) (d := 0) (fun _ => Nat.le_refl 0) b

theorem depth_content (c : Option Bytes) : depth (encOpt encBytes c) ≤ 1 := by
  cases c with
  | none => simp [encOpt, depth]
  | some b => exact depth_bytes b

theorem depth_optStr (c : Option String) : depth (encOpt encStr c) = 0 := by
  cases c <;> rfl

theorem depth_map (m : StrategicMetadata) : depth (encMap m) ≤ 1 := by
  have := depthFields_le (fs := m.map fun kv => (kv.1, encInt kv.2)) (d := 0) (by
    intro f hf
    obtain ⟨a, _, rfl⟩ := List.mem_map.1 hf
    exact Nat.le_refl 0)
  simp only [encMap, depth]; omega

theorem plain_map {m : StrategicMetadata} (h : ∀ kv ∈ m, IsI64 kv.2) : Plain (encMap m) := by
  refine .obj fun f hf => ?_
  obtain ⟨a, ha, rfl⟩ := List.mem_map.1 hf
  exact plain_int (h a ha)

/-! ## From the client -/

theorem plain_chunkId {id : ChunkId} (h : IdFits id) : Plain (encChunkId id) := by
  refine .obj fun f hf => ?_
  obtain ⟨h1, h2⟩ := h
  simp only [List.mem_cons, List.not_mem_nil, or_false] at hf
  rcases hf with rfl | rfl
  · exact plain_u63 h1
  · exact plain_u63 h2

theorem plain_envelope {nonce : Nat} (h : nonce < 2 ^ 64) {j : Json} (hj : Plain j) : Plain (envelope nonce j) := by
  refine .obj fun f hf => ?_
  simp only [List.mem_cons, List.not_mem_nil, or_false] at hf
  rcases hf with rfl | rfl
  · exact plain_nat h
  · exact hj

theorem plain_one {tag : String} {j : Json} (hj : Plain j) : Plain (.obj [(tag, j)]) := by
  refine .obj fun f hf => ?_
  simp only [List.mem_cons, List.not_mem_nil, or_false] at hf
  subst hf
  exact hj

theorem plain_two {k1 k2 : String} {j1 j2 : Json} (h1 : Plain j1) (h2 : Plain j2) :
    Plain (.obj [(k1, j1), (k2, j2)]) := by
  refine .obj fun f hf => ?_
  simp only [List.mem_cons, List.not_mem_nil, or_false] at hf
  rcases hf with rfl | rfl
  · exact h1
  · exact h2

theorem plain_client {m : ClientMsg} (h : ClientCanSend m) : Plain (encClient m) := by
  cases m with
  | wantToReserve r =>
    exact plain_envelope h.1 (plain_one (plain_two (plain_nat h.2) (plain_strategy _)))
  | completeChunk nonce id output =>
    exact plain_envelope h.1 (plain_one (plain_two (plain_chunkId h.2) (plain_opt plain_bytes _)))
  | failChunk nonce id failure =>
    exact plain_envelope h.1 (plain_one (plain_two (plain_chunkId h.2) (.str _)))

theorem depth_client (m : ClientMsg) : depth (encClient m) ≤ maxDepth ↔ strategyDepth m ≤ 126 := by
  cases m with
  | wantToReserve r =>
    have := depth_strategy r.strategy
    simp only [encClient, envelope, depth, depthFields, encNat, strategyDepth, maxDepth]
    omega
  | completeChunk nonce id output =>
    have := depth_content output
    simp only [encClient, envelope, encChunkId, depth, depthFields, encNat, strategyDepth, maxDepth]
    omega
  | failChunk nonce id failure =>
    simp only [encClient, envelope, encChunkId, depth, depthFields, encNat, encStr, strategyDepth, maxDepth]
    omega

theorem u64_rt {n : Nat} (h : n < 2 ^ 64) : decU64 (encNat n) = some n := by
  simp only [decU64, nat_rt]
  rw [Option.filter_some, if_pos (by simpa using h)]

theorem u63_rt {n : Nat} (h : n < 2 ^ 63) : decU63 (encNat n) = some n := by
  simp only [decU63, nat_rt]
  rw [Option.filter_some, if_pos (by simpa using h)]

theorem strategy_rt (s : Strategy) {d : Nat} (h : nesting s ≤ d) : decStrategy d (encStrategy s) = some s := by
  induction s generalizing d with
  | preferDistinct key u ih =>
    cases d with
    | zero => simp [nesting] at h
    | succ d =>
      have := ih (d := d) (by simp only [nesting] at h; omega)
      simp [encStrategy, decStrategy, field, lookupField, List.filter, this]
  | _ => cases d <;> simp [encStrategy, decStrategy]

theorem chunkId_rt {id : ChunkId} (h : IdFits id) : decChunkId (encChunkId id) = some id := by
  simp [encChunkId, decChunkId, field, lookupField, List.filter, u63_rt h.1, u63_rt h.2]

theorem client_rt {m : ClientMsg} (h : ClientCanSend m) (hd : strategyDepth m ≤ 126) :
    decClient (encClient m) = some m := by
  cases m with
  | wantToReserve r =>
    have := strategy_rt r.strategy (d := maxDepth) (by simp only [strategyDepth, maxDepth] at *; omega)
    simp [decClient, encClient, envelope, decClientContents, field, lookupField, List.filter, u64_rt h.1, u64_rt h.2,
      this]
  | completeChunk nonce id output =>
    simp [decClient, encClient, envelope, decClientContents, field, optField, lookupField, List.filter, u64_rt h.1,
      chunkId_rt h.2]
  | failChunk nonce id failure =>
    simp [decClient, encClient, envelope, decClientContents, field, lookupField, List.filter, u64_rt h.1,
      chunkId_rt h.2]

/-! ## Everything the server reads is something a client can send -/

theorem many_depth {α : Type} {p : Bytes → Option (α × Bytes)} {P : α → Prop}
    (hp : ∀ b a rest, p b = some (a, rest) → P a) {n : Nat} {b : Bytes} {as : List α} {rest : Bytes}
    (h : many p n b = some (as, rest)) : ∀ a ∈ as, P a := by
  induction n generalizing b as rest with
  | zero => cases h; simp
  | succ n ih =>
    simp only [many] at h
    split at h
    · cases h
    · rename_i a b' heq
      rw [Option.map_eq_some_iff] at h
      obtain ⟨⟨as', r⟩, h1, h2⟩ := h
      cases h2
      intro x hx
      rcases List.mem_cons.1 hx with rfl | hx
      · exact hp _ _ _ heq
      · exact ih h1 x hx

theorem entry_depth {p : Bytes → Option (Json × Bytes)} {P : Json → Prop}
    (hp : ∀ b a rest, p b = some (a, rest) → P a) (b : Bytes) (kv : String × Json) (rest : Bytes)
    (h : entry p b = some (kv, rest)) : P kv.2 := by
  unfold entry at h
  split at h
  · cases h
  · split at h
    · split at h
      · cases h
      · rw [Option.map_eq_some_iff] at h
        obtain ⟨⟨v, r⟩, h1, h2⟩ := h
        cases h2
        exact hp _ _ _ h1
    · cases h

theorem read_depth {d : Nat} : ∀ {b : Bytes} {j : Json} {rest : Bytes}, read d b = some (j, rest) → depth j ≤ d := by
  induction d with
  | zero =>
    intro b j rest h
    unfold Cbor.read at h
    split at h
    · cases h
    · dsimp only at h
      split at h
      · cases h; simp [depth]
      split at h
      · cases h; simp [depth]
      split at h
      · rw [Option.map_eq_some_iff] at h
        obtain ⟨⟨v, r⟩, h1, h2⟩ := h
        cases h2; simp [depth]
      split at h
      · cases h
      split at h
      · cases h
      split at h
      · cases h; simp [depth]
      · cases h
  | succ d ih =>
    intro b j rest h
    unfold Cbor.read at h
    split at h
    · cases h
    · dsimp only at h
      split at h
      · cases h; simp [depth]
      split at h
      · cases h; simp [depth]
      split at h
      · rw [Option.map_eq_some_iff] at h
        obtain ⟨⟨v, r⟩, h1, h2⟩ := h
        cases h2; simp [depth]
      split at h
      · rw [Option.map_eq_some_iff] at h
        obtain ⟨⟨v, r⟩, h1, h2⟩ := h
        cases h2
        have := depthAll_le (many_depth (P := fun j => depth j ≤ d) (fun b a rest h => ih h) h1)
        simp only [depth]; omega
      split at h
      · rw [Option.map_eq_some_iff] at h
        obtain ⟨⟨v, r⟩, h1, h2⟩ := h
        cases h2
        have := depthFields_le (many_depth (P := fun kv => depth kv.2 ≤ d)
          (fun b a rest h => entry_depth (P := fun j => depth j ≤ d) (fun b a rest h => ih h) b a rest h) h1)
        simp only [depth]; omega
      split at h
      · cases h; simp [depth]
      · cases h

theorem depth_mem {fs : List (String × Json)} {f : String × Json} (h : f ∈ fs) : depth f.2 ≤ depthFields fs := by
  induction fs with
  | nil => cases h
  | cons g fs ih =>
    obtain ⟨k, v⟩ := g
    simp only [depthFields]
    rcases List.mem_cons.1 h with rfl | h
    · simp only; omega
    · have := ih h; omega

theorem depth_lookup {name : String} {j v : Json} (h : field name j = some v) : depth v < depth j := by
  cases j with
  | obj fs =>
    simp only [field, lookupField] at h
    split at h
    · cases h
    · rename_i f heq
      injection h with h
      subst h
      have : f ∈ fs := (List.mem_filter.1 (show f ∈ fs.filter _ by rw [heq]; simp)).1
      have := depth_mem this
      simp only [depth]; omega
    · cases h
  | _ => cases h

theorem depth_dec_strategy {d : Nat} : ∀ {j : Json} {s : Strategy}, decStrategy d j = some s → 2 * nesting s ≤ depth j := by
  have leaf : ∀ {s : String} {t : Strategy}, (if s = "Oldest" then some Strategy.oldest
      else if s = "Newest" then some Strategy.newest
      else if s = "Random" then some Strategy.random
      else none) = some t → nesting t = 0 := by
    intro s t h
    repeat' split at h
    all_goals cases h
    all_goals rfl
  induction d with
  | zero =>
    intro j s h
    unfold decStrategy at h
    split at h
    · have := leaf h; omega
    · rename_i heq; cases heq
    · cases h
  | succ d ih =>
    intro j s h
    unfold decStrategy at h
    split at h
    · have := leaf h; omega
    · rename_i d' tag j' heq
      cases heq
      split at h
      · simp only [Option.bind_eq_bind, Option.bind_eq_some_iff] at h
        obtain ⟨key, _, u, ⟨v, h1, h2⟩, h3⟩ := h
        injection h3 with h3
        subst h3
        have h4 := ih h2
        have h5 := depth_lookup h1
        simp only [nesting, depth, depthFields]
        omega
      · cases h
    · cases h

theorem u64_lt {j : Json} {n : Nat} (h : decU64 j = some n) : n < 2 ^ 64 := by
  simp only [decU64, Option.filter_eq_some_iff] at h
  simpa using h.2

theorem u63_lt {j : Json} {n : Nat} (h : decU63 j = some n) : n < 2 ^ 63 := by
  simp only [decU63, Option.filter_eq_some_iff] at h
  simpa using h.2

theorem chunkId_fits {j : Json} {id : ChunkId} (h : decChunkId j = some id) : IdFits id := by
  simp only [decChunkId, Option.bind_eq_bind, Option.bind_eq_some_iff] at h
  obtain ⟨a, ⟨_, _, ha⟩, b, ⟨_, _, hb⟩, h⟩ := h
  injection h with h
  subst h
  exact ⟨u63_lt ha, u63_lt hb⟩

theorem dec_client_fits {j : Json} {m : ClientMsg} (h : decClient j = some m) :
    ClientCanSend m ∧ 2 * strategyDepth m + 3 ≤ max 3 (depth j) := by
  simp only [decClient, Option.bind_eq_bind, Option.bind_eq_some_iff] at h
  obtain ⟨nonce, ⟨_, _, hn⟩, c, hc, h⟩ := h
  have hn := u64_lt hn
  have hdc := depth_lookup hc
  unfold decClientContents at h
  split at h
  · split at h
    · simp only [Option.bind_eq_bind, Option.bind_eq_some_iff] at h
      obtain ⟨mx, ⟨_, _, hm⟩, s, ⟨v, hv, hs⟩, h⟩ := h
      injection h with h
      subst h
      have h1 := depth_dec_strategy hs
      have h2 := depth_lookup hv
      simp only [depth, depthFields] at hdc
      exact ⟨⟨hn, u64_lt hm⟩, by simp only [strategyDepth]; omega⟩
    · split at h
      · simp only [Option.bind_eq_bind, Option.bind_eq_some_iff] at h
        obtain ⟨id, ⟨_, _, hid⟩, o, _, h⟩ := h
        injection h with h
        subst h
        exact ⟨⟨hn, chunkId_fits hid⟩, by simp only [strategyDepth]; omega⟩
      · split at h
        · simp only [Option.bind_eq_bind, Option.bind_eq_some_iff] at h
          obtain ⟨id, ⟨_, _, hid⟩, o, _, h⟩ := h
          injection h with h
          subst h
          exact ⟨⟨hn, chunkId_fits hid⟩, by simp only [strategyDepth]; omega⟩
        · cases h
  · cases h

theorem read_client_fits {b : Bytes} {m : ClientMsg} (h : readClient b = some m) :
    ClientCanSend m ∧ strategyDepth m ≤ 126 := by
  simp only [readClient, Option.bind_eq_some_iff] at h
  obtain ⟨⟨j, rest⟩, h1, h2⟩ := h
  obtain ⟨h3, h4⟩ := dec_client_fits h2
  have h5 := read_depth h1
  simp only [maxDepth] at h4 h5
  exact ⟨h3, by omega⟩

/-! ## From the server -/

theorem plain_chunk {c : ChunkRow} (h : IdFits c.key) (hr : c.retries < 2 ^ 63) : Plain (encChunk c) := by
  obtain ⟨h1, h2⟩ := h
  simp only [ChunkRow.key] at h1 h2
  refine .obj fun f hf => ?_
  simp only [List.mem_cons, List.not_mem_nil, or_false] at hf
  rcases hf with rfl | rfl | rfl | rfl
  · exact plain_u63 h1
  · exact plain_u63 h2
  · exact plain_opt plain_bytes _
  · exact plain_u63 hr

theorem plain_pair {p : ChunkRow × Submission} (h : PairFits p) : Plain (encPair p) := by
  obtain ⟨h1, h2, h3, h4, h5, h6, h7⟩ := h
  refine .arr fun x hx => ?_
  simp only [List.mem_cons, List.not_mem_nil, or_false] at hx
  rcases hx with rfl | rfl
  · exact plain_chunk h1 h2
  · refine .obj fun f hf => ?_
    simp only [List.mem_cons, List.not_mem_nil, or_false] at hf
    rcases hf with rfl | rfl | rfl | rfl | rfl | rfl | rfl | rfl
    · exact plain_u63 h3
    · exact plain_opt .str _
    · exact plain_u63 h4
    · exact plain_u63 h5
    · exact plain_int h6
    · exact plain_opt plain_bytes _
    · exact plain_map h7
    · exact .str _

theorem plain_server {m : ServerMessage} (h : ServerCanSend m) : Plain (encServer m) := by
  cases m with
  | sync nonce r =>
    refine plain_one (plain_envelope h.1 (plain_one ?_))
    cases r with
    | none => exact plain_one (.arr (by simp))
    | some chunks =>
      refine plain_one (.arr fun x hx => ?_)
      obtain ⟨p, hp, rfl⟩ := List.mem_map.1 hx
      exact plain_pair (h.2 chunks rfl p hp)
  | expired id => exact plain_one (plain_one (plain_chunkId h))
  | init c =>
    obtain ⟨h1, h2, h3⟩ := h
    refine plain_one (.obj fun f hf => ?_)
    simp only [List.mem_cons, List.not_mem_nil, or_false] at hf
    rcases hf with rfl | rfl | rfl | rfl
    · exact plain_nat h1
    · exact plain_two (plain_nat h2) (plain_nat (by omega))
    · exact .str _
    · exact .str _

theorem depth_pair (p : ChunkRow × Submission) : depth (encPair p) ≤ 3 := by
  have h1 := depth_content p.1.inputContent
  have h2 := depth_content p.2.metadata
  have h3 := depth_map p.2.strategic
  have h4 := depth_optStr p.2.pfx
  simp only [encPair, encChunk, encSubmission, depth, depthAll, depthFields, encNat, encInt, encStr] at *
  omega

theorem depth_server (m : ServerMessage) : depth (encServer m) ≤ maxDepth := by
  cases m with
  | sync nonce r =>
    cases r with
    | none =>
      simp only [encServer, envelope, encResponse, depth, depthFields, depthAll, encNat, maxDepth]
      omega
    | some chunks =>
      have := depth_list depth_pair chunks
      simp only [encServer, envelope, encResponse, depth, depthFields, encNat, maxDepth]
      omega
  | expired id =>
    simp only [encServer, encChunkId, depth, depthFields, encNat, maxDepth]
    omega
  | init c =>
    simp only [encServer, encConfig, depth, depthFields, encNat, encStr, maxDepth]
    omega

theorem mapM_rt_mem {α β : Type} {f : α → β} {g : β → Option α} (xs : List α) (h : ∀ a ∈ xs, g (f a) = some a) :
    (xs.map f).mapM g = some xs := by
  induction xs with
  | nil => simp
  | cons x xs ih => simp [h x (by simp), ih fun a ha => h a (by simp [ha])]

theorem pair_rt {p : ChunkRow × Submission} (h : PairFits p) : decPair (encPair p) = some p := by
  obtain ⟨⟨h1, h1'⟩, h2, _⟩ := h
  simp only [ChunkRow.key] at h1 h1'
  have hc : decChunk (encChunk p.1) = some p.1 := by
    simp [decChunk, encChunk, field, optField, lookupField, List.filter, u63_rt h1, u63_rt h1', u63_rt h2]
  simp [decPair, encPair, hc]

theorem config_rt {c : ConsumerConfig} (h : ServerCanSend (.init c)) : decConfig (encConfig c) = some c := by
  obtain ⟨h1, h2, h3⟩ := h
  have hu : decU32 (encNat c.nanos) = some c.nanos := by
    simp only [decU32, nat_rt]
    rw [Option.filter_some, if_pos (by simp; omega)]
  have hd : decDuration (.obj [("secs", encNat c.secs), ("nanos", encNat c.nanos)]) = some (c.secs, c.nanos) := by
    have e1 : c.nanos / 10 ^ 9 = 0 := Nat.div_eq_of_lt h3
    have e2 : c.nanos % 10 ^ 9 = c.nanos := Nat.mod_eq_of_lt h3
    simp only [decDuration, field, lookupField, List.filter, Option.bind_eq_bind]
    simp only [beq_self_eq_true, show ("secs" == "nanos") = false by decide, show ("nanos" == "secs") = false by decide,
      Option.join_some, Option.bind_some, u64_rt h2, hu, e1, e2, Nat.add_zero, if_pos h2]
  simp [decConfig, encConfig, field, lookupField, List.filter, u64_rt h1, hd]

theorem server_rt {m : ServerMessage} (h : ServerCanSend m) : decServer (encServer m) = some m := by
  cases m with
  | sync nonce r =>
    cases r with
    | none =>
      simp [decServer, encServer, envelope, encResponse, decResponse, decResult, field, lookupField, List.filter,
        u64_rt h.1]
    | some chunks =>
      have := mapM_rt_mem chunks fun p hp => pair_rt (h.2 chunks rfl p hp)
      simp [decServer, encServer, envelope, encResponse, decResponse, decResult, field, lookupField, List.filter,
        u64_rt h.1, encList, decList, this]
  | expired id =>
    simp [decServer, encServer, decAsync, chunkId_rt h]
  | init c =>
    simp [decServer, encServer, config_rt h]

end Opsqueue.Messages
