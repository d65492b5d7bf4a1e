import Verif.Spec.Documents
import Verif.Proofs.Messages

/-! # Lemmas for C65: exactly the well-formed messages are read -/

namespace Opsqueue.Messages
open Wire Conn Cbor
open Http (Has Optionally Absent bytes strategicMap)

theorem bind_field {α : Type} {name : String} {fs : List (String × Json)} {g : Json → Option α} {a : α} :
    (field name (.obj fs) >>= g) = some a ↔ ∃ v, Has name v fs ∧ g v = some a := by
  simp only [Option.bind_eq_bind, Option.bind_eq_some_iff, field_iff]

theorem bind_field_eq {α : Type} {name : String} {fs : List (String × Json)} {g : Json → Option α} {f : α → Json}
    (h : ∀ v a, g v = some a ↔ v = f a) {a : α} :
    (field name (.obj fs) >>= g) = some a ↔ Has name (f a) fs := by
  rw [bind_field]
  constructor
  · rintro ⟨v, h1, h2⟩; rw [h] at h2; exact h2 ▸ h1
  · exact fun h1 => ⟨_, h1, (h _ _).2 rfl⟩

theorem decU63_iff {j : Json} {n : Nat} : decU63 j = some n ↔ j = .num n ∧ n < 2 ^ 63 := by
  simp [decU63, Option.filter_eq_some_iff, decNat_iff]

theorem decU64_iff {j : Json} {n : Nat} : decU64 j = some n ↔ j = .num n ∧ n < 2 ^ 64 := by
  simp [decU64, Option.filter_eq_some_iff, decNat_iff]

theorem decU32_iff {j : Json} {n : Nat} : decU32 j = some n ↔ j = .num n ∧ n < 2 ^ 32 := by
  simp [decU32, Option.filter_eq_some_iff, decNat_iff]

theorem field_u63 {name : String} {fs : List (String × Json)} {n : Nat} :
    (field name (.obj fs) >>= decU63) = some n ↔ Has name (.num n) fs ∧ n < 2 ^ 63 := by
  rw [bind_field]
  constructor
  · rintro ⟨v, h1, h2⟩; rw [decU63_iff] at h2; exact ⟨h2.1 ▸ h1, h2.2⟩
  · exact fun h1 => ⟨_, h1.1, decU63_iff.2 ⟨rfl, h1.2⟩⟩

theorem field_u64 {name : String} {fs : List (String × Json)} {n : Nat} :
    (field name (.obj fs) >>= decU64) = some n ↔ Has name (.num n) fs ∧ n < 2 ^ 64 := by
  rw [bind_field]
  constructor
  · rintro ⟨v, h1, h2⟩; rw [decU64_iff] at h2; exact ⟨h2.1 ▸ h1, h2.2⟩
  · exact fun h1 => ⟨_, h1.1, decU64_iff.2 ⟨rfl, h1.2⟩⟩

theorem field_u32 {name : String} {fs : List (String × Json)} {n : Nat} :
    (field name (.obj fs) >>= decU32) = some n ↔ Has name (.num n) fs ∧ n < 2 ^ 32 := by
  rw [bind_field]
  constructor
  · rintro ⟨v, h1, h2⟩; rw [decU32_iff] at h2; exact ⟨h2.1 ▸ h1, h2.2⟩
  · exact fun h1 => ⟨_, h1.1, decU32_iff.2 ⟨rfl, h1.2⟩⟩

theorem field_str {name : String} {fs : List (String × Json)} {s : String} :
    (field name (.obj fs) >>= decStr) = some s ↔ Has name (.str s) fs :=
  bind_field_eq (f := .str) fun _ _ => decStr_iff

theorem field_nat {name : String} {fs : List (String × Json)} {n : Nat} :
    (field name (.obj fs) >>= decNat) = some n ↔ Has name (.num n) fs :=
  bind_field_eq (f := fun n : Nat => .num n) fun _ _ => decNat_iff

theorem field_int {name : String} {fs : List (String × Json)} {n : Int} :
    (field name (.obj fs) >>= decInt) = some n ↔ Has name (.num n) fs :=
  bind_field_eq (f := .num) fun _ _ => decInt_iff

theorem opt_bytes {name : String} {fs : List (String × Json)} {x : Content} :
    (optField name (.obj fs) >>= decOpt decBytes) = some x ↔ Optionally name bytes fs x :=
  optField_iff (fun _ _ => decBytes_iff) (by simp [bytes])

theorem opt_str {name : String} {fs : List (String × Json)} {x : Option String} :
    (optField name (.obj fs) >>= decOpt decStr) = some x ↔ Optionally name .str fs x :=
  optField_iff (fun _ _ => decStr_iff) (by simp)

theorem bind_field_obj {α : Type} {name : String} {j : Json} {g : Json → Option α} {a : α}
    (h : (field name j >>= g) = some a) : ∃ fs, j = .obj fs := by
  rw [Option.bind_eq_bind, Option.bind_eq_some_iff] at h
  obtain ⟨v, h, _⟩ := h
  exact obj_of_field h

theorem decChunkId_iff {j : Json} {id : ChunkId} : decChunkId j = some id ↔ SaysChunkId j id := by
  unfold decChunkId SaysChunkId
  constructor
  · intro h
    obtain ⟨a, h1, h⟩ := Option.bind_eq_some_iff.1 h
    obtain ⟨b, h2, h⟩ := Option.bind_eq_some_iff.1 h
    cases h
    obtain ⟨fs, rfl⟩ := bind_field_obj h1
    rw [field_u63] at h1 h2
    exact ⟨fs, rfl, h1.1, h2.1, h1.2, h2.2⟩
  · rintro ⟨fs, rfl, h1, h2, h3, h4⟩
    rw [field_u63.2 ⟨h1, h3⟩, field_u63.2 ⟨h2, h4⟩]
    rfl

theorem says_of_decStrategy {d : Nat} : ∀ {j : Json} {s : Strategy}, decStrategy d j = some s → SaysStrategy j s := by
  have leaf : ∀ {s : String} {t : Strategy}, (if s = "Oldest" then some Strategy.oldest
      else if s = "Newest" then some Strategy.newest
      else if s = "Random" then some Strategy.random
      else none) = some t → SaysStrategy (.str s) t := by
    intro s t h
    repeat' split at h
    all_goals first | (rename_i e; subst e; cases h) | cases h
    · exact .oldest
    · exact .newest
    · exact .random
  induction d with
  | zero =>
    intro j s h
    unfold decStrategy at h
    split at h
    · exact leaf h
    · rename_i heq; cases heq
    · cases h
  | succ d ih =>
    intro j s h
    unfold decStrategy at h
    split at h
    · exact leaf h
    · rename_i d' tag j' heq
      cases heq
      split at h
      · rename_i ht
        obtain ⟨key, h1, h⟩ := Option.bind_eq_some_iff.1 h
        obtain ⟨u, h2, h⟩ := Option.bind_eq_some_iff.1 h
        cases h
        obtain ⟨fs, rfl⟩ := bind_field_obj h1
        obtain ⟨v, hv, hu⟩ := bind_field.1 h2
        rw [ht]
        exact .preferDistinct (field_str.1 h1) hv (ih hu)
      · cases h
    · cases h

theorem decStrategy_of_says {j : Json} {s : Strategy} (h : SaysStrategy j s) :
    ∀ d, nesting s ≤ d → decStrategy d j = some s := by
  induction h with
  | oldest => intro d _; cases d <;> rfl
  | newest => intro d _; cases d <;> rfl
  | random => intro d _; cases d <;> rfl
  | preferDistinct hk hv hu ih =>
    intro d hd
    cases d with
    | zero => simp [nesting] at hd
    | succ d =>
      rw [decStrategy, if_pos rfl, field_str.2 hk, field_iff.2 hv]
      simp only [Option.bind_eq_bind, Option.bind_some]
      rw [ih d (by simp only [nesting] at hd; omega)]
      rfl

theorem has_depth {name : String} {v : Json} {fs : List (String × Json)} (h : Has name v fs) :
    depth v ≤ depthFields fs := by
  have := depth_lookup (field_iff.2 h)
  simp only [depth] at this
  omega

theorem depth_says {j : Json} {s : Strategy} (h : SaysStrategy j s) : 2 * nesting s ≤ depth j := by
  induction h with
  | preferDistinct hk hv hu ih =>
    have := has_depth hv
    simp only [nesting, depth, depthFields]
    omega
  | _ => simp [nesting]

theorem decClient_iff {j : Json} {m : ClientMsg} (hd : depth j ≤ maxDepth) :
    decClient j = some m ↔ SaysClient j m := by
  constructor
  · intro h
    obtain ⟨nonce, h1, h⟩ := Option.bind_eq_some_iff.1 h
    obtain ⟨fs, rfl⟩ := bind_field_obj h1
    obtain ⟨v, hv, h⟩ := bind_field.1 h
    obtain ⟨h1, hn⟩ := field_u64.1 h1
    unfold decClientContents at h
    split at h
    · rename_i tag c
      split at h
      · rename_i ht
        obtain ⟨mx, h2, h⟩ := Option.bind_eq_some_iff.1 h
        obtain ⟨st, h3, h⟩ := Option.bind_eq_some_iff.1 h
        cases h
        obtain ⟨gs, rfl⟩ := bind_field_obj h2
        obtain ⟨w, hw, h3⟩ := bind_field.1 h3
        obtain ⟨h2, hm⟩ := field_u64.1 h2
        exact ⟨gs, w, ⟨fs, rfl, h1, hn, ht ▸ hv⟩, h2, hm, hw, says_of_decStrategy h3⟩
      · split at h
        · rename_i ht
          obtain ⟨id, h2, h⟩ := Option.bind_eq_some_iff.1 h
          obtain ⟨o, h3, h⟩ := Option.bind_eq_some_iff.1 h
          cases h
          obtain ⟨gs, rfl⟩ := bind_field_obj h2
          obtain ⟨w, hw, h2⟩ := bind_field.1 h2
          exact ⟨gs, w, ⟨fs, rfl, h1, hn, ht ▸ hv⟩, hw, decChunkId_iff.1 h2, opt_bytes.1 h3⟩
        · split at h
          · rename_i ht
            obtain ⟨id, h2, h⟩ := Option.bind_eq_some_iff.1 h
            obtain ⟨o, h3, h⟩ := Option.bind_eq_some_iff.1 h
            cases h
            obtain ⟨gs, rfl⟩ := bind_field_obj h2
            obtain ⟨w, hw, h2⟩ := bind_field.1 h2
            exact ⟨gs, w, ⟨fs, rfl, h1, hn, ht ▸ hv⟩, hw, decChunkId_iff.1 h2, field_str.1 h3⟩
          · cases h
    · cases h
  · intro h
    cases m with
    | wantToReserve r =>
      obtain ⟨fs, s, ⟨gs, rfl, h1, hn, hc⟩, h2, hm, h3, hs⟩ := h
      have hdep : nesting r.strategy ≤ maxDepth := by
        have := depth_says hs
        have := has_depth h3
        have := has_depth hc
        simp only [depth, depthFields] at this hd
        omega
      unfold decClient
      rw [field_u64.2 ⟨h1, hn⟩, field_iff.2 hc]
      simp only [Option.bind_eq_bind, Option.bind_some]
      rw [decClientContents, if_pos rfl, field_u64.2 ⟨h2, hm⟩, field_iff.2 h3]
      simp only [Option.bind_eq_bind, Option.bind_some]
      rw [decStrategy_of_says hs _ hdep]
      rfl
    | completeChunk nonce id output =>
      obtain ⟨fs, s, ⟨gs, rfl, h1, hn, hc⟩, h2, hi, h3⟩ := h
      unfold decClient
      rw [field_u64.2 ⟨h1, hn⟩, field_iff.2 hc]
      simp only [Option.bind_eq_bind, Option.bind_some]
      rw [decClientContents, if_neg (by decide), if_pos rfl, field_iff.2 h2, opt_bytes.2 h3]
      simp only [Option.bind_eq_bind, Option.bind_some]
      rw [decChunkId_iff.2 hi]
      rfl
    | failChunk nonce id failure =>
      obtain ⟨fs, s, ⟨gs, rfl, h1, hn, hc⟩, h2, hi, h3⟩ := h
      unfold decClient
      rw [field_u64.2 ⟨h1, hn⟩, field_iff.2 hc]
      simp only [Option.bind_eq_bind, Option.bind_some]
      rw [decClientContents, if_neg (by decide), if_neg (by decide), if_pos rfl, field_iff.2 h2, field_str.2 h3]
      simp only [Option.bind_eq_bind, Option.bind_some]
      rw [decChunkId_iff.2 hi]
      rfl

theorem decChunk_iff {j : Json} {c : ChunkRow} : decChunk j = some c ↔ SaysChunk j c := by
  unfold decChunk SaysChunk
  constructor
  · intro h
    obtain ⟨a, h1, h⟩ := Option.bind_eq_some_iff.1 h
    obtain ⟨b, h2, h⟩ := Option.bind_eq_some_iff.1 h
    obtain ⟨i, h3, h⟩ := Option.bind_eq_some_iff.1 h
    obtain ⟨r, h4, h⟩ := Option.bind_eq_some_iff.1 h
    cases h
    obtain ⟨fs, rfl⟩ := bind_field_obj h1
    rw [field_u63] at h1 h2 h4
    rw [opt_bytes] at h3
    exact ⟨fs, rfl, h1.1, h2.1, h3, h4.1, ⟨h1.2, h2.2⟩, h4.2⟩
  · rintro ⟨fs, rfl, h1, h2, h3, h4, ⟨h5, h6⟩, h7⟩
    rw [field_u63.2 ⟨h1, h5⟩, field_u63.2 ⟨h2, h6⟩, opt_bytes.2 h3, field_u63.2 ⟨h4, h7⟩]
    rfl

theorem decSubmission_iff {j : Json} {s : Submission} : decSubmission j = some s ↔ SaysSubmission j s := by
  unfold decSubmission SaysSubmission
  constructor
  · intro h
    obtain ⟨a, h1, h⟩ := Option.bind_eq_some_iff.1 h
    obtain ⟨b, h2, h⟩ := Option.bind_eq_some_iff.1 h
    obtain ⟨c, h3, h⟩ := Option.bind_eq_some_iff.1 h
    obtain ⟨d, h4, h⟩ := Option.bind_eq_some_iff.1 h
    obtain ⟨e, h5, h⟩ := Option.bind_eq_some_iff.1 h
    obtain ⟨f, h6, h⟩ := Option.bind_eq_some_iff.1 h
    obtain ⟨g, h7, h⟩ := Option.bind_eq_some_iff.1 h
    obtain ⟨o, h8, h⟩ := Option.bind_eq_some_iff.1 h
    cases h
    obtain ⟨fs, rfl⟩ := bind_field_obj h1
    exact ⟨fs, rfl, field_nat.1 h1, opt_str.1 h2, field_nat.1 h3, field_nat.1 h4, field_int.1 h5, opt_bytes.1 h6,
      mapField_iff.1 h7, field_str.1 h8⟩
  · rintro ⟨fs, rfl, h1, h2, h3, h4, h5, h6, h7, h8⟩
    rw [field_nat.2 h1, opt_str.2 h2, field_nat.2 h3, field_nat.2 h4, field_int.2 h5, opt_bytes.2 h6,
      mapField_iff.2 h7, field_str.2 h8]
    rfl

theorem decPair_iff {j : Json} {p : ChunkRow × Submission} : decPair j = some p ↔ SaysPair j p := by
  unfold decPair SaysPair
  constructor
  · intro h
    split at h
    · obtain ⟨c, h1, h⟩ := Option.bind_eq_some_iff.1 h
      obtain ⟨s, h2, h⟩ := Option.bind_eq_some_iff.1 h
      cases h
      exact ⟨_, _, rfl, decChunk_iff.1 h1, decSubmission_iff.1 h2⟩
    · cases h
  · rintro ⟨a, b, rfl, h1, h2⟩
    simp only [decChunk_iff.2 h1, decSubmission_iff.2 h2]
    rfl

theorem mapM_zip {α β : Type} {g : β → Option α} {P : β → α → Prop} (h : ∀ a b, g b = some a ↔ P b a) (bs : List β) :
    ∀ as : List α, bs.mapM g = some as ↔ bs.length = as.length ∧ ∀ x ∈ bs.zip as, P x.1 x.2 := by
  induction bs with
  | nil => intro as; cases as <;> simp
  | cons b bs ih =>
    intro as
    rw [List.mapM_cons]
    simp only [Option.bind_eq_bind, Option.bind_eq_some_iff, Option.pure_def, Option.some.injEq]
    constructor
    · rintro ⟨a, h1, as', h2, rfl⟩
      obtain ⟨h3, h4⟩ := (ih _).1 h2
      refine ⟨by simp [h3], ?_⟩
      intro x hx
      rw [List.zip_cons_cons, List.mem_cons] at hx
      rcases hx with rfl | hx
      · exact (h _ _).1 h1
      · exact h4 x hx
    · rintro ⟨h1, h2⟩
      cases as with
      | nil => cases h1
      | cons a as =>
        refine ⟨a, (h _ _).2 (h2 (b, a) (by simp)), as, (ih _).2 ⟨by simpa using h1, ?_⟩, rfl⟩
        exact fun x hx => h2 x (by rw [List.zip_cons_cons]; exact List.mem_cons_of_mem _ hx)

theorem decResponse_iff {j : Json} {r : Option (List (ChunkRow × Submission))} :
    decResponse j = some r ↔ SaysAnswer j r := by
  constructor
  · intro h
    unfold decResponse at h
    split at h
    · split at h
      · rename_i ht
        subst ht
        unfold decResult at h
        split at h
        · split at h
          · rename_i ht
            subst ht
            obtain ⟨chunks, h1, rfl⟩ := Option.map_eq_some_iff.1 h
            unfold decList at h1
            split at h1
            · exact ⟨_, rfl, (mapM_zip (fun _ _ => decPair_iff) _ _).1 h1⟩
            · cases h1
          · split at h
            · rename_i ht
              subst ht
              split at h
              · cases h; rfl
              · cases h
            · cases h
        · cases h
      · cases h
    · cases h
  · cases r with
    | none => rintro rfl; rfl
    | some chunks =>
      rintro ⟨js, rfl, h⟩
      have := (mapM_zip (P := SaysPair) (fun _ _ => decPair_iff) js chunks).2 h
      simp only [decResponse, decResult, if_true, decList, this]
      rfl

theorem decConfig_iff {j : Json} {c : ConsumerConfig} : decConfig j = some c ↔ SaysConfig j c := by
  unfold decConfig SaysConfig
  constructor
  · intro h
    obtain ⟨mm, h1, h⟩ := Option.bind_eq_some_iff.1 h
    obtain ⟨⟨secs, nanos⟩, h2, h⟩ := Option.bind_eq_some_iff.1 h
    obtain ⟨v, h3, h⟩ := Option.bind_eq_some_iff.1 h
    obtain ⟨i, h4, h⟩ := Option.bind_eq_some_iff.1 h
    cases h
    obtain ⟨fs, rfl⟩ := bind_field_obj h1
    obtain ⟨w, hw, h2⟩ := bind_field.1 h2
    unfold decDuration at h2
    obtain ⟨s, h5, h2⟩ := Option.bind_eq_some_iff.1 h2
    obtain ⟨n, h6, h7⟩ := Option.bind_eq_some_iff.1 h2
    clear h2
    obtain ⟨ds, rfl⟩ := bind_field_obj h5
    obtain ⟨h1, hm⟩ := field_u64.1 h1
    obtain ⟨h5, hs⟩ := field_u64.1 h5
    obtain ⟨h6, hn⟩ := field_u32.1 h6
    split at h7
    · rename_i hlt
      cases h7
      exact ⟨fs, ds, s, n, rfl, h1, hm, hw, h5, h6, hn, hlt, Nat.mod_lt _ (by decide), by dsimp only; omega,
        field_str.1 h3, field_str.1 h4⟩
    · cases h7
  · rintro ⟨fs, ds, s, n, rfl, h1, hm, hw, h5, h6, hn, hlt, hnn, he, h3, h4⟩
    have e1 : s + n / 10 ^ 9 = c.secs := by omega
    have e2 : n % 10 ^ 9 = c.nanos := by omega
    rw [field_u64.2 ⟨h1, hm⟩, field_iff.2 hw, field_str.2 h3, field_str.2 h4]
    simp only [Option.bind_eq_bind, Option.bind_some]
    have : decDuration (.obj ds) = some (c.secs, c.nanos) := by
      unfold decDuration
      rw [field_u64.2 ⟨h5, by omega⟩, field_u32.2 ⟨h6, hn⟩]
      simp only [Option.bind_eq_bind, Option.bind_some]
      rw [if_pos (by omega), e1, e2]
    rw [this]
    rfl

theorem decServer_iff {j : Json} {m : ServerMessage} : decServer j = some m ↔ SaysServer j m := by
  constructor
  · intro h
    unfold decServer at h
    split at h
    · rename_i tag v
      split at h
      · rename_i ht
        subst ht
        obtain ⟨nonce, h1, h⟩ := Option.bind_eq_some_iff.1 h
        obtain ⟨r, h2, h⟩ := Option.bind_eq_some_iff.1 h
        cases h
        obtain ⟨fs, rfl⟩ := bind_field_obj h1
        obtain ⟨w, hw, h2⟩ := bind_field.1 h2
        obtain ⟨h1, hn⟩ := field_u64.1 h1
        exact ⟨_, w, rfl, ⟨fs, rfl, h1, hn, hw⟩, decResponse_iff.1 h2⟩
      · split at h
        · rename_i ht
          subst ht
          unfold decAsync at h
          split at h
          · split at h
            · rename_i ht
              subst ht
              obtain ⟨id, h1, rfl⟩ := Option.map_eq_some_iff.1 h
              exact ⟨_, rfl, decChunkId_iff.1 h1⟩
            · cases h
          · cases h
        · split at h
          · rename_i ht
            subst ht
            obtain ⟨c, h1, rfl⟩ := Option.map_eq_some_iff.1 h
            exact ⟨_, rfl, decConfig_iff.1 h1⟩
          · cases h
    · cases h
  · cases m with
    | sync nonce r =>
      rintro ⟨e, a, rfl, ⟨fs, rfl, h1, hn, h2⟩, h3⟩
      rw [decServer, if_pos rfl, field_u64.2 ⟨h1, hn⟩, field_iff.2 h2]
      simp only [Option.bind_eq_bind, Option.bind_some]
      rw [decResponse_iff.2 h3]
      rfl
    | expired id =>
      rintro ⟨v, rfl, h1⟩
      rw [decServer, if_neg (by decide), if_pos rfl, decAsync, if_pos rfl, decChunkId_iff.2 h1]
      rfl
    | init c =>
      rintro ⟨v, rfl, h1⟩
      rw [decServer, if_neg (by decide), if_neg (by decide), if_pos rfl, decConfig_iff.2 h1]
      rfl

theorem readClient_iff {b : Bytes} {m : ClientMsg} :
    readClient b = some m ↔ ∃ j rest, Cbor.read 256 b = some (j, rest) ∧ SaysClient j m := by
  rw [readClient, Option.bind_eq_some_iff]
  constructor
  · rintro ⟨⟨j, rest⟩, h1, h2⟩
    exact ⟨j, rest, h1, (decClient_iff (read_depth h1)).1 h2⟩
  · rintro ⟨j, rest, h1, h2⟩
    exact ⟨(j, rest), h1, (decClient_iff (read_depth h1)).2 h2⟩

theorem readServer_iff {b : Bytes} {m : ServerMessage} :
    readServer b = some m ↔ ∃ j rest, Cbor.read 256 b = some (j, rest) ∧ SaysServer j m := by
  rw [readServer, Option.bind_eq_some_iff]
  constructor
  · rintro ⟨⟨j, rest⟩, h1, h2⟩
    exact ⟨j, rest, h1, decServer_iff.1 h2⟩
  · rintro ⟨j, rest, h1, h2⟩
    exact ⟨(j, rest), h1, decServer_iff.2 h2⟩

end Opsqueue.Messages
