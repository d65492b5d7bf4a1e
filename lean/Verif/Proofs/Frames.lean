import Verif.Spec.Frames
import Verif.Proofs.Messages
import Verif.Proofs.HttpText

/-!
# How long messages are
-/

namespace Opsqueue.Frames
open Wire Cbor Messages
open HttpText (utf8Length requestText InsertFits utf8Length_append utf8Length_cons length_le_utf8Length)
open JsonText (printStr printElems printFields printInt escape)

/-! ## Texts -/

theorem utf8_length (s : String) : (utf8 s).length = textBytes s := by
  have h : ∀ l : List Char, (l.utf8Encode).data.toList.length = utf8Length l := by
    intro l
    induction l with
    | nil => simp [utf8Length]
    | cons c l ih =>
      rw [List.utf8Encode_cons, utf8Length_cons, List.utf8Encode_singleton]
      simp [← ih]
  unfold utf8 textBytes
  rw [← String.utf8Encode_toList]
  exact h _

theorem writeHead_le (m n : Nat) : (writeHead m n).length ≤ 9 := by
  unfold writeHead
  split <;> (try split) <;> (try split) <;> (try split) <;> simp [bigEndian_length]

theorem writeHead_small {m n : Nat} (h : n < 2 ^ 32) : (writeHead m n).length ≤ 5 := by
  unfold writeHead
  rw [if_pos h]
  split <;> (try split) <;> (try split) <;> simp [bigEndian_length]

theorem writeHead_one {m n : Nat} : 1 ≤ (writeHead m n).length := by
  unfold writeHead
  split <;> (try split) <;> (try split) <;> (try split) <;> simp

theorem writeText_le (s : String) : (writeText s).length ≤ 9 + textBytes s := by
  have := writeHead_le 3 (utf8 s).length
  rw [writeText, List.length_append, ← utf8_length]
  omega

theorem writeText_small {s : String} (h : textBytes s < 2 ^ 32) : (writeText s).length ≤ 5 + textBytes s := by
  rw [← utf8_length] at h ⊢
  have := writeHead_small (m := 3) h
  rw [writeText, List.length_append]
  omega

theorem le_writeText (s : String) : textBytes s < (writeText s).length := by
  have := writeHead_one (m := 3) (n := (utf8 s).length)
  rw [writeText, List.length_append, ← utf8_length]
  omega

/-! ## Numbers -/

theorem write_num_le (n : Int) : (write (.num n)).length ≤ 9 := by
  cases n <;> rw [write] <;> exact writeHead_le _ _

theorem digits_length {fuel n : Nat} (k : Nat) (acc : List Char) (hf : n < fuel) (h : 10 ^ k ≤ n) :
    k + 1 + acc.length ≤ (Decimal.digits fuel n acc).length := by
  induction fuel generalizing n k acc with
  | zero => omega
  | succ fuel ih =>
    have hlen : ∀ (f m : Nat) (a : List Char), a.length ≤ (Decimal.digits f m a).length := by
      intro f
      induction f with
      | zero => intro m a; simp [Decimal.digits]
      | succ f ihf =>
        intro m a
        unfold Decimal.digits
        dsimp only
        split
        · simp
        · exact Nat.le_trans (by simp) (ihf _ _)
    unfold Decimal.digits
    dsimp only
    cases k with
    | zero =>
      split
      · simp
        omega
      · refine Nat.le_trans ?_ (hlen _ _ _)
        simp
        omega
    | succ k =>
      rw [Nat.pow_succ] at h
      have h1 : 10 ^ k ≤ n / 10 := (Nat.le_div_iff_mul_le (by omega)).2 h
      have h2 : 0 < 10 ^ k := Nat.pow_pos (by omega)
      rw [if_neg (by omega)]
      have := ih k (Decimal.digitChar (n % 10) :: acc) (by omega) h1
      simp only [List.length_cons] at this
      omega

theorem decimal_length_ge {n : Nat} (k : Nat) (h : 10 ^ k ≤ n) : k + 1 ≤ (Decimal.decimal n).length := by
  have := digits_length (fuel := n + 1) k [] (by omega) h
  simpa [Decimal.decimal] using this

theorem writeHead_le_decimal (m n : Nat) (hn : n < 2 ^ 64) : (writeHead m n).length ≤ (Decimal.decimal n).length ∧
    (writeHead m n).length ≤ (Decimal.decimal (n + 1)).length + 1 := by
  have p0 : 1 ≤ (Decimal.decimal n).length := List.length_pos_iff.2 (Decimal.decimal_ne_nil n)
  have q0 : 1 ≤ (Decimal.decimal (n + 1)).length := List.length_pos_iff.2 (Decimal.decimal_ne_nil (n + 1))
  unfold writeHead
  split
  · simp; omega
  · split
    · have := decimal_length_ge (n := n) 1 (by omega)
      have := decimal_length_ge (n := n + 1) 1 (by omega)
      simp [bigEndian_length]; omega
    · split
      · have := decimal_length_ge (n := n) 2 (by omega)
        have := decimal_length_ge (n := n + 1) 2 (by omega)
        simp [bigEndian_length]; omega
      · split
        · have := decimal_length_ge (n := n) 4 (by omega)
          have := decimal_length_ge (n := n + 1) 4 (by omega)
          simp [bigEndian_length]; omega
        · have := decimal_length_ge (n := n) 9 (by omega)
          have := decimal_length_ge (n := n + 1) 9 (by omega)
          simp [bigEndian_length]; omega

/-- A number takes no more bytes in CBOR than in JSON. -/
theorem write_num_le_print {n : Int} (h : HttpText.I64 n) :
    (write (.num n)).length ≤ utf8Length (JsonText.print (encInt n)) ∧ 1 ≤ utf8Length (JsonText.print (encInt n)) := by
  obtain ⟨h1, h2⟩ := h
  have hp := HttpText.print_num_pos n
  have hu := length_le_utf8Length (JsonText.print (encInt n))
  refine ⟨Nat.le_trans ?_ hu, Nat.le_trans hp hu⟩
  unfold encInt
  cases n with
  | ofNat n =>
    rw [write, JsonText.print, printInt]
    have h3 : (n : Int) < 2 ^ 63 := h2
    exact (writeHead_le_decimal 0 n (by omega)).1
  | negSucc n =>
    rw [write, JsonText.print, printInt]
    have := (writeHead_le_decimal 1 n (by omega)).2
    simpa using this

/-! ## Contents -/

theorem writeAll_bytes (b : Bytes) : (writeAll (b.map encU8)).length ≤ 2 * b.length ∧
    b.length ≤ (writeAll (b.map encU8)).length := by
  induction b with
  | nil => simp [writeAll]
  | cons u b ih =>
    have h1 : (write (encU8 u)).length ≤ 2 := by
      show (writeHead 0 u.toNat).length ≤ 2
      have := u.toNat_lt
      unfold writeHead
      rw [if_pos this]
      split <;> simp [bigEndian_length]
    have h2 := write_length_pos (encU8 u)
    simp only [List.map_cons, writeAll, List.length_append, List.length_cons]
    omega

theorem write_bytes (b : Bytes) : (write (encBytes b)).length ≤ 9 + 2 * b.length ∧ b.length < (write (encBytes b)).length := by
  have h1 := writeAll_bytes b
  have h2 := writeHead_le 4 (b.map encU8).length
  have h3 := writeHead_one (m := 4) (n := (b.map encU8).length)
  rw [encBytes, encList, write, List.length_append]
  omega

theorem write_content (c : Option Bytes) : (write (encOpt encBytes c)).length ≤ 9 + 2 * contentBytes c ∧
    contentBytes c < (write (encOpt encBytes c)).length := by
  cases c with
  | none => simp [encOpt, write, contentBytes]
  | some b => have := write_bytes b; simpa [encOpt, contentBytes] using this

theorem write_optText (c : Option String) : (write (encOpt encStr c)).length ≤ 9 + (c.map textBytes).getD 0 := by
  cases c with
  | none => simp [encOpt, write]
  | some s => have := writeText_le s; simpa [encOpt, encStr, write] using this

theorem writeFields_map (m : StrategicMetadata) : (writeFields (m.map fun kv => (kv.1, encInt kv.2))).length =
    (m.map fun kv => (writeText kv.1).length + (write (encInt kv.2)).length).sum := by
  induction m with
  | nil => rfl
  | cons kv m ih => simp only [List.map_cons, writeFields, List.length_append, List.sum_cons, ih]

theorem sum_le {α : Type} (f g : α → Nat) (l : List α) (h : ∀ x ∈ l, f x ≤ g x) : (l.map f).sum ≤ (l.map g).sum := by
  induction l with
  | nil => simp
  | cons x l ih =>
    have h1 := h x (by simp)
    have h2 := ih fun y hy => h y (by simp [hy])
    simp only [List.map_cons, List.sum_cons]
    omega

theorem write_map (m : StrategicMetadata) : (write (encMap m)).length ≤
    9 + (m.map fun kv => (writeText kv.1).length + (write (encInt kv.2)).length).sum := by
  have := writeHead_le 5 (m.map fun kv => (kv.1, encInt kv.2)).length
  rw [encMap, write, List.length_append, writeFields_map]
  omega

theorem write_map_le (m : StrategicMetadata) :
    (m.map fun kv => (writeText kv.1).length + (write (encInt kv.2)).length).sum ≤ (m.map fun kv => textBytes kv.1 + 18).sum :=
  sum_le _ _ _ fun kv _ => by
    have h1 := writeText_le kv.1
    have h2 := write_num_le kv.2
    rw [encInt]
    omega

/-! ## Answers -/

/-- What a chunk with its submission takes. -/
theorem write_pair (p : ChunkRow × Submission) : (write (encPair p)).length ≤
    400 + 2 * contentBytes p.1.inputContent + 2 * contentBytes p.2.metadata + (p.2.pfx.map textBytes).getD 0 +
    (p.2.strategic.map fun kv => (writeText kv.1).length + (write (encInt kv.2)).length).sum + textBytes p.2.otel := by
  obtain ⟨c, s⟩ := p
  have e0 : (writeText "submission_id" ++ writeText "chunk_index" ++ writeText "input_content" ++ writeText "retries").length = 48 := by
    decide +kernel
  have e1 : (writeText "id" ++ writeText "prefix" ++ writeText "chunks_total" ++ writeText "chunks_done" ++ writeText "chunk_size" ++
    writeText "metadata" ++ writeText "strategic_metadata" ++ writeText "otel_trace_carrier").length = 93 := by decide +kernel
  have hn : ∀ n : Nat, (write (encNat n)).length ≤ 9 := fun n => write_num_le n
  have a1 := hn c.submissionId
  have a2 := hn c.chunkIndex
  have a3 := (write_content c.inputContent).1
  have a4 := hn c.retries
  have b1 := hn s.id
  have b2 := write_optText s.pfx
  have b3 := hn s.chunksTotal
  have b4 := hn s.chunksDone
  have b5 : (write (encInt s.chunkSize)).length ≤ 9 := write_num_le s.chunkSize
  have b6 := (write_content s.metadata).1
  have b7 := write_map s.strategic
  have b8 : (write (encStr s.otel)).length ≤ 9 + textBytes s.otel := by rw [encStr, write]; exact writeText_le s.otel
  have c1 := writeHead_le 4 2
  have c2 := writeHead_le 5 4
  have c3 := writeHead_le 5 8
  simp only [List.length_append] at e0 e1
  simp only [encPair, encChunk, encSubmission, write, writeAll, writeFields, List.length_append,
    List.length_cons, List.length_nil, Nat.reduceAdd]
  omega

theorem write_pair_le (p : ChunkRow × Submission) : (write (encPair p)).length ≤ pairBytes p := by
  have h1 := write_pair p
  have h2 := write_map_le p.2.strategic
  unfold pairBytes
  omega

theorem writeAll_length {α : Type} (f : α → Json) (xs : List α) :
    (writeAll (xs.map f)).length = (xs.map fun x => (write (f x)).length).sum := by
  induction xs with
  | nil => rfl
  | cons x xs ih => simp only [List.map_cons, writeAll, List.length_append, List.sum_cons, ih]

/-- What an answer takes. -/
theorem answer_length (nonce : Nat) (vals : List (ChunkRow × Submission)) :
    (writeServer (.sync nonce (some vals))).length ≤ 100 + (vals.map fun p => (write (encPair p)).length).sum ∧
    (vals.map fun p => (write (encPair p)).length).sum ≤ (writeServer (.sync nonce (some vals))).length := by
  have e0 : (writeText "Sync" ++ writeText "nonce" ++ writeText "contents" ++ writeText "ChunksReserved" ++ writeText "Ok").length = 38 := by
    decide +kernel
  have h1 := write_num_le (nonce : Nat)
  have h2 := writeHead_le 4 (vals.map encPair).length
  have c1 := writeHead_le 5 1
  have c2 := writeHead_le 5 2
  have h3 := writeAll_length encPair vals
  simp only [List.length_append] at e0
  simp only [writeServer, encServer, envelope, encResponse, encList, encNat, write, writeFields, List.length_append,
    List.length_cons, List.length_nil, Nat.reduceAdd] at *
  omega

theorem answer_le (nonce : Nat) (vals : List (ChunkRow × Submission)) :
    (writeServer (.sync nonce (some vals))).length ≤ 100 + (vals.map pairBytes).sum := by
  have h1 := (answer_length nonce vals).1
  have h2 := sum_le (fun p => (write (encPair p)).length) pairBytes vals fun p _ => write_pair_le p
  omega

/-- A chunk with its submission takes at least its content and its submission's metadata. -/
theorem le_write_pair (p : ChunkRow × Submission) :
    contentBytes p.1.inputContent + contentBytes p.2.metadata ≤ (write (encPair p)).length := by
  obtain ⟨c, s⟩ := p
  have a3 := (write_content c.inputContent).2
  have b6 := (write_content s.metadata).2
  simp only [encPair, encChunk, encSubmission, write, writeAll, writeFields, List.length_append] at *
  omega

theorem le_answer (nonce : Nat) (vals : List (ChunkRow × Submission)) :
    (vals.map fun p => contentBytes p.1.inputContent + contentBytes p.2.metadata).sum ≤
      (writeServer (.sync nonce (some vals))).length :=
  Nat.le_trans (sum_le _ _ vals fun p _ => le_write_pair p) (answer_length nonce vals).2

/-! ## Requests and reports -/

theorem write_strategy_le (t : Strategy) : (write (encStrategy t)).length ≤ strategyBytes t := by
  have e0 : (writeText "PreferDistinct" ++ writeText "meta_key" ++ writeText "underlying").length = 35 := by decide +kernel
  induction t with
  | preferDistinct key u ih =>
    have h1 := writeText_le key
    have c1 : (writeHead 5 1).length = 1 := by decide +kernel
    have c2 : (writeHead 5 2).length = 1 := by decide +kernel
    simp only [List.length_append] at e0
    simp only [encStrategy, encStr, write, writeFields, List.length_append, List.length_cons, List.length_nil, Nat.reduceAdd, strategyBytes] at *
    omega
  | _ => decide +kernel

theorem message_le (m : Conn.ClientMsg) : (writeClient m).length ≤ messageBytes m := by
  have c1 : (writeHead 5 1).length = 1 := by decide +kernel
  have c2 : (writeHead 5 2).length = 1 := by decide +kernel
  cases m with
  | wantToReserve r =>
    have e0 : (writeText "nonce" ++ writeText "contents" ++ writeText "WantToReserveChunks" ++ writeText "max" ++
      writeText "strategy").length = 48 := by decide +kernel
    have h1 := write_num_le (r.nonce : Nat)
    have h2 := write_num_le (r.max : Nat)
    have h3 := write_strategy_le r.strategy
    simp only [List.length_append] at e0
    simp only [writeClient, encClient, envelope, encNat, write, writeFields, List.length_append, List.length_cons, List.length_nil,
      Nat.reduceAdd, messageBytes] at *
    omega
  | completeChunk nonce id output =>
    have e0 : (writeText "nonce" ++ writeText "contents" ++ writeText "CompleteChunk" ++ writeText "id" ++ writeText "output_content" ++
      writeText "submission_id" ++ writeText "chunk_index").length = 73 := by decide +kernel
    have h1 := write_num_le (nonce : Nat)
    have h2 := write_num_le (id.submissionId : Nat)
    have h3 := write_num_le (id.chunkIndex : Nat)
    have h4 := (write_content output).1
    simp only [List.length_append] at e0
    simp only [writeClient, encClient, envelope, encChunkId, encNat, write, writeFields, List.length_append, List.length_cons,
      List.length_nil, Nat.reduceAdd, messageBytes] at *
    omega
  | failChunk nonce id failure =>
    have e0 : (writeText "nonce" ++ writeText "contents" ++ writeText "FailChunk" ++ writeText "id" ++ writeText "failure" ++
      writeText "submission_id" ++ writeText "chunk_index").length = 62 := by decide +kernel
    have h1 := write_num_le (nonce : Nat)
    have h2 := write_num_le (id.submissionId : Nat)
    have h3 := write_num_le (id.chunkIndex : Nat)
    have h4 := writeText_le failure
    simp only [List.length_append] at e0
    simp only [writeClient, encClient, envelope, encChunkId, encNat, encStr, write, writeFields, List.length_append, List.length_cons,
      List.length_nil, Nat.reduceAdd, messageBytes] at *
    omega

theorem le_report (nonce : Nat) (id : ChunkId) : (∀ failure, textBytes failure < (writeClient (.failChunk nonce id failure)).length) ∧
    ∀ output, contentBytes output < (writeClient (.completeChunk nonce id output)).length := by
  constructor
  · intro failure
    have h := le_writeText failure
    simp only [writeClient, encClient, envelope, encStr, write, writeFields, List.length_append] at *
    omega
  · intro output
    have h := (write_content output).2
    simp only [writeClient, encClient, envelope, encStr, write, writeFields, List.length_append] at *
    omega

/-! ## What was inserted -/

theorem utf8Length_flatMap (s : List Char) : utf8Length s ≤ utf8Length (s.flatMap escape) := by
  induction s with
  | nil => simp [utf8Length]
  | cons c s ih =>
    rw [List.flatMap_cons, utf8Length_append, utf8Length_cons]
    have : c.utf8Size ≤ utf8Length (escape c) := by
      unfold escape
      repeat' split
      all_goals first
        | (subst c; decide)
        | (subst_vars; decide)
        | (rename_i h; have h1 : c.utf8Size = 1 := Char.utf8Size_eq_one_iff.2 (by
            rw [UInt32.le_iff_toNat_le]
            have : c.val.toNat < 32 := h
            have : UInt32.toNat 127 = 127 := rfl
            omega)
           rw [h1]
           exact Nat.le_trans (by simp) (length_le_utf8Length _))
        | simp [utf8Length]
    omega

theorem printStr_ge (s : String) : textBytes s + 2 ≤ utf8Length (printStr s) := by
  have h := utf8Length_flatMap s.toList
  unfold printStr textBytes
  have e1 : utf8Length ['"'] = 1 := by decide
  have e2 : Char.utf8Size '"' = 1 := by decide
  rw [List.cons_append, utf8Length_cons, utf8Length_append, e1, e2]
  omega

theorem printFields_ge (m : StrategicMetadata) :
    (m.map fun kv => textBytes kv.1 + 4 + utf8Length (JsonText.print (encInt kv.2))).sum ≤
      utf8Length (printFields (m.map fun kv => (kv.1, encInt kv.2))) + 1 := by
  have e1 : Char.utf8Size ':' = 1 := by decide
  have e2 : Char.utf8Size ',' = 1 := by decide
  induction m with
  | nil => simp
  | cons kv m ih =>
    have h1 := printStr_ge kv.1
    cases m with
    | nil =>
      simp only [List.map_cons, List.map_nil, List.sum_cons, List.sum_nil, printFields, utf8Length_append, utf8Length_cons, e1]
      omega
    | cons kv' m =>
      simp only [List.map_cons, List.sum_cons, printFields, utf8Length_append, utf8Length_cons, e1, e2] at ih ⊢
      omega

theorem sum_lastOfEach (f : String × Int → Nat) (m : StrategicMetadata) : ((lastOfEach m).map f).sum ≤ (m.map f).sum := by
  induction m with
  | nil => simp [lastOfEach]
  | cons kv m ih =>
    unfold lastOfEach
    split
    · simp only [List.map_cons, List.sum_cons]; omega
    · simp only [List.map_cons, List.sum_cons]; omega

theorem mem_le_sum {α : Type} (f : α → Nat) {l : List α} {x : α} (h : x ∈ l) : f x ≤ (l.map f).sum := by
  induction l with
  | nil => cases h
  | cons y l ih =>
    simp only [List.map_cons, List.sum_cons]
    rcases List.mem_cons.1 h with rfl | h
    · omega
    · have := ih h; omega

theorem sum_mul {α : Type} (k : Nat) (f : α → Nat) (l : List α) : (l.map fun x => k * f x).sum = k * (l.map f).sum := by
  induction l with
  | nil => rfl
  | cons x l ih => simp only [List.map_cons, List.sum_cons, ih, Nat.mul_add]

theorem mem_lastOfEach {m : StrategicMetadata} {kv : String × Int} (h : kv ∈ lastOfEach m) : kv ∈ m := by
  induction m with
  | nil => simpa [lastOfEach] using h
  | cons x m ih =>
    unfold lastOfEach at h
    split at h
    · exact List.mem_cons_of_mem _ (ih h)
    · rcases List.mem_cons.1 h with rfl | h
      · simp
      · exact List.mem_cons_of_mem _ (ih h)

/-- What a request is made of. -/
theorem request_ge (r : InsertSubmission) (e : Http.ServerEnv) (c : Content) (hc : c ∈ (Http.insertArgs r e).contents) :
    2 * contentBytes c + 2 * contentBytes r.metadata + ((Http.insertArgs r e).pfx.map textBytes).getD 0 +
      (r.strategic.map fun kv => textBytes kv.1 + 4 + utf8Length (JsonText.print (encInt kv.2))).sum ≤
      utf8Length (requestText (.insert r)).body := by
  show _ ≤ utf8Length (JsonText.print (encInsert r))
  have h1 := printFields_ge r.strategic
  have h2 : 2 * contentBytes r.metadata ≤ utf8Length (JsonText.print (encOpt encBytes r.metadata)) := by
    refine Nat.le_trans ?_ (length_le_utf8Length _)
    cases r.metadata with
    | none => simp [contentBytes]
    | some b => have := HttpText.print_bytes_length b; simp only [encOpt, contentBytes, Option.map_some, Option.getD_some]; omega
  have h3 : 2 * contentBytes c + ((Http.insertArgs r e).pfx.map textBytes).getD 0 ≤
      utf8Length (JsonText.print (encContents r.chunkContents)) := by
    cases hr : r.chunkContents with
    | direct cs =>
      have hc' : c ∈ cs := by simpa [Http.insertArgs, hr] using hc
      have hp : (Http.insertArgs r e).pfx = none := by simp [Http.insertArgs, hr]
      rw [hp]
      have h4 := HttpText.printElems_contents cs
      have h5 := mem_le_sum (fun c : Content => (c.map List.length).getD 0) hc'
      refine Nat.le_trans ?_ (length_le_utf8Length _)
      simp only [encContents, encList, JsonText.print, printFields, List.length_append, List.length_cons, contentBytes,
        Option.map_none, Option.getD_none] at *
      omega
    | seeObjectStorage p n =>
      have hc' : c = none := by
        have : c ∈ List.replicate n none := by simpa [Http.insertArgs, hr] using hc
        exact (List.mem_replicate.1 this).2
      have hp : (Http.insertArgs r e).pfx = some p := by simp [Http.insertArgs, hr]
      rw [hp, hc']
      have h4 := printStr_ge p
      simp only [encContents, encStr, JsonText.print, printFields, utf8Length_append, utf8Length_cons, contentBytes,
        Option.map_none, Option.map_some, Option.getD_none, Option.getD_some]
      omega
  have k1 := printStr_ge "metadata"
  unfold encInsert
  simp only [encMap, JsonText.print, printFields, utf8Length_append, utf8Length_cons] at *
  omega

/-- A chunk with its submission, as it comes from a request, takes at most six fifths of it. -/
theorem pair_of_request {r : InsertSubmission} {e : Http.ServerEnv} {p : ChunkRow × Submission} (hf : InsertFits r)
    (hl : utf8Length (requestText (.insert r)).body ≤ 2097152) (ho : textBytes e.otel ≤ 65536)
    (h1 : p.1.inputContent ∈ (Http.insertArgs r e).contents) (h2 : p.2.pfx = (Http.insertArgs r e).pfx)
    (h3 : p.2.metadata = (Http.insertArgs r e).metadata) (h4 : p.2.strategic = (Http.insertArgs r e).strategic)
    (h5 : p.2.otel = (Http.insertArgs r e).otel) : (write (encPair p)).length ≤ 2582600 := by
  have g1 := request_ge r e _ h1
  have g2 := write_pair p
  have e3 : p.2.metadata = r.metadata := h3
  have e4 : p.2.strategic = lastOfEach r.strategic := h4
  have e5 : p.2.otel = e.otel := h5
  rw [e3, e4, e5, h2] at g2
  have g3 := sum_lastOfEach (fun kv => 6 * (textBytes kv.1 + 4 + utf8Length (JsonText.print (encInt kv.2)))) r.strategic
  have g4 : ((lastOfEach r.strategic).map fun kv => 5 * ((writeText kv.1).length + (write (encInt kv.2)).length)).sum ≤
      ((lastOfEach r.strategic).map fun kv => 6 * (textBytes kv.1 + 4 + utf8Length (JsonText.print (encInt kv.2)))).sum := by
    refine sum_le _ _ _ fun kv hkv => ?_
    have hm := mem_lastOfEach hkv
    have k1 := write_num_le_print (hf.2.1 kv hm)
    have k2 := mem_le_sum (fun kv : String × Int => textBytes kv.1 + 4 + utf8Length (JsonText.print (encInt kv.2))) hm
    have k3 := writeText_small (s := kv.1) (by omega)
    have k4 : (write (encInt kv.2)).length = (write (.num kv.2)).length := rfl
    omega
  rw [sum_mul, sum_mul] at g4
  rw [sum_mul, sum_mul] at g3
  omega

end Opsqueue.Frames
