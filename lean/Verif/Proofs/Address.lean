import Verif.Spec.Address
import Verif.Proofs.Http

/-! # Lemmas about addresses -/

namespace Opsqueue.Address
open Http (Seg isSep)

/-- No two slashes in a row. -/
def noDouble : List Char → Bool
  | [] => true
  | c :: cs => !("//".toList.isPrefixOf (c :: cs)) && noDouble cs

theorem splitOnce_none : ∀ {t : List Char}, noDouble t = true → splitOnce t = none
  | [], _ => rfl
  | c :: cs, h => by
    rw [noDouble, Bool.and_eq_true] at h
    have hn : ("://".toList.isPrefixOf (c :: cs)) = false := by
      cases hb : "://".toList.isPrefixOf (c :: cs) with
      | false => rfl
      | true =>
        exfalso
        have h2 := h.2
        simp [List.isPrefixOf] at hb
        obtain ⟨_, hb⟩ := hb
        cases cs with
        | nil => simp at hb
        | cons d ds =>
          rw [noDouble, Bool.and_eq_true] at h2
          obtain ⟨h3, _⟩ := h2
          have : "//".toList.isPrefixOf (d :: ds) = true := by
            simpa [List.isPrefixOf] using hb
          rw [this] at h3
          cases h3
    rw [splitOnce, hn, splitOnce_none h.2]
    rfl

theorem splitOnce_scheme : ∀ (s r : List Char), ':' ∉ s → splitOnce (s ++ "://".toList ++ r) = some (s, r)
  | [], r, _ => by simp [splitOnce, List.isPrefixOf]
  | c :: s, r, h => by
    have hc : c ≠ ':' := fun e => h (by rw [e]; simp)
    have hn : ("://".toList.isPrefixOf (c :: (s ++ "://".toList ++ r))) = false := by
      simp [List.isPrefixOf, Ne.symm hc]
    have ih := splitOnce_scheme s r fun hm => h (by simp [hm])
    rw [List.cons_append, List.cons_append, splitOnce, hn, ih]
    rfl

theorem noDouble_append : ∀ {a : List Char} (d : List Char), '/' ∉ a → noDouble d = true → noDouble (a ++ d) = true
  | [], _, _, h => h
  | c :: a, d, ha, h => by
    have hc : c ≠ '/' := fun e => ha (by rw [e]; simp)
    rw [List.cons_append, noDouble, noDouble_append d (fun hm => ha (by simp [hm])) h]
    simp [List.isPrefixOf, Ne.symm hc]

theorem noDouble_slash {s : List Char} (d : List Char) (hs : '/' ∉ s) (hne : s ≠ []) (h : noDouble d = true) :
    noDouble ('/' :: (s ++ d)) = true := by
  have h2 := noDouble_append d hs h
  cases s with
  | nil => exact absurd rfl hne
  | cons c s =>
    have hc : c ≠ '/' := fun e => hs (by rw [e]; simp)
    rw [noDouble, h2]
    simp [List.isPrefixOf, Ne.symm hc]

theorem PlainText.noSlash {t : List Char} (h : PlainText t) : '/' ∉ t := fun hm => by
  have := (h.2 _ hm).1
  simp at this

theorem PlainText.char {t : List Char} (h : PlainText t) {c : Char} (hc : c ∈ t) :
    isSep c = false ∧ c ≠ '?' ∧ c ≠ '#' ∧ c ≠ '/' ∧ Http.PlainChar c := by
  obtain ⟨hn, hl⟩ := h.2 c hc
  simp only [List.mem_cons, not_or] at hn
  exact ⟨by simp [isSep, hn.1, hn.2.1], hn.2.2.1, hn.2.2.2.1, hn.1, hl, hn.2.2.1, hn.2.2.2.1⟩

theorem noDouble_dir : ∀ {dir : List Seg}, (∀ s ∈ dir, PlainText s) → ∀ d, noDouble d = true →
    noDouble (dir.flatMap ('/' :: ·) ++ d) = true
  | [], _, _, h => h
  | s :: dir, hd, d, h => by
    rw [List.flatMap_cons, List.cons_append, List.cons_append, List.append_assoc]
    exact noDouble_slash _ (hd s (by simp)).noSlash (hd s (by simp)).1
      (noDouble_dir (fun s hs => hd s (by simp [hs])) d h)

/-- The path of an address, without its first slash, and what is added to it. -/
def under (dir : List Seg) (t : List Char) : List Char := dir.foldr (fun s t => s ++ '/' :: t) t

theorem under_eq (dir : List Seg) (t : List Char) : dir.flatMap ('/' :: ·) ++ '/' :: t = '/' :: under dir t := by
  induction dir with
  | nil => rfl
  | cons s dir ih =>
    rw [List.flatMap_cons, List.append_assoc, ih]
    rfl

theorem splitPath_under {dir : List Seg} (h : ∀ s ∈ dir, PlainText s) (t : List Char) :
    Http.splitPath (under dir t) = dir ++ Http.splitPath t := by
  induction dir with
  | nil => rfl
  | cons s dir ih =>
    show Http.splitPath (s ++ '/' :: under dir t) = _
    rw [Http.splitPath_append _ _ fun c hc => ((h s (by simp)).char hc).1, ih fun s hs => h s (by simp [hs])]
    rfl

theorem plain_under {dir : List Seg} (h : ∀ s ∈ dir, PlainText s) {t : List Char} (ht : ∀ c ∈ t, Http.PlainChar c) :
    ∀ c ∈ under dir t, Http.PlainChar c := by
  induction dir with
  | nil => exact ht
  | cons s dir ih =>
    intro c hc
    rcases List.mem_append.1 hc with hc | hc
    · exact ((h s (by simp)).char hc).2.2.2.2
    · rcases List.mem_cons.1 hc with rfl | hc
      · decide
      · exact ih (fun s hs => h s (by simp [hs])) c hc

/-- No segment is a dot or two. -/
def NoDots (segs : List Seg) : Prop := ∀ s ∈ segs, s ≠ ['.'] ∧ s ≠ ['.', '.']

theorem resolve_noDots : ∀ {segs : List Seg}, NoDots segs → ∀ acc, Http.resolve acc segs = acc ++ segs
  | [], _, acc => by simp [Http.resolve]
  | [s], h, acc => by
    obtain ⟨h1, h2⟩ := h s (by simp)
    simp [Http.resolve, h1, h2]
  | s :: s' :: segs, h, acc => by
    obtain ⟨h1, h2⟩ := h s (by simp)
    rw [Http.resolve, if_neg h1, if_neg h2, resolve_noDots (fun s hs => h s (by simp [hs]))]
    · simp
    · simp

/-- The path of a call has ordinary characters and no dots. -/
theorem pathText_plain {c : Http.Call} (hc : PlainCall c) :
    (∀ x ∈ Http.pathText c, Http.PlainChar x) ∧ NoDots (Http.splitPath (Http.pathText c)) := by
  have tail : ∀ (l : List Char) (segs : List Seg) (x : List Char), (∀ c ∈ l, Http.PlainChar c) → (∀ c ∈ x, Http.PlainChar c) →
      (∀ c ∈ x, isSep c = false) → x ≠ ['.'] → x ≠ ['.', '.'] → NoDots segs →
      Http.splitPath (l ++ x) = segs ++ [x] →
      (∀ c ∈ l ++ x, Http.PlainChar c) ∧ NoDots (Http.splitPath (l ++ x)) := by
    intro l segs x hl hx _ h1 h2 hs he
    refine ⟨fun c hc => ?_, fun s hm => ?_⟩
    · rcases List.mem_append.1 hc with h | h
      · exact hl c h
      · exact hx c h
    · rw [he] at hm
      rcases List.mem_append.1 hm with h | h
      · exact hs s h
      · rw [List.mem_singleton.1 h]
        exact ⟨h1, h2⟩
  have s1 : ∀ c ∈ "producer".toList, isSep c = false := by decide +kernel
  have s2 : ∀ c ∈ "submissions".toList, isSep c = false := by decide +kernel
  have s3 : ∀ c ∈ "cancel".toList, isSep c = false := by decide +kernel
  have s4 : ∀ c ∈ "lookup_id_by_prefix".toList, isSep c = false := by decide +kernel
  have id (n : Nat) : (∀ c ∈ Decimal.decimal n, Http.PlainChar c) ∧ (∀ c ∈ Decimal.decimal n, isSep c = false) :=
    ⟨fun c hc => Http.plain_digit (Decimal.decimal_isDigit n c hc), fun c hc => Http.isSep_digit (Decimal.decimal_isDigit n c hc)⟩
  cases c with
  | count => exact ⟨by decide +kernel, by unfold NoDots; decide +kernel⟩
  | insert r =>
    have h : (∀ x ∈ "producer/submissions".toList, Http.PlainChar x) ∧
        ∀ s ∈ Http.splitPath "producer/submissions".toList, s ≠ ['.'] ∧ s ≠ ['.', '.'] := by decide +kernel
    exact h
  | lookup m =>
    have h : (∀ x ∈ "producer/submissions/lookup_ids_by_strategic_metadata".toList, Http.PlainChar x) ∧
        ∀ s ∈ Http.splitPath "producer/submissions/lookup_ids_by_strategic_metadata".toList, s ≠ ['.'] ∧ s ≠ ['.', '.'] := by
      decide +kernel
    exact h
  | version => exact ⟨by decide +kernel, by unfold NoDots; decide +kernel⟩
  | cancel n =>
    refine tail _ ["producer".toList, "submissions".toList, "cancel".toList] _ (by decide +kernel) (id n).1 (id n).2
      (Http.decimal_ne_dots n).1 (Http.decimal_ne_dots n).2 (by unfold NoDots; decide +kernel) ?_
    have e2 : "producer/submissions/cancel/".toList ++ Decimal.decimal n =
        "producer".toList ++ '/' :: ("submissions".toList ++ '/' :: ("cancel".toList ++ '/' :: Decimal.decimal n)) := by simp
    rw [e2, Http.splitPath_append _ _ s1, Http.splitPath_append _ _ s2, Http.splitPath_append _ _ s3,
      Http.splitPath_noSep (id n).2]
    rfl
  | get n =>
    refine tail _ ["producer".toList, "submissions".toList] _ (by decide +kernel) (id n).1 (id n).2
      (Http.decimal_ne_dots n).1 (Http.decimal_ne_dots n).2 (by unfold NoDots; decide +kernel) ?_
    have e2 : "producer/submissions/".toList ++ Decimal.decimal n =
        "producer".toList ++ '/' :: ("submissions".toList ++ '/' :: Decimal.decimal n) := by simp
    rw [e2, Http.splitPath_append _ _ s1, Http.splitPath_append _ _ s2, Http.splitPath_noSep (id n).2]
    rfl
  | lookupPrefix p =>
    obtain ⟨_, h1, h2, hch⟩ := hc p rfl
    have t : ∀ q : String, p ≠ q → p.toList ≠ q.toList := by
      intro q hq he
      apply hq
      rw [← String.ofList_toList (s := p), he, String.ofList_toList]
    have hp : ∀ c ∈ p.toList, Http.PlainChar c := by
      intro c hm
      obtain ⟨hn, hs⟩ := hch c hm
      simp only [List.mem_cons, not_or] at hn
      exact ⟨hs, hn.1, hn.2.1⟩
    have hs : ∀ c ∈ p.toList, isSep c = false := by
      intro c hm
      obtain ⟨hn, _⟩ := hch c hm
      simp only [List.mem_cons, not_or] at hn
      simp [isSep, hn.2.2.1, hn.2.2.2.1]
    refine tail _ ["producer".toList, "submissions".toList, "lookup_id_by_prefix".toList] _ (by decide +kernel) hp hs
      (by have := t "." h1; simpa using this) (by have := t ".." h2; simpa using this) (by unfold NoDots; decide +kernel) ?_
    have e2 : "producer/submissions/lookup_id_by_prefix/".toList ++ p.toList =
        "producer".toList ++ '/' :: ("submissions".toList ++ '/' :: ("lookup_id_by_prefix".toList ++ '/' :: p.toList)) := by simp
    rw [e2, Http.splitPath_append _ _ s1, Http.splitPath_append _ _ s2, Http.splitPath_append _ _ s4,
      Http.splitPath_noSep hs]
    rfl

theorem urlPath_under {dir : List Seg} (h : ∀ s ∈ dir, PlainText s ∧ s ≠ ".".toList ∧ s ≠ "..".toList) {c : Http.Call}
    (hc : PlainCall c) : Http.urlPath (under dir (Http.pathText c)) = dir ++ (Http.request c).path := by
  obtain ⟨hp, hd⟩ := pathText_plain hc
  have hdir : ∀ s ∈ dir, PlainText s := fun s hs => (h s hs).1
  show _ = dir ++ Http.urlPath (Http.pathText c)
  rw [Http.urlPath_plain (plain_under hdir hp), Http.urlPath_plain hp, splitPath_under hdir, resolve_noDots hd, resolve_noDots]
  · simp
  · intro s hs
    rcases List.mem_append.1 hs with hs | hs
    · have := (h s hs).2
      exact ⟨by simpa using this.1, by simpa using this.2⟩
    · exact hd s hs

/-- A slash at the end of the address: an empty segment. -/
theorem urlPath_under_slash {c : Http.Call} (hc : PlainCall c) :
    Http.urlPath ('/' :: Http.pathText c) = [] :: (Http.request c).path := by
  obtain ⟨hp, hd⟩ := pathText_plain hc
  show _ = [] :: Http.urlPath (Http.pathText c)
  have hp2 : ∀ x ∈ '/' :: Http.pathText c, Http.PlainChar x := by
    intro x hx
    rcases List.mem_cons.1 hx with rfl | hx
    · decide
    · exact hp x hx
  have e : Http.splitPath ('/' :: Http.pathText c) = [] :: Http.splitPath (Http.pathText c) := by
    rw [Http.splitPath, if_pos (by decide)]
  rw [Http.urlPath_plain hp2, Http.urlPath_plain hp, e, resolve_noDots hd, resolve_noDots]
  · rfl
  · intro s hs
    rcases List.mem_cons.1 hs with rfl | hs
    · decide
    · exact hd s hs

private theorem takeWhile_stop {p : Char → Bool} {a : List Char} {x : Char} {r : List Char} (ha : ∀ c ∈ a, p c = true)
    (hx : p x = false) : (a ++ x :: r).takeWhile p = a ∧ (a ++ x :: r).dropWhile p = x :: r := by
  induction a with
  | nil => simp [hx]
  | cons c a ih =>
    have hc := ha c (by simp)
    obtain ⟨h1, h2⟩ := ih fun c hc => ha c (by simp [hc])
    constructor
    · rw [List.cons_append, List.takeWhile_cons, if_pos hc, h1]
    · rw [List.cons_append, List.dropWhile_cons, if_pos hc, h2]

theorem readUrl_eq {s a t : List Char} (hs : ':' ∉ s) (ha : PlainText a) :
    readUrl (s ++ "://".toList ++ (a ++ '/' :: t)) = some ⟨s, a, Http.urlPath t⟩ := by
  have hd : (a ++ '/' :: t).dropWhile isSep = a ++ '/' :: t := by
    cases a with
    | nil => exact absurd rfl ha.1
    | cons c a =>
      rw [List.cons_append, List.dropWhile_cons, if_neg]
      rw [(ha.char (c := c) (by simp)).1]
      simp
  have hw := takeWhile_stop (p := fun c => !(isSep c || c == '?' || c == '#')) (a := a) (x := '/') (r := t)
    (fun c hc => by
      obtain ⟨h1, h2, h3, _⟩ := ha.char hc
      simp [h1, h2, h3])
    (by decide)
  unfold readUrl
  rw [splitOnce_scheme _ _ hs]
  simp only [hd, hw.1, hw.2]
  rfl

theorem readUri_eq {s a t : List Char} (hs : ':' ∉ s) (ha : ∀ c ∈ a, c ≠ '/' ∧ c ≠ '?' ∧ c ≠ '#')
    (ht : ∀ c ∈ t, c ≠ '?' ∧ c ≠ '#') :
    readUri (s ++ "://".toList ++ (a ++ '/' :: t)) = some ⟨s, a, Http.splitPath t⟩ := by
  have hw := takeWhile_stop (p := fun c => c != '/' && c != '?' && c != '#') (a := a) (x := '/') (r := t)
    (fun c hc => by
      obtain ⟨h1, h2, h3⟩ := ha c hc
      simp [h1, h2, h3])
    (by decide)
  have htt : t.takeWhile (fun c => c != '?' && c != '#') = t := by
    have : ∀ c ∈ t, (fun c => c != '?' && c != '#') c = true := fun c hc => by
      obtain ⟨h1, h2⟩ := ht c hc
      simp [h1, h2]
    clear hw ht
    induction t with
    | nil => rfl
    | cons c t ih =>
      rw [List.takeWhile_cons_of_pos (p := fun c => c != '?' && c != '#') (this c (by simp)),
        ih fun d hd => this d (by simp [hd])]
  unfold readUri
  rw [splitOnce_scheme _ _ hs]
  simp only [hw.1, hw.2, htt]

end Opsqueue.Address
