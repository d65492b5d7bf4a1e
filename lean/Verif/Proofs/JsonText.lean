import Verif.Model.JsonText
import Verif.Spec.JsonText
import Verif.Proofs.Endpoints
import Verif.Proofs.Times

/-! # The parser reads exactly the texts of the grammar, and the printer writes some of them -/

namespace Opsqueue.JsonText
open Wire
open Decimal (digitChar decimal parseLoop digit?)

/-! ## White space -/

theorem isBlank_iff {c : Char} : isBlank c = true ↔ c = ' ' ∨ c = '\t' ∨ c = '\n' ∨ c = '\r' := by
  unfold isBlank
  simp [or_assoc]

theorem skip_blank {w : List Char} (hw : Blank w) (s : List Char) : skip (w ++ s) = skip s := by
  unfold skip
  induction w with
  | nil => rfl
  | cons c w ih =>
    rw [List.cons_append, List.dropWhile_cons, if_pos (isBlank_iff.2 (hw c (by simp)))]
    exact ih fun d hd => hw d (by simp [hd])

theorem skip_cons {c : Char} (h : isBlank c = false) (s : List Char) : skip (c :: s) = c :: s := by
  unfold skip
  rw [List.dropWhile_cons, if_neg (by simp [h])]

theorem skip_split (s : List Char) : ∃ w, Blank w ∧ s = w ++ skip s := by
  induction s with
  | nil => exact ⟨[], by simp [Blank], rfl⟩
  | cons c s ih =>
    by_cases h : isBlank c = true
    · obtain ⟨w, hw, e⟩ := ih
      refine ⟨c :: w, ?_, ?_⟩
      · intro d hd
        rcases List.mem_cons.1 hd with rfl | hd
        · exact isBlank_iff.1 h
        · exact hw d hd
      · unfold skip at e ⊢
        rw [List.dropWhile_cons, if_pos h, List.cons_append, ← e]
    · exact ⟨[], by simp [Blank], by rw [skip_cons (by simpa using h)]; rfl⟩

theorem skip_blank_nil {w : List Char} (hw : Blank w) : skip w = [] := by
  have := skip_blank hw []
  rw [List.append_nil] at this
  rw [this]; rfl

theorem blank_of_skip {s : List Char} (h : skip s = []) : Blank s := by
  obtain ⟨w, hw, e⟩ := skip_split s
  rw [h, List.append_nil] at e
  rw [e]; exact hw

/-! ## Strings -/

theorem hex4_iff {a b c d : Char} {n : Nat} : hex4 a b c d = some n ↔ Hex4 [a, b, c, d] n := by
  unfold hex4 Hex4
  constructor
  · intro h
    obtain ⟨x, h1, h⟩ := Option.bind_eq_some_iff.1 h
    obtain ⟨y, h2, h⟩ := Option.bind_eq_some_iff.1 h
    obtain ⟨z, h3, h⟩ := Option.bind_eq_some_iff.1 h
    obtain ⟨w, h4, h⟩ := Option.bind_eq_some_iff.1 h
    cases h
    exact ⟨a, b, c, d, x, y, z, w, rfl, Http.hex?_iff.1 h1, Http.hex?_iff.1 h2, Http.hex?_iff.1 h3, Http.hex?_iff.1 h4, rfl⟩
  · rintro ⟨p, q, r, t, x, y, z, w, h, h1, h2, h3, h4, rfl⟩
    injection h with e1 h; injection h with e2 h; injection h with e3 h; injection h with e4 h
    subst e1 e2 e3 e4
    rw [Http.hex?_iff.2 h1, Http.hex?_iff.2 h2, Http.hex?_iff.2 h3, Http.hex?_iff.2 h4]
    rfl

theorem unescape_iff {e c : Char} : unescape e = some c ↔ (e, c) ∈ shortEscapes := by
  unfold unescape shortEscapes
  constructor
  · intro h
    repeat' split at h
    all_goals first | (cases h; subst_vars; decide) | cases h
  · intro h
    simp only [List.mem_cons, Prod.mk.injEq, List.not_mem_nil, or_false] at h
    rcases h with h | h | h | h | h | h | h | h
    all_goals (obtain ⟨rfl, rfl⟩ := h; decide)

theorem strBody_complete {b out : List Char} (h : Chars b out) (r : List Char) :
    strBody (b ++ '"' :: r) = some (out, r) := by
  induction h with
  | nil => rw [List.nil_append, strBody.eq_def]; simp
  | @plain c s out h1 h2 h3 _ ih =>
    rw [List.cons_append, strBody.eq_def]
    dsimp only
    rw [if_neg h2, if_neg h3, if_neg (by omega), ih]
    rfl
  | @short e c s out he _ ih =>
    have hu : e ≠ 'u' := by
      rintro rfl
      revert he; simp [shortEscapes]
    rw [List.cons_append, List.cons_append, strBody.eq_def]
    dsimp only
    rw [if_neg (by decide), if_pos rfl]
    rw [if_neg hu, unescape_iff.2 he]
    dsimp only
    rw [ih]; rfl
  | @code x s out n hx hn _ ih =>
    obtain ⟨p, q, r', t, a, b, c, d, rfl, _⟩ := id hx
    simp only [List.cons_append, List.nil_append]
    rw [strBody.eq_def]
    dsimp only
    rw [if_neg (by decide), if_pos rfl, if_pos rfl, hex4_iff.2 hx]
    dsimp only
    rw [if_neg (by omega), if_neg (by omega), ih]; rfl
  | @pair x y s out m n hx hm hy hn _ ih =>
    obtain ⟨p, q, r', t, a, b, c, d, rfl, _⟩ := id hx
    obtain ⟨p', q', r'', t', a', b', c', d', rfl, _⟩ := id hy
    simp only [List.cons_append, List.nil_append]
    rw [strBody.eq_def]
    dsimp only
    rw [if_neg (by decide), if_pos rfl, if_pos rfl, hex4_iff.2 hx]
    dsimp only
    rw [if_neg (by omega), if_pos hm, if_pos ⟨rfl, rfl⟩, hex4_iff.2 hy]
    dsimp only
    rw [if_pos hn, ih]; rfl

theorem strBody_sound (n : Nat) : ∀ {s out r : List Char}, s.length ≤ n → strBody s = some (out, r) →
    ∃ b, s = b ++ '"' :: r ∧ Chars b out := by
  induction n with
  | zero =>
    intro s out r hl h
    cases s with
    | nil => simp [strBody] at h
    | cons => simp at hl
  | succ n ih =>
    intro s out r hl h
    have step : ∀ (t : List Char) (c : Char), t.length ≤ n →
        ((strBody t).map fun p => (c :: p.1, p.2)) = some (out, r) →
        ∃ b o, out = c :: o ∧ t = b ++ '"' :: r ∧ Chars b o := by
      intro t c ht hs
      obtain ⟨⟨o, r'⟩, h1, h2⟩ := Option.map_eq_some_iff.1 hs
      cases h2
      obtain ⟨b, e, hb⟩ := ih ht h1
      exact ⟨b, o, rfl, e, hb⟩
    cases s with
    | nil => simp [strBody] at h
    | cons x s =>
      rw [strBody.eq_def] at h
      dsimp only at h
      simp only [List.length_cons] at hl
      split at h
      · rename_i hx
        cases h; subst hx
        exact ⟨[], rfl, .nil⟩
      · rename_i hq
        split at h
        · rename_i hx
          subst hx
          split at h
          · cases h
          · rename_i e s
            simp only [List.length_cons] at hl
            split at h
            · rename_i he
              subst he
              split at h
              · rename_i a b c d s
                simp only [List.length_cons] at hl
                split at h
                · cases h
                · rename_i m hm
                  have hm := hex4_iff.1 hm
                  split at h
                  · cases h
                  · rename_i h1
                    split at h
                    · rename_i h2
                      split at h
                      · rename_i z u a' b' c' d' s
                        simp only [List.length_cons] at hl
                        split at h
                        · rename_i hz
                          obtain ⟨rfl, rfl⟩ := hz
                          split at h
                          · cases h
                          · rename_i k hk
                            have hk := hex4_iff.1 hk
                            split at h
                            · rename_i h3
                              obtain ⟨b, o, rfl, rfl, hb⟩ := step _ _ (by omega) h
                              exact ⟨_, rfl, Chars.pair hm h2 hk h3 hb⟩
                            · cases h
                        · cases h
                      · cases h
                    · obtain ⟨b, o, rfl, rfl, hb⟩ := step _ _ (by omega) h
                      exact ⟨_, rfl, Chars.code hm (by omega) hb⟩
              · cases h
            · split at h
              · cases h
              · rename_i c hc
                obtain ⟨b, o, rfl, rfl, hb⟩ := step _ _ (by omega) h
                exact ⟨_, rfl, Chars.short (unescape_iff.1 hc) hb⟩
        · rename_i hb
          split at h
          · cases h
          · obtain ⟨b, o, rfl, rfl, hb'⟩ := step _ _ (by omega) h
            exact ⟨_, rfl, Chars.plain (by omega) hq hb hb'⟩

theorem quoted_of_chars {b out : List Char} (h : Chars b out) : Quoted b := by
  induction h with
  | nil => exact .nil
  | plain h1 h2 h3 _ ih => exact .plain h1 h2 h3 ih
  | short he _ ih => exact .short he ih
  | code hx _ _ ih => exact .code hx ih
  | pair hx _ hy _ _ ih => exact .code hx (.code hy ih)

theorem skipBody_complete {b : List Char} (h : Quoted b) (r : List Char) : skipBody (b ++ '"' :: r) = some r := by
  induction h with
  | nil => rw [List.nil_append, skipBody.eq_def]; simp
  | @plain c s h1 h2 h3 _ ih =>
    rw [List.cons_append, skipBody.eq_def]
    dsimp only
    rw [if_neg h2, if_neg h3, if_neg (by omega), ih]
  | @short e c s he _ ih =>
    have hu : e ≠ 'u' := by
      rintro rfl
      revert he; simp [shortEscapes]
    rw [List.cons_append, List.cons_append, skipBody.eq_def]
    dsimp only
    rw [if_neg (by decide), if_pos rfl]
    rw [if_neg hu, if_pos (by rw [unescape_iff.2 he]; rfl), ih]
  | @code x s n hx _ ih =>
    obtain ⟨p, q, r', t, a, b, c, d, rfl, _⟩ := id hx
    simp only [List.cons_append, List.nil_append]
    rw [skipBody.eq_def]
    dsimp only
    rw [if_neg (by decide), if_pos rfl, if_pos rfl, if_pos (by rw [hex4_iff.2 hx]; rfl), ih]

theorem skipBody_sound (n : Nat) : ∀ {s r : List Char}, s.length ≤ n → skipBody s = some r →
    ∃ b, s = b ++ '"' :: r ∧ Quoted b := by
  induction n with
  | zero =>
    intro s r hl h
    cases s with
    | nil => simp [skipBody] at h
    | cons => simp at hl
  | succ n ih =>
    intro s r hl h
    cases s with
    | nil => simp [skipBody] at h
    | cons x s =>
      rw [skipBody.eq_def] at h
      dsimp only at h
      simp only [List.length_cons] at hl
      split at h
      · rename_i hx
        cases h; subst hx
        exact ⟨[], rfl, .nil⟩
      · rename_i hq
        split at h
        · rename_i hx
          subst hx
          split at h
          · cases h
          · rename_i e s
            simp only [List.length_cons] at hl
            split at h
            · rename_i he
              subst he
              split at h
              · rename_i a b c d s
                simp only [List.length_cons] at hl
                split at h
                · rename_i hm
                  obtain ⟨m, hm⟩ := Option.isSome_iff_exists.1 hm
                  obtain ⟨b, rfl, hb⟩ := ih (by omega) h
                  exact ⟨_, rfl, Quoted.code (hex4_iff.1 hm) hb⟩
                · cases h
              · cases h
            · split at h
              · rename_i hc
                obtain ⟨c, hc⟩ := Option.isSome_iff_exists.1 hc
                obtain ⟨b, rfl, hb⟩ := ih (by omega) h
                exact ⟨_, rfl, Quoted.short (unescape_iff.1 hc) hb⟩
              · cases h
        · rename_i hb
          split at h
          · cases h
          · obtain ⟨b, rfl, hb'⟩ := ih (by omega) h
            exact ⟨_, rfl, Quoted.plain (by omega) hq hb hb'⟩

theorem strToken_complete {b : List Char} {o : Option (List Char)} (h : Str b o) (r : List Char) :
    strToken (b ++ '"' :: r) = some (o, r) := by
  unfold strToken
  cases o with
  | some t => rw [strBody_complete h]
  | none =>
    obtain ⟨hq, hn⟩ := h
    have h1 := skipBody_complete hq r
    cases hb : strBody (b ++ '"' :: r) with
    | none => dsimp only; rw [h1]; rfl
    | some p =>
      exfalso
      obtain ⟨o, r'⟩ := p
      obtain ⟨b', e, hb'⟩ := strBody_sound _ (Nat.le_refl _) hb
      have h2 := skipBody_complete (quoted_of_chars hb') r'
      rw [← e, h1] at h2
      injection h2 with h2
      subst h2
      exact hn o (List.append_cancel_right e ▸ hb')

theorem strToken_sound {s r : List Char} {o : Option (List Char)} (h : strToken s = some (o, r)) :
    ∃ b, s = b ++ '"' :: r ∧ Str b o := by
  unfold strToken at h
  cases hb : strBody s with
  | some p =>
    obtain ⟨t, r'⟩ := p
    rw [hb] at h
    cases h
    exact strBody_sound _ (Nat.le_refl _) hb
  | none =>
    rw [hb] at h
    obtain ⟨r', h1, h2⟩ := Option.map_eq_some_iff.1 h
    cases h2
    obtain ⟨b, rfl, hq⟩ := skipBody_sound _ (Nat.le_refl _) h1
    refine ⟨b, rfl, hq, fun t ht => ?_⟩
    rw [strBody_complete ht] at hb
    cases hb

/-! ## Numbers -/

theorem isDigit_iff {c : Char} : isDigit c = true ↔ Digit c := by
  unfold isDigit Digit
  simp

/-- The text does not go on with something that could be part of a number. -/
def NoCont (r : List Char) : Prop := ∀ c, r.head? = some c → ¬ Digit c ∧ c ≠ '.' ∧ c ≠ 'e' ∧ c ≠ 'E'

theorem takeWhile_digits {ds r : List Char} (hd : ∀ c ∈ ds, Digit c) (hr : ∀ c, r.head? = some c → ¬ Digit c) :
    (ds ++ r).takeWhile isDigit = ds ∧ (ds ++ r).dropWhile isDigit = r := by
  induction ds with
  | nil =>
    cases r with
    | nil => exact ⟨rfl, rfl⟩
    | cons c r =>
      have : isDigit c = false := by
        have := hr c rfl
        rw [← isDigit_iff] at this
        simpa using this
      simp [this]
  | cons c ds ih =>
    obtain ⟨h1, h2⟩ := ih fun d hd' => hd d (by simp [hd'])
    have : isDigit c = true := isDigit_iff.2 (hd c (by simp))
    simp [this, h1, h2]

theorem digits1_complete {ds r : List Char} (hne : ds ≠ []) (hd : ∀ c ∈ ds, Digit c)
    (hr : ∀ c, r.head? = some c → ¬ Digit c) : digits1 (ds ++ r) = some (ds, r) := by
  obtain ⟨h1, h2⟩ := takeWhile_digits hd hr
  unfold digits1
  rw [h1, h2, if_neg hne]

theorem digits1_sound {s ds r : List Char} (h : digits1 s = some (ds, r)) :
    s = ds ++ r ∧ ds ≠ [] ∧ ∀ c ∈ ds, Digit c := by
  unfold digits1 at h
  split at h
  · cases h
  · rename_i hne
    cases h
    refine ⟨(List.takeWhile_append_dropWhile).symm, hne, ?_⟩
    intro c hc
    rw [← isDigit_iff]
    clear hne
    induction s with
    | nil => simp at hc
    | cons x s ih =>
      rw [List.takeWhile_cons] at hc
      split at hc
      · rcases List.mem_cons.1 hc with rfl | hc
        · assumption
        · exact ih hc
      · simp at hc

theorem parseLoop_valueOf (ds : List Char) (hd : ∀ c ∈ ds, Digit c) (acc : Nat) :
    parseLoop acc ds = some (ds.foldl (fun a c => 10 * a + (c.toNat - '0'.toNat)) acc) := by
  induction ds generalizing acc with
  | nil => rfl
  | cons c ds ih =>
    have hc := hd c (by simp)
    unfold Digit at hc
    rw [show '0'.toNat = 48 from rfl, show '9'.toNat = 57 from rfl] at hc
    rw [parseLoop, digit?, if_pos hc]
    dsimp only
    rw [ih fun d h => hd d (by simp [h]), List.foldl_cons, show '0'.toNat = 48 from rfl, Nat.mul_comm acc 10]

/-- The decimals of a number. -/
def Frac (frac : List Char) : Prop := frac = [] ∨ ∃ ds, frac = '.' :: ds ∧ ds ≠ [] ∧ ∀ c ∈ ds, Digit c

/-- The exponent of a number. -/
def Exp (exp : List Char) : Prop :=
  exp = [] ∨ ∃ e pm ds, exp = e :: (pm ++ ds) ∧ (e = 'e' ∨ e = 'E') ∧ (pm = [] ∨ pm = ['+'] ∨ pm = ['-']) ∧
      ds ≠ [] ∧ ∀ c ∈ ds, Digit c

theorem fracPart_complete {frac r : List Char} (h : Frac frac)
    (hr : ∀ c, r.head? = some c → ¬ Digit c ∧ c ≠ '.') : fracPart (frac ++ r) = some (frac, r) := by
  rcases h with rfl | ⟨ds, rfl, hne, hd⟩
  · cases r with
    | nil => rfl
    | cons c r =>
      rw [List.nil_append, fracPart, if_neg (hr c rfl).2]
  · rw [List.cons_append, fracPart, if_pos rfl, digits1_complete hne hd fun c hc => (hr c hc).1]
    rfl

theorem fracPart_sound {s frac r : List Char} (h : fracPart s = some (frac, r)) : s = frac ++ r ∧ Frac frac := by
  cases s with
  | nil => cases h; exact ⟨rfl, .inl rfl⟩
  | cons c s =>
    rw [fracPart] at h
    split at h
    · rename_i hc
      obtain ⟨⟨ds, r'⟩, h1, h2⟩ := Option.map_eq_some_iff.1 h
      cases h2
      obtain ⟨e, h3, h4⟩ := digits1_sound h1
      exact ⟨by rw [hc, e]; rfl, .inr ⟨ds, rfl, h3, h4⟩⟩
    · cases h; exact ⟨rfl, .inl rfl⟩

theorem digit_ne {c x : Char} (h : Digit c) (hx : ¬ Digit x) : c ≠ x := by rintro rfl; exact hx h

theorem not_digit {x : Char} (h : x.toNat < 48 ∨ 57 < x.toNat) : ¬ Digit x := by
  unfold Digit
  rw [show '0'.toNat = 48 from rfl, show '9'.toNat = 57 from rfl]
  omega

theorem expPart_complete {exp r : List Char} (h : Exp exp) (hr : NoCont r) : expPart (exp ++ r) = some (exp, r) := by
  rcases h with rfl | ⟨e, pm, ds, rfl, he, hpm, hne, hd⟩
  · cases r with
    | nil => rfl
    | cons c r =>
      have := hr c rfl
      rw [List.nil_append, expPart, if_neg (by simp [this])]
  · rw [List.cons_append, expPart, if_pos he]
    have hs : signPart (pm ++ ds ++ r) = (pm, ds ++ r) := by
      rcases hpm with rfl | rfl | rfl
      · cases ds with
        | nil => exact absurd rfl hne
        | cons d ds =>
          have hd1 := hd d (by simp)
          rw [List.nil_append, List.cons_append, signPart, if_neg]
          rintro (h | h)
          · exact digit_ne hd1 (not_digit (by decide)) h
          · exact digit_ne hd1 (not_digit (by decide)) h
      · simp [signPart]
      · simp [signPart]
    rw [hs]
    dsimp only
    rw [digits1_complete hne hd fun c hc => (hr c hc).1]
    rfl

theorem signPart_sound (s : List Char) : s = (signPart s).1 ++ (signPart s).2 ∧
    ((signPart s).1 = [] ∨ (signPart s).1 = ['+'] ∨ (signPart s).1 = ['-']) := by
  cases s with
  | nil => exact ⟨rfl, .inl rfl⟩
  | cons c s =>
    rw [signPart]
    split
    · rename_i h
      rcases h with rfl | rfl
      · exact ⟨rfl, .inr (.inl rfl)⟩
      · exact ⟨rfl, .inr (.inr rfl)⟩
    · exact ⟨rfl, .inl rfl⟩

theorem expPart_sound {s exp r : List Char} (h : expPart s = some (exp, r)) : s = exp ++ r ∧ Exp exp := by
  cases s with
  | nil => cases h; exact ⟨rfl, .inl rfl⟩
  | cons c s =>
    rw [expPart] at h
    split at h
    · rename_i hc
      obtain ⟨⟨ds, r'⟩, h1, h2⟩ := Option.map_eq_some_iff.1 h
      cases h2
      obtain ⟨e, h3, h4⟩ := digits1_sound h1
      obtain ⟨e1, e2⟩ := signPart_sound s
      refine ⟨?_, .inr ⟨c, _, ds, rfl, hc, e2, h3, h4⟩⟩
      rw [List.cons_append, List.append_assoc, ← e, ← e1]
    · cases h; exact ⟨rfl, .inl rfl⟩

/-- What a number that has been taken apart means. -/
def meaning (neg : Bool) (int frac exp : List Char) : Json :=
  if frac = [] ∧ exp = [] then
    if neg then
      if 0 < valueOf int ∧ valueOf int ≤ 2 ^ 63 then .num (-(valueOf int : Int)) else .float (['-'] ++ int ++ frac ++ exp)
    else if valueOf int < 2 ^ 64 then .num (valueOf int) else .float (int ++ frac ++ exp)
  else .float ((if neg then ['-'] else []) ++ int ++ frac ++ exp)

theorem exp_head {exp : List Char} (h : Exp exp) : ∀ c, exp.head? = some c → c = 'e' ∨ c = 'E' := by
  intro c hc
  rcases h with rfl | ⟨e, pm, ds, rfl, he, _⟩
  · simp at hc
  · simp at hc; rw [← hc]; exact he

theorem frac_head {frac : List Char} (h : Frac frac) : ∀ c, frac.head? = some c → c = '.' := by
  intro c hc
  rcases h with rfl | ⟨ds, rfl, _⟩
  · simp at hc
  · simpa using hc.symm

theorem head?_append_cases {a b : List Char} {c : Char} (h : (a ++ b).head? = some c) :
    a.head? = some c ∨ a = [] ∧ b.head? = some c := by
  cases a with
  | nil => exact .inr ⟨rfl, h⟩
  | cons x a => exact .inl h

theorem unsigned_complete {neg : Bool} {int frac exp r : List Char} (h1 : int ≠ []) (h2 : ∀ c ∈ int, Digit c)
    (h3 : int.head? = some '0' → int = ['0']) (h4 : Frac frac) (h5 : Exp exp) (hr : NoCont r) :
    unsigned neg (int ++ (frac ++ (exp ++ r))) = some (meaning neg int frac exp, r) := by
  have hexp : ∀ c, (exp ++ r).head? = some c → ¬ Digit c ∧ c ≠ '.' := by
    intro c hc
    rcases head?_append_cases hc with hc | ⟨_, hc⟩
    · rcases exp_head h5 c hc with rfl | rfl
      · exact ⟨not_digit (by decide), by decide⟩
      · exact ⟨not_digit (by decide), by decide⟩
    · exact ⟨(hr c hc).1, (hr c hc).2.1⟩
  have hfrac : ∀ c, (frac ++ (exp ++ r)).head? = some c → ¬ Digit c := by
    intro c hc
    rcases head?_append_cases hc with hc | ⟨_, hc⟩
    · rw [frac_head h4 c hc]
      exact not_digit (by decide)
    · exact (hexp c hc).1
  unfold unsigned
  rw [digits1_complete h1 h2 hfrac]
  simp only [Option.bind_eq_bind, Option.bind_some]
  rw [if_neg (by rintro ⟨a, b⟩; exact b (h3 a)), fracPart_complete h4 hexp]
  simp only [Option.bind_some]
  rw [expPart_complete h5 hr]
  simp only [Option.bind_some]
  rw [parseLoop_valueOf int h2]
  simp only [Option.bind_some]
  unfold meaning
  show _ = some (if frac = [] ∧ exp = [] then _ else _, r)
  change (if frac = [] ∧ exp = [] then
    if neg then if 0 < valueOf int ∧ valueOf int ≤ 2 ^ 63 then _ else _
    else if valueOf int < 2 ^ 64 then _ else _ else _) = _
  cases neg
  all_goals
    repeat' split
    all_goals first | rfl | simp_all

theorem number_meaning {neg : Bool} {int frac exp : List Char} (h1 : int ≠ []) (h2 : ∀ c ∈ int, Digit c)
    (h3 : int.head? = some '0' → int = ['0']) (h4 : Frac frac) (h5 : Exp exp) :
    Number ((if neg then ['-'] else []) ++ int ++ frac ++ exp) (meaning neg int frac exp) := by
  refine ⟨if neg then ['-'] else [], int, frac, exp, rfl, by cases neg <;> simp, h1, h2, h3, h4, h5, ?_⟩
  unfold meaning
  cases neg
  · by_cases h : frac = [] ∧ exp = []
    · by_cases h' : valueOf int < 2 ^ 64
      · exact .inl ⟨by simp [h, h'], h.1, h.2, by simp, h'⟩
      · exact .inr (.inr ⟨by simp [h, h'], by rintro ⟨_, _, ⟨_, x⟩ | ⟨x, _⟩⟩; exact h' x; simp at x⟩)
    · exact .inr (.inr ⟨by rw [if_neg h], fun x => h ⟨x.1, x.2.1⟩⟩)
  · by_cases h : frac = [] ∧ exp = []
    · by_cases h' : 0 < valueOf int ∧ valueOf int ≤ 2 ^ 63
      · exact .inr (.inl ⟨by rw [if_pos h, if_pos rfl, if_pos h'], h.1, h.2, by simp, h'.1, h'.2⟩)
      · exact .inr (.inr ⟨by rw [if_pos h, if_pos rfl, if_neg h']; rfl,
          by rintro ⟨_, _, ⟨x, _⟩ | ⟨_, x⟩⟩; simp at x; exact h' x⟩)
    · exact .inr (.inr ⟨by rw [if_neg h], fun x => h ⟨x.1, x.2.1⟩⟩)

/-- A number has one meaning, once it is taken apart. -/
theorem meaning_of_number {s : List Char} {j : Json} (h : Number s j) : ∃ neg int frac exp,
    s = (if neg then ['-'] else []) ++ int ++ frac ++ exp ∧ int ≠ [] ∧ (∀ c ∈ int, Digit c) ∧
    (int.head? = some '0' → int = ['0']) ∧ Frac frac ∧ Exp exp ∧ j = meaning neg int frac exp := by
  obtain ⟨sign, int, frac, exp, rfl, hs, h1, h2, h3, h4, h5, h6⟩ := h
  rcases hs with rfl | rfl
  · refine ⟨false, int, frac, exp, by simp, h1, h2, h3, h4, h5, ?_⟩
    unfold meaning
    rcases h6 with ⟨rfl, e1, e2, _, h⟩ | ⟨_, _, _, e, _⟩ | ⟨rfl, h⟩
    · rw [if_pos ⟨e1, e2⟩, if_neg (by decide), if_pos h]
    · simp at e
    · by_cases hf : frac = [] ∧ exp = []
      · rw [if_pos hf, if_neg (by decide), if_neg (fun x => h ⟨hf.1, hf.2, .inl ⟨rfl, x⟩⟩)]; rfl
      · rw [if_neg hf]; rfl
  · refine ⟨true, int, frac, exp, by simp, h1, h2, h3, h4, h5, ?_⟩
    unfold meaning
    rcases h6 with ⟨_, _, _, e, _⟩ | ⟨rfl, e1, e2, _, h⟩ | ⟨rfl, h⟩
    · simp at e
    · rw [if_pos ⟨e1, e2⟩, if_pos rfl, if_pos h]
    · by_cases hf : frac = [] ∧ exp = []
      · rw [if_pos hf, if_pos rfl, if_neg (fun x => h ⟨hf.1, hf.2, .inr ⟨rfl, x⟩⟩)]
      · rw [if_neg hf]; rfl

theorem number_complete {s r : List Char} {j : Json} (h : Number s j) (hr : NoCont r) : number (s ++ r) = some (j, r) := by
  obtain ⟨neg, int, frac, exp, rfl, h1, h2, h3, h4, h5, rfl⟩ := meaning_of_number h
  have := unsigned_complete (neg := neg) h1 h2 h3 h4 h5 hr
  cases neg
  · cases int with
    | nil => exact absurd rfl h1
    | cons c int =>
      have hc : c ≠ '-' := digit_ne (h2 c (by simp)) (not_digit (by decide))
      simp only [Bool.false_eq_true, if_false, List.nil_append, List.cons_append, List.append_assoc] at this ⊢
      rw [number, if_neg hc]
      exact this
  · simp only [if_true, List.cons_append, List.nil_append, List.append_assoc] at this ⊢
    rw [number, if_pos rfl]
    exact this

theorem unsigned_sound {neg : Bool} {s r : List Char} {j : Json} (h : unsigned neg s = some (j, r)) :
    ∃ a, s = a ++ r ∧ Number ((if neg then ['-'] else []) ++ a) j := by
  unfold unsigned at h
  obtain ⟨⟨int, r1⟩, h1, h'⟩ := Option.bind_eq_some_iff.1 h
  clear h
  obtain ⟨rfl, g1, g2⟩ := digits1_sound h1
  clear h1
  dsimp only at h'
  have h := h'
  clear h'
  split at h
  · cases h
  · rename_i h3
    obtain ⟨⟨frac, r2⟩, h4, h'⟩ := Option.bind_eq_some_iff.1 h
    clear h
    have h := h'
    clear h'
    dsimp only at h
    obtain ⟨rfl, g4⟩ := fracPart_sound h4
    clear h4
    obtain ⟨⟨exp, r3⟩, h5, h'⟩ := Option.bind_eq_some_iff.1 h
    clear h
    have h := h'
    clear h'
    dsimp only at h
    obtain ⟨rfl, g5⟩ := expPart_sound h5
    clear h5
    obtain ⟨n, h6, h'⟩ := Option.bind_eq_some_iff.1 h
    clear h
    have h := h'
    clear h'
    rw [parseLoop_valueOf int g2] at h6
    injection h6 with h6
    have g3 : int.head? = some '0' → int = ['0'] := fun x => Classical.byContradiction fun y => h3 ⟨x, y⟩
    have key := number_meaning (neg := neg) g1 g2 g3 g4 g5
    have hj : j = meaning neg int frac exp ∧ r3 = r := by
      change valueOf int = n at h6
      subst h6
      unfold meaning
      cases neg
      all_goals
        repeat' split at h
        all_goals (cases h; simp_all)
    obtain ⟨rfl, rfl⟩ := hj
    refine ⟨int ++ frac ++ exp, by simp, ?_⟩
    simpa using key

theorem number_sound {s r : List Char} {j : Json} (h : number s = some (j, r)) : ∃ a, s = a ++ r ∧ Number a j := by
  cases s with
  | nil => cases h
  | cons c s =>
    rw [number] at h
    split at h
    · rename_i hc
      obtain ⟨a, rfl, ha⟩ := unsigned_sound h
      exact ⟨'-' :: a, by rw [hc]; rfl, by simpa using ha⟩
    · obtain ⟨a, e, ha⟩ := unsigned_sound h
      exact ⟨a, e, by simpa using ha⟩

/-! ## Values -/

theorem word_iff {w s r : List Char} {j j' : Json} : word w j s = some (j', r) ↔ j' = j ∧ s = w ++ r := by
  unfold word
  constructor
  · intro h
    split at h
    · rename_i e
      cases h
      refine ⟨rfl, ?_⟩
      conv => lhs; rw [← List.take_append_drop w.length s, e]
    · cases h
  · rintro ⟨rfl, rfl⟩
    simp

theorem commas_cons {x : List Char} {xs : List (List Char)} (h : xs ≠ []) : commas (x :: xs) = x ++ ',' :: commas xs := by
  cases xs with
  | nil => exact absurd rfl h
  | cons y ys => rfl

/-- What the three readers give is right. -/
theorem sound (n : Nat) :
    (∀ s j r, value n s = some (j, r) → ∃ w a, s = w ++ a ++ r ∧ Blank w ∧ Says a j) ∧
    (∀ s js r, elems n s = some (js, r) → ∃ es : List Element, es ≠ [] ∧ s = commas (es.map Element.whole) ++ ']' :: r ∧
      (∀ e ∈ es, Blank e.before ∧ Blank e.after) ∧ (∀ e ∈ es, Says e.text e.value) ∧ js = es.map Element.value) ∧
    (∀ s fs r, members n s = some (fs, r) → ∃ ms : List Member, ms ≠ [] ∧ s = commas (ms.map Member.whole) ++ '}' :: r ∧
      (∀ m ∈ ms, Blank m.before ∧ Blank m.colon ∧ Blank m.element.before ∧ Blank m.element.after) ∧
      (∀ m ∈ ms, Str m.nameText m.name) ∧ (∀ m ∈ ms, Says m.element.text m.element.value) ∧
      fs = ms.map (fun m => (m.name, m.element.value))) := by
  induction n with
  | zero =>
    refine ⟨?_, ?_, ?_⟩
    · intro s j r h; rw [value] at h; cases h
    · intro s j r h; rw [elems] at h; cases h
    · intro s j r h; rw [members] at h; cases h
  | succ n ih =>
    obtain ⟨ihv, ihe, ihm⟩ := ih
    refine ⟨?_, ?_, ?_⟩
    · intro s j r h
      obtain ⟨w, hw, hs⟩ := skip_split s
      rw [value.eq_def] at h
      dsimp only at h
      suffices h' : ∃ a, skip s = a ++ r ∧ Says a j by
        obtain ⟨a, e, h1⟩ := h'
        exact ⟨w, a, by rw [List.append_assoc, ← e]; exact hs, hw, h1⟩
      clear hs hw w
      generalize skip s = t at h
      cases t with
      | nil => cases h
      | cons c t =>
        dsimp only at h
        split at h
        · rename_i hc
          obtain ⟨⟨o, r'⟩, h1, h2⟩ := Option.map_eq_some_iff.1 h
          cases h2
          obtain ⟨b, rfl, hb⟩ := strToken_sound h1
          exact ⟨_, by rw [hc]; simp, .string hb⟩
        split at h
        · rename_i hc
          split at h
          · rename_i hh
            cases h
            obtain ⟨w, hw, hs⟩ := skip_split t
            refine ⟨'[' :: w ++ [']'], ?_, .empty hw⟩
            rw [hc]
            cases hsk : skip t with
            | nil => rw [hsk] at hh; cases hh
            | cons x y =>
              rw [hsk] at hh hs
              injection hh with hh
              subst hh
              conv => lhs; rw [hs]
              simp
          · obtain ⟨⟨js, r'⟩, h1, h2⟩ := Option.map_eq_some_iff.1 h
            cases h2
            obtain ⟨es, e1, rfl, e3, e4, rfl⟩ := ihe _ _ _ h1
            exact ⟨_, by rw [hc]; simp, .array e1 e3 e4⟩
        split at h
        · rename_i hc
          split at h
          · rename_i hh
            cases h
            obtain ⟨w, hw, hs⟩ := skip_split t
            refine ⟨'{' :: w ++ ['}'], ?_, .nothing hw⟩
            rw [hc]
            cases hsk : skip t with
            | nil => rw [hsk] at hh; cases hh
            | cons x y =>
              rw [hsk] at hh hs
              injection hh with hh
              subst hh
              conv => lhs; rw [hs]
              simp
          · obtain ⟨⟨js, r'⟩, h1, h2⟩ := Option.map_eq_some_iff.1 h
            cases h2
            obtain ⟨es, e1, rfl, e3, e4, e5, rfl⟩ := ihm _ _ _ h1
            exact ⟨_, by rw [hc]; simp, .object e1 e3 e4 e5⟩
        split at h
        · obtain ⟨rfl, e⟩ := word_iff.1 h
          exact ⟨_, e, .null⟩
        split at h
        · obtain ⟨rfl, e⟩ := word_iff.1 h
          exact ⟨_, e, .true⟩
        split at h
        · obtain ⟨rfl, e⟩ := word_iff.1 h
          exact ⟨_, e, .false⟩
        · obtain ⟨a, e, ha⟩ := number_sound h
          exact ⟨a, e, .number ha⟩
    · intro s js r h
      rw [elems.eq_def] at h
      dsimp only at h
      split at h
      · cases h
      rename_i v r1 hv
      obtain ⟨w, a, rfl, hw, ha⟩ := ihv _ _ _ hv
      obtain ⟨w2, hw2, hs⟩ := skip_split r1
      split at h
      · cases h
      rename_i c r2 hsk
      rw [hsk] at hs
      split at h
      · rename_i hc
        cases h
        refine ⟨[⟨w, a, w2, v⟩], by simp, ?_, ?_, ?_, rfl⟩
        · rw [hs, hc]; simp [commas, Element.whole]
        · simp [hw, hw2]
        · simpa using ha
      split at h
      · rename_i hc
        obtain ⟨⟨js', r'⟩, h1, h2⟩ := Option.map_eq_some_iff.1 h
        cases h2
        obtain ⟨es, e1, rfl, e3, e4, rfl⟩ := ihe _ _ _ h1
        refine ⟨⟨w, a, w2, v⟩ :: es, by simp, ?_, ?_, ?_, rfl⟩
        · rw [hs, hc, List.map_cons, commas_cons (by simpa using e1)]; simp [Element.whole]
        · simpa [hw, hw2] using e3
        · simpa [ha] using e4
      · cases h
    · intro s js r h
      rw [members.eq_def] at h
      dsimp only at h
      obtain ⟨w0, hw0, hs0⟩ := skip_split s
      split at h
      · cases h
      rename_i c0 r0 hsk0
      rw [hsk0] at hs0
      split at h
      · rename_i hc0
        split at h
        · cases h
        rename_i k r1 hk
        obtain ⟨kb, rfl, hkb⟩ := strToken_sound hk
        obtain ⟨w1, hw1, hs1⟩ := skip_split r1
        split at h
        · cases h
        rename_i c1 r2 hsk1
        rw [hsk1] at hs1
        split at h
        · rename_i hc1
          split at h
          · cases h
          rename_i v r3 hv
          obtain ⟨w, a, rfl, hw, ha⟩ := ihv _ _ _ hv
          obtain ⟨w2, hw2, hs⟩ := skip_split r3
          split at h
          · cases h
          rename_i c r4 hsk
          rw [hsk] at hs
          split at h
          · rename_i hc
            cases h
            refine ⟨[⟨w0, kb, k, w1, ⟨w, a, w2, v⟩⟩], by simp, ?_, ?_, ?_, ?_, rfl⟩
            · rw [hs0, hs1, hs, hc, hc0, hc1]; simp [commas, Member.whole, Element.whole]
            · simp [hw0, hw1, hw, hw2]
            · simpa using hkb
            · simpa using ha
          split at h
          · rename_i hc
            obtain ⟨⟨js', r'⟩, h1, h2⟩ := Option.map_eq_some_iff.1 h
            cases h2
            obtain ⟨es, e1, rfl, e3, e4, e5, rfl⟩ := ihm _ _ _ h1
            refine ⟨⟨w0, kb, k, w1, ⟨w, a, w2, v⟩⟩ :: es, by simp, ?_, ?_, ?_, ?_, rfl⟩
            · rw [hs0, hs1, hs, hc, hc0, hc1, List.map_cons, commas_cons (by simpa using e1)]
              simp [Member.whole, Element.whole]
            · simpa [hw0, hw1, hw, hw2] using e3
            · simpa [hkb] using e4
            · simpa [ha] using e5
          · cases h
        · cases h
      · cases h

/-! ## Completeness -/

theorem says_head {a : List Char} {j : Json} (h : Says a j) :
    ∃ c r, a = c :: r ∧ isBlank c = false ∧ c ≠ ']' ∧ c ≠ '}' := by
  cases h with
  | null => exact ⟨_, _, rfl, by decide⟩
  | true => exact ⟨_, _, rfl, by decide⟩
  | false => exact ⟨_, _, rfl, by decide⟩
  | string h => exact ⟨_, _, rfl, by decide⟩
  | empty h => exact ⟨_, _, rfl, by decide⟩
  | array h => exact ⟨_, _, rfl, by decide⟩
  | nothing h => exact ⟨_, _, rfl, by decide⟩
  | object h => exact ⟨_, _, rfl, by decide⟩
  | number h =>
    obtain ⟨neg, int, frac, exp, rfl, h1, h2, _⟩ := meaning_of_number h
    cases neg
    · cases int with
      | nil => exact absurd rfl h1
      | cons c int =>
        have hd := h2 c (by simp)
        refine ⟨c, int ++ frac ++ exp, rfl, ?_, digit_ne hd (not_digit (by decide)), digit_ne hd (not_digit (by decide))⟩
        cases hb : isBlank c with
        | false => rfl
        | true =>
          exfalso
          rcases isBlank_iff.1 hb with rfl | rfl | rfl | rfl <;> exact absurd hd (not_digit (by decide))
    · exact ⟨'-', int ++ frac ++ exp, rfl, by decide⟩

theorem value_blank {w : List Char} (hw : Blank w) (n : Nat) (s : List Char) : value n (w ++ s) = value n s := by
  cases n with
  | zero => rw [value, value]
  | succ n => rw [value.eq_def, value.eq_def]; dsimp only; rw [skip_blank hw]

theorem noCont_after {w : List Char} (hw : Blank w) {c : Char} (hc : c = ',' ∨ c = ']' ∨ c = '}') (r : List Char) :
    NoCont (w ++ c :: r) := by
  intro x hx
  rcases head?_append_cases hx with hx | ⟨_, hx⟩
  · rcases hw x (List.mem_of_mem_head? hx) with rfl | rfl | rfl | rfl
    all_goals exact ⟨not_digit (by decide), by decide⟩
  · injection hx with hx
    subst hx
    rcases hc with rfl | rfl | rfl
    all_goals exact ⟨not_digit (by decide), by decide⟩

theorem noCont_blank {w : List Char} (hw : Blank w) : NoCont w := by
  intro x hx
  rcases hw x (List.mem_of_mem_head? hx) with rfl | rfl | rfl | rfl
  all_goals exact ⟨not_digit (by decide), by decide⟩

/-- What `value` does with a text of the grammar. -/
def Reads (a : List Char) (j : Json) : Prop :=
  ∀ n r, a.length < n → NoCont r → value n (a ++ r) = some (j, r)

theorem elems_complete (es : List Element) (hne : es ≠ []) (hw : ∀ e ∈ es, Blank e.before ∧ Blank e.after)
    (ih : ∀ e ∈ es, Reads e.text e.value) : ∀ (n : Nat) (r : List Char), (commas (es.map Element.whole)).length + 1 < n →
    elems n (commas (es.map Element.whole) ++ ']' :: r) = some (es.map Element.value, r) := by
  induction es with
  | nil => exact absurd rfl hne
  | cons e es ihes =>
    intro n r hn
    obtain ⟨n, rfl⟩ : ∃ m, n = m + 1 := ⟨n - 1, by omega⟩
    obtain ⟨hw1, hw2⟩ := hw e (by simp)
    have he := ih e (by simp)
    cases es with
    | nil =>
      simp only [List.map_cons, List.map_nil, commas, Element.whole, List.length_append] at hn ⊢
      rw [elems.eq_def]
      dsimp only
      rw [List.append_assoc, List.append_assoc, value_blank hw1,
        he n _ (by omega) (noCont_after hw2 (.inr (.inl rfl)) r)]
      dsimp only
      rw [skip_blank hw2, skip_cons (by decide)]
      dsimp only
      rw [if_pos rfl]
    | cons f es =>
      rw [List.map_cons, commas_cons (by simp)] at hn ⊢
      rw [List.map_cons (f := Element.value)]
      have rec' := ihes (by simp) (fun x hx => hw x (by simp [hx])) (fun x hx => ih x (by simp [hx])) n r
        (by simp only [List.length_append, List.length_cons, Element.whole] at hn ⊢; omega)
      generalize commas ((f :: es).map Element.whole) = rest at hn rec'
      simp only [Element.whole, List.length_append] at hn ⊢
      rw [elems.eq_def]
      dsimp only
      simp only [List.append_assoc, List.cons_append]
      rw [value_blank hw1, he n _ (by omega) (noCont_after hw2 (.inl rfl) _)]
      dsimp only
      rw [skip_blank hw2, skip_cons (by decide)]
      dsimp only
      rw [if_neg (by decide), if_pos rfl, rec']
      rfl

theorem members_complete (ms : List Member) (hne : ms ≠ [])
    (hw : ∀ m ∈ ms, Blank m.before ∧ Blank m.colon ∧ Blank m.element.before ∧ Blank m.element.after)
    (hk : ∀ m ∈ ms, Str m.nameText m.name)
    (ih : ∀ m ∈ ms, Reads m.element.text m.element.value) :
    ∀ (n : Nat) (r : List Char), (commas (ms.map Member.whole)).length + 1 < n →
    members n (commas (ms.map Member.whole) ++ '}' :: r) =
      some (ms.map (fun m => (m.name, m.element.value)), r) := by
  induction ms with
  | nil => exact absurd rfl hne
  | cons m ms ihes =>
    intro n r hn
    obtain ⟨n, rfl⟩ : ∃ m, n = m + 1 := ⟨n - 1, by omega⟩
    obtain ⟨hw0, hwc, hw1, hw2⟩ := hw m (by simp)
    have he := ih m (by simp)
    have hkm := hk m (by simp)
    cases ms with
    | nil =>
      simp only [List.map_cons, List.map_nil, commas, Member.whole, Element.whole, List.length_append, List.length_cons] at hn ⊢
      rw [members.eq_def]
      dsimp only
      simp only [List.append_assoc, List.cons_append]
      rw [skip_blank hw0, skip_cons (by decide)]
      dsimp only
      rw [if_pos rfl, strToken_complete hkm]
      dsimp only
      rw [skip_blank hwc, skip_cons (by decide)]
      dsimp only
      rw [if_pos rfl, value_blank hw1, he n _ (by omega) (noCont_after hw2 (.inr (.inr rfl)) r)]
      dsimp only
      rw [skip_blank hw2, skip_cons (by decide)]
      dsimp only
      rw [if_pos rfl]
    | cons f ms =>
      rw [List.map_cons, commas_cons (by simp)] at hn ⊢
      rw [List.map_cons (f := fun m : Member => (m.name, m.element.value))]
      have rec' := ihes (by simp) (fun x hx => hw x (by simp [hx])) (fun x hx => hk x (by simp [hx]))
        (fun x hx => ih x (by simp [hx])) n r
        (by simp only [List.length_append, List.length_cons, Member.whole, Element.whole] at hn ⊢; omega)
       
      generalize commas ((f :: ms).map Member.whole) = rest at hn rec'
      simp only [Member.whole, Element.whole, List.length_append, List.length_cons] at hn ⊢
      rw [members.eq_def]
      dsimp only
      simp only [List.append_assoc, List.cons_append]
      rw [skip_blank hw0, skip_cons (by decide)]
      dsimp only
      rw [if_pos rfl, strToken_complete hkm]
      dsimp only
      rw [skip_blank hwc, skip_cons (by decide)]
      dsimp only
      rw [if_pos rfl, value_blank hw1, he n _ (by omega) (noCont_after hw2 (.inl rfl) _)]
      dsimp only
      rw [skip_blank hw2, skip_cons (by decide)]
      dsimp only
      rw [if_neg (by decide), if_pos rfl, rec']
      rfl

theorem commas_head (x : List Char) (xs : List (List Char)) (r : List Char) : ∃ r', commas (x :: xs) ++ r = x ++ r' := by
  cases xs with
  | nil => exact ⟨r, rfl⟩
  | cons y ys => exact ⟨',' :: commas (y :: ys) ++ r, by simp [commas]⟩

theorem value_of_head {c : Char} {n : Nat} {r : List Char} (hb : isBlank c = false) : value (n + 1) (c :: r) =
    if c = '"' then (strToken r).map fun p => (strTree p.1, p.2)
      else if c = '[' then
        if (skip r).head? = some ']' then some (.arr [], (skip r).tail)
        else (elems n r).map fun p => (.arr p.1, p.2)
      else if c = '{' then
        if (skip r).head? = some '}' then some (.obj [], (skip r).tail)
        else (members n r).map fun p => (objTree p.1, p.2)
      else if c = 'n' then word ['n', 'u', 'l', 'l'] .null (c :: r)
      else if c = 't' then word ['t', 'r', 'u', 'e'] (.bool true) (c :: r)
      else if c = 'f' then word ['f', 'a', 'l', 's', 'e'] (.bool false) (c :: r)
      else number (c :: r) := by
  rw [value.eq_def]
  dsimp only
  rw [skip_cons hb]

theorem complete {a : List Char} {j : Json} (h : Says a j) : Reads a j := by
  have hsay := h
  induction h with
  | null =>
    intro n r hn _
    obtain ⟨n, rfl⟩ : ∃ m, n = m + 1 := ⟨n - 1, by omega⟩
    show value (n + 1) ('n' :: _) = _
    rw [value_of_head (by decide)]
    rfl
  | true =>
    intro n r hn _
    obtain ⟨n, rfl⟩ : ∃ m, n = m + 1 := ⟨n - 1, by omega⟩
    show value (n + 1) ('t' :: _) = _
    rw [value_of_head (by decide)]
    rfl
  | false =>
    intro n r hn _
    obtain ⟨n, rfl⟩ : ∃ m, n = m + 1 := ⟨n - 1, by omega⟩
    show value (n + 1) ('f' :: _) = _
    rw [value_of_head (by decide)]
    rfl
  | @number s j h =>
    intro n r hn hr
    obtain ⟨n, rfl⟩ : ∃ m, n = m + 1 := ⟨n - 1, by omega⟩
    have key := number_complete h hr
    obtain ⟨c, t, rfl, hb, _, _⟩ := says_head hsay
    have hc : c = '-' ∨ Digit c := by
      obtain ⟨neg, int, frac, exp, e, h1, h2, _⟩ := meaning_of_number h
      cases neg
      · cases int with
        | nil => exact absurd rfl h1
        | cons x int => injection e with e _; rw [e]; exact .inr (h2 x (by simp))
      · injection e with e _; exact .inl e
    have hne : ∀ x : Char, x ≠ '-' → ¬ Digit x → c ≠ x := by
      rintro x h1 h2 rfl
      rcases hc with rfl | hc
      · exact h1 rfl
      · exact h2 hc
    rw [List.cons_append, value_of_head hb]
    rw [if_neg (hne _ (by decide) (not_digit (by decide))), if_neg (hne _ (by decide) (not_digit (by decide))),
      if_neg (hne _ (by decide) (not_digit (by decide))), if_neg (hne _ (by decide) (not_digit (by decide))),
      if_neg (hne _ (by decide) (not_digit (by decide))), if_neg (hne _ (by decide) (not_digit (by decide)))]
    exact key
  | @string b s h =>
    intro n r hn _
    obtain ⟨n, rfl⟩ : ∃ m, n = m + 1 := ⟨n - 1, by omega⟩
    rw [List.cons_append, List.cons_append, List.append_assoc, value_of_head (by decide), if_pos rfl]
    show Option.map _ (strToken (b ++ '"' :: r)) = _
    rw [strToken_complete h]
    rfl
  | @empty w h =>
    intro n r hn _
    obtain ⟨n, rfl⟩ : ∃ m, n = m + 1 := ⟨n - 1, by omega⟩
    rw [List.cons_append, List.cons_append, List.append_assoc, value_of_head (by decide), if_neg (by decide), if_pos rfl]
    have hs : skip (w ++ ([']'] ++ r)) = ']' :: r := by rw [skip_blank h]; exact skip_cons (by decide) r
    rw [if_pos (by rw [hs]; rfl), hs]
    rfl
  | @nothing w h =>
    intro n r hn _
    obtain ⟨n, rfl⟩ : ∃ m, n = m + 1 := ⟨n - 1, by omega⟩
    rw [List.cons_append, List.cons_append, List.append_assoc, value_of_head (by decide), if_neg (by decide),
      if_neg (by decide), if_pos rfl]
    have hs : skip (w ++ (['}'] ++ r)) = '}' :: r := by rw [skip_blank h]; exact skip_cons (by decide) r
    rw [if_pos (by rw [hs]; rfl), hs]
    rfl
  | @array es hne hw h ih =>
    intro n r hn _
    obtain ⟨n, rfl⟩ : ∃ m, n = m + 1 := ⟨n - 1, by omega⟩
    rw [List.cons_append, List.cons_append, List.append_assoc, value_of_head (by decide), if_neg (by decide), if_pos rfl]
    have hhead : (skip (commas (es.map Element.whole) ++ ([']'] ++ r))).head? ≠ some ']' := by
      cases es with
      | nil => exact absurd rfl hne
      | cons e es =>
        obtain ⟨r', e1⟩ := commas_head e.whole (es.map Element.whole) ([']'] ++ r)
        obtain ⟨c, t, e2, hb, hc, _⟩ := says_head (h e (by simp))
        rw [List.map_cons, e1, Element.whole, List.append_assoc, List.append_assoc, skip_blank (hw e (by simp)).1, e2,
          List.cons_append, skip_cons hb]
        simpa using hc
    rw [if_neg hhead]
    have := elems_complete es hne hw (fun e he => ih e he (h e he)) n r
      (by simp only [List.length_append, List.length_cons, List.length_nil] at hn; omega)
    show Option.map _ (elems n (commas (es.map Element.whole) ++ ']' :: r)) = _
    rw [this]
    rfl
  | @object ms hne hw hk h ih =>
    intro n r hn _
    obtain ⟨n, rfl⟩ : ∃ m, n = m + 1 := ⟨n - 1, by omega⟩
    rw [List.cons_append, List.cons_append, List.append_assoc, value_of_head (by decide), if_neg (by decide),
      if_neg (by decide), if_pos rfl]
    have hhead : (skip (commas (ms.map Member.whole) ++ (['}'] ++ r))).head? ≠ some '}' := by
      cases ms with
      | nil => exact absurd rfl hne
      | cons e es =>
        obtain ⟨r', e1⟩ := commas_head e.whole (es.map Member.whole) (['}'] ++ r)
        rw [List.map_cons, e1, Member.whole]
        simp only [List.append_assoc, List.cons_append]
        rw [skip_blank (hw e (by simp)).1, skip_cons (by decide)]
        simp
    rw [if_neg hhead]
    have := members_complete ms hne hw hk (fun e he => ih e he (h e he)) n r
      (by simp only [List.length_append, List.length_cons, List.length_nil] at hn; omega)
    show Option.map _ (members n (commas (ms.map Member.whole) ++ '}' :: r)) = _
    rw [this]
    rfl

/-- The parser reads exactly the texts of the grammar. -/
theorem parse_iff {s : List Char} {j : Json} : parse s = some j ↔ Means s j := by
  unfold parse Means
  constructor
  · intro h
    split at h
    · cases h
    · rename_i j' r hv
      split at h
      · rename_i hr
        cases h
        obtain ⟨w, a, e, hw, ha⟩ := (sound _).1 _ _ _ hv
        exact ⟨w, a, r, e, hw, blank_of_skip hr, ha⟩
      · cases h
  · rintro ⟨w, a, r, rfl, hw, hr, ha⟩
    have := complete ha ((w ++ a ++ r).length + 1) r (by simp; omega) (noCont_blank hr)
    rw [List.append_assoc, value_blank hw, ← List.append_assoc, this]
    dsimp only
    rw [if_pos (skip_blank_nil hr)]

/-! ## Printing -/

theorem chars_append {a b x y : List Char} (h1 : Chars a x) (h2 : Chars b y) : Chars (a ++ b) (x ++ y) := by
  induction h1 with
  | nil => exact h2
  | plain h1 h2 h3 _ ih => exact .plain h1 h2 h3 ih
  | short he _ ih => exact .short he ih
  | code hx hn _ ih =>
    simp only [List.cons_append, List.append_assoc]
    exact .code hx hn ih
  | pair hx hm hy hn _ ih =>
    simp only [List.cons_append, List.append_assoc]
    exact .pair hx hm hy hn ih

theorem hexChar_digit {n : Nat} (h : n < 16) : Http.HexDigit (hexChar n) n := by
  have : ∀ n, n < 16 → Http.HexDigit (hexChar n) n := by
    unfold Http.HexDigit
    decide
  exact this n h

theorem chars_escape (c : Char) : Chars (escape c) [c] := by
  unfold escape
  by_cases h1 : c = '"'
  · rw [if_pos h1, h1]; exact .short (by decide) .nil
  rw [if_neg h1]
  by_cases h2 : c = '\\'
  · rw [if_pos h2, h2]; exact .short (by decide) .nil
  rw [if_neg h2]
  by_cases h3 : c = Char.ofNat 8
  · rw [if_pos h3, h3]; exact .short (by decide) .nil
  rw [if_neg h3]
  by_cases h4 : c = Char.ofNat 12
  · rw [if_pos h4, h4]; exact .short (by decide) .nil
  rw [if_neg h4]
  by_cases h5 : c = '\n'
  · rw [if_pos h5, h5]; exact .short (by decide) .nil
  rw [if_neg h5]
  by_cases h6 : c = '\r'
  · rw [if_pos h6, h6]; exact .short (by decide) .nil
  rw [if_neg h6]
  by_cases h7 : c = '\t'
  · rw [if_pos h7, h7]; exact .short (by decide) .nil
  rw [if_neg h7]
  by_cases h8 : c.toNat < 32
  · rw [if_pos h8]
    have := Chars.code (x := ['0', '0', hexChar (c.toNat / 16), hexChar (c.toNat % 16)]) (s := []) (out := []) (n := c.toNat)
      ⟨_, _, _, _, 0, 0, c.toNat / 16, c.toNat % 16, rfl, .inl rfl, .inl rfl, hexChar_digit (by omega), hexChar_digit (by omega),
        by omega⟩ (by omega) .nil
    rw [Char.ofNat_toNat] at this
    simpa using this
  · rw [if_neg h8]
    exact .plain (by omega) h1 h2 .nil

theorem chars_flatMap (s : List Char) : Chars (s.flatMap escape) s := by
  induction s with
  | nil => exact .nil
  | cons c s ih => exact chars_append (chars_escape c) ih

theorem printStr_says (s : String) : Says (printStr s) (.str s) := by
  have := Says.string (b := s.toList.flatMap escape) (s := some s.toList) (chars_flatMap s.toList)
  simpa [printStr, stringOf] using this

theorem decimal_number (n : Nat) : (∀ c ∈ decimal n, Digit c) ∧ valueOf (decimal n) = n ∧
    ((decimal n).head? = some '0' → decimal n = ['0']) := by
  have hd : ∀ c ∈ decimal n, Digit c := Decimal.decimal_isDigit n
  refine ⟨hd, ?_, ?_⟩
  · have h1 := Decimal.parse_decimal n
    rw [Rfc3339.parse_of_digits (Decimal.decimal_ne_nil n) (Decimal.decimal_isDigit n), parseLoop_valueOf _ hd] at h1
    exact Option.some.inj h1
  · rcases Nat.eq_zero_or_pos n with rfl | hn
    · intro _; rfl
    · intro h
      exfalso
      obtain ⟨k, h1, h2⟩ := Rfc3339.exists_digits n hn
      rw [Rfc3339.decimal_eq_pad h1 h2] at h
      cases k with
      | zero => simp at h2; omega
      | succ k =>
        have : ∀ k n, (Rfc3339.pad (k + 1) n).head? = some (digitChar (n / 10 ^ k % 10)) := by
          intro k
          induction k with
          | zero => intro n; simp [Rfc3339.pad]
          | succ k ih =>
            intro n
            rw [Rfc3339.pad, List.head?_append, ih, Nat.div_div_eq_div_mul, Nat.pow_succ, Nat.mul_comm 10]
            rfl
        rw [this] at h
        injection h with h
        have h := congrArg Char.toNat h
        rw [Decimal.digit_char (Nat.mod_lt _ (by decide)), show '0'.toNat = 48 from rfl] at h
        simp only [Nat.add_sub_cancel] at h1
        have hlt : n / 10 ^ k < 10 := by
          rw [Nat.div_lt_iff_lt_mul (Nat.pow_pos (by decide))]
          rw [Nat.pow_succ] at h2; omega
        have hge : 1 ≤ n / 10 ^ k := by
          rw [Nat.le_div_iff_mul_le (Nat.pow_pos (by decide))]; omega
        omega

theorem printInt_number {n : Int} (h1 : -2 ^ 63 ≤ n) (h2 : n < 2 ^ 64) : Number (printInt n) (.num n) := by
  cases n with
  | ofNat n =>
    obtain ⟨hd, hv, hz⟩ := decimal_number n
    have : n < 2 ^ 64 := by simp at h2; omega
    refine ⟨[], decimal n, [], [], by simp [printInt], .inl rfl, Decimal.decimal_ne_nil n, hd, hz, .inl rfl, .inl rfl,
      .inl ⟨by rw [hv]; rfl, rfl, rfl, rfl, by omega⟩⟩
  | negSucc n =>
    obtain ⟨hd, hv, hz⟩ := decimal_number (n + 1)
    refine ⟨['-'], decimal (n + 1), [], [], by simp [printInt], .inr rfl, Decimal.decimal_ne_nil _, hd, hz, .inl rfl, .inl rfl,
      .inr (.inl ⟨by rw [hv]; rfl, rfl, rfl, rfl, by omega, by omega⟩)⟩

theorem printElems_commas (xs : List Json) :
    printElems xs = commas ((xs.map fun x => (⟨[], print x, [], x⟩ : Element)).map Element.whole) := by
  induction xs with
  | nil => rfl
  | cons x xs ih =>
    cases xs with
    | nil => simp [printElems, commas, Element.whole]
    | cons y ys => rw [printElems, ih]; simp [commas, Element.whole]

theorem printFields_commas (fs : List (String × Json)) :
    printFields fs = commas ((fs.map fun f => (⟨[], f.1.toList.flatMap escape, some f.1.toList, [], ⟨[], print f.2, [], f.2⟩⟩ :
      Member)).map Member.whole) := by
  induction fs with
  | nil => rfl
  | cons x xs ih =>
    obtain ⟨k, v⟩ := x
    cases xs with
    | nil => simp [printFields, commas, Member.whole, Element.whole, printStr]
    | cons y ys => rw [printFields, ih]; simp [commas, Member.whole, Element.whole, printStr]

theorem objectOf_some (fs : List (String × Json)) : objectOf (fs.map fun f => (some f.1.toList, f.2)) = .obj fs := by
  have : ((fs.map fun f => (some f.1.toList, f.2)).mapM fun f : Option (List Char) × Json =>
      f.1.map fun k => (String.ofList k, f.2)) = some fs := by
    induction fs with
    | nil => rfl
    | cons f fs ih => rw [List.map_cons, List.mapM_cons, ih]; simp
  unfold objectOf
  rw [this]

theorem print_says {j : Json} (h : Whole j) : Says (print j) j := by
  induction h with
  | null => exact .null
  | bool b => cases b; exact .false; exact .true
  | num h1 h2 => exact .number (printInt_number h1 h2)
  | str s => exact printStr_says s
  | @arr xs _ ih =>
    rw [print, printElems_commas]
    rcases Classical.em (xs = []) with rfl | hne
    · exact .empty (w := []) (by simp [Blank])
    · have := Says.array (es := xs.map fun x => (⟨[], print x, [], x⟩ : Element)) (by simpa using hne)
        (by simp [Blank]) (by simpa using ih)
      simpa [List.map_map, Function.comp_def] using this
  | @obj fs _ ih =>
    rw [print, printFields_commas]
    rcases Classical.em (fs = []) with rfl | hne
    · exact .nothing (w := []) (by simp [Blank])
    · have := Says.object (ms := fs.map fun f => (⟨[], f.1.toList.flatMap escape, some f.1.toList, [], ⟨[], print f.2, [], f.2⟩⟩ :
        Member)) (by simpa using hne)
        (by
          intro m hm
          obtain ⟨f, _, rfl⟩ := List.mem_map.1 hm
          simp [Blank])
        (by
          intro m hm
          obtain ⟨f, _, rfl⟩ := List.mem_map.1 hm
          exact chars_flatMap _)
        (by
          intro m hm
          obtain ⟨f, hf, rfl⟩ := List.mem_map.1 hm
          exact ih f hf)
      simpa [List.map_map, Function.comp_def, objectOf_some] using this

/-- What is printed is read back. -/
theorem parse_print {j : Json} (h : Whole j) : parse (print j) = some j :=
  parse_iff.2 ⟨[], print j, [], by simp, by simp [Blank], by simp [Blank], print_says h⟩

/-- A text means one tree. -/
theorem means_unique {s : List Char} {j j' : Json} (h : Means s j) (h' : Means s j') : j = j' := by
  have := parse_iff.2 h
  rw [parse_iff.2 h'] at this
  exact (Option.some.inj this).symm

end Opsqueue.JsonText
