import Verif.Spec.Endpoints

/-!
# What a JSON text means (RFC 8259)

The grammar of JSON, as a relation between texts and trees: independent of printer and parser.
-/

namespace Opsqueue.JsonText
open Wire

/-- White space. -/
def Blank (s : List Char) : Prop := ∀ c ∈ s, c = ' ' ∨ c = '\t' ∨ c = '\n' ∨ c = '\r'

/-- Two characters that stand for one, in a string. -/
def shortEscapes : List (Char × Char) := [('"', '"'), ('\\', '\\'), ('/', '/'), ('b', Char.ofNat 8), ('f', Char.ofNat 12),
  ('n', '\n'), ('r', '\r'), ('t', '\t')]

/-- `s` is a numeral of four hexadecimal digits. -/
def Hex4 (s : List Char) (n : Nat) : Prop :=
  ∃ p q r t a b c d, s = [p, q, r, t] ∧ Http.HexDigit p a ∧ Http.HexDigit q b ∧ Http.HexDigit r c ∧ Http.HexDigit t d ∧
    n = ((a * 16 + b) * 16 + c) * 16 + d

/-- What stands between quotes, and the string it means. -/
inductive Chars : List Char → List Char → Prop where
  | nil : Chars [] []
  | plain {c : Char} {s out : List Char} (h1 : 32 ≤ c.toNat) (h2 : c ≠ '"') (h3 : c ≠ '\\') (h : Chars s out) :
      Chars (c :: s) (c :: out)
  | short {e c : Char} {s out : List Char} (he : (e, c) ∈ shortEscapes) (h : Chars s out) : Chars ('\\' :: e :: s) (c :: out)
  | code {x s out : List Char} {n : Nat} (hx : Hex4 x n) (hn : ¬ (0xD800 ≤ n ∧ n ≤ 0xDFFF)) (h : Chars s out) :
      Chars ('\\' :: 'u' :: (x ++ s)) (Char.ofNat n :: out)
  | pair {x y s out : List Char} {m n : Nat} (hx : Hex4 x m) (hm : 0xD800 ≤ m ∧ m ≤ 0xDBFF) (hy : Hex4 y n)
      (hn : 0xDC00 ≤ n ∧ n ≤ 0xDFFF) (h : Chars s out) :
      Chars ('\\' :: 'u' :: (x ++ '\\' :: 'u' :: (y ++ s))) (Char.ofNat (0x10000 + (m - 0xD800) * 1024 + (n - 0xDC00)) :: out)

/-- What stands between quotes in a JSON text, whatever it means: RFC 8259 also has strings with an escaped half of a
surrogate pair, which are no Unicode texts. -/
inductive Quoted : List Char → Prop where
  | nil : Quoted []
  | plain {c : Char} {s : List Char} (h1 : 32 ≤ c.toNat) (h2 : c ≠ '"') (h3 : c ≠ '\\') (h : Quoted s) : Quoted (c :: s)
  | short {e c : Char} {s : List Char} (he : (e, c) ∈ shortEscapes) (h : Quoted s) : Quoted ('\\' :: e :: s)
  | code {x s : List Char} {n : Nat} (hx : Hex4 x n) (h : Quoted s) : Quoted ('\\' :: 'u' :: (x ++ s))

/-- What stands between quotes: the string it means, or none. -/
def Str (b : List Char) : Option (List Char) → Prop
  | some s => Chars b s
  | none => Quoted b ∧ ∀ s, ¬ Chars b s

/-- The tree of a string. -/
def stringOf : Option (List Char) → Json
  | some s => .str (String.ofList s)
  | none => .unreadable

/-- The tree of an object: unreadable if one of its names is. -/
def objectOf (fs : List (Option (List Char) × Json)) : Json :=
  match fs.mapM fun f => f.1.map fun k => (String.ofList k, f.2) with
  | some fs => .obj fs
  | none => .unreadable

/-- A decimal digit. -/
def Digit (c : Char) : Prop := '0'.toNat ≤ c.toNat ∧ c.toNat ≤ '9'.toNat

/-- The number some decimal digits stand for. -/
def valueOf (ds : List Char) : Nat := ds.foldl (fun a c => 10 * a + (c.toNat - '0'.toNat)) 0

/-- A number: an integer of 64 bits, or something else, which is kept as a text. -/
def Number (s : List Char) (j : Json) : Prop :=
  ∃ sign int frac exp, s = sign ++ int ++ frac ++ exp ∧ (sign = [] ∨ sign = ['-']) ∧
    int ≠ [] ∧ (∀ c ∈ int, Digit c) ∧ (int.head? = some '0' → int = ['0']) ∧
    (frac = [] ∨ ∃ ds, frac = '.' :: ds ∧ ds ≠ [] ∧ ∀ c ∈ ds, Digit c) ∧
    (exp = [] ∨ ∃ e pm ds, exp = e :: (pm ++ ds) ∧ (e = 'e' ∨ e = 'E') ∧ (pm = [] ∨ pm = ['+'] ∨ pm = ['-']) ∧
      ds ≠ [] ∧ ∀ c ∈ ds, Digit c) ∧
    (j = .num (valueOf int) ∧ frac = [] ∧ exp = [] ∧ sign = [] ∧ valueOf int < 2 ^ 64 ∨
     j = .num (-(valueOf int : Int)) ∧ frac = [] ∧ exp = [] ∧ sign = ['-'] ∧ 0 < valueOf int ∧ valueOf int ≤ 2 ^ 63 ∨
     j = .float s ∧ ¬ (frac = [] ∧ exp = [] ∧
       (sign = [] ∧ valueOf int < 2 ^ 64 ∨ sign = ['-'] ∧ 0 < valueOf int ∧ valueOf int ≤ 2 ^ 63)))

/-- Texts with commas between them. -/
def commas : List (List Char) → List Char
  | [] => []
  | [x] => x
  | x :: y :: xs => x ++ ',' :: commas (y :: xs)

/-- An element of an array, with white space around it. -/
structure Element where
  before : List Char
  text : List Char
  after : List Char
  value : Json

/-- The text of an element. -/
def Element.whole (e : Element) : List Char := e.before ++ e.text ++ e.after

/-- A member of an object: its name and its value, with white space around them. -/
structure Member where
  before : List Char
  nameText : List Char
  name : Option (List Char)
  colon : List Char
  element : Element

/-- The text of a member. -/
def Member.whole (m : Member) : List Char := m.before ++ '"' :: m.nameText ++ '"' :: m.colon ++ ':' :: m.element.whole

/-- The text means the tree. -/
inductive Says : List Char → Json → Prop where
  | null : Says "null".toList .null
  | true : Says "true".toList (.bool true)
  | false : Says "false".toList (.bool false)
  | number {s : List Char} {j : Json} (h : Number s j) : Says s j
  | string {b : List Char} {s : Option (List Char)} (h : Str b s) : Says ('"' :: b ++ ['"']) (stringOf s)
  | empty {w : List Char} (h : Blank w) : Says ('[' :: w ++ [']']) (.arr [])
  | array {es : List Element} (hne : es ≠ []) (hw : ∀ e ∈ es, Blank e.before ∧ Blank e.after)
      (h : ∀ e ∈ es, Says e.text e.value) :
      Says ('[' :: commas (es.map Element.whole) ++ [']']) (.arr (es.map Element.value))
  | nothing {w : List Char} (h : Blank w) : Says ('{' :: w ++ ['}']) (.obj [])
  | object {ms : List Member} (hne : ms ≠ [])
      (hw : ∀ m ∈ ms, Blank m.before ∧ Blank m.colon ∧ Blank m.element.before ∧ Blank m.element.after)
      (hk : ∀ m ∈ ms, Str m.nameText m.name) (h : ∀ m ∈ ms, Says m.element.text m.element.value) :
      Says ('{' :: commas (ms.map Member.whole) ++ ['}'])
        (objectOf (ms.map fun m => (m.name, m.element.value)))

/-- A whole text, with white space around it. -/
def Means (s : List Char) (j : Json) : Prop :=
  ∃ before text after, s = before ++ text ++ after ∧ Blank before ∧ Blank after ∧ Says text j

/-- Every number in the tree is an integer of 64 bits, and everything in it is readable. -/
inductive Whole : Json → Prop where
  | null : Whole .null
  | bool (b : Bool) : Whole (.bool b)
  | num {n : Int} (h1 : -2 ^ 63 ≤ n) (h2 : n < 2 ^ 64) : Whole (.num n)
  | str (s : String) : Whole (.str s)
  | arr {xs : List Json} (h : ∀ x ∈ xs, Whole x) : Whole (.arr xs)
  | obj {fs : List (String × Json)} (h : ∀ f ∈ fs, Whole f.2) : Whole (.obj fs)

end Opsqueue.JsonText
