import Verif.Model.Http

/-!
# JSON as text

serde_json (its source is not in /repo): `to_vec` as used by reqwest's `.json(..)` (producer/client.rs 122, 296) and
axum's `Json` responses (producer/server.rs 102, 133, 147, 157), and `from_slice` as used by axum's `Json` extractor
(producer/server.rs 163, 187) and by the client (producer/client.rs 88, 127, 227). A text is a list of characters: UTF-8
itself is not modelled, except for its length. Simplifications: a text is read into a tree first, and the tree
into a value (serde_json does both at once, so a text that is wrong in both ways may be refused with another status); numbers
that are no 64-bit integers are kept as texts, whatever their size. serde_json's limit on the nesting (128) does not show:
the types that are read are nested five deep at most, and what nobody asks for is passed over without recursion
(`ignore_value`).
-/

namespace Opsqueue.JsonText
open Wire
open Decimal (digitChar decimal parseLoop)

/-! ## Writing -/

/-- A lower-case hexadecimal digit (serde_json's `format_escaped_str`, producer/server.rs 133). -/
def hexChar (n : Nat) : Char := if n < 10 then Char.ofNat (48 + n) else Char.ofNat (87 + n)

/-- One character of a string (serde_json's `format_escaped_str` with its table `ESCAPE`, producer/server.rs 133). -/
def escape (c : Char) : List Char :=
  if c = '"' then ['\\', '"']
  else if c = '\\' then ['\\', '\\']
  else if c = Char.ofNat 8 then ['\\', 'b']
  else if c = Char.ofNat 12 then ['\\', 'f']
  else if c = '\n' then ['\\', 'n']
  else if c = '\r' then ['\\', 'r']
  else if c = '\t' then ['\\', 't']
  else if c.toNat < 32 then ['\\', 'u', '0', '0', hexChar (c.toNat / 16), hexChar (c.toNat % 16)]
  else [c]

/-- A string (serde_json, producer/server.rs 133). -/
def printStr (s : String) : List Char := '"' :: s.toList.flatMap escape ++ ['"']

/-- An integer (serde_json with `itoa`, producer/server.rs 133). -/
def printInt : Int → List Char
  | .ofNat n => decimal n
  | .negSucc n => '-' :: decimal (n + 1)

mutual

/-- `serde_json::to_vec` (producer/server.rs 133, producer/client.rs 122). Nothing unreadable is ever written. -/
def print : Json → List Char
  | .null => ['n', 'u', 'l', 'l']
  | .bool true => ['t', 'r', 'u', 'e']
  | .bool false => ['f', 'a', 'l', 's', 'e']
  | .num n => printInt n
  | .float t => t
  | .unreadable => []
  | .str s => printStr s
  | .arr xs => '[' :: printElems xs ++ [']']
  | .obj fs => '{' :: printFields fs ++ ['}']

/-- The elements of an array (serde_json, producer/server.rs 133). -/
def printElems : List Json → List Char
  | [] => []
  | [x] => print x
  | x :: y :: xs => print x ++ ',' :: printElems (y :: xs)

/-- The members of an object (serde_json, producer/server.rs 133). -/
def printFields : List (String × Json) → List Char
  | [] => []
  | [(k, v)] => printStr k ++ ':' :: print v
  | (k, v) :: f :: fs => printStr k ++ ':' :: print v ++ ',' :: printFields (f :: fs)

end

/-! ## Reading -/

/-- White space (serde_json's `parse_whitespace`, producer/client.rs 88). -/
def isBlank (c : Char) : Bool := c == ' ' || c == '\t' || c == '\n' || c == '\r'

/-- Without the white space in front (serde_json's `parse_whitespace`, producer/client.rs 88). -/
def skip (s : List Char) : List Char := s.dropWhile isBlank

/-- The character an escape stands for (serde_json's `parse_escape`, producer/client.rs 88). -/
def unescape (c : Char) : Option Char :=
  if c = '"' then some '"'
  else if c = '\\' then some '\\'
  else if c = '/' then some '/'
  else if c = 'b' then some (Char.ofNat 8)
  else if c = 'f' then some (Char.ofNat 12)
  else if c = 'n' then some '\n'
  else if c = 'r' then some '\r'
  else if c = 't' then some '\t'
  else none

/-- Four hexadecimal digits (serde_json's `decode_hex_escape`, producer/client.rs 88). -/
def hex4 (a b c d : Char) : Option Nat := do
  let a ← Http.hex? a
  let b ← Http.hex? b
  let c ← Http.hex? c
  let d ← Http.hex? d
  some (((a * 16 + b) * 16 + c) * 16 + d)

/-- What follows the opening quote of a string: the string, and what follows its closing quote (serde_json's
`parse_str`, producer/client.rs 88). -/
def strBody : List Char → Option (List Char × List Char)
  | [] => none
  | x :: r =>
    if x = '"' then some ([], r)
    else if x = '\\' then
      match r with
      | [] => none
      | e :: r =>
        if e = 'u' then
          match r with
          | a :: b :: c :: d :: r =>
            match hex4 a b c d with
            | none => none
            | some m =>
              if 0xDC00 ≤ m ∧ m ≤ 0xDFFF then none
              else if 0xD800 ≤ m ∧ m ≤ 0xDBFF then
                match r with
                | z :: u :: a :: b :: c :: d :: r =>
                  if z = '\\' ∧ u = 'u' then
                    match hex4 a b c d with
                    | none => none
                    | some n =>
                      if 0xDC00 ≤ n ∧ n ≤ 0xDFFF then
                        (strBody r).map fun p => (Char.ofNat (0x10000 + (m - 0xD800) * 1024 + (n - 0xDC00)) :: p.1, p.2)
                      else none
                  else none
                | _ => none
              else (strBody r).map fun p => (Char.ofNat m :: p.1, p.2)
          | _ => none
        else
          match unescape e with
          | none => none
          | some c => (strBody r).map fun p => (c :: p.1, p.2)
    else if x.toNat < 32 then none
    else (strBody r).map fun p => (x :: p.1, p.2)

/-- What follows a string nobody asks for (serde_json's `ignore_str` and `ignore_escape`, producer/client.rs 88): escapes
have to be well formed, but need not stand for a character. -/
def skipBody : List Char → Option (List Char)
  | [] => none
  | x :: r =>
    if x = '"' then some r
    else if x = '\\' then
      match r with
      | [] => none
      | e :: r =>
        if e = 'u' then
          match r with
          | a :: b :: c :: d :: r => if (hex4 a b c d).isSome then skipBody r else none
          | _ => none
        else if (unescape e).isSome then skipBody r
        else none
    else if x.toNat < 32 then none
    else skipBody r

/-- A string after its opening quote, readable or not (serde_json's `parse_str` and `ignore_str`, producer/client.rs 88). -/
def strToken (s : List Char) : Option (Option (List Char) × List Char) :=
  match strBody s with
  | some (t, r) => some (some t, r)
  | none => (skipBody s).map fun r => (none, r)

/-- The tree of a string. -/
def strTree : Option (List Char) → Json
  | some t => .str (String.ofList t)
  | none => .unreadable

/-- The tree of an object: serde_json reads all names of an object that is asked for (`MapAccess`, producer/client.rs 88). -/
def objTree (fs : List (Option (List Char) × Json)) : Json :=
  match fs.mapM fun f => f.1.map fun k => (String.ofList k, f.2) with
  | some fs => .obj fs
  | none => .unreadable

/-- A decimal digit (serde_json's `parse_integer`, producer/client.rs 88). -/
def isDigit (c : Char) : Bool := 48 ≤ c.toNat && c.toNat ≤ 57

/-- The digits in front of a text, and what follows them; there has to be one (serde_json's `parse_decimal`,
producer/client.rs 88). -/
def digits1 (s : List Char) : Option (List Char × List Char) :=
  if s.takeWhile isDigit = [] then none else some (s.takeWhile isDigit, s.dropWhile isDigit)

/-- The decimals of a number, if there are any (serde_json's `parse_decimal`, producer/client.rs 88). -/
def fracPart : List Char → Option (List Char × List Char)
  | [] => some ([], [])
  | c :: r => if c = '.' then (digits1 r).map fun p => ('.' :: p.1, p.2) else some ([], c :: r)

/-- The sign of an exponent (serde_json's `parse_exponent`, producer/client.rs 88). -/
def signPart : List Char → List Char × List Char
  | [] => ([], [])
  | c :: r => if c = '+' ∨ c = '-' then ([c], r) else ([], c :: r)

/-- The exponent of a number, if there is one (serde_json's `parse_exponent`, producer/client.rs 88). -/
def expPart : List Char → Option (List Char × List Char)
  | [] => some ([], [])
  | c :: r =>
    if c = 'e' ∨ c = 'E' then (digits1 (signPart r).2).map fun p => (c :: ((signPart r).1 ++ p.1), p.2)
    else some ([], c :: r)

/-- A number without its sign (serde_json's `parse_integer`, producer/client.rs 88): no zeros in front. -/
def unsigned (neg : Bool) (s : List Char) : Option (Json × List Char) := do
  let (int, r) ← digits1 s
  if int.head? = some '0' ∧ int ≠ ['0'] then none
  else
    let (frac, r) ← fracPart r
    let (exp, r) ← expPart r
    let n ← parseLoop 0 int
    let text := (if neg then ['-'] else []) ++ int ++ frac ++ exp
    if frac = [] ∧ exp = [] then
      if neg then if 0 < n ∧ n ≤ 2 ^ 63 then some (.num (-(n : Int)), r) else some (.float text, r)
      else if n < 2 ^ 64 then some (.num n, r) else some (.float text, r)
    else some (.float text, r)

/-- A number (serde_json's `parse_any_number`, producer/client.rs 88). -/
def number : List Char → Option (Json × List Char)
  | [] => none
  | c :: r => if c = '-' then unsigned true r else unsigned false (c :: r)

/-- A fixed word (serde_json's `parse_ident`, producer/client.rs 88). -/
def word (w : List Char) (j : Json) (s : List Char) : Option (Json × List Char) :=
  if s.take w.length = w then some (j, s.drop w.length) else none

mutual

/-- A value and what follows it (`Deserializer::deserialize_any` and `ignore_value`, producer/client.rs 88); `fuel` is the
length of the text. -/
def value : Nat → List Char → Option (Json × List Char)
  | 0, _ => none
  | fuel + 1, s =>
    match skip s with
    | [] => none
    | c :: r =>
      if c = '"' then (strToken r).map fun p => (strTree p.1, p.2)
      else if c = '[' then
        if (skip r).head? = some ']' then some (.arr [], (skip r).tail)
        else (elems fuel r).map fun p => (.arr p.1, p.2)
      else if c = '{' then
        if (skip r).head? = some '}' then some (.obj [], (skip r).tail)
        else (members fuel r).map fun p => (objTree p.1, p.2)
      else if c = 'n' then word ['n', 'u', 'l', 'l'] .null (c :: r)
      else if c = 't' then word ['t', 'r', 'u', 'e'] (.bool true) (c :: r)
      else if c = 'f' then word ['f', 'a', 'l', 's', 'e'] (.bool false) (c :: r)
      else number (c :: r)

/-- The elements of an array, up to its end (serde_json's `SeqAccess`, producer/client.rs 88). -/
def elems : Nat → List Char → Option (List Json × List Char)
  | 0, _ => none
  | fuel + 1, s =>
    match value fuel s with
    | none => none
    | some (v, r) =>
      match skip r with
      | [] => none
      | c :: r =>
        if c = ']' then some ([v], r)
        else if c = ',' then (elems fuel r).map fun p => (v :: p.1, p.2)
        else none

/-- The members of an object, up to its end (serde_json's `MapAccess`, producer/client.rs 88). -/
def members : Nat → List Char → Option (List (Option (List Char) × Json) × List Char)
  | 0, _ => none
  | fuel + 1, s =>
    match skip s with
    | [] => none
    | c :: r =>
      if c = '"' then
        match strToken r with
        | none => none
        | some (k, r) =>
          match skip r with
          | [] => none
          | c :: r =>
            if c = ':' then
              match value fuel r with
              | none => none
              | some (v, r) =>
                match skip r with
                | [] => none
                | c :: r =>
                  if c = '}' then some ([(k, v)], r)
                  else if c = ',' then (members fuel r).map fun p => ((k, v) :: p.1, p.2)
                  else none
            else none
      else none

end

/-- `serde_json::from_slice` (producer/client.rs 88): nothing but white space may follow. -/
def parse (s : List Char) : Option Json :=
  match value (s.length + 1) s with
  | none => none
  | some (j, r) => if skip r = [] then some j else none

end Opsqueue.JsonText
