import Verif.Model.NTriples

/-!
JSON values and texts as `serde_json` (a dependency, version 1) has them: `Value`, `Map`,
`to_writer`, `to_writer_pretty` and `from_reader`.

A `Map` is a `BTreeMap`, so an object is a list of pairs sorted by key.  A number is its text:
the readers of this crate never look at one, and its size is not limited here.
-/

namespace Rdftk

/-- `serde_json::Value`. -/
inductive Json where
  | null
  | bool (b : Bool)
  | num (text : Str)
  | str (s : Str)
  | arr (l : List Json)
  | obj (m : List (Str × Json))

/-- `Map::insert`: a present key gets the new value. -/
def mapPut {α : Type _} (k : Str) (v : α) : List (Str × α) → List (Str × α)
  | [] => [(k, v)]
  | e :: es =>
    match cmpStr k e.1 with
    | .lt => (k, v) :: e :: es
    | .eq => (k, v) :: es
    | .gt => e :: mapPut k v es

/-- `Map::get`. -/
def mapGet {α : Type _} (k : Str) (m : List (Str × α)) : Option α :=
  (m.find? fun e => e.1 == k).map (·.2)

/-! ### Writing -/

/-- One character of a string as `format_escaped_str` writes it. -/
def jEscapeChar (c : Char) : Str :=
  if c = '"' then ['\\', '"']
  else if c = '\\' then ['\\', '\\']
  else if c.toNat = 0x08 then ['\\', 'b']
  else if c.toNat = 0x0C then ['\\', 'f']
  else if c = '\n' then ['\\', 'n']
  else if c = '\r' then ['\\', 'r']
  else if c = '\t' then ['\\', 't']
  else if c.toNat < 0x20 then
    ['\\', 'u', '0', '0', Nat.digitChar (c.toNat / 16), Nat.digitChar (c.toNat % 16)]
  else [c]

/-- A string in quotes. -/
def jQuote (s : Str) : Str := '"' :: (s.flatMap jEscapeChar ++ ['"'])

/-- A new line and the indentation of `PrettyFormatter`, or nothing for `CompactFormatter`. -/
def jBreak (pretty : Bool) (n : Nat) : Str :=
  if pretty then '\n' :: List.replicate (2 * n) ' ' else []

/-- What stands between a key and its value. -/
def jColon (pretty : Bool) : Str := if pretty then [':', ' '] else [':']

mutual
/-- `to_writer_pretty` and `to_writer`; `n` is the current indentation. -/
def Json.text (pretty : Bool) (n : Nat) : Json → Str
  | .null => str! "null"
  | .bool true => str! "true"
  | .bool false => str! "false"
  | .num t => t
  | .str s => jQuote s
  | .arr [] => str! "[]"
  | .arr (v :: l) =>
    '[' :: (jBreak pretty (n + 1) ++ Json.text pretty (n + 1) v ++ Json.elemsText pretty (n + 1) l ++
      jBreak pretty n ++ str! "]")
  | .obj [] => str! "{}"
  | .obj ((k, v) :: m) =>
    '{' :: (jBreak pretty (n + 1) ++ jQuote k ++ jColon pretty ++ Json.text pretty (n + 1) v ++
      Json.membersText pretty (n + 1) m ++ jBreak pretty n ++ str! "}")
/-- The elements of an array after the first. -/
def Json.elemsText (pretty : Bool) (n : Nat) : List Json → Str
  | [] => []
  | v :: l => ',' :: (jBreak pretty n ++ Json.text pretty n v ++ Json.elemsText pretty n l)
/-- The members of an object after the first. -/
def Json.membersText (pretty : Bool) (n : Nat) : List (Str × Json) → Str
  | [] => []
  | (k, v) :: m =>
    ',' :: (jBreak pretty n ++ jQuote k ++ jColon pretty ++ Json.text pretty n v ++
      Json.membersText pretty n m)
end

/-! ### Reading -/

/-- White space between tokens. -/
def jWs (c : Char) : Bool := c == ' ' || c == '\n' || c == '\t' || c == '\r'

/-- Skips white space. -/
def jSkip (s : Str) : Str := s.dropWhile jWs

/-- Four hexadecimal digits. -/
def jHex4 : Str → Option Nat
  | a :: b :: c :: d :: _ =>
    if isHexDigit a && isHexDigit b && isHexDigit c && isHexDigit d then
      some (hexNumber [a, b, c, d])
    else none
  | _ => none

/-- After `\u`: the character named by one escape or by a pair of surrogates, and the length of
what follows `\u`. -/
def jUnicode (r : Str) : Option (Char × Nat) :=
  match jHex4 r with
  | none => none
  | some v =>
    if 0xDC00 ≤ v ∧ v ≤ 0xDFFF then none
    else if 0xD800 ≤ v ∧ v ≤ 0xDBFF then
      match r.drop 4 with
      | '\\' :: 'u' :: r' =>
        match jHex4 r' with
        | none => none
        | some w =>
          if 0xDC00 ≤ w ∧ w ≤ 0xDFFF then
            some (Char.ofNat (0x10000 + (v - 0xD800) * 0x400 + (w - 0xDC00)), 10)
          else none
      | _ => none
    else some (Char.ofNat v, 4)

/-- After a backslash: the character and the length of what follows the backslash. -/
def jEscape : Str → Option (Char × Nat)
  | '"' :: _ => some ('"', 1)
  | '\\' :: _ => some ('\\', 1)
  | '/' :: _ => some ('/', 1)
  | 'b' :: _ => some (Char.ofNat 0x08, 1)
  | 'f' :: _ => some (Char.ofNat 0x0C, 1)
  | 'n' :: _ => some ('\n', 1)
  | 'r' :: _ => some ('\r', 1)
  | 't' :: _ => some ('\t', 1)
  | 'u' :: r => (jUnicode r).map fun x => (x.1, x.2 + 1)
  | _ => none

/-- The rest of a string, after the opening quote.  The number is that of the characters still
to pass over. -/
def jString : Nat → Str → Option (Str × Str)
  | _, [] => none
  | k + 1, _ :: s => jString k s
  | 0, c :: s =>
    if c = '"' then some ([], s)
    else if c = '\\' then
      match jEscape s with
      | none => none
      | some (d, n) => (jString n s).map fun x => (d :: x.1, x.2)
    else if c.toNat < 0x20 then none
    else (jString 0 s).map fun x => (c :: x.1, x.2)

/-- Digits at the start of a text, at least one. -/
def jDigits (s : Str) : Option (Str × Str) :=
  if (s.takeWhile isAsciiDigit).isEmpty then none
  else some (s.takeWhile isAsciiDigit, s.dropWhile isAsciiDigit)

/-- The integer part of a number. -/
def jInt : Str → Option (Str × Str)
  | '0' :: s => some (['0'], s)
  | s => jDigits s

/-- The fraction of a number. -/
def jFrac : Str → Option (Str × Str)
  | '.' :: s => (jDigits s).map fun x => ('.' :: x.1, x.2)
  | s => some ([], s)

/-- The exponent of a number. -/
def jExp : Str → Option (Str × Str)
  | c :: s =>
    if c = 'e' ∨ c = 'E' then
      match s with
      | d :: s' =>
        if d = '+' ∨ d = '-' then (jDigits s').map fun x => (c :: d :: x.1, x.2)
        else (jDigits s).map fun x => (c :: x.1, x.2)
      | [] => none
    else some ([], c :: s)
  | [] => some ([], [])

/-- A number without sign. -/
def jUnsigned (s : Str) : Option (Str × Str) :=
  match jInt s with
  | none => none
  | some (a, s) =>
    match jFrac s with
    | none => none
    | some (b, s) => (jExp s).map fun x => (a ++ b ++ x.1, x.2)

/-- A number. -/
def jNumber : Str → Option (Json × Str)
  | '-' :: s => (jUnsigned s).map fun x => (.num ('-' :: x.1), x.2)
  | s => (jUnsigned s).map fun x => (.num x.1, x.2)

/-- The elements of an array after the opening bracket when there is at least one.  `p` reads a
value; the first number bounds the steps. -/
def jElems (p : Str → Option (Json × Str)) : Nat → Str → Option (List Json × Str)
  | 0, _ => none
  | n + 1, s =>
    match p s with
    | none => none
    | some (v, r) =>
      match jSkip r with
      | ']' :: r => some ([v], r)
      | ',' :: r => (jElems p n r).map fun x => (v :: x.1, x.2)
      | _ => none

/-- The members of an object, from the first key on.  They are put into the map in the order
of the text. -/
def jMembers (p : Str → Option (Json × Str)) : Nat → List (Str × Json) → Str →
    Option (List (Str × Json) × Str)
  | 0, _, _ => none
  | n + 1, m, s =>
    match jSkip s with
    | '"' :: r =>
      match jString 0 r with
      | none => none
      | some (k, r) =>
        match jSkip r with
        | ':' :: r =>
          match p r with
          | none => none
          | some (v, r) =>
            match jSkip r with
            | '}' :: r => some (mapPut k v m, r)
            | ',' :: r => jMembers p n (mapPut k v m) r
            | _ => none
        | _ => none
    | _ => none

/-- A value that is no array and no object. -/
def jScalar (s : Str) : Option (Json × Str) :=
  match s with
  | '"' :: r => (jString 0 r).map fun x => (.str x.1, x.2)
  | 'n' :: 'u' :: 'l' :: 'l' :: r => some (.null, r)
  | 't' :: 'r' :: 'u' :: 'e' :: r => some (.bool true, r)
  | 'f' :: 'a' :: 'l' :: 's' :: 'e' :: r => some (.bool false, r)
  | s => jNumber s

/-- A value; the number is how many arrays and objects may still be entered. -/
def jValue : Nat → Str → Option (Json × Str)
  | 0, s =>
    match jSkip s with
    | '[' :: _ => none
    | '{' :: _ => none
    | s => jScalar s
  | d + 1, s =>
    match jSkip s with
    | '[' :: r =>
      match jSkip r with
      | ']' :: r => some (.arr [], r)
      | r => (jElems (jValue d) r.length r).map fun x => (.arr x.1, x.2)
    | '{' :: r =>
      match jSkip r with
      | '}' :: r => some (.obj [], r)
      | r => (jMembers (jValue d) r.length [] r).map fun x => (.obj x.1, x.2)
    | s => jScalar s

/-- `from_reader`: one value and nothing after it.  The limit is that of `serde_json`, whose
counter starts at 128 and refuses at 0. -/
def jParse (s : Str) : Option Json :=
  match jValue 127 s with
  | some (v, r) => if jSkip r = [] then some v else none
  | none => none

end Rdftk
