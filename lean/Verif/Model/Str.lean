/-!
Strings of the model.

Rust `String`/`&str` values are modelled as lists of Unicode scalar values
(`Char` in Lean and in Rust denote the same set).  Byte offsets used by the
Rust code always fall on character boundaries, so slices become list splits.
-/

namespace Rdftk

deriving instance DecidableEq for Except

/-- Rust `String` / `&str`. -/
abbrev Str := List Char

/-- `str! "abc"` is the list of characters of a string literal. -/
syntax "str!" str : term

macro_rules
  | `(str! $s:str) => do
    let cs ← s.getString.toList.mapM fun c => `(term| $(Lean.Syntax.mkCharLit c):char)
    let arr := cs.toArray
    `(([$arr,*] : List Char))

/-- `str::strip_prefix` for a string prefix. -/
def stripPrefix : Str → Str → Option Str
  | [], s => some s
  | _ :: _, [] => none
  | p :: ps, c :: s => if p = c then stripPrefix ps s else none

/-- `str::ends_with(char)`. -/
def endsWith (s : Str) (c : Char) : Bool := s.getLast? == some c

/-- `str::starts_with(char)`. -/
def startsWith (s : Str) (c : Char) : Bool := s.head? == some c

/-- `str::strip_suffix(char)`. -/
def stripSuffix (s : Str) (c : Char) : Option Str :=
  if s.getLast? = some c then some s.dropLast else none

/-- Split at the first occurrence of `c`: the text before it and, when there is
one, the text after it (`str::find` followed by slicing). -/
def splitFirst (c : Char) : Str → Str × Option Str
  | [] => ([], none)
  | d :: s =>
    if d = c then ([], some s)
    else match splitFirst c s with
      | (a, b) => (d :: a, b)

/-- Comparison of characters (Rust `Ord for char`). -/
def cmpChar (a b : Char) : Ordering := compare a.toNat b.toNat

/-- Lexicographic comparison (Rust `Ord` for slices and vectors). -/
def cmpList {α : Type _} (cmp : α → α → Ordering) : List α → List α → Ordering
  | [], [] => .eq
  | [], _ :: _ => .lt
  | _ :: _, [] => .gt
  | a :: as, b :: bs => (cmp a b).then (cmpList cmp as bs)

/-- Rust `Ord for str`.  Rust compares UTF-8 bytes, which orders strings as the
comparison of scalar values does. -/
def cmpStr : Str → Str → Ordering := cmpList cmpChar

end Rdftk
