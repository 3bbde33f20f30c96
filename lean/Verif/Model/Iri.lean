import Verif.Model.PName

/-!
Model of `rdftk_iri/src/iri.rs`.

`Iri` wraps `url::Url`, whose equality, order and hash are those of its
serialisation.  The model keeps the serialisation and finds the components in it
by the generic syntax of RFC 3986, as `url::Url` does through its stored offsets.
Parsing itself (`Url::parse`) is outside the model: where needed it is a
parameter.
-/

namespace Rdftk

/-- A result that may be a panic. -/
inductive Outcome (α : Type _) where
  | ok (a : α)
  | panic
deriving DecidableEq, Repr

/-- `iri.rs` 28-30, `Iri(Url)`, by its serialisation. -/
structure Iri where
  text : Str
deriving DecidableEq, Repr

/-- The hierarchical part of a serialisation: the scheme with the authority if any
(`pre`), and the path.  The authority ends at the first `'/'`. -/
def splitHier (h : Str) : Str × Str :=
  match splitFirst ':' h with
  | (_, none) => ([], h)
  | (scheme, some rest) =>
    match stripPrefix ['/', '/'] rest with
    | none => (scheme ++ [':'], rest)
    | some r => (scheme ++ [':', '/', '/'] ++ r.takeWhile (· != '/'), r.dropWhile (· != '/'))

/-- Serialisation without fragment. -/
def Iri.noFragment (i : Iri) : Str := (splitFirst '#' i.text).1
/-- `Url::fragment`. -/
def Iri.fragment (i : Iri) : Option Str := (splitFirst '#' i.text).2
/-- `Url::query`. -/
def Iri.query (i : Iri) : Option Str := (splitFirst '?' i.noFragment).2
/-- Scheme, authority and path of the serialisation. -/
def Iri.hier (i : Iri) : Str := (splitFirst '?' i.noFragment).1
/-- Scheme and authority. -/
def Iri.pre (i : Iri) : Str := (splitHier i.hier).1
/-- `Url::path`. -/
def Iri.path (i : Iri) : Str := (splitHier i.hier).2

/-- `Url::cannot_be_a_base`: what follows the scheme does not start with `'/'`. -/
def Iri.isOpaque (i : Iri) : Bool :=
  match (splitFirst ':' i.hier).2 with
  | none => true
  | some rest => !startsWith rest '/'

/-- Text of an optional component with its introducing character. -/
def withSep (c : Char) : Option Str → Str
  | none => []
  | some s => c :: s

/-- UTF-8 bytes of a code point. -/
def utf8Bytes (n : Nat) : List Nat :=
  if n < 0x80 then [n]
  else if n < 0x800 then [0xC0 + n / 0x40, 0x80 + n % 0x40]
  else if n < 0x10000 then [0xE0 + n / 0x1000, 0x80 + n / 0x40 % 0x40, 0x80 + n % 0x40]
  else [0xF0 + n / 0x40000, 0x80 + n / 0x1000 % 0x40, 0x80 + n / 0x40 % 0x40, 0x80 + n % 0x40]

/-- Upper case hexadecimal digit. -/
def hexUpper (n : Nat) : Char :=
  if n < 10 then Char.ofNat (0x30 + n) else Char.ofNat (0x41 + (n - 10))

/-- `%XX` for a byte. -/
def pctByte (b : Nat) : Str := ['%', hexUpper (b / 16), hexUpper (b % 16)]

/-- `%XX...` for every byte of a character (`percent_encoding`). -/
def pctChar (c : Char) : Str := (utf8Bytes c.toNat).flatMap pctByte

/-- The `url` crate's `CONTROLS` set together with everything outside ASCII: always
encoded. -/
def isCtlOrNonAscii (c : Char) : Bool := c.toNat < 0x20 || 0x7F ≤ c.toNat

/-- The `url` crate's `FRAGMENT` set. -/
def isFragEscaped (c : Char) : Bool :=
  isCtlOrNonAscii c || c == ' ' || c == '"' || c == '<' || c == '>' || c == '`'

/-- The `url` crate's `PATH` set. -/
def isPathEscaped (c : Char) : Bool :=
  isFragEscaped c || c == '#' || c == '?' || c == '{' || c == '}'

/-- Percent-encode the characters selected by `esc`. -/
def pctEncode (esc : Char → Bool) (s : Str) : Str :=
  s.flatMap fun c => if esc c then pctChar c else [c]

/-- `iri.rs` 185-192, `with_new_fragment` (`Url::set_fragment(Some(..))`).  Not
modelled: removal of tabs and newlines from the argument. -/
def Iri.withNewFragment (i : Iri) (f : Str) : Iri :=
  ⟨i.noFragment ++ '#' :: pctEncode isFragEscaped f⟩

/-- `iri.rs` 215-217, `with_empty_fragment`. -/
def Iri.withEmptyFragment (i : Iri) : Iri := i.withNewFragment []

/-- `iri.rs` 239-243, `with_no_fragment`. -/
def Iri.withNoFragment (i : Iri) : Iri := ⟨i.noFragment⟩

/-- `iri.rs` 156-163, `with_new_path` (`Url::set_path`), for paths without `.` and
`..` segments and, unless the IRI is opaque, starting with `'/'`.  Not modelled:
normalisation of dot segments, backslashes and drive letters. -/
def Iri.withNewPath (i : Iri) (p : Str) : Iri :=
  ⟨i.pre ++ pctEncode (if i.isOpaque then isCtlOrNonAscii else isPathEscaped) p ++
    withSep '?' i.query ++ withSep '#' i.fragment⟩

/-- `iri.rs` 272-274, `looks_like_namespace`. -/
def Iri.looksLikeNamespace (i : Iri) : Bool :=
  i.fragment == some [] || (endsWith i.path '/' && i.query.isNone)

/-- `str::split(char)`: always at least one piece. -/
def splitOnChar (c : Char) : Str → List Str
  | [] => [[]]
  | d :: s =>
    if d = c then [] :: splitOnChar c s
    else match splitOnChar c s with
      | [] => [[d]]
      | w :: ws => (d :: w) :: ws

/-- `Url::path_segments`: `None` unless the path starts with `'/'`. -/
def pathSegments (p : Str) : Option (List Str) :=
  match p with
  | '/' :: r => some (splitOnChar '/' r)
  | _ => none

/-- `iri.rs` 310-334, `split`.  Both `unwrap`s of 324 are explicit panics. -/
def Iri.split (i : Iri) : Outcome (Option (Iri × Name)) :=
  match i.fragment with
  | some (c :: cs) =>
    match Name.parse (c :: cs) with
    | .ok name => .ok (some (i.withEmptyFragment, name))
    | .error _ => .ok none
  | _ =>
    if !i.path.isEmpty && !endsWith i.path '/' && i.query.isNone then
      match pathSegments i.path with
      | none => .panic
      | some segs =>
        match segs.getLast? with
        | none => .panic
        | some last =>
          match Name.parse last with
          | .ok name =>
            .ok (some (i.withNewPath (i.path.take (i.path.length - name.text.length)), name))
          | .error _ => .ok none
    else .ok none

/-- `iri.rs` 434-445, `make_name`. -/
def Iri.makeName (i : Iri) (name : Name) : Option Iri :=
  if i.fragment.isSome then some (i.withNewFragment name.text)
  else if endsWith i.path '/' && i.query.isNone then
    some (i.withNewPath (i.path ++ name.text))
  else none

/-- `iri.rs` 364-369, `namespace`. -/
def Iri.namespaceIri (i : Iri) : Outcome (Option Iri) :=
  match i.split with
  | .ok r => .ok (r.map (·.1))
  | .panic => .panic

/-- `iri.rs` 399-404, `name`. -/
def Iri.localName (i : Iri) : Outcome (Option Name) :=
  match i.split with
  | .ok r => .ok (r.map (·.2))
  | .panic => .panic

/-- `iri.rs` 62-72, `Display for Iri`: bracketed, or bare in alternate form. -/
def Iri.display (i : Iri) (alternate : Bool) : Str :=
  if alternate then i.text else '<' :: i.text ++ ['>']

/-- `iri.rs` 78-85, `Iri::from_str`; `parse` is `Url::from_str`. -/
def Iri.fromStr (parse : Str → Option Iri) (s : Str) : Option Iri :=
  parse (if startsWith s '<' && endsWith s '>' then (s.drop 1).dropLast else s)

/-- What every serialisation of a parsed URL satisfies and the theorems below use:
the characters of path and fragment are those the crate leaves unescaped, and a
scheme is present. -/
def Iri.wf (i : Iri) : Bool :=
  (splitFirst ':' i.hier).2.isSome &&
  i.path.all (fun c => !(if i.isOpaque then isCtlOrNonAscii else isPathEscaped) c) &&
  (i.fragment.getD []).all (fun c => !isFragEscaped c)

end Rdftk
