import Verif.Model.PName
import Verif.Model.Iri

/-! Model of `rdftk_query/src/sparql`: variables, and the parsers of tokens and of the prologue.  The crate
is not a member of the workspace at present, and the parsers of queries and updates are unfinished;
the parsers modelled here are modelled as written.

The crate `combine` is modelled as far as it is used.  A parser fails before or after it has used up
input (`fail false`, `fail true`); after that no other choice is tried.  `count(n, p)` is `p` up to `n`
times.  `alpha_num` is a parameter.  What the parsers for IRIs, prefixed names and the prologue
return is `()`, as in the code.  The choices of `prologue`, `iri` and `prefixed_name` have branches with
different types of output, which the compiler would not take; since the outputs are dropped there, they
are dropped in the branches here. -/

namespace Rdftk.Sparql

/-- `combine::ParseResult`, and panics. -/
inductive PRes (α : Type) where
  | ok (a : α) (rest : Str) (used : Bool)
  | fail (used : Bool)
  | panic
deriving DecidableEq

/-- `combine::Parser`. -/
abbrev P (α : Type) := Str → PRes α

variable {α β : Type}

/-- `satisfy`, `char`, `one_of`. -/
def satisfy (f : Char → Bool) : P Char
  | [] => .fail false
  | c :: s => if f c then .ok c s true else .fail false

/-- `char`. -/
def char (c : Char) : P Char := satisfy (· == c)

/-- `map`. -/
def mapP (f : α → β) (p : P α) : P β := fun s => match p s with
  | .ok a r u => .ok (f a) r u
  | .fail u => .fail u
  | .panic => .panic

/-- Parsers in a tuple, one after the other. -/
def andThen (p : P α) (q : α → P β) : P β := fun s => match p s with
  | .ok a r u => match q a r with
    | .ok b r' u' => .ok b r' (u || u')
    | .fail u' => .fail (u || u')
    | .panic => .panic
  | .fail u => .fail u
  | .panic => .panic

/-- `skip`. -/
def skip (p : P α) (q : P β) : P α := andThen p fun a => mapP (fun _ => a) q

/-- `or`, and `choice` of two parsers. -/
def orElse (p q : P α) : P α := fun s => match p s with
  | .fail false => q s
  | r => r

/-- `optional`. -/
def optionalP (p : P α) : P (Option α) := fun s => match p s with
  | .ok a r u => .ok (some a) r u
  | .fail false => .ok none s false
  | .fail true => .fail true
  | .panic => .panic

/-- `attempt`. -/
def attempt (p : P α) : P α := fun s => match p s with
  | .fail _ => .fail false
  | r => r

/-- `not_followed_by`. -/
def notFollowedBy (p : P α) : P Unit := fun s => match p s with
  | .ok _ _ _ => .fail false
  | .fail _ => .ok () s false
  | .panic => .panic

/-- `many`, with a bound on the number of times, which is never reached when each time uses input. -/
def manyUpTo (p : P α) : Nat → P (List α)
  | 0, s => .ok [] s false
  | n + 1, s => match p s with
    | .ok a r u => match manyUpTo p n r with
      | .ok l r' u' => .ok (a :: l) r' (u || u')
      | .fail u' => .fail (u || u')
      | .panic => .panic
    | .fail false => .ok [] s false
    | .fail true => .fail true
    | .panic => .panic

/-- `many`. -/
def many (p : P α) : P (List α) := fun s => manyUpTo p (s.length + 1) s

/-- `many1`. -/
def many1 (p : P α) : P (List α) := andThen p fun a => mapP (a :: ·) (many p)

/-- `string` and `string_cmp`. -/
def stringCmp (eq : Char → Char → Bool) : Str → P Unit
  | [], s => .ok () s false
  | c :: cs, s => match satisfy (eq c) s with
    | .ok _ r _ => match stringCmp eq cs r with
      | .ok () r' _ => .ok () r' true
      | .fail _ => .fail true
      | .panic => .panic
    | .fail u => .fail u
    | .panic => .panic

/-- Rust `char::is_whitespace`: the property `White_Space`. -/
def isWhitespace (c : Char) : Bool :=
  inRange 0x9 0xD c || c.toNat == 0x20 || c.toNat == 0x85 || c.toNat == 0xA0 || c.toNat == 0x1680 || inRange 0x2000 0x200A c ||
  inRange 0x2028 0x2029 c || c.toNat == 0x202F || c.toNat == 0x205F || c.toNat == 0x3000

/-- `space`. -/
def space : P Char := satisfy isWhitespace
/-- `spaces`, `skip_many(space())`. -/
def spaces : P Unit := mapP (fun _ => ()) (many space)

/-- `common.rs` 515-523, `whitespace`. -/
def whitespace : P Unit := mapP (fun _ => ()) (many1 space)

/-- Rust `u8::to_ascii_lowercase` on characters. -/
def asciiLower (c : Char) : Char := if inRange 0x41 0x5A c then Char.ofNat (c.toNat + 0x20) else c

/-- `char::eq_ignore_ascii_case`. -/
def eqIgnoreCase (c d : Char) : Bool := asciiLower c == asciiLower d

/-- `common.rs` 343-351, `keyword`. -/
def keyword (alnum : Char → Bool) (name : Str) : P Unit :=
  attempt (skip (stringCmp eqIgnoreCase name) (notFollowedBy (satisfy alnum)))

/-! ### Characters -/

/-- `common.rs` 534-540, `is_iri_reserved`. -/
def isIriReserved (c : Char) : Bool := (str! "<>\"{}|^`\\").contains c || inRange 0 0x20 c

/-- `common.rs` 549-572, `is_local_escape`. -/
def isLocalEscape (c : Char) : Bool := (str! "_~.-!$&'()*+,;=/?#@%").contains c

/-- `common.rs` 585-602, `is_pn_chars_base`. -/
def isPnCharsBase (c : Char) : Bool :=
  inRange 0x41 0x5A c || inRange 0x61 0x7A c ||
  inRange 0xC0 0xD6 c || inRange 0xD8 0xF6 c || inRange 0xF8 0x2FF c ||
  inRange 0x370 0x37D c || inRange 0x37F 0x1FFF c || inRange 0x200C 0x200D c ||
  inRange 0x2070 0x218F c || inRange 0x2C00 0x2FEF c || inRange 0x3001 0xD7FF c ||
  inRange 0xF900 0xFDCF c || inRange 0xFDF0 0xFFFD c || inRange 0x10000 0xEFFFF c

/-- `common.rs` 610-613, `is_pn_chars_u`. -/
def isPnCharsU (c : Char) : Bool := isPnCharsBase c || c == '_'

/-- The characters that `is_pn_chars` and `is_var_name_tail` name besides. -/
def isCombining (c : Char) : Bool := c.toNat == 0xB7 || inRange 0x300 0x36F c || inRange 0x203F 0x2040 c

/-- `common.rs` 621-627, `is_pn_chars`. -/
def isPnChars (c : Char) : Bool := isPnCharsU c || isAsciiDigit c || c == '-' || isCombining c

/-- `common.rs` 636-639, `is_var_name_head`. -/
def isVarNameHead (c : Char) : Bool := isPnCharsBase c || isAsciiDigit c

/-- `common.rs` 648-654, `is_var_name_tail`. -/
def isVarNameTail (c : Char) : Bool := isPnCharsBase c || isAsciiDigit c || isCombining c

/-! ### Tokens -/

/-- `sparql/mod.rs` 91-98, `Variable::is_valid`. -/
def variableIsValid (_s : Str) : Bool := false

/-- `sparql/mod.rs` 61-71, `Variable::from_str`; `unimplemented!()` is a panic. -/
def variableFromStr (s : Str) : Outcome Str := if variableIsValid s then .ok s else .panic

/-- `common.rs` 306-314, `var_name`. -/
def varName : P Str := andThen (satisfy isVarNameHead) fun c => mapP (c :: ·) (many (satisfy isVarNameTail))

/-- `common.rs` 289-297, `variable`. -/
def variable' : P Str := andThen (optionalP (satisfy fun c => c == '?' || c == '$')) fun _ => varName

/-- `char::is_ascii_alphabetic`. -/
def isAsciiAlpha (c : Char) : Bool := inRange 0x41 0x5A c || inRange 0x61 0x7A c

/-- `common.rs` 331-336, a part of a tag after the first. -/
def langPart : P Str := andThen (char '-') fun c => mapP (c :: ·) (many1 (satisfy fun c => isAsciiAlpha c || isAsciiDigit c))

/-- `common.rs` 322-341, `lang_tag`. -/
def langTag : P Str :=
  andThen (char '@') fun _ => andThen (many1 (satisfy isAsciiAlpha)) fun main =>
    mapP (fun parts => main ++ parts.flatten) (many langPart)

/-- `common.rs` 206-215, `boolean_literal`. -/
def booleanLiteral : P Bool :=
  attempt (orElse (mapP (fun _ => false) (stringCmp (· == ·) (str! "false"))) (mapP (fun _ => true) (stringCmp (· == ·) (str! "true"))))

/-- `common.rs` 359-371, `iri_ref`. -/
def iriRef : P Str :=
  andThen (char '<') fun _ => andThen (many (satisfy fun c => !isIriReserved c)) fun iri =>
    mapP (fun _ => iri) (skip (char '>') spaces)

/-- `common.rs` 411-423, `prefixed_name_prefix`. -/
def prefixedNamePrefix : P Str :=
  andThen (satisfy isPnCharsBase) fun c =>
    mapP (fun t => c :: t.getD []) (optionalP (many (orElse (satisfy isPnChars) (char '.'))))

/-- `common.rs` 379-387, `prefixed_name_namespace`. -/
def prefixedNameNamespace : P (Option Str) :=
  andThen (optionalP prefixedNamePrefix) fun p => mapP (fun _ => p) (skip (char ':') spaces)

/-- `hex_digit`. -/
def isHexDigit (c : Char) : Bool := isAsciiDigit c || inRange 0x41 0x46 c || inRange 0x61 0x66 c

/-- `u32::from_str` of at most two digits; `none` is an error, for no digits or a letter. -/
def parseDecimal (s : Str) : Option Nat :=
  if s = [] then none else if s.all isAsciiDigit then some (s.foldl (fun n c => 10 * n + (c.toNat - 0x30)) 0) else none

/-- `common.rs` 488-496, `percent_escape`.  The `unwrap` of `char::from_u32` does not fail below 100. -/
def percentEscape : P Char := fun s =>
  match andThen (char '%') (fun _ => manyUpTo (satisfy isHexDigit) 2) s with
  | .ok hex r u => match parseDecimal hex with
    | none => .panic
    | some n => .ok (Char.ofNat n) r u
  | .fail u => .fail u
  | .panic => .panic

/-- `common.rs` 505-513, `prefixed_name_local_escape`. -/
def prefixedNameLocalEscape : P Char := andThen (char '\\') fun _ => satisfy isLocalEscape

/-- `common.rs` 472-480, `prefixed_local_escape`. -/
def prefixedLocalEscape : P Char := orElse percentEscape prefixedNameLocalEscape

/-- `common.rs` 453-464, `prefixed_name_local_tail`. -/
def prefixedNameLocalTail : P Str :=
  andThen (many (orElse (satisfy fun c => isPnCharsU c || c == '.' || c == ':') prefixedLocalEscape)) fun s =>
    mapP (fun c => s ++ [c]) (orElse (satisfy fun c => isPnCharsU c || c == ':') prefixedLocalEscape)

/-- `common.rs` 432-444, `prefixed_name_local`. -/
def prefixedNameLocal : P Str :=
  skip (andThen (orElse (satisfy fun c => isPnCharsU c || c == ':' || isAsciiDigit c) prefixedLocalEscape) fun c =>
      mapP (fun t => c :: t.getD []) (optionalP prefixedNameLocalTail))
    whitespace

/-- `common.rs` 395-403, `prefixed_name_local_name`. -/
def prefixedNameLocalName : P (Option Str × Str) :=
  andThen prefixedNameNamespace fun p => mapP (fun l => (p, l)) prefixedNameLocal

/-- `common.rs` 49-57, `prefixed_name`. -/
def prefixedName : P Unit :=
  orElse (mapP (fun _ => ()) prefixedNameLocalName) (mapP (fun _ => ()) prefixedNameNamespace)

/-- `common.rs` 39-47, `iri`. -/
def iri : P Unit := orElse (mapP (fun _ => ()) iriRef) prefixedName

/-- `common.rs` 223-234, `base_decl`. -/
def baseDecl (alnum : Char → Bool) : P Str :=
  andThen (skip (keyword alnum (str! "base")) (many1 space)) fun _ => skip iriRef spaces

/-- `common.rs` 242-254, `prefix_decl`. -/
def prefixDecl (alnum : Char → Bool) : P (Option Str × Str) :=
  andThen (skip (keyword alnum (str! "prefix")) spaces) fun _ =>
    andThen prefixedNameNamespace fun p => mapP (fun i => (p, i)) (skip iriRef spaces)

/-- `common.rs` 29-37, `prologue`. -/
def prologue (alnum : Char → Bool) : P Unit :=
  mapP (fun _ => ()) (many (orElse (mapP (fun _ => ()) (baseDecl alnum)) (mapP (fun _ => ()) (prefixDecl alnum))))

end Rdftk.Sparql
