import Verif.Model.Str

/-!
Model of `rdftk_iri/src/pname.rs`: namespaces (prefixes), names and prefixed
(local) names.
-/

namespace Rdftk

/-- `rdftk_iri/src/error.rs` 33-51, `NameParseError`. -/
inductive NameError where
  | emptyString
  | invalidCharacter (s : Str)
  | tooManySeparators (s : Str)
  | missingSeparator (s : Str)
deriving DecidableEq, Repr

/-- `lo ..= hi` on characters. -/
def inRange (lo hi : Nat) (c : Char) : Bool := lo ≤ c.toNat && c.toNat ≤ hi

/-- `pname.rs` 571-589, `is_pn_chars_base`. -/
def isPnCharsBase (c : Char) : Bool :=
  inRange 0x41 0x5A c || inRange 0x61 0x7A c ||
  inRange 0xC0 0xD6 c || inRange 0xD8 0xF6 c || inRange 0xF8 0x2FF c ||
  inRange 0x370 0x37D c || inRange 0x37F 0x1FFF c || inRange 0x200C 0x200D c ||
  inRange 0x2070 0x218F c || inRange 0x2C00 0x2FEF c || inRange 0x3001 0xD7FF c ||
  inRange 0xF900 0xFDCF c || inRange 0xFDF0 0xFFFD c || inRange 0x10000 0xEFFFF c

/-- Rust `char::is_ascii_digit`. -/
def isAsciiDigit (c : Char) : Bool := inRange 0x30 0x39 c

/-- `pname.rs` 591-593, `is_pn_chars_u`. -/
def isPnCharsU (c : Char) : Bool := isPnCharsBase c || c == '_'

/-- `pname.rs` 595-602, `is_pn_chars`. -/
def isPnChars (c : Char) : Bool :=
  isPnCharsU c || c == '-' || isAsciiDigit c || c.toNat == 0xB7 ||
  inRange 0x300 0x36F c || inRange 0x203F 0x2040 c

/-- `pname.rs` 604-606, `is_pn_local_first`. -/
def isPnLocalFirst (c : Char) : Bool := isPnCharsU c || isAsciiDigit c

/-- `pname.rs` 608-610, `is_pn_prefix_local_rest`. -/
def isPnPrefixLocalRest (c : Char) : Bool := isPnChars c || c == '.'

/-- `pname.rs` `Namespace(String)`; the text includes the final `':'`. -/
structure Namespace where
  text : Str
deriving DecidableEq, Repr

/-- `pname.rs` `Name(String)`. -/
structure Name where
  text : Str
deriving DecidableEq, Repr

/-- `pname.rs` `LocalName`. -/
structure LocalName where
  «namespace» : Namespace
  name : Name
deriving DecidableEq, Repr

/-- `pname.rs` 241-264, `Namespace::from_str`. -/
def Namespace.parse (s : Str) : Except NameError Namespace :=
  if s.isEmpty then .error .emptyString
  else if s = [':'] then .ok ⟨s⟩
  else match stripSuffix s ':' with
    | some pnPrefix =>
      if pnPrefix.contains ':' then .error (.tooManySeparators s)
      else match pnPrefix with
        | [] => .ok ⟨s⟩
        | c :: cs =>
          if isPnCharsBase c && cs.all isPnPrefixLocalRest then .ok ⟨s⟩
          else .error (.invalidCharacter s)
    | none => .error (.missingSeparator s)

/-- The text normalisation shared by `new_named` (296-305) and `new_unchecked`
(324-333): add `':'` unless it is already the last character. -/
def withColon (s : Str) : Str := if endsWith s ':' then s else s ++ [':']

/-- `pname.rs` 296-305, `Namespace::new_named`. -/
def Namespace.newNamed (s : Str) : Except NameError Namespace := Namespace.parse (withColon s)

/-- `pname.rs` 314-316, `Namespace::new_default`. -/
def Namespace.newDefault : Namespace := ⟨[':']⟩

/-- `pname.rs` 324-333, `Namespace::new_unchecked`. -/
def Namespace.newUnchecked (s : Str) : Namespace := ⟨withColon s⟩

/-- `pname.rs` 339-341, `Namespace::is_default`. -/
def Namespace.isDefault (n : Namespace) : Bool := n.text == [':']

/-- `pname.rs` 354-357, `Namespace::name_string`.  The outer `none` is the panic
of the `unwrap`, the inner option is the value returned. -/
def Namespace.nameString (n : Namespace) : Option (Option Str) :=
  match stripSuffix n.text ':' with
  | none => none
  | some [] => some none
  | some s => some (some s)

/-- `pname.rs` 233-237, `Display for Namespace`. -/
def Namespace.display (n : Namespace) : Str := n.text

/-- `pname.rs` 390-404, `Name::from_str`. -/
def Name.parse (s : Str) : Except NameError Name :=
  match s with
  | [] => .error .emptyString
  | c :: cs =>
    if endsWith s '.' then .error (.invalidCharacter s)
    else if isPnLocalFirst c && cs.all isPnPrefixLocalRest then .ok ⟨s⟩
    else .error (.invalidCharacter s)

/-- `pname.rs` 382-386, `Display for Name`. -/
def Name.display (n : Name) : Str := n.text

/-- `pname.rs` 468-479, `LocalName::from_str`: split at the first `':'`, which
stays with the namespace. -/
def LocalName.parse (s : Str) : Except NameError LocalName :=
  if s.isEmpty then .error .emptyString
  else match splitFirst ':' s with
    | (before, some after) => do
      let ns ← Namespace.parse (before ++ [':'])
      let n ← Name.parse after
      .ok ⟨ns, n⟩
    | (_, none) => .error (.missingSeparator s)

/-- `pname.rs` 459-463, `Display for LocalName`. -/
def LocalName.display (l : LocalName) : Str := l.namespace.display ++ l.name.display

/-- `pname.rs` 362-364 `Namespace::qualify`, 500-502 `LocalName::new`. -/
def Namespace.qualify (n : Namespace) (x : Name) : LocalName := ⟨n, x⟩

/-- `pname.rs` 562-564, `LocalName::as_curie`. -/
def LocalName.asCurie (l : LocalName) : Str :=
  ['['] ++ l.namespace.display ++ l.name.display ++ [']']

end Rdftk
