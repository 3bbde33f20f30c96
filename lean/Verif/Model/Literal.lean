import Verif.Model.Names

/-!
Model of `rdftk_core/src/model/literal.rs`.

Language tags are their text (`language_tags::LanguageTag` compares and prints its
serialisation).  Floating point, `chrono` and `rust_decimal` conversions and the base 64
codec are not modelled.
-/

namespace Rdftk

/-- How `Display for Iri` prints.  The core and I/O crates put their own angle brackets
around an IRI (`bare`); the current `rdftk_iri` (`iri.rs` 62-72) prints them itself
(`bracketed`).  Everything that prints an IRI takes this as a parameter. -/
inductive IriStyle where
  | bare
  | bracketed
deriving DecidableEq, Repr

/-- `format!("{}", iri)`. -/
def Iri.fmt (sty : IriStyle) (i : Iri) : Str :=
  match sty with
  | .bare => i.text
  | .bracketed => '<' :: i.text ++ ['>']

/-- `xsd::...()`. -/
def xsdIri (n : Str) : Iri := ⟨str! "http://www.w3.org/2001/XMLSchema#" ++ n⟩
/-- `rdf::...()`. -/
def rdfIri (n : Str) : Iri := ⟨str! "http://www.w3.org/1999/02/22-rdf-syntax-ns#" ++ n⟩

/-- `literal.rs` 77-235, `DataType`. -/
inductive DataType where
  | iri
  | base64Binary
  | boolean
  | date
  | dateTime
  | decimal
  | double
  | duration
  | float
  | hexBinary
  | qName
  | string
  | time
  | long
  | int
  | short
  | byte
  | unsignedLong
  | unsignedInt
  | unsignedShort
  | unsignedByte
  | language
  | name
  | xmlLiteral
  | other (i : Iri)
deriving DecidableEq, Repr

/-- `literal.rs` 334-362, `as_iri`. -/
def DataType.asIri : DataType → Iri
  | .iri => xsdIri (str! "anyURI")
  | .base64Binary => xsdIri (str! "base64Binary")
  | .boolean => xsdIri (str! "boolean")
  | .date => xsdIri (str! "date")
  | .dateTime => xsdIri (str! "dateTime")
  | .decimal => xsdIri (str! "decimal")
  | .double => xsdIri (str! "double")
  | .duration => xsdIri (str! "duration")
  | .float => xsdIri (str! "float")
  | .hexBinary => xsdIri (str! "hexBinary")
  | .qName => xsdIri (str! "QName")
  | .string => xsdIri (str! "string")
  | .time => xsdIri (str! "time")
  | .long => xsdIri (str! "long")
  | .int => xsdIri (str! "int")
  | .short => xsdIri (str! "short")
  | .byte => xsdIri (str! "byte")
  | .unsignedLong => xsdIri (str! "unsignedLong")
  | .unsignedInt => xsdIri (str! "unsignedInt")
  | .unsignedShort => xsdIri (str! "unsignedShort")
  | .unsignedByte => xsdIri (str! "unsignedByte")
  | .language => xsdIri (str! "language")
  | .name => xsdIri (str! "Name")
  | .xmlLiteral => rdfIri (str! "XMLLiteral")
  | .other i => i

/-- `literal.rs` 287-327, `From<Iri>`. -/
def DataType.fromIri (i : Iri) : DataType :=
  if i = xsdIri (str! "string") then .string
  else if i = xsdIri (str! "QName") then .qName
  else if i = xsdIri (str! "Name") then .name
  else if i = xsdIri (str! "anyURI") then .iri
  else if i = xsdIri (str! "boolean") then .boolean
  else if i = xsdIri (str! "float") then .float
  else if i = xsdIri (str! "double") then .double
  else if i = xsdIri (str! "long") then .long
  else if i = xsdIri (str! "int") then .int
  else if i = xsdIri (str! "short") then .short
  else if i = xsdIri (str! "byte") then .byte
  else if i = xsdIri (str! "unsignedLong") then .unsignedLong
  else if i = xsdIri (str! "unsignedInt") then .unsignedInt
  else if i = xsdIri (str! "unsignedShort") then .unsignedShort
  else if i = xsdIri (str! "unsignedByte") then .unsignedByte
  else if i = xsdIri (str! "duration") then .duration
  else if i = rdfIri (str! "XMLLiteral") then .xmlLiteral
  else .other i

/-- `literal.rs` 77: position of a variant, which the derived `Ord` compares first. -/
def DataType.rank : DataType → Nat
  | .iri => 0
  | .base64Binary => 1
  | .boolean => 2
  | .date => 3
  | .dateTime => 4
  | .decimal => 5
  | .double => 6
  | .duration => 7
  | .float => 8
  | .hexBinary => 9
  | .qName => 10
  | .string => 11
  | .time => 12
  | .long => 13
  | .int => 14
  | .short => 15
  | .byte => 16
  | .unsignedLong => 17
  | .unsignedInt => 18
  | .unsignedShort => 19
  | .unsignedByte => 20
  | .language => 21
  | .name => 22
  | .xmlLiteral => 23
  | .other _ => 24

/-- `literal.rs` 77, derived `Ord`. -/
def DataType.cmp (a b : DataType) : Ordering :=
  match a, b with
  | .other i, .other j => cmpStr i.text j.text
  | a, b => compare a.rank b.rank

/-- `literal.rs` 240-245, `Literal`. -/
structure Literal where
  lexicalForm : Str
  dataType : Option DataType
  language : Option Str
deriving DecidableEq, Repr

/-- Lower case hexadecimal digits of a number, without leading zeros. -/
def hexLower (n : Nat) : Str := Nat.toDigits 16 n

/-- `char::escape_debug` as `Debug for str` uses it (everything but `'` escaped).  `pr`
tells which of the remaining characters are printed as they are (`char::is_printable` and
not a grapheme extension); its tables are not modelled. -/
def escapeChar (pr : Char → Bool) (c : Char) : Str :=
  if c = '\x00' then ['\\', '0']
  else if c = '\t' then ['\\', 't']
  else if c = '\r' then ['\\', 'r']
  else if c = '\n' then ['\\', 'n']
  else if c = '"' then ['\\', '"']
  else if c = '\\' then ['\\', '\\']
  else if pr c then [c]
  else ['\\', 'u', '{'] ++ hexLower c.toNat ++ ['}']

/-- `literal.rs` 1021-1027, `escape_string`. -/
def escapeString (pr : Char → Bool) (s : Str) : Str := s.flatMap (escapeChar pr)

/-- `literal.rs` 915-924, `plain`. -/
def Literal.plain (pr : Char → Bool) (s : Str) : Literal := ⟨escapeString pr s, none, none⟩

/-- `literal.rs` 929-938, `with_language`. -/
def Literal.withLanguage (pr : Char → Bool) (s : Str) (lang : Str) : Literal :=
  ⟨escapeString pr s, none, some lang⟩

/-- `literal.rs` 943-952, `with_data_type`. -/
def Literal.withDataType (pr : Char → Bool) (s : Str) (t : DataType) : Literal :=
  ⟨escapeString pr s, some t, none⟩

/-- `literal.rs` 957-966, `with_data_type_iri`. -/
def Literal.withDataTypeIri (pr : Char → Bool) (s : Str) (t : Iri) : Literal :=
  ⟨escapeString pr s, some (.other t), none⟩

/-- `literal.rs` 603-613, `From<String>`, `From<&str>`. -/
def Literal.ofStr (pr : Char → Bool) (s : Str) : Literal := Literal.withDataType pr s .string

/-- `literal.rs` 615-627, `PartialEq<String>`, `PartialEq<str>`. -/
def Literal.eqStr (l : Literal) (s : Str) : Bool :=
  l.lexicalForm == s && (l.dataType.isNone || l.dataType == some .string)

/-- `bool::to_string`. -/
def boolText (b : Bool) : Str := if b then str! "true" else str! "false"

/-- `literal.rs` 447-451, `From<bool>`. -/
def Literal.ofBool (pr : Char → Bool) (b : Bool) : Literal :=
  Literal.withDataType pr (boolText b) .boolean

/-- `literal.rs` 453-457, `PartialEq<bool>`. -/
def Literal.eqBool (l : Literal) (b : Bool) : Bool :=
  l.lexicalForm == boolText b && l.dataType == some .boolean

/-- `to_string` of an integer. -/
def intText : Int → Str
  | .ofNat n => Nat.toDigits 10 n
  | .negSucc n => '-' :: Nat.toDigits 10 (n + 1)

/-- The Rust integer types of `literal.rs` 637-763. -/
inductive IntKind where
  | i64 | i32 | i16 | i8 | u64 | u32 | u16 | u8
deriving DecidableEq, Repr

/-- The data type each conversion gives. -/
def IntKind.dataType : IntKind → DataType
  | .i64 => .long
  | .i32 => .int
  | .i16 => .short
  | .i8 => .byte
  | .u64 => .unsignedLong
  | .u32 => .unsignedInt
  | .u16 => .unsignedShort
  | .u8 => .unsignedByte

/-- `literal.rs` 637-641, 653-657, 669-673, 685-689, 701-705, 718-722, 735-739, 752-756. -/
def Literal.ofInt (pr : Char → Bool) (k : IntKind) (v : Int) : Literal :=
  Literal.withDataType pr (intText v) k.dataType

/-- `literal.rs` 643-647, 659-663, 675-679, 691-695, 707-712, 724-729, 741-746, 758-763. -/
def Literal.eqInt (l : Literal) (k : IntKind) (v : Int) : Bool :=
  l.lexicalForm == intText v && l.dataType == some k.dataType

/-- `std::time::Duration`: seconds and nanoseconds (below 10^9). -/
structure Duration where
  secs : Nat
  nanos : Nat
deriving DecidableEq, Repr

/-- `Duration::as_nanos`. -/
def Duration.asNanos (d : Duration) : Nat := d.secs * 1000000000 + d.nanos

/-- `literal.rs` 517-521, the text of a duration. -/
def Duration.text (d : Duration) : Str :=
  if d.nanos ≠ 0 then
    ['P', 'T'] ++ Nat.toDigits 10 d.secs ++ ['.'] ++ Nat.toDigits 10 d.nanos ++ ['S']
  else ['P', 'T'] ++ Nat.toDigits 10 d.secs ++ ['S']

/-- `literal.rs` 512-525, `From<Duration>`. -/
def Literal.ofDuration (pr : Char → Bool) (d : Duration) : Literal :=
  Literal.withDataType pr d.text .duration

/-- `literal.rs` 547-552, `PartialEq<Duration>`. -/
def Literal.eqDuration (l : Literal) (d : Duration) : Bool :=
  l.lexicalForm == Nat.toDigits 10 d.asNanos && l.dataType == some .duration

/-- `literal.rs` 373-377, `From<Iri>`; `as_ref` is the bare text. -/
def Literal.ofIri (pr : Char → Bool) (i : Iri) : Literal := Literal.withDataType pr i.text .iri

/-- `literal.rs` 385-389, `PartialEq<Iri>`. -/
def Literal.eqIri (sty : IriStyle) (l : Literal) (i : Iri) : Bool :=
  l.lexicalForm == i.fmt sty && l.dataType == some .iri

/-- `literal.rs` 785-789, `From<Name>`. -/
def Literal.ofName (pr : Char → Bool) (n : Name) : Literal := Literal.withDataType pr n.text .name

/-- `literal.rs` 797-801, `PartialEq<Name>`. -/
def Literal.eqName (l : Literal) (n : Name) : Bool :=
  l.lexicalForm == n.display && l.dataType == some .name

/-- `literal.rs` 769-773, `From<LanguageTag>`. -/
def Literal.ofLanguage (pr : Char → Bool) (t : Str) : Literal := Literal.withDataType pr t .language

/-- `literal.rs` 775-779, `PartialEq<LanguageTag>`. -/
def Literal.eqLanguage (l : Literal) (t : Str) : Bool :=
  l.lexicalForm == t && l.dataType == some .language

/-- `error.rs`: the errors of the literal conversions. -/
inductive LiteralError where
  | invalidTypeCoercion
  | hexDecoder (value : Str) (index : Nat)
  | base64Decoder
  | iriParse
deriving DecidableEq, Repr

/-- `literal.rs` 391-412, `TryFrom<Literal> for Iri`; `parse` is `Iri::parse`. -/
def Literal.tryIri (parse : Str → Option Iri) (l : Literal) : Except LiteralError Iri :=
  match l.dataType with
  | some .iri =>
    match parse l.lexicalForm with
    | some i => .ok i
    | none => .error .iriParse
  | _ => .error .invalidTypeCoercion

/-- `{:02X}` of a byte. -/
def hexByte (b : Fin 256) : Str := [hexUpper (b.val / 16), hexUpper (b.val % 16)]

/-- `literal.rs` 1029-1039, `hex_encode`. -/
def hexEncode (v : List (Fin 256)) : Str := v.flatMap hexByte

/-- `char::to_digit(16)`. -/
def hexVal (c : Char) : Option Nat :=
  if inRange 0x30 0x39 c then some (c.toNat - 0x30)
  else if inRange 0x61 0x66 c then some (c.toNat - 0x61 + 10)
  else if inRange 0x41 0x46 c then some (c.toNat - 0x41 + 10)
  else none

/-- `u8::from_str_radix(_, 16)` of a text of two bytes: two digits, or `'+'` and one. -/
def hexPair : Str → Option Nat
  | [a, b] =>
    if a = '+' then hexVal b
    else match hexVal a, hexVal b with
      | some x, some y => some (x * 16 + y)
      | _, _ => none
  | _ => none

/-- `literal.rs` 1047-1060, the loop over the pieces.  A piece that is not two ASCII
characters fails the length test or the conversion, with the same error. -/
def hexDecodePieces : Nat → List Str → Except LiteralError (List Nat)
  | _, [] => .ok []
  | k, p :: ps =>
    match hexPair p with
    | none => .error (.hexDecoder p k)
    | some b => (hexDecodePieces (k + 1) ps).map (b :: ·)

/-- `literal.rs` 1041-1062, `hex_decode`. -/
def hexDecode (s : Str) : Except LiteralError (List Nat) := hexDecodePieces 0 (splitOnChar ' ' s)

/-- `literal.rs` 968-970, `hex_encoded`. -/
def Literal.hexEncoded (pr : Char → Bool) (v : List (Fin 256)) : Literal :=
  Literal.withDataType pr (hexEncode v) .hexBinary

/-- `literal.rs` 973-975, `base64_encoded`: tagged as hex binary.  `encode` is the base 64
encoder. -/
def Literal.base64Encoded (pr : Char → Bool) (encode : List (Fin 256) → Str) (v : List (Fin 256)) :
    Literal :=
  Literal.withDataType pr (encode v) .hexBinary

/-- `literal.rs` 418-441, `TryFrom<Literal> for Vec<u8>`; `decode` is the base 64 decoder. -/
def Literal.tryBytes (decode : Str → Option (List Nat)) (l : Literal) :
    Except LiteralError (List Nat) :=
  match l.dataType with
  | some .base64Binary =>
    match decode l.lexicalForm with
    | some v => .ok v
    | none => .error .base64Decoder
  | some .hexBinary => hexDecode l.lexicalForm
  | _ => .error .invalidTypeCoercion

/-- `literal.rs` 830-841: printed without quotes in the short form. -/
def DataType.isBare : DataType → Bool
  | .boolean | .long | .int | .short | .byte | .unsignedLong | .unsignedInt | .unsignedShort
  | .unsignedByte | .float | .double | .decimal => true
  | _ => false

/-- `literal.rs` 849-853, what follows the quoted text. -/
def Literal.suffix (sty : IriStyle) (l : Literal) : Str :=
  match l.dataType, l.language with
  | some t, none => ['^', '^', '<'] ++ t.asIri.fmt sty ++ ['>']
  | none, some lang => '@' :: lang
  | _, _ => []

/-- `literal.rs` 825-858, `Display`; `alt` is the alternate form `{:#}`. -/
def Literal.display (sty : IriStyle) (alt : Bool) (l : Literal) : Str :=
  if l.dataType = some .iri then '<' :: l.lexicalForm ++ ['>']
  else if !alt && (l.dataType.map DataType.isBare).getD false then l.lexicalForm
  else '"' :: l.lexicalForm ++ '"' :: l.suffix sty

/-- Comparison of optional values, `None` first. -/
def cmpOption {α : Type _} (cmp : α → α → Ordering) : Option α → Option α → Ordering
  | some a, some b => cmp a b
  | some _, none => .gt
  | none, some _ => .lt
  | none, none => .eq

/-- `literal.rs` 878-902, `Ord`. -/
def Literal.cmp (a b : Literal) : Ordering :=
  (cmpOption DataType.cmp a.dataType b.dataType).then
    ((cmpOption cmpStr a.language b.language).then (cmpStr a.lexicalForm b.lexicalForm))

end Rdftk
