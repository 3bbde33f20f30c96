import Verif.Model.Graph

/-!
What literals, nodes and statements write to a hasher.

A hasher gets bytes.  A string writes its bytes in UTF-8 and the byte `0xFF`; a number or the discriminant of an enumeration writes eight
bytes, the lowest first (a 64 bit machine with this order of bytes is taken); a vector writes its length and then its members.  An IRI
writes the string of the `url` crate; a language tag is taken to write its text alone.
-/

namespace Rdftk

/-- `str::hash`. -/
def hashStr (s : Str) : List Nat := s.flatMap (fun c => utf8Bytes c.toNat) ++ [0xFF]

/-- `write_usize` and `write_isize`. -/
def hashWord (n : Nat) : List Nat :=
  [n % 256, n / 256 % 256, n / 65536 % 256, n / 16777216 % 256, n / 4294967296 % 256, n / 1099511627776 % 256, n / 281474976710656 % 256,
    n / 72057594037927936 % 256]

/-- `Hash` of an `Option`, derived. -/
def hashOption {α : Type} (h : α → List Nat) : Option α → List Nat
  | none => hashWord 0
  | some a => hashWord 1 ++ h a

/-- `iri.rs` 28, derived. -/
def Iri.hash (i : Iri) : List Nat := hashStr i.text

/-- Position of a data type in `literal.rs` 78-236. -/
def DataType.discriminant : DataType → Nat
  | .iri => 0 | .base64Binary => 1 | .boolean => 2 | .date => 3 | .dateTime => 4 | .decimal => 5 | .double => 6 | .duration => 7 | .float => 8
  | .hexBinary => 9 | .qName => 10 | .string => 11 | .time => 12 | .long => 13 | .int => 14 | .short => 15 | .byte => 16 | .unsignedLong => 17
  | .unsignedInt => 18 | .unsignedShort => 19 | .unsignedByte => 20 | .language => 21 | .name => 22 | .xmlLiteral => 23 | .other _ => 24

/-- `literal.rs` 77, derived. -/
def DataType.hash : DataType → List Nat
  | .other i => hashWord 24 ++ i.hash
  | d => hashWord d.discriminant

/-- `literal.rs` 862-868, `hash`. -/
def Literal.hash (l : Literal) : List Nat := hashStr l.lexicalForm ++ hashOption DataType.hash l.dataType ++ hashOption hashStr l.language

mutual
/-- `subject.rs` 13, derived. -/
def Subject.hash : Subject → List Nat
  | .blank b => hashWord 0 ++ hashStr b
  | .res i => hashWord 1 ++ i.hash
  | .stmt t => hashWord 2 ++ t.hash
/-- `statement.rs` 50, derived. -/
def Stmt.hash : Stmt → List Nat
  | .mk s p o => s.hash ++ p.hash ++ o.hash
/-- `object.rs` 16, derived. -/
def Object.hash : Object → List Nat
  | .blank b => hashWord 0 ++ hashStr b
  | .res i => hashWord 1 ++ i.hash
  | .lit l => hashWord 2 ++ l.hash
  | .coll c => hashWord 3 ++ hashWord c.length ++ Object.hashAll c
  | .stmt t => hashWord 4 ++ t.hash
/-- `collection.rs` 30, derived: the members. -/
def Object.hashAll : List Object → List Nat
  | [] => []
  | o :: c => o.hash ++ Object.hashAll c
end

/-- `graph.rs` 37, derived. -/
def GraphName.hash : GraphName → List Nat
  | .bnode b => hashWord 0 ++ hashStr b
  | .iri i => hashWord 1 ++ i.hash

end Rdftk
