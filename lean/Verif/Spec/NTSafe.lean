import Verif.Model.NTriples
import Verif.Spec.NTriples

/-!
Which statements can be written as N-Triples, and what a reader that escapes the text of
literals again and takes every data type for an unknown one makes of them.
-/

namespace Rdftk.Spec

/-- The IRI can stand between `<` and `>`, and its text parses to it. -/
def IriGood (env : ReadEnv) (i : Iri) : Prop := (∀ c ∈ i.text, IriPlain c) ∧ env.url i.text = some i

/-- The label is one of the grammar and accepted as a label. -/
def LabelGood (env : ReadEnv) (b : Str) : Prop := Label b ∧ env.blankOk b = true

/-- Data types printed without quotes unless `force_string_literals` is set. -/
def bareTypes : List DataType :=
  [.boolean, .long, .int, .short, .byte, .unsignedLong, .unsignedInt, .unsignedShort,
   .unsignedByte, .float, .double, .decimal]

/-- The literal is printed in quotes and what is printed is in the grammar. -/
def LiteralGood (env : ReadEnv) (alt : Bool) (l : Literal) : Prop :=
  QuoteText l.lexicalForm ∧ (∀ t, l.dataType = some t → IriGood env t.asIri) ∧
  (∀ t, l.language = some t → LangTag t ∧ env.lang t = some t) ∧
  (∀ t, l.dataType = some t → t ≠ .iri ∧ (alt = false → t ∉ bareTypes))

/-- A subject that can be written. -/
def SubjectGood (env : ReadEnv) : Subject → Prop
  | .blank b => LabelGood env b
  | .res i => IriGood env i
  | .stmt _ => False

/-- An object that can be written. -/
def ObjectGood (env : ReadEnv) (alt : Bool) : Object → Prop
  | .blank b => LabelGood env b
  | .res i => IriGood env i
  | .lit l => LiteralGood env alt l
  | .coll _ => False
  | .stmt _ => False

/-- A statement that can be written. -/
def StmtGood (env : ReadEnv) (alt : Bool) : Stmt → Prop
  | .mk s p o => SubjectGood env s ∧ IriGood env p ∧ ObjectGood env alt o

/-- What is read for a literal that was written. -/
def reread (pr : Char → Bool) (l : Literal) : Literal :=
  match l.dataType, l.language with
  | some t, none => ⟨escapeString pr l.lexicalForm, some (.other t.asIri), none⟩
  | none, some g => ⟨escapeString pr l.lexicalForm, none, some g⟩
  | _, _ => ⟨escapeString pr l.lexicalForm, none, none⟩

/-- What is read for an object that was written. -/
def rereadObject (pr : Char → Bool) : Object → Object
  | .lit l => .lit (reread pr l)
  | o => o

/-- What is read for a statement that was written. -/
def rereadStmt (pr : Char → Bool) : Stmt → Stmt
  | .mk s p o => .mk s p (rereadObject pr o)

/-- A name for a graph that can be written. -/
def NameGood (env : ReadEnv) : GraphName → Prop
  | .bnode b => LabelGood env b
  | .iri i => IriGood env i

/-- Orders that only rearrange. -/
def _root_.Rdftk.Orders.Fair (o : Orders) : Prop :=
  (∀ l, (o.subj l).Perm l) ∧ (∀ s l, (o.pred s l).Perm l) ∧ ∀ s p l, (o.obj s p l).Perm l

/-- A literal as the constructors make it: escaped text, and not both a data type and a
language. -/
def Made (pr : Char → Bool) (l : Literal) : Prop :=
  (∃ s, l.lexicalForm = escapeString pr s) ∧ (l.dataType = none ∨ l.language = none)

end Rdftk.Spec
