import Verif.Model.Node
import Verif.Spec.Escape

/-! Terms whose printed form can be taken apart again. -/

namespace Rdftk.Spec

/-- A text without a space. -/
def Word (s : Str) : Prop := ' ' ∉ s

instance (s : Str) : Decidable (Word s) := inferInstanceAs (Decidable (' ' ∉ s))

/-- A data type given as an IRI is none of those that have a name of their own. -/
def TypeNamed : DataType → Prop
  | .other i => ∀ t : DataType, t.asIri = i → t = .other i
  | _ => True

/-- A literal that some constructor gives, with a language and a data type IRI without spaces. -/
structure LiteralSane (l : Literal) : Prop where
  quoted : noBareQuote false l.lexicalForm = true
  one : l.dataType = none ∨ l.language = none
  lang : ∀ t, l.language = some t → Word t
  type : ∀ t, l.dataType = some t → TypeNamed t ∧ Word t.asIri.text

/-- A literal that is printed with quotes, in the short or the explicit form. -/
def Shown (alt : Bool) (l : Literal) : Prop :=
  l.dataType ≠ some .iri ∧ ∀ t, l.dataType = some t → alt = true ∨ t.isBare = false

mutual
/-- Labels and IRIs are without spaces, all literals meet the condition. -/
def SubjectAll (P : Bool → Literal → Prop) : Subject → Prop
  | .blank b => Word b
  | .res i => Word i.text
  | .stmt s => StmtAll P s
def StmtAll (P : Bool → Literal → Prop) : Stmt → Prop
  | .mk s p o => SubjectAll P s ∧ Word p.text ∧ ObjectAll P false o
def ObjectAll (P : Bool → Literal → Prop) (alt : Bool) : Object → Prop
  | .blank b => Word b
  | .res i => Word i.text
  | .lit l => P alt l
  | .coll c => ObjectsAll P c
  | .stmt s => StmtAll P s
def ObjectsAll (P : Bool → Literal → Prop) : List Object → Prop
  | [] => True
  | o :: os => ObjectAll P false o ∧ ObjectsAll P os
end

/-- Terms from constructors. -/
def saneLit (_ : Bool) (l : Literal) : Prop := LiteralSane l

/-- Terms from constructors, all of whose literals are printed with quotes. -/
def shownLit (alt : Bool) (l : Literal) : Prop := LiteralSane l ∧ Shown alt l

end Rdftk.Spec
