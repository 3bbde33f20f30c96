import Verif.Spec.Show

/-! What a printed term shows. -/

namespace Rdftk.Spec

/-- A printed term: a word, a literal with quotes, a collection, a statement. -/
inductive Shape where
  | word (w : Str)
  | quoted (l : Literal)
  | coll (c : List Shape)
  | stmt (s p o : Shape)

mutual
/-- What is shown of a subject. -/
def subjectShape (sty : IriStyle) : Subject → Shape
  | .blank b => .word (str! "_:" ++ b)
  | .res i => .word ('<' :: i.fmt sty ++ ['>'])
  | .stmt s => stmtShape sty s
/-- What is shown of a statement. -/
def stmtShape (sty : IriStyle) : Stmt → Shape
  | .mk s p o => .stmt (subjectShape sty s) (.word ('<' :: p.fmt sty ++ ['>'])) (objectShape sty false o)
/-- What is shown of an object: of a number only its digits, of an IRI as a literal the same as of the resource. -/
def objectShape (sty : IriStyle) (alt : Bool) : Object → Shape
  | .blank b => .word (str! "_:" ++ b)
  | .res i => .word ('<' :: i.fmt sty ++ ['>'])
  | .lit l =>
    match l.dataType with
    | some .iri => .word ('<' :: l.lexicalForm ++ ['>'])
    | some t => if t.isBare && !alt then .word l.lexicalForm else .quoted l
    | none => .quoted l
  | .coll c => .coll (objectsShape sty c)
  | .stmt s => stmtShape sty s
/-- What is shown of the members of a collection. -/
def objectsShape (sty : IriStyle) : List Object → List Shape
  | [] => []
  | o :: os => objectShape sty false o :: objectsShape sty os
end

/-- A word that does not look like the beginning or the end of something else. -/
def OneWord (w : Str) : Prop := Word w ∧ w ≠ str! "<<" ∧ ∃ c r, w = c :: r ∧ c ≠ '"' ∧ c ≠ '(' ∧ c ≠ ')'

/-- Literals from the constructors; those printed without quotes are single words. -/
def wordLit (alt : Bool) (l : Literal) : Prop :=
  LiteralSane l ∧ (l.dataType = some .iri → Word l.lexicalForm) ∧
    ∀ t, l.dataType = some t → t ≠ .iri → t.isBare = true → alt = false → OneWord l.lexicalForm

end Rdftk.Spec
