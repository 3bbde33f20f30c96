import Verif.Spec.Xml
import Verif.Spec.NTMeaning

/-! Triples that RDF/XML can say, independent of the code. -/

namespace Rdftk.Spec

/-- A term that RDF/XML can say, but for the text of literals. -/
def XmlTerm : RdfTerm → Prop
  | .iri i => XmlIri i
  | .blank b => isNcName b = true
  | .lit _ d g => (∀ i, d = some i → XmlIri i) ∧ ∀ l, g = some l → l ≠ [] ∧ l.all xmlPlain = true

/-- A triple that RDF/XML can say, but for the text of literals. -/
def XmlTriple (x : RdfTriple) : Prop := XmlTerm x.1 ∧ XmlProperty x.2.1 ∧ XmlTerm x.2.2

/-- The statements stand for the triples. -/
def StandFor (T : List Stmt) (ls : List RdfTriple) : Prop :=
  (∀ st ∈ T, ∃ x ∈ ls, stmtTriple st = some x) ∧ ∀ x ∈ ls, ∃ st ∈ T, stmtTriple st = some x

/-- No property of a known namespace has two values at a subject. -/
def OnceEach (ls : List RdfTriple) : Prop :=
  ∀ x ∈ ls, ∀ y ∈ ls, Known x.2.1 → x.1 = y.1 → x.2.1 = y.2.1 → x.2.2 = y.2.2

end Rdftk.Spec
