import Verif.Model.Turtle
import Verif.Spec.Turtle
import Verif.Spec.NTSafe

/-! What statements of the model mean as RDF triples, and which graphs the Turtle writer of the
code writes as they are. -/

namespace Rdftk.Spec

/-- The RDF term for a subject without nested statement. -/
def subjectNode : Subject → Node
  | .blank b => .blank b
  | .res i => .iri i.text
  | .stmt _ => .fresh 0

/-- The RDF literal. -/
def literalNode (l : Literal) : Node :=
  match l.dataType, l.language with
  | some t, _ => .lit l.lexicalForm t.asIri.text none
  | none, some g => .lit l.lexicalForm (rdfText (str! "langString")) (some g)
  | none, none => .lit l.lexicalForm (xsdText (str! "string")) none

/-- The RDF term for an object without nested statement or collection. -/
def objectNode : Object → Node
  | .blank b => .blank b
  | .res i => .iri i.text
  | .lit l => literalNode l
  | .coll _ => .fresh 0
  | .stmt _ => .fresh 0

/-- The RDF triple for a simple statement. -/
def tripleOf (t : Stmt) : Triple := ⟨subjectNode t.subject, t.predicate.text, objectNode t.object⟩

/-- The text stands for the IRI in a document with these prefixes and base. -/
def StandsFor (base : Option Iri) (m : PrefixMap) (s : Str) (i : Iri) : Prop :=
  (∃ r, s = '<' :: r ++ ['>'] ∧ (∀ c ∈ r, iriChar c = true) ∧
    iriValue (base.map Iri.text) r = some i.text) ∨
  (∃ p l ns, s = p ++ ':' :: l ∧ isPrefix p = true ∧ isLocal l = true ∧
    (⟨p ++ [':']⟩, ns) ∈ m.mappings ∧ ns.text ++ l = i.text)

/-- The IRI is printed as a text that stands for it. -/
def IriFaithful (env : TurtleEnv) (i : Iri) : Prop :=
  ∃ s, compressIri env i = .ok s ∧ StandsFor env.opts.idBase env.graph.mappings s i

/-- Characters that the code prints as themselves or with an escape of Turtle. -/
def TurtleChar (pr : Char → Bool) (c : Char) : Prop :=
  c ∈ (str! "\t\r\n\"\\") ∨ (c ≠ '\x00' ∧ pr c = true)

/-- A literal that is printed as it is. -/
def LiteralFaithful (env : TurtleEnv) (l : Literal) : Prop :=
  (∀ c ∈ l.lexicalForm, TurtleChar env.pr c) ∧
  (∀ t, l.dataType = some t → l.language = none ∧ t ≠ .iri ∧ t ∉ bareTypes ∧ IriFaithful env t.asIri) ∧
  (∀ g, l.language = some g → isTag g = true)

/-- A subject that is printed as it is. -/
def SubjectFaithful (env : TurtleEnv) : Subject → Prop
  | .blank b => isLabel b = true
  | .res i => IriFaithful env i
  | .stmt _ => False

/-- An object that is printed as it is: blank nodes are not nested. -/
def ObjectFaithful (env : TurtleEnv) : Object → Prop
  | .blank b => env.opts.nest = false ∧ isLabel b = true
  | .res i => IriFaithful env i
  | .lit l => LiteralFaithful env l
  | .coll _ => False
  | .stmt _ => False

/-- Predicates that are printed as `rdf:type` although they are not. -/
def mistyped : List Iri :=
  [⟨str! "http://www.w3.org/2000/01/rdf-schema#subClassOf"⟩,
   ⟨str! "http://www.w3.org/2000/01/rdf-schema#subPropertyOf"⟩,
   ⟨str! "http://www.w3.org/2002/07/owl#equivalentClass"⟩]

/-- A statement that is printed as it is. -/
def StmtFaithful (env : TurtleEnv) (t : Stmt) : Prop :=
  SubjectFaithful env t.subject ∧ (IriFaithful env t.predicate ∧ t.predicate ∉ mistyped) ∧
    ObjectFaithful env t.object

/-- A base and prefixes that are printed as they are. -/
def DirectivesFaithful (opts : TurtleOptions) (m : PrefixMap) : Prop :=
  (∀ b, opts.idBase = some b → hasScheme b.text = true ∧ ∀ c ∈ b.text, iriChar c = true) ∧
  ∀ e ∈ m.mappings, hasScheme e.2.text = true ∧ (∀ c ∈ e.2.text, iriChar c = true) ∧
    ∃ p, isPrefix p = true ∧ e.1.text = p ++ [':']

end Rdftk.Spec
