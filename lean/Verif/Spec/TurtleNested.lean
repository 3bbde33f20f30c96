import Verif.Spec.TurtleSafe

/-! What the Turtle text of a graph says when blank nodes are nested: the nodes in square brackets
have no label, and each pair of brackets makes a new one. -/

namespace Rdftk.Spec

/-- Labels for the nodes without one. -/
def renameNode (σ : Nat → Str) : Node → Node
  | .fresh n => .blank (σ n)
  | x => x

/-- The triple with labels. -/
def renameTriple (σ : Nat → Str) (x : Triple) : Triple := ⟨renameNode σ x.s, x.p, renameNode σ x.o⟩

/-- A literal without quotes says what its text says, the others what they are. -/
def literalSays (l : Literal) : Node :=
  match l.dataType with
  | some t => if t ∈ bareTypes then .lit l.lexicalForm ((bareType l.lexicalForm).getD []) none else literalNode l
  | none => literalNode l

/-- The object that the text says. -/
def objectSays : Object → Node
  | .lit l => literalSays l
  | o => objectNode o

/-- The triple that the text says. -/
def tripleSays (t : Stmt) : Triple := ⟨subjectNode t.subject, t.predicate.text, objectSays t.object⟩

/-- A literal that can be read: as it is, or as a number or truth value of Turtle. -/
def LiteralReadable (env : TurtleEnv) (l : Literal) : Prop :=
  LiteralFaithful env l ∨ ∃ t ∈ bareTypes, l.dataType = some t ∧ (bareType l.lexicalForm).isSome = true

/-- An object that can be read: blank nodes may be nested. -/
def ObjectReadable (env : TurtleEnv) : Object → Prop
  | .blank b => isLabel b = true
  | .res i => IriFaithful env i
  | .lit l => LiteralReadable env l
  | .coll _ => False
  | .stmt _ => False

/-- The predicate that the text says: three are written as `rdf:type`. -/
def verbSays (p : Iri) : Iri := if p ∈ mistyped then rdfType else p

/-- The triple that the text says if the writer has its way with predicates. -/
def tripleWritten (t : Stmt) : Triple := ⟨subjectNode t.subject, (verbSays t.predicate).text, objectSays t.object⟩

/-- A predicate that can be read: one that is written as another needs the room for it. -/
def VerbReadable (env : TurtleEnv) (p : Iri) : Prop :=
  IriFaithful env p ∧ (p ∈ mistyped → IriFaithful env rdfType ∧
    ∀ s s', compressIri env rdfType = .ok s → compressIri env p = .ok s' → byteLen s ≤ byteLen s')

/-- A statement that can be read. -/
def StmtReadable (env : TurtleEnv) (t : Stmt) : Prop :=
  SubjectFaithful env t.subject ∧ VerbReadable env t.predicate ∧ ObjectReadable env t.object

/-- A blank node. -/
def Node.IsBlank : Node → Prop
  | .blank _ => True
  | .fresh _ => True
  | _ => False

/-- The node occurs in the triples. -/
def InTriples (L : List Triple) (x : Node) : Prop := ∃ t ∈ L, x = t.s ∨ x = t.o

/-- RDF graphs that differ in the names of blank nodes only. -/
def Isomorphic (L M : List Triple) : Prop :=
  ∃ ρ : Node → Node,
    (∀ x, InTriples L x → (x.IsBlank ↔ (ρ x).IsBlank) ∧ (¬ x.IsBlank → ρ x = x)) ∧
    (∀ x y, InTriples L x → InTriples L y → ρ x = ρ y → x = y) ∧
    ∀ y, y ∈ M ↔ ∃ x ∈ L, y = ⟨ρ x.s, x.p, ρ x.o⟩

end Rdftk.Spec
