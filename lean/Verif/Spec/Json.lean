import Verif.Model.Json

/-!
Which statements survive RDF/JSON, and what the reader makes of the others.
-/

namespace Rdftk.Spec

/-- The text of the IRI parses to it and is not mistaken for one in brackets. -/
def IriRead (env : ReadEnv) (i : Iri) : Prop := env.url i.text = some i ∧ i.text.head? ≠ some '<'

/-- `t` is `b` without characters at its start that take two bytes in UTF-8. -/
def CutTwo (b t : Str) : Prop := ∃ a, b = a ++ t ∧ (a.map Char.utf8Size).sum = 2

/-- A subject that can be read back when IRIs print in style `sty`: between brackets they must
print bare. -/
def JsonSubject (env : ReadEnv) (sty : IriStyle) : Subject → Prop
  | .blank b => blankValid env.blankOk b = true
  | .res i => sty = .bare ∧ IriRead env i
  | .stmt _ => False

/-- A literal that can be read. -/
def JsonLiteral (env : ReadEnv) (l : Literal) : Prop :=
  (l.dataType = none ∨ l.language = none) ∧
  (∀ t, l.dataType = some t → IriRead env t.asIri) ∧ ∀ g, l.language = some g → env.lang g = some g

/-- What is read for a literal: the text is escaped once more and the type recognised from its
IRI. -/
def jsonReread (pr : Char → Bool) (l : Literal) : Literal :=
  ⟨escapeString pr l.lexicalForm, l.dataType.map fun t => DataType.fromIri t.asIri, l.language⟩

/-- The object `x` is read as `y`. -/
def JsonObject (env : ReadEnv) : Object → Object → Prop
  | .blank b, y => ∃ t, y = .blank t ∧ CutTwo b t ∧ blankValid env.blankOk t = true
  | .res i, y => y = .res i ∧ IriRead env i
  | .lit l, y => y = .lit (jsonReread env.pr l) ∧ JsonLiteral env l
  | .coll _, _ => False
  | .stmt _, _ => False

/-- The statement `x` is read as `y`. -/
def JsonStmt (env : ReadEnv) (sty : IriStyle) (x y : Stmt) : Prop :=
  JsonSubject env sty x.subject ∧ IriRead env x.predicate ∧ y.subject = x.subject ∧
  y.predicate = x.predicate ∧ JsonObject env x.object y.object

/-- The labels of the blank nodes that are objects in a document. -/
def bnodesOfObject : Json → List Str
  | .obj m =>
    match mapGet (str! "type") m, mapGet (str! "value") m with
    | some (.str t), some (.str v) => if t = str! "bnode" then [v] else []
    | _, _ => []
  | _ => []
def bnodesOfPredicate : Json → List Str
  | .arr l => l.flatMap bnodesOfObject
  | _ => []
def bnodesOfSubject : Json → List Str
  | .obj m => m.flatMap fun e => bnodesOfPredicate e.2
  | _ => []
def bnodes : Json → List Str
  | .obj m => m.flatMap fun e => bnodesOfSubject e.2
  | _ => []

/-- The object of RDF 1.1 JSON section 3 for a literal, when IRIs are written by `iri`; the
members in the order of their names. -/
def literalMembers (iri : Iri → Str) (l : Literal) : List (Str × Json) :=
  (l.dataType.map fun t => (str! "datatype", Json.str (iri t.asIri))).toList ++
  (l.language.map fun g => (str! "lang", Json.str g)).toList ++
  [(str! "type", .str (str! "literal")), (str! "value", .str l.lexicalForm)]

/-- The object of RDF 1.1 JSON section 3 for a node, when IRIs are written by `iri` and blank
nodes by `blank`. -/
def nodeValue (iri : Iri → Str) (blank : Str → Str) : Object → Option Json
  | .blank b => some (.obj [(str! "type", .str (str! "bnode")), (str! "value", .str (blank b))])
  | .res i => some (.obj [(str! "type", .str (str! "uri")), (str! "value", .str (iri i))])
  | .lit l => some (.obj (literalMembers iri l))
  | .coll _ => none
  | .stmt _ => none

/-- A document of RDF 1.1 JSON for exactly the statements `l`: an object with a member for each
subject, which has a member for each predicate, which has an element for each object. -/
def RdfJson (key : Subject → Str) (pred iri : Iri → Str) (blank : Str → Str) (l : List Stmt)
    (v : Json) : Prop :=
  ∃ m, v = .obj m ∧
    (∀ x ∈ l, ∃ ps os o, (key x.subject, .obj ps) ∈ m ∧ (pred x.predicate, .arr os) ∈ ps ∧
      nodeValue iri blank x.object = some o ∧ o ∈ os) ∧
    (∀ e ∈ m, ∃ ps, e.2 = .obj ps ∧ ∀ f ∈ ps, ∃ os, f.2 = .arr os ∧ ∀ o ∈ os, ∃ x ∈ l,
      key x.subject = e.1 ∧ pred x.predicate = f.1 ∧ nodeValue iri blank x.object = some o)

/-- The member name of a subject in RDF 1.1 JSON. -/
def subjectName : Subject → Str
  | .blank b => '_' :: ':' :: b
  | .res i => i.text
  | .stmt _ => []

end Rdftk.Spec
