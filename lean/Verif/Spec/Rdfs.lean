import Verif.Model.Rdfs
import Mathlib.Logic.Relation

/-! What an RDFS vocabulary says, and what follows by the rules of RDFS. -/

namespace Rdftk.Spec

/-- What labels say of a resource. -/
inductive LabelSays (u : Iri) (ls : List LabelProperty) : Stmt → Prop
  | label {l : Literal} : .label l ∈ ls → LabelSays u ls (.mk (.res u) (rdfsIri (str! "label")) (.lit l))
  | comment {l : Literal} : .comment l ∈ ls → LabelSays u ls (.mk (.res u) (rdfsIri (str! "comment")) (.lit l))
  | seeAlso {i : Iri} : .seeAlso i ∈ ls → LabelSays u ls (.mk (.res u) (rdfsIri (str! "seeAlso")) (.res i))
  | isDefinedBy {i : Iri} : .isDefinedBy i ∈ ls → LabelSays u ls (.mk (.res u) (rdfsIri (str! "isDefinedBy")) (.res i))

/-- What a vocabulary says. -/
inductive VocabularySays (v : RdfsVocabulary) : Stmt → Prop
  | label {st : Stmt} : LabelSays v.uri v.labels st → VocabularySays v st
  | classLabel {c : RdfsClass} {st : Stmt} : c ∈ v.classes → LabelSays c.uri c.labels st → VocabularySays v st
  | classType {c : RdfsClass} {i : Iri} : c ∈ v.classes → i ∈ c.instanceOf →
      VocabularySays v (.mk (.res c.uri) rdfType (.res i))
  | subClassOf {c : RdfsClass} {i : Iri} : c ∈ v.classes → i ∈ c.parents →
      VocabularySays v (.mk (.res c.uri) (rdfsIri (str! "subClassOf")) (.res i))
  | propertyLabel {p : RdfsProperty} {st : Stmt} : p ∈ v.properties → LabelSays p.uri p.labels st →
      VocabularySays v st
  | propertyType {p : RdfsProperty} {i : Iri} : p ∈ v.properties → i ∈ p.instanceOf →
      VocabularySays v (.mk (.res p.uri) rdfType (.res i))
  | subPropertyOf {p : RdfsProperty} {i : Iri} : p ∈ v.properties → i ∈ p.parents →
      VocabularySays v (.mk (.res p.uri) (rdfsIri (str! "subPropertyOf")) (.res i))
  | domain {p : RdfsProperty} {i : Iri} : p ∈ v.properties → i ∈ p.domain →
      VocabularySays v (.mk (.res p.uri) (rdfsIri (str! "domain")) (.res i))
  | range {p : RdfsProperty} {i : Iri} : p ∈ v.properties → i ∈ p.range →
      VocabularySays v (.mk (.res p.uri) (rdfsIri (str! "range")) (.res i))

/-- What follows from statements by the rules rdfs2 to rdfs13 of RDF Semantics, section 9.2.1. -/
inductive Follows (G : Stmt → Prop) : Stmt → Prop
  | given {st : Stmt} : G st → Follows G st
  | rdfs2 {p c : Iri} {x : Subject} {y : Object} : Follows G (.mk (.res p) (rdfsIri (str! "domain")) (.res c)) →
      Follows G (.mk x p y) → Follows G (.mk x rdfType (.res c))
  | rdfs3 {p c : Iri} {x y : Subject} : Follows G (.mk (.res p) (rdfsIri (str! "range")) (.res c)) →
      Follows G (.mk x p y.toObject) → Follows G (.mk y rdfType (.res c))
  | rdfs4a {p : Iri} {x : Subject} {y : Object} : Follows G (.mk x p y) →
      Follows G (.mk x rdfType (.res (rdfsIri (str! "Resource"))))
  | rdfs4b {p : Iri} {x y : Subject} : Follows G (.mk x p y.toObject) →
      Follows G (.mk y rdfType (.res (rdfsIri (str! "Resource"))))
  | rdfs5 {x y : Subject} {z : Object} : Follows G (.mk x (rdfsIri (str! "subPropertyOf")) y.toObject) →
      Follows G (.mk y (rdfsIri (str! "subPropertyOf")) z) → Follows G (.mk x (rdfsIri (str! "subPropertyOf")) z)
  | rdfs6 {x : Subject} : Follows G (.mk x rdfType (.res (rdfIri (str! "Property")))) →
      Follows G (.mk x (rdfsIri (str! "subPropertyOf")) x.toObject)
  | rdfs7 {a b : Iri} {x : Subject} {y : Object} : Follows G (.mk (.res a) (rdfsIri (str! "subPropertyOf")) (.res b)) →
      Follows G (.mk x a y) → Follows G (.mk x b y)
  | rdfs8 {x : Subject} : Follows G (.mk x rdfType (.res (rdfsIri (str! "Class")))) →
      Follows G (.mk x (rdfsIri (str! "subClassOf")) (.res (rdfsIri (str! "Resource"))))
  | rdfs9 {x z : Subject} {y : Object} : Follows G (.mk x (rdfsIri (str! "subClassOf")) y) →
      Follows G (.mk z rdfType x.toObject) → Follows G (.mk z rdfType y)
  | rdfs10 {x : Subject} : Follows G (.mk x rdfType (.res (rdfsIri (str! "Class")))) →
      Follows G (.mk x (rdfsIri (str! "subClassOf")) x.toObject)
  | rdfs11 {x y : Subject} {z : Object} : Follows G (.mk x (rdfsIri (str! "subClassOf")) y.toObject) →
      Follows G (.mk y (rdfsIri (str! "subClassOf")) z) → Follows G (.mk x (rdfsIri (str! "subClassOf")) z)
  | rdfs12 {x : Subject} : Follows G (.mk x rdfType (.res (rdfsIri (str! "ContainerMembershipProperty")))) →
      Follows G (.mk x (rdfsIri (str! "subPropertyOf")) (.res (rdfsIri (str! "member"))))
  | rdfs13 {x : Subject} : Follows G (.mk x rdfType (.res (rdfsIri (str! "Datatype")))) →
      Follows G (.mk x (rdfsIri (str! "subClassOf")) (.res (rdfsIri (str! "Literal"))))

/-- One class is a parent of another in a vocabulary. -/
def ClassParent (v : RdfsVocabulary) (a b : Iri) : Prop := ∃ c ∈ v.classes, c.uri = a ∧ b ∈ c.parents

/-- One property is a parent of another in a vocabulary. -/
def PropertyParent (v : RdfsVocabulary) (a b : Iri) : Prop := ∃ p ∈ v.properties, p.uri = a ∧ b ∈ p.parents

/-- The IRI that a call adds or removes as a class. -/
def VocabularyOp.classUri : VocabularyOp → Option Iri
  | .addClass c => some c.uri
  | .removeClass c => some c.uri
  | _ => none

/-- The IRI that a call adds or removes as a property. -/
def VocabularyOp.propertyUri : VocabularyOp → Option Iri
  | .addProperty p => some p.uri
  | .removeProperty p => some p.uri
  | _ => none

/-- A statement about named resources only. -/
def axiomOf (s p o : Iri) : Stmt := .mk (.res s) p (.res o)

/-- The axiomatic triples of RDF Semantics, sections 8 and 9, but for those about `rdf:_1`, `rdf:_2`
and so on. -/
def rdfsAxioms : List Stmt :=
  let s (n : Str) := rdfsIri n
  let r (n : Str) := rdfIri n
  let domain := s (str! "domain")
  let range := s (str! "range")
  [axiomOf (r (str! "type")) domain (s (str! "Resource")),
   axiomOf (s (str! "domain")) domain (r (str! "Property")),
   axiomOf (s (str! "range")) domain (r (str! "Property")),
   axiomOf (s (str! "subPropertyOf")) domain (r (str! "Property")),
   axiomOf (s (str! "subClassOf")) domain (s (str! "Class")),
   axiomOf (r (str! "subject")) domain (r (str! "Statement")),
   axiomOf (r (str! "predicate")) domain (r (str! "Statement")),
   axiomOf (r (str! "object")) domain (r (str! "Statement")),
   axiomOf (s (str! "member")) domain (s (str! "Resource")),
   axiomOf (r (str! "first")) domain (r (str! "List")),
   axiomOf (r (str! "rest")) domain (r (str! "List")),
   axiomOf (s (str! "seeAlso")) domain (s (str! "Resource")),
   axiomOf (s (str! "isDefinedBy")) domain (s (str! "Resource")),
   axiomOf (s (str! "comment")) domain (s (str! "Resource")),
   axiomOf (s (str! "label")) domain (s (str! "Resource")),
   axiomOf (r (str! "value")) domain (s (str! "Resource")),
   axiomOf (r (str! "type")) range (s (str! "Class")),
   axiomOf (s (str! "domain")) range (s (str! "Class")),
   axiomOf (s (str! "range")) range (s (str! "Class")),
   axiomOf (s (str! "subPropertyOf")) range (r (str! "Property")),
   axiomOf (s (str! "subClassOf")) range (s (str! "Class")),
   axiomOf (r (str! "subject")) range (s (str! "Resource")),
   axiomOf (r (str! "predicate")) range (s (str! "Resource")),
   axiomOf (r (str! "object")) range (s (str! "Resource")),
   axiomOf (s (str! "member")) range (s (str! "Resource")),
   axiomOf (r (str! "first")) range (s (str! "Resource")),
   axiomOf (r (str! "rest")) range (r (str! "List")),
   axiomOf (s (str! "seeAlso")) range (s (str! "Resource")),
   axiomOf (s (str! "isDefinedBy")) range (s (str! "Resource")),
   axiomOf (s (str! "comment")) range (s (str! "Literal")),
   axiomOf (s (str! "label")) range (s (str! "Literal")),
   axiomOf (r (str! "value")) range (s (str! "Resource")),
   axiomOf (r (str! "Alt")) (s (str! "subClassOf")) (s (str! "Container")),
   axiomOf (r (str! "Bag")) (s (str! "subClassOf")) (s (str! "Container")),
   axiomOf (r (str! "Seq")) (s (str! "subClassOf")) (s (str! "Container")),
   axiomOf (s (str! "ContainerMembershipProperty")) (s (str! "subClassOf")) (r (str! "Property")),
   axiomOf (s (str! "isDefinedBy")) (s (str! "subPropertyOf")) (s (str! "seeAlso")),
   axiomOf (s (str! "Datatype")) (s (str! "subClassOf")) (s (str! "Class")),
   axiomOf (r (str! "type")) rdfType (r (str! "Property")),
   axiomOf (r (str! "subject")) rdfType (r (str! "Property")),
   axiomOf (r (str! "predicate")) rdfType (r (str! "Property")),
   axiomOf (r (str! "object")) rdfType (r (str! "Property")),
   axiomOf (r (str! "first")) rdfType (r (str! "Property")),
   axiomOf (r (str! "rest")) rdfType (r (str! "Property")),
   axiomOf (r (str! "value")) rdfType (r (str! "Property")),
   axiomOf (r (str! "nil")) rdfType (r (str! "List"))]

/-- RDF Schema 1.1, section 6.1: the classes. -/
def rdfsClasses : List Iri :=
  [rdfsIri (str! "Resource"), rdfsIri (str! "Literal"), rdfIri (str! "langString"), rdfIri (str! "HTML"), rdfIri (str! "XMLLiteral"),
   rdfsIri (str! "Class"), rdfIri (str! "Property"), rdfsIri (str! "Datatype"), rdfIri (str! "Statement"), rdfIri (str! "Bag"),
   rdfIri (str! "Seq"), rdfIri (str! "Alt"), rdfsIri (str! "Container"), rdfsIri (str! "ContainerMembershipProperty"), rdfIri (str! "List")]

/-- RDF Schema 1.1, section 6.2: the properties. -/
def rdfsProperties : List Iri :=
  [rdfIri (str! "type"), rdfsIri (str! "subClassOf"), rdfsIri (str! "subPropertyOf"), rdfsIri (str! "domain"), rdfsIri (str! "range"),
   rdfsIri (str! "label"), rdfsIri (str! "comment"), rdfsIri (str! "member"), rdfIri (str! "first"), rdfIri (str! "rest"),
   rdfsIri (str! "seeAlso"), rdfsIri (str! "isDefinedBy"), rdfIri (str! "value"), rdfIri (str! "subject"), rdfIri (str! "predicate"),
   rdfIri (str! "object")]

/-- RDF Schema 1.1, sections 2 to 5: the classes that the classes, and `rdf:nil`, are said to be subclasses of. -/
def rdfsParents (i : Iri) : List Iri :=
  if i = rdfsIri (str! "Literal") then [rdfsIri (str! "Resource")]
  else if i = rdfsIri (str! "Datatype") then [rdfsIri (str! "Class")]
  else if i ∈ [rdfIri (str! "langString"), rdfIri (str! "HTML"), rdfIri (str! "XMLLiteral")] then [rdfsIri (str! "Literal")]
  else if i ∈ [rdfIri (str! "Bag"), rdfIri (str! "Seq"), rdfIri (str! "Alt")] then [rdfsIri (str! "Container")]
  else if i = rdfsIri (str! "ContainerMembershipProperty") then [rdfIri (str! "Property")]
  else []

/-- The same, what they are said to be instances of. -/
def rdfsTypes (i : Iri) : List Iri :=
  if i ∈ [rdfIri (str! "langString"), rdfIri (str! "HTML"), rdfIri (str! "XMLLiteral")] then [rdfsIri (str! "Datatype")]
  else if i = rdfIri (str! "nil") then [rdfIri (str! "List")]
  else [rdfsIri (str! "Class")]

end Rdftk.Spec
