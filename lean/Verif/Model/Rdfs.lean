import Verif.Model.Node
import Verif.Model.Names
import Verif.Model.Expand

/-! Model of `rdftk_ontology/src`: RDFS vocabularies and the statements they are written as.  The
crate is not a member of the workspace at present; it is modelled as written.  Its module for OWL
declares types only.

A `HashMap` from IRIs to classes (or properties) is the list of its values; the key is the IRI of the
value.  The order in which the values are visited is a parameter.  The traits `Labeled`, `Individual` and
`Subclassed` are the part `RdfsCommon` of classes and properties.  `statement(…).unwrap()` of
the core crate does not fail for these subjects. -/

namespace Rdftk

/-- `rdftk_names/src/rdfs.rs`, a member of the RDFS vocabulary. -/
def rdfsIri (n : Str) : Iri := ⟨rdfsTable.ns ++ n⟩

/-- `lib.rs` 39-45, `LabelProperty`. -/
inductive LabelProperty where
  | label (l : Literal)
  | comment (l : Literal)
  | seeAlso (i : Iri)
  | isDefinedBy (i : Iri)
deriving DecidableEq

/-- The fields that classes and properties share (`rdfs/mod.rs` 32-37 and 40-44). -/
structure RdfsCommon where
  uri : Iri
  labels : List LabelProperty
  instanceOf : List Iri
  parents : List Iri
deriving DecidableEq

/-- `rdfs/mod.rs` 31-37, `Class`. -/
structure RdfsClass extends RdfsCommon
deriving DecidableEq

/-- `rdfs/mod.rs` 39-47, `Property`. -/
structure RdfsProperty extends RdfsCommon where
  domain : List Iri
  range : List Iri
deriving DecidableEq

/-- `rdfs/mod.rs` 23-29, `Vocabulary`. -/
structure RdfsVocabulary where
  uri : Iri
  labels : List LabelProperty
  classes : List RdfsClass
  properties : List RdfsProperty

/-! ### Constructors -/

namespace RdfsClass

/-- `rdfs/mod.rs` 208-215, `new`. -/
def new (uri : Iri) : RdfsClass := ⟨⟨uri, [], [rdfsIri (str! "Class")], []⟩⟩
/-- `rdfs/mod.rs` 217-224, `new_instance`. -/
def newInstance (uri cls : Iri) : RdfsClass := ⟨⟨uri, [], [cls], []⟩⟩
/-- `rdfs/mod.rs` 226-233, `new_subclass`. -/
def newSubclass (uri parent : Iri) : RdfsClass := ⟨⟨uri, [], [rdfsIri (str! "Class")], [parent]⟩⟩
/-- `rdfs/mod.rs` 235-242, `new_instance_and_subclass`. -/
def newInstanceAndSubclass (uri cls parent : Iri) : RdfsClass := ⟨⟨uri, [], [cls], [parent]⟩⟩
/-- `rdfs/mod.rs` 246-253, `instance`. -/
def mkInstance (c : RdfsClass) (uri : Iri) : RdfsClass := ⟨⟨uri, [], [c.uri], []⟩⟩
/-- `rdfs/mod.rs` 255-262, `subclass`. -/
def mkSubclass (c : RdfsClass) (uri : Iri) : RdfsClass := ⟨⟨uri, [], [rdfsIri (str! "Class")], [c.uri]⟩⟩

end RdfsClass

namespace RdfsProperty

/-- `rdfs/mod.rs` 270-279, `new`. -/
def new (uri : Iri) : RdfsProperty := ⟨⟨uri, [], [rdfsIri (str! "Property")], []⟩, [], []⟩
/-- `rdfs/mod.rs` 281-290, `new_with`. -/
def newWith (uri domain range : Iri) : RdfsProperty :=
  ⟨⟨uri, [], [rdfsIri (str! "Property")], []⟩, [domain], [range]⟩
/-- `rdfs/mod.rs` 292-301, `new_instance`. -/
def newInstance (uri cls : Iri) : RdfsProperty := ⟨⟨uri, [], [cls], []⟩, [], []⟩
/-- `rdfs/mod.rs` 303-312, `new_sub_property`. -/
def newSubProperty (uri parent : Iri) : RdfsProperty :=
  ⟨⟨uri, [], [rdfsIri (str! "Property")], [parent]⟩, [], []⟩
/-- `rdfs/mod.rs` 316-325, `instance`. -/
def mkInstance (p : RdfsProperty) (uri : Iri) : RdfsProperty := ⟨⟨uri, [], [p.uri], []⟩, [], []⟩
/-- `rdfs/mod.rs` 327-336, `sub_property`. -/
def mkSubProperty (p : RdfsProperty) (uri : Iri) : RdfsProperty :=
  ⟨⟨uri, [], [rdfsIri (str! "Property")], [p.uri]⟩, [], []⟩

end RdfsProperty

/-! ### Calls -/

/-- `push` and `retain(|x| x != a)`, which are all the changes of a vector of labels, classes,
parents, domains or ranges (`macros.rs` 20-26, 40-46, 60-66, `rdfs/mod.rs` 340-346 and 354-360). -/
inductive VecOp (α : Type) where
  | add (a : α)
  | remove (a : α)
deriving DecidableEq

/-- One such change. -/
def VecOp.apply {α : Type} [DecidableEq α] (l : List α) : VecOp α → List α
  | .add a => l ++ [a]
  | .remove a => l.filter fun b => b ≠ a

/-- A change of what classes and properties share. -/
inductive CommonOp where
  | label (o : VecOp LabelProperty)
  | instanceOf (o : VecOp Iri)
  | parent (o : VecOp Iri)

/-- `macros.rs` 16-79, the implementations of `Labeled`, `Individual` and `Subclassed`. -/
def RdfsCommon.apply (c : RdfsCommon) : CommonOp → RdfsCommon
  | .label o => { c with labels := o.apply c.labels }
  | .instanceOf o => { c with instanceOf := o.apply c.instanceOf }
  | .parent o => { c with parents := o.apply c.parents }

/-- A change of a property. -/
inductive PropertyOp where
  | common (o : CommonOp)
  | domain (o : VecOp Iri)
  | range (o : VecOp Iri)

/-- `rdfs/mod.rs` 340-364 and `macros.rs`. -/
def RdfsProperty.apply (p : RdfsProperty) : PropertyOp → RdfsProperty
  | .common o => { p with toRdfsCommon := p.toRdfsCommon.apply o }
  | .domain o => { p with domain := o.apply p.domain }
  | .range o => { p with range := o.apply p.range }

/-- `lib.rs` 73-75, `is_instance_of`. -/
def RdfsCommon.isInstanceOf (c : RdfsCommon) (i : Iri) : Bool := c.instanceOf.any (· = i)
/-- `lib.rs` 82-84, `is_child_of`. -/
def RdfsCommon.isChildOf (c : RdfsCommon) (i : Iri) : Bool := c.parents.any (· = i)

namespace RdfsVocabulary

/-- `rdfs/mod.rs` 415-422, `new`. -/
def new (uri : Iri) : RdfsVocabulary := ⟨uri, [], [], []⟩

/-- `rdfs/mod.rs` 426-428, `add_class`: `HashMap::insert` replaces the class with the same IRI. -/
def addClass (v : RdfsVocabulary) (c : RdfsClass) : RdfsVocabulary :=
  { v with classes := v.classes.filter (fun d => d.uri ≠ c.uri) ++ [c] }
/-- `rdfs/mod.rs` 430-432, `remove_class`: whatever class has the IRI is removed. -/
def removeClass (v : RdfsVocabulary) (c : RdfsClass) : RdfsVocabulary :=
  { v with classes := v.classes.filter fun d => d.uri ≠ c.uri }
/-- `rdfs/mod.rs` 440-442, `add_property`. -/
def addProperty (v : RdfsVocabulary) (p : RdfsProperty) : RdfsVocabulary :=
  { v with properties := v.properties.filter (fun d => d.uri ≠ p.uri) ++ [p] }
/-- `rdfs/mod.rs` 444-446, `remove_property`. -/
def removeProperty (v : RdfsVocabulary) (p : RdfsProperty) : RdfsVocabulary :=
  { v with properties := v.properties.filter fun d => d.uri ≠ p.uri }

end RdfsVocabulary

/-- The calls that change a vocabulary. -/
inductive VocabularyOp where
  | label (o : VecOp LabelProperty)
  | addClass (c : RdfsClass)
  | removeClass (c : RdfsClass)
  | addProperty (p : RdfsProperty)
  | removeProperty (p : RdfsProperty)

/-- One call. -/
def RdfsVocabulary.apply (v : RdfsVocabulary) : VocabularyOp → RdfsVocabulary
  | .label o => { v with labels := o.apply v.labels }
  | .addClass c => v.addClass c
  | .removeClass c => v.removeClass c
  | .addProperty p => v.addProperty p
  | .removeProperty p => v.removeProperty p

/-! ### Statements -/

/-- `rdfs/mod.rs` 457-503, `to_label_statements`. -/
def labelStatements (uri : Iri) (ls : List LabelProperty) : List Stmt :=
  ls.map fun
    | .label l => .mk (.res uri) (rdfsIri (str! "label")) (.lit l)
    | .comment l => .mk (.res uri) (rdfsIri (str! "comment")) (.lit l)
    | .seeAlso i => .mk (.res uri) (rdfsIri (str! "seeAlso")) (.res i)
    | .isDefinedBy i => .mk (.res uri) (rdfsIri (str! "isDefinedBy")) (.res i)

/-- `rdfs/mod.rs` 505-534, `to_statements`. -/
def RdfsCommon.toStatements (c : RdfsCommon) : List Stmt :=
  c.instanceOf.map (fun i => .mk (.res c.uri) rdfType (.res i)) ++
  c.parents.map (fun i => .mk (.res c.uri) rdfType (.res i))

/-- `rdfs/mod.rs` 374-377, the statements of a class. -/
def RdfsClass.toStatements (c : RdfsClass) : List Stmt :=
  labelStatements c.uri c.labels ++ c.toRdfsCommon.toStatements

/-- `rdfs/mod.rs` 379-405, the statements of a property. -/
def RdfsProperty.toStatements (p : RdfsProperty) : List Stmt :=
  labelStatements p.uri p.labels ++ p.toRdfsCommon.toStatements ++
  p.domain.map (fun i => .mk (.res p.uri) (rdfsIri (str! "domain")) (.res i)) ++
  p.range.map (fun i => .mk (.res p.uri) (rdfsIri (str! "range")) (.res i))

/-- `rdfs/mod.rs` 368-409, `to_statements`.  `oc` and `op` are the orders in which the maps are
visited. -/
def RdfsVocabulary.toStatements (oc : List RdfsClass → List RdfsClass) (op : List RdfsProperty → List RdfsProperty)
    (v : RdfsVocabulary) : List Stmt :=
  labelStatements v.uri v.labels ++ (oc v.classes).flatMap RdfsClass.toStatements ++
  (op v.properties).flatMap RdfsProperty.toStatements

/-! ### The schema -/

/-- `rdfs/mod.rs` 57-196, the calls of `rdf_schema` after `new`. -/
def rdfSchemaCalls : List VocabularyOp :=
  let s (n : Str) := rdfsIri n
  let r (n : Str) := rdfIri n
  [.label (.add (.isDefinedBy ⟨str! "https://www.w3.org/TR/rdf-schema"⟩)),
   .addClass (.new (s (str! "Resource"))),
   .addClass (.new (s (str! "Class"))),
   .addClass (.newSubclass (s (str! "Literal")) (s (str! "Resource"))),
   .addClass (.newSubclass (s (str! "Datatype")) (s (str! "Class"))),
   .addClass (.newInstanceAndSubclass (s (str! "langString")) (s (str! "Datatype")) (s (str! "Literal"))),
   .addClass (.newInstanceAndSubclass (s (str! "HTML")) (s (str! "Datatype")) (s (str! "Literal"))),
   .addClass (.newInstanceAndSubclass (s (str! "XMLLiteral")) (s (str! "Datatype")) (s (str! "Literal"))),
   .addClass (.newSubclass (s (str! "Property")) (s (str! "Class"))),
   .addProperty (.newWith (s (str! "range")) (s (str! "Property")) (s (str! "Class"))),
   .addProperty (.newWith (s (str! "domain")) (s (str! "Property")) (s (str! "Class"))),
   .addProperty (.newWith (r (str! "type")) (s (str! "Resource")) (s (str! "Class"))),
   .addProperty (.newWith (s (str! "subClassOf")) (s (str! "Class")) (s (str! "Class"))),
   .addProperty (.newWith (s (str! "subPropertyOf")) (s (str! "Property")) (s (str! "Property"))),
   .addProperty (.newWith (s (str! "label")) (s (str! "Resource")) (s (str! "Literal"))),
   .addProperty (.newWith (s (str! "comment")) (s (str! "Resource")) (s (str! "Literal"))),
   .addClass (.new (s (str! "Container"))),
   .addClass (.newSubclass (r (str! "Bag")) (s (str! "Container"))),
   .addClass (.newSubclass (r (str! "Seq")) (s (str! "Container"))),
   .addClass (.newSubclass (r (str! "Alt")) (s (str! "Container"))),
   .addClass (.new (r (str! "List"))),
   .addProperty (.newWith (r (str! "first")) (r (str! "List")) (s (str! "Resource"))),
   .addProperty (.newWith (r (str! "rest")) (r (str! "List")) (r (str! "List"))),
   .addClass (.newInstance (r (str! "nil")) (r (str! "List"))),
   .addClass (.newSubclass (s (str! "ContainerMembershipProperty")) (s (str! "Property"))),
   .addClass (.new (r (str! "Statement"))),
   .addProperty (.newWith (r (str! "subject")) (r (str! "Statement")) (s (str! "Resource"))),
   .addProperty (.newWith (r (str! "predicate")) (r (str! "Statement")) (s (str! "Resource"))),
   .addProperty (.newWith (r (str! "object")) (r (str! "Statement")) (s (str! "Resource"))),
   .addProperty (.newWith (s (str! "seeAlso")) (s (str! "Resource")) (s (str! "Resource"))),
   .addProperty (.newWith (s (str! "isDefinedBy")) (s (str! "Resource")) (s (str! "Resource"))),
   .addProperty (.newWith (r (str! "value")) (s (str! "Resource")) (s (str! "Resource"))),
   .addProperty (.newWith (s (str! "member")) (s (str! "Resource")) (s (str! "Resource")))]

/-- `rdfs/mod.rs` 57-196, `rdf_schema`. -/
def rdfSchema : RdfsVocabulary := rdfSchemaCalls.foldl RdfsVocabulary.apply (.new rdfsTable.iri)

end Rdftk
