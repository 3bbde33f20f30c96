import Verif.Model.Graph
import Verif.Model.Indexed

/-! What nodes and graph names are made from and compared with, the features they announce, and the iterator over statements. -/

namespace Rdftk

/-- `subject.rs` 31-85: the conversions; a `Name` is taken as the label of a blank node. -/
def Subject.ofBlank (b : Str) : Subject := .blank b
/-- `subject.rs` 43-53, `From<Name>`. -/
def Subject.ofName (n : Name) : Subject := .blank n.text
/-- `subject.rs` 55-65, `From<Iri>`. -/
def Subject.ofIri (i : Iri) : Subject := .res i
/-- `subject.rs` 67-89, `From<Statement>`, `From<Arc<Statement>>`. -/
def Subject.ofStmt (t : Stmt) : Subject := .stmt t

/-- `subject.rs` 105-112, `PartialEq<BlankNode>`. -/
def Subject.eqBlank : Subject → Str → Bool
  | .blank v, b => v == b
  | _, _ => false
/-- `subject.rs` 114-121, `PartialEq<Iri>`. -/
def Subject.eqIri : Subject → Iri → Bool
  | .res v, i => v == i
  | _, _ => false
/-- `subject.rs` 123-141, `PartialEq<Statement>`, `PartialEq<Arc<Statement>>`. -/
def Subject.eqStmt : Subject → Stmt → Bool
  | .stmt v, t => decide (v = t)
  | _, _ => false

/-- `object.rs` 35-45, `From<BlankNode>`. -/
def Object.ofBlank (b : Str) : Object := .blank b
/-- `object.rs` 47-57, `From<Name>`. -/
def Object.ofName (n : Name) : Object := .blank n.text
/-- `object.rs` 59-69, `From<Iri>`. -/
def Object.ofIri (i : Iri) : Object := .res i
/-- `object.rs` 71-81, `From<Literal>`. -/
def Object.ofLiteral (l : Literal) : Object := .lit l
/-- `object.rs` 83-93, `From<Collection>`. -/
def Object.ofCollection (c : List Object) : Object := .coll c
/-- `object.rs` 95-117, `From<Statement>`, `From<Arc<Statement>>`. -/
def Object.ofStmt (t : Stmt) : Object := .stmt t

/-- `object.rs` 141-148, `PartialEq<BlankNode>`. -/
def Object.eqBlank : Object → Str → Bool
  | .blank v, b => v == b
  | _, _ => false
/-- `object.rs` 150-157, `PartialEq<Iri>`. -/
def Object.eqIri : Object → Iri → Bool
  | .res v, i => v == i
  | _, _ => false
/-- `object.rs` 159-166, `PartialEq<Literal>`. -/
def Object.eqLiteral : Object → Literal → Bool
  | .lit v, l => v == l
  | _, _ => false
/-- `object.rs` 168-175, `PartialEq<Collection>`. -/
def Object.eqCollection : Object → List Object → Bool
  | .coll v, c => decide (v = c)
  | _, _ => false
/-- `object.rs` 177-195, `PartialEq<Statement>`, `PartialEq<Arc<Statement>>`. -/
def Object.eqStmt : Object → Stmt → Bool
  | .stmt v, t => decide (v = t)
  | _, _ => false

/-- `statement.rs` 120-126, `rdf_type`. -/
def Stmt.rdfType (s : Subject) (o : Object) : Stmt := .mk s ⟨str! "http://www.w3.org/1999/02/22-rdf-syntax-ns#type"⟩ o

/-- `graph.rs` 147-152, `blank_named`. -/
def GraphName.blankNamed (v : Str → Bool) (s : Str) : Option GraphName := (blankParse v s).map .bnode
/-- `graph.rs` 140-142, `blank`, with the number from the process wide sequence. -/
def GraphName.blank (n : Nat) : GraphName := .bnode (blankGen n)
/-- `graph.rs` 157-159, `named`. -/
def GraphName.named (i : Iri) : GraphName := .iri i
/-- `graph.rs` 90-100, `From<Name>`. -/
def GraphName.ofName (n : Name) : GraphName := .bnode n.text
/-- `graph.rs` 164-166, `is_blank`. -/
def GraphName.isBlank : GraphName → Bool
  | .bnode _ => true
  | .iri _ => false
/-- `graph.rs` 171-176, `as_blank`. -/
def GraphName.asBlank : GraphName → Option Str
  | .bnode b => some b
  | .iri _ => none
/-- `graph.rs` 181-183, `is_iri`. -/
def GraphName.isIri : GraphName → Bool
  | .bnode _ => false
  | .iri _ => true
/-- `graph.rs` 188-193, `as_iri`. -/
def GraphName.asIri : GraphName → Option Iri
  | .bnode _ => none
  | .iri i => some i

/-! ### Features -/

/-- `model/features.rs` 61-62, `FEATURE_STMT_SUBJECT_COLLECTIONS`. -/
def featureSubjectCollections : Iri := ⟨str! "http://rust-rdftk.dev/feature/statements/subject_collections"⟩
/-- `model/features.rs` 67-68, `FEATURE_STMT_OBJECT_COLLECTIONS`. -/
def featureObjectCollections : Iri := ⟨str! "http://rust-rdftk.dev/feature/statements/object_collections"⟩
/-- `model/features.rs` 73-74, `FEATURE_GRAPH_ALLOWS_NAMED`. -/
def featureNamed : Iri := ⟨str! "http://rust-rdftk.dev/feature/graph/named"⟩

/-- `statement.rs` 97-101, `supports_feature`. -/
def Stmt.supportsFeature (_ : Stmt) (f : Iri) : Bool := f == featureRdfStar || f == featureObjectCollections
/-- `object.rs` 243-247, `supports_feature`. -/
def Object.supportsFeature (_ : Object) (f : Iri) : Bool := f == featureRdfStar || f == featureObjectCollections
/-- `subject.rs` 169-173, `supports_feature`. -/
def Subject.supportsFeature (_ : Subject) (f : Iri) : Bool := f == featureRdfStar
/-- `data_set.rs` 94-98, `supports_feature`. -/
def DataSet.supportsFeature (_ : DataSet) (_ : Iri) : Bool := false

/-- `model/features.rs` 101-102, `FEATURE_IDX_SUBJECT`. -/
def featureIndexSubject : Iri := ⟨str! "http://rust-rdftk.dev/feature/index/subject"⟩
/-- `model/features.rs` 105-106, `FEATURE_IDX_PREDICATE`. -/
def featureIndexPredicate : Iri := ⟨str! "http://rust-rdftk.dev/feature/index/predicate"⟩
/-- `model/features.rs` 109-110, `FEATURE_IDX_OBJECT`. -/
def featureIndexObject : Iri := ⟨str! "http://rust-rdftk.dev/feature/index/object"⟩

/-- `simple/indexed.rs` 111-119, `supports_feature`. -/
def IndexedGraph.supportsFeature (_ : IndexedGraph) (f : Iri) : Bool :=
  f == featureDuplicates || f == featureRdfStar || f == featureIndexSubject || f == featureIndexPredicate || f == featureIndexObject

/-! ### The iterator over statements -/

/-- `graph.rs` 68-71, `StatementIter`: the statements that are still to come, from a set or a vector. -/
inductive StatementIter where
  | unique (rest : List Stmt)
  | nonUnique (rest : List Stmt)

/-- `graph.rs` 757-762, `iter`; the order of a set is any. -/
def Statements.iterator (ord : List Stmt → List Stmt) : Statements → StatementIter
  | .unique l => .unique (ord l)
  | .nonUnique l => .nonUnique l

/-- `graph.rs` 788-793, `next`. -/
def StatementIter.next : StatementIter → Option Stmt × StatementIter
  | .unique [] => (none, .unique [])
  | .unique (t :: r) => (some t, .unique r)
  | .nonUnique [] => (none, .nonUnique [])
  | .nonUnique (t :: r) => (some t, .nonUnique r)

/-- `graph.rs` 797-802, `len`. -/
def StatementIter.len : StatementIter → Nat
  | .unique r => r.length
  | .nonUnique r => r.length

/-- `size_hint`: `graph.rs` 785-794 does not define it, so that of the trait is used. -/
def StatementIter.sizeHint (_ : StatementIter) : Nat × Option Nat := (0, none)

/-- So many calls of `next`. -/
def StatementIter.advance : Nat → StatementIter → List (Option Stmt) × StatementIter
  | 0, it => ([], it)
  | n + 1, it => let r := it.next; let q := advance n r.2; (r.1 :: q.1, q.2)

end Rdftk
