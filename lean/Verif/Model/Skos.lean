import Verif.Model.Graph
import Verif.Model.Names
import Verif.Model.Expand

/-! Model of `rdftk_skos/src/model`: concepts, collections and schemes, and the graph they are written
to.  The crate is not a member of the workspace at present; it is modelled as written.

Simplifications.  An `Rc<RefCell<…>>` is the number of a cell of the store, so that concepts can be
shared and can be related in a circle.  `Scheme` declares its members as values and uses them as
references, and uses a field `preferred_label` that it does not declare: members are references here,
and the field, which no call sets, is left out everywhere.  `LanguageTag::from_str` is a parameter `tag`; a failed `unwrap` is
a panic.  The factories are those of the core crate, so texts are escaped as there.  `to_string` of an
IRI is the IRI.  Recursion that may not end takes a number of levels and answers `none` beyond. -/

namespace Rdftk

/-- `ns.rs` 7-46, a member of the SKOS vocabulary. -/
def skosIri (s : Str) : Iri := ⟨skosTable.ns ++ s⟩
/-- `ns.rs` 62-87, a member of the vocabulary of ISO 25964. -/
def isoIri (s : Str) : Iri := ⟨skosIsoTable.ns ++ s⟩
/-- `rdftk_names/src/dc/terms.rs`. -/
def dcTermsIri (s : Str) : Iri := ⟨dcTermsTable.ns ++ s⟩

/-- `concept.rs` 28-38, `ConceptRelation`. -/
inductive ConceptRelation where
  | narrower
  | narrowerPartitive
  | narrowerInstantial
  | broader
  | broaderPartitive
  | broaderInstantial
  | related
  | inverseRelated
deriving DecidableEq, Repr

namespace ConceptRelation

/-- `concept.rs` 60-74, `to_uri`. -/
def toUri : ConceptRelation → Iri
  | narrower => skosIri (str! "narrower")
  | narrowerPartitive => isoIri (str! "narrowerPartitive")
  | narrowerInstantial => isoIri (str! "narrowerInstantial")
  | broader => skosIri (str! "broader")
  | broaderPartitive => isoIri (str! "broaderPartitive")
  | broaderInstantial => isoIri (str! "broaderInstantial")
  | related => skosIri (str! "related")
  | inverseRelated => skosIri (str! "related")

/-- `concept.rs` 77-88, `inverse`. -/
def inverse : ConceptRelation → ConceptRelation
  | narrower => broader
  | narrowerPartitive => broaderPartitive
  | narrowerInstantial => broaderInstantial
  | broader => narrower
  | broaderPartitive => narrowerPartitive
  | broaderInstantial => broaderInstantial
  | related => inverseRelated
  | inverseRelated => related

/-- `concept.rs` 90-95, `is_narrower`. -/
def isNarrower : ConceptRelation → Bool
  | narrower | narrowerPartitive | narrowerInstantial => true
  | _ => false

/-- `concept.rs` 97-102, `is_broader`. -/
def isBroader : ConceptRelation → Bool
  | broader | broaderPartitive | broaderInstantial => true
  | _ => false

end ConceptRelation

/-- `properties.rs` 24-30, `LabelKind`. -/
inductive LabelKind where
  | preferred
  | alternative
  | hidden
  | other (i : Iri)
deriving DecidableEq, Repr

/-- `properties.rs` 73-83, `to_uri`. -/
def LabelKind.toUri : LabelKind → Iri
  | .preferred => skosIri (str! "prefLabel")
  | .alternative => skosIri (str! "altLabel")
  | .hidden => skosIri (str! "hiddenLabel")
  | .other i => i

/-- `properties.rs` 32-37, `Label`. -/
structure Label where
  kind : LabelKind
  text : Str
  language : Option Str
deriving DecidableEq, Repr

/-- `properties.rs` 127-137, `new`; also `preferred`, `alternative`, `hidden`, `other` (111-125). -/
def Label.new (tag : Str → Option Str) (kind : LabelKind) (text lang : Str) : Outcome Label :=
  if lang.isEmpty then .ok ⟨kind, text, none⟩
  else match tag lang with
    | none => .panic
    | some t => .ok ⟨kind, text, some t⟩

/-- `properties.rs` 87-108, `to_statement`. -/
def Label.toStatement (pr : Char → Bool) (s : Subject) (l : Label) : Stmt :=
  .mk s l.kind.toUri (.lit (match l.language with
    | some t => .withLanguage pr l.text t
    | none => .plain pr l.text))

/-- `properties.rs` 39-45, `LiteralProperty`. -/
structure LiteralProperty where
  predicate : Iri
  lexicalForm : Str
  dataType : Option DataType
  language : Option Str
deriving DecidableEq, Repr

namespace LiteralProperty

/-- `properties.rs` 176-183, `new`. -/
def new (p : Iri) (s : Str) : LiteralProperty := ⟨p, s, none, none⟩
/-- `properties.rs` 185-192, `with_data_type`. -/
def withDataType (p : Iri) (s : Str) (t : DataType) : LiteralProperty := ⟨p, s, some t, none⟩
/-- `properties.rs` 194-201, `with_language`. -/
def withLanguage (p : Iri) (s l : Str) : LiteralProperty := ⟨p, s, none, some l⟩

/-- `properties.rs` 348-357, `make_literal`. -/
def makeLiteral (pr : Char → Bool) (p : LiteralProperty) : Literal :=
  match p.dataType, p.language with
  | some t, _ => .withDataType pr p.lexicalForm t
  | none, some l => .withLanguage pr p.lexicalForm l
  | none, none => .plain pr p.lexicalForm

/-- `properties.rs` 158-173, `to_statement`. -/
def toStatement (pr : Char → Bool) (s : Subject) (p : LiteralProperty) : Stmt :=
  .mk s p.predicate (.lit (p.makeLiteral pr))

end LiteralProperty

/-- The constructors of `LiteralProperty` for given properties, by the name of the function. -/
inductive PropertyKind where
  | changeNote | definition | editorialNote | «example» | historyNote | note | scopeNote | «notation»
  | available | created | creator | dateAccepted | dateSubmitted | issued | modified | publisher | rights
  | source | subject | title | termStatus
deriving DecidableEq, Repr

/-- `properties.rs` 205-318: the predicate that each constructor uses. -/
def PropertyKind.predicate : PropertyKind → Iri
  | changeNote => skosIri (str! "changeNote")
  | definition => skosIri (str! "definition")
  | editorialNote => skosIri (str! "editorialNote")
  | «example» => skosIri (str! "example")
  | historyNote => skosIri (str! "historyNote")
  | note => skosIri (str! "note")
  | scopeNote => skosIri (str! "scopeNote")
  | «notation» => skosIri (str! "notation")
  | available => dcTermsIri (str! "created")
  | created => dcTermsIri (str! "created")
  | creator => dcTermsIri (str! "creator")
  | dateAccepted => dcTermsIri (str! "dateAccepted")
  | dateSubmitted => dcTermsIri (str! "dateSubmitted")
  | issued => dcTermsIri (str! "issued")
  | modified => dcTermsIri (str! "modified")
  | publisher => dcTermsIri (str! "publisher")
  | rights => dcTermsIri (str! "rights")
  | source => dcTermsIri (str! "source")
  | subject => dcTermsIri (str! "subject")
  | title => dcTermsIri (str! "title")
  | termStatus => ⟨skosTermStatusTable.ns ++ str! "term_status"⟩

/-- `properties.rs` 205-318, the constructors with a text. -/
def LiteralProperty.ofKind (k : PropertyKind) (s : Str) : LiteralProperty := .new k.predicate s
/-- `properties.rs` 208-276, the constructors with a text and a language, which exist for notes. -/
def LiteralProperty.ofKindWith (tag : Str → Option Str) (k : PropertyKind) (s lang : Str) : Outcome LiteralProperty :=
  match tag lang with
  | none => .panic
  | some t => .ok (.withLanguage k.predicate s t)

/-- `concept.rs` 40-48, `Concept`. -/
structure Concept where
  uri : Iri
  concepts : List (ConceptRelation × Nat)
  external : List (Iri × Iri)
  labels : List Label
  properties : List LiteralProperty
deriving DecidableEq, Repr

/-- `concept.rs` 204-213, `new`. -/
def Concept.new (uri : Iri) : Concept := ⟨uri, [], [], [], []⟩

/-- `collection.rs` 30-34, `Member`. -/
inductive Member where
  | concept (i : Nat)
  | collection (i : Nat)
deriving DecidableEq, Repr

/-- `collection.rs` 36-44, `Collection`. -/
structure SkosCollection where
  uri : Iri
  ordered : Bool
  members : List Member
  labels : List Label
  properties : List LiteralProperty
deriving DecidableEq, Repr

/-- `collection.rs` 192-201, `new`. -/
def SkosCollection.new (uri : Iri) (ordered : Bool) : SkosCollection := ⟨uri, ordered, [], [], []⟩

/-- `scheme.rs` 31-38, `Scheme`. -/
structure Scheme where
  uri : Iri
  concepts : List Nat
  collections : List Nat
  labels : List Label
  properties : List LiteralProperty
deriving DecidableEq, Repr

/-- `scheme.rs` 164-173, `new`. -/
def Scheme.new (uri : Iri) : Scheme := ⟨uri, [], [], [], []⟩

/-- The cells that hold concepts and collections. -/
structure SkosStore where
  concepts : List Concept
  collections : List SkosCollection

namespace SkosStore

/-- `borrow` of a concept.  There is no reference to a cell that does not exist. -/
def concept (h : SkosStore) (i : Nat) : Concept := h.concepts.getD i (.new ⟨[]⟩)
/-- `borrow` of a collection. -/
def collection (h : SkosStore) (i : Nat) : SkosCollection := h.collections.getD i (.new ⟨[]⟩ false)

end SkosStore

/-- `collection.rs` 51-56, `uri`. -/
def Member.uri (h : SkosStore) : Member → Iri
  | .concept i => (h.concept i).uri
  | .collection i => (h.collection i).uri

/-- `concept.rs` 309-325, `concepts_flattened`, at most so many levels deep. -/
def conceptsFlattened (h : SkosStore) : Nat → Nat → Option (List Nat)
  | 0, _ => none
  | n + 1, i => ((((h.concept i).concepts.filter fun e => e.1.isNarrower).map (·.2)).mapM fun j =>
      (conceptsFlattened h n j).map (· ++ [j])).map List.flatten

/-- `scheme.rs` 216-226, `concepts_flattened`. -/
def Scheme.conceptsFlattened (h : SkosStore) (n : Nat) (s : Scheme) : Option (List Nat) :=
  (s.concepts.mapM fun j => (Rdftk.conceptsFlattened h n j).map (· ++ [j])).map List.flatten

/-- `collection.rs` 69-76, `as_collection`. -/
def Member.asCollection : Member → Option Nat
  | .collection i => some i
  | .concept _ => none

/-- `collection.rs` 260-271, `collections_flattened`, at most so many levels deep. -/
def collectionsFlattened (h : SkosStore) : Nat → Nat → Option (List Nat)
  | 0, _ => none
  | n + 1, i => (((h.collection i).members.filterMap Member.asCollection).mapM fun j =>
      (collectionsFlattened h n j).map (· ++ [j])).map List.flatten

/-- `scheme.rs` 261-270, `collections_flattened`. -/
def Scheme.collectionsFlattened (h : SkosStore) (n : Nat) (s : Scheme) : Option (List Nat) :=
  (s.collections.mapM fun j => (Rdftk.collectionsFlattened h n j).map (· ++ [j])).map List.flatten

/-- `concept.rs` 142-201, `to_statements`. -/
def Concept.toStatements (pr : Char → Bool) (h : SkosStore) (inScheme : Option Object) (c : Concept) : List Stmt :=
  let s : Subject := .res c.uri
  [.mk s rdfType (.res (skosIri (str! "Concept")))] ++
  (match inScheme with
    | some o => [.mk s (skosIri (str! "inScheme")) o]
    | none => []) ++
  c.concepts.map (fun e => .mk s e.1.toUri (.res (h.concept e.2).uri)) ++
  c.external.map (fun e => .mk s e.1 (.res e.2)) ++
  c.labels.map (·.toStatement pr s) ++
  c.properties.map (·.toStatement pr s)

/-- `collection.rs` 278-305, `make_list_node`: the statements for the label of the new node. -/
def makeListNode (frm : Option Str) (b : Str) : List Stmt :=
  (match frm with
    | some a => [.mk (.blank a) (rdfIri (str! "rest")) (.blank b)]
    | none => []) ++
  [.mk (.blank b) rdfType (.res (rdfIri (str! "List")))]

/-- `collection.rs` 307-322, `add_to_list_node`. -/
def addToListNode (b : Str) (i : Iri) : Stmt := .mk (.blank b) (rdfIri (str! "first")) (.res i)

/-- `collection.rs` 324-347, `make_list_end`. -/
def makeListEnd (b : Str) : List Stmt :=
  [.mk (.blank b) rdfType (.res (rdfIri (str! "List"))), .mk (.blank b) (rdfIri (str! "rest")) (.res (rdfIri (str! "nil")))]

/-- `collection.rs` 159-165, the loop over the members from one list node on.  The test `i < len` in
it is always true. -/
def listFrom (gen : Nat → Str) (k : Nat) (cur : Str) : List Iri → List Stmt × Nat
  | [] => (makeListEnd cur, k)
  | m :: ms =>
    let r := listFrom gen (k + 1) (gen k) ms
    (addToListNode cur m :: makeListNode (some cur) (gen k) ++ r.1, r.2)

/-- `collection.rs` 120-190, `to_statements`.  `gen k` is the label of the `k`th new blank node. -/
def SkosCollection.toStatements (pr : Char → Bool) (gen : Nat → Str) (h : SkosStore) (inScheme : Option Object)
    (c : SkosCollection) (k : Nat) : List Stmt × Nat :=
  let s : Subject := .res c.uri
  let head : List Stmt := [.mk s rdfType (.res (skosIri (if c.ordered then str! "OrderedCollection" else str! "Collection")))] ++
    (match inScheme with
      | some o => [.mk s (skosIri (str! "inScheme")) o]
      | none => [])
  let mem : List Stmt × Nat :=
    if c.members.isEmpty then ([], k)
    else if c.ordered then
      let r := listFrom gen (k + 1) (gen k) (c.members.map (·.uri h))
      (makeListNode none (gen k) ++ r.1, r.2)
    else (c.members.map fun m => .mk s (skosIri (str! "member")) (.res (m.uri h)), k)
  (head ++ mem.1 ++ c.labels.map (·.toStatement pr s) ++ c.properties.map (·.toStatement pr s), mem.2)

/-- `scheme.rs` 132-149, the loop over the collections. -/
def collectionsToStatements (pr : Char → Bool) (gen : Nat → Str) (h : SkosStore) (scheme : Iri) :
    List Nat → Nat → List Stmt × Nat
  | [], k => ([], k)
  | i :: is, k =>
    let c := h.collection i
    let r := c.toStatements pr gen h (some (.res scheme)) k
    let r' := collectionsToStatements pr gen h scheme is r.2
    (r.1 ++ .mk (.res c.uri) (skosIri (str! "inScheme")) (.res scheme) :: r'.1, r'.2)

/-- `scheme.rs` 79-161, `to_statements`. -/
def Scheme.toStatements (pr : Char → Bool) (gen : Nat → Str) (h : SkosStore) (n k : Nat) (s : Scheme) :
    Option (List Stmt) := do
  let cs ← s.conceptsFlattened h n
  let ks ← s.collectionsFlattened h n
  let subject : Subject := .res s.uri
  let tops := s.concepts.map fun i => (h.concept i).uri
  let concepts : List Stmt := cs.flatMap fun i =>
    let c := h.concept i
    c.toStatements pr h (some (.res s.uri)) ++
    (if c.uri ∈ tops then
      [.mk (.res c.uri) (skosIri (str! "topConceptOf")) (.res s.uri),
       .mk subject (skosIri (str! "hasTopConcept")) (.res c.uri)]
     else [])
  some (.mk subject rdfType (.res (skosIri (str! "ConceptScheme"))) :: concepts ++
    (collectionsToStatements pr gen h s.uri ks k).1 ++
    s.labels.map (·.toStatement pr subject) ++ s.properties.map (·.toStatement pr subject))

/-- `properties.rs` 51-62, `final_preferred_label`. -/
def finalPreferredLabel (ls : List Label) (lang : Option Str) : Option Str :=
  (ls.find? fun l => l.kind = .preferred ∧ l.language = lang).map Label.text

/-- `concept.rs` 129-138, `collection.rs` 107-116 and `scheme.rs` 66-75, `get_preferred_label_for`. -/
def preferredLabelFor (sty : IriStyle) (uri : Iri) (ls : List Label) (lang : Option Str) : Str :=
  (finalPreferredLabel ls lang).getD (uri.fmt sty)

/-- `mod.rs` 47-51, `has_property`. -/
def hasProperty (ps : List LiteralProperty) (p : Iri) : Bool := ps.any fun x => x.predicate = p

/-! ### Calls -/

/-- A thesaurus that is being made: its cells and its scheme. -/
structure Thesaurus where
  store : SkosStore
  scheme : Scheme

/-- Whose labels or properties a call adds to. -/
inductive SkosTarget where
  | scheme
  | concept (i : Nat)
  | collection (i : Nat)

/-- The calls that change a thesaurus. -/
inductive SkosOp where
  /-- `new_top_concept`, `new_top_concept_with_label` -/
  | newTopConcept (uri : Iri) (labels : List Label)
  /-- `sub_concept`, `instance`, `part`, `related`, and the same with a label -/
  | newConcept (i : Nat) (r : ConceptRelation) (uri : Iri) (labels : List Label)
  /-- `add_related_concept`, `add_related` -/
  | addRelated (i : Nat) (r : ConceptRelation) (j : Nat)
  | addExternal (i : Nat) (r related : Iri)
  /-- `new_top_collection`, `new_top_collection_with_label` -/
  | newTopCollection (uri : Iri) (ordered : Bool) (labels : List Label)
  /-- `sub_collection`, `sub_collection_labeled` -/
  | newCollection (i : Nat) (uri : Iri) (ordered : Bool) (labels : List Label)
  | addMemberConcept (i j : Nat)
  | addLabel (t : SkosTarget) (l : Label)
  | addProperty (t : SkosTarget) (p : LiteralProperty)

namespace Thesaurus

/-- `scheme.rs` 164-173, a new scheme. -/
def new (uri : Iri) : Thesaurus := ⟨⟨[], []⟩, .new uri⟩

/-- A change of one concept. -/
def modifyConcept (t : Thesaurus) (i : Nat) (f : Concept → Concept) : Thesaurus :=
  { t with store := { t.store with concepts := t.store.concepts.modify i f } }
/-- A change of one collection. -/
def modifyCollection (t : Thesaurus) (i : Nat) (f : SkosCollection → SkosCollection) : Thesaurus :=
  { t with store := { t.store with collections := t.store.collections.modify i f } }

/-- One call.  A call with a reference that was not given out cannot be made and changes nothing. -/
def apply (t : Thesaurus) : SkosOp → Thesaurus
  -- `scheme.rs` 183-208
  | .newTopConcept uri ls =>
    { store := { t.store with concepts := t.store.concepts ++ [{ Concept.new uri with labels := ls }] }
      scheme := { t.scheme with concepts := t.scheme.concepts ++ [t.store.concepts.length] } }
  -- `concept.rs` 223-297
  | .newConcept i r uri ls =>
    if i < t.store.concepts.length then
      let k := t.store.concepts.length
      let t' := t.modifyConcept i fun c => { c with concepts := c.concepts ++ [(r, k)] }
      { t' with store := { t'.store with concepts := t'.store.concepts ++ [{ Concept.new uri with labels := ls }] } }
    else t
  -- `concept.rs` 223-229, 299-301
  | .addRelated i r j =>
    if i < t.store.concepts.length ∧ j < t.store.concepts.length then
      t.modifyConcept i fun c => { c with concepts := c.concepts ++ [(r, j)] }
    else t
  -- `concept.rs` 337-339
  | .addExternal i r o => t.modifyConcept i fun c => { c with external := c.external ++ [(r, o)] }
  -- `scheme.rs` 230-253
  | .newTopCollection uri ordered ls =>
    { store := { t.store with collections := t.store.collections ++ [{ SkosCollection.new uri ordered with labels := ls }] }
      scheme := { t.scheme with collections := t.scheme.collections ++ [t.store.collections.length] } }
  -- `collection.rs` 210-234
  | .newCollection i uri ordered ls =>
    if i < t.store.collections.length then
      let k := t.store.collections.length
      let t' := t.modifyCollection i fun c => { c with members := c.members ++ [.collection k] }
      { t' with store := { t'.store with collections := t'.store.collections ++ [{ SkosCollection.new uri ordered with labels := ls }] } }
    else t
  -- `collection.rs` 238-241
  | .addMemberConcept i j =>
    if j < t.store.concepts.length then
      t.modifyCollection i fun c => { c with members := c.members ++ [.concept j] }
    else t
  | .addLabel .scheme l => { t with scheme := { t.scheme with labels := t.scheme.labels ++ [l] } }
  | .addLabel (.concept i) l => t.modifyConcept i fun c => { c with labels := c.labels ++ [l] }
  | .addLabel (.collection i) l => t.modifyCollection i fun c => { c with labels := c.labels ++ [l] }
  | .addProperty .scheme p => { t with scheme := { t.scheme with properties := t.scheme.properties ++ [p] } }
  | .addProperty (.concept i) p => t.modifyConcept i fun c => { c with properties := c.properties ++ [p] }
  | .addProperty (.collection i) p => t.modifyCollection i fun c => { c with properties := c.properties ++ [p] }

end Thesaurus

/-! ### Graphs and documents -/

/-- `mod.rs` 157-187, `standard_mappings`, with the mappings of the core crate as the default.  The names of prefixes
that are inserted are taken as namespaces, with the final `':'`. -/
def skosMappings : PrefixMap :=
  [skosTable, skosXlTable, skosIsoTable, skosTermStatusTable, dcTermsTable, rdfTable, owlTable, xsdTable].foldl
    (fun m t => m.insert ⟨t.pfx ++ [':']⟩ t.iri) defaultMappings

/-- `mod.rs` 105-116, the mappings of the graph for a default namespace. -/
def skosMappingsWith : Option Iri → PrefixMap
  | none => skosMappings
  | some d => skosMappings.setDefaultNamespace d

/-- `mod.rs` 118-135, `to_rdf_graph_with_mappings`. -/
def Scheme.toGraph (pr : Char → Bool) (gen : Nat → Str) (h : SkosStore) (n k : Nat) (m : PrefixMap) (s : Scheme) :
    Option Graph :=
  (s.toStatements pr gen h n k).map fun sts => sts.foldl Graph.insert (Graph.default.withMappings m)

/-- `Vec::dedup`, for an equality of cells. -/
def vecDedup (eq : Nat → Nat → Bool) : List Nat → List Nat
  | [] => []
  | [a] => [a]
  | a :: b :: l => if eq b a then vecDedup eq (a :: l) else a :: vecDedup eq (b :: l)
termination_by l => l.length

/-- `document.rs` 125-130: the relations for which an inverse is added. -/
def ConceptRelation.getsInverse : ConceptRelation → Bool
  | .narrower | .narrowerPartitive | .narrowerInstantial | .related => true
  | _ => false

/-- `document.rs` 123-136, the inner loop: the inverse of each relation of a concept is added to the
related concept.  A concept that is related to itself is already borrowed, which is a panic. -/
def addInversesOf (i : Nat) : List (ConceptRelation × Nat) → Thesaurus → Outcome Thesaurus
  | [], t => .ok t
  | (r, j) :: rs, t =>
    if r.getsInverse then
      if j = i then .panic
      else addInversesOf i rs (t.modifyConcept j fun c => { c with concepts := c.concepts ++ [(r.inverse, i)] })
    else addInversesOf i rs t

/-- `document.rs` 122-137, the outer loop. -/
def addInverses : List Nat → Thesaurus → Outcome Thesaurus
  | [], t => .ok t
  | i :: is, t => match addInversesOf i (t.store.concept i).concepts t with
    | .panic => .panic
    | .ok t' => addInverses is t'

/-- `document.rs` 118-120: the concepts in the order of the document.  `eq` is the equality of
concepts, which compares everything they refer to. -/
def documentConcepts (sty : IriStyle) (lang : Option Str) (eq : Nat → Nat → Bool) (h : SkosStore) (l : List Nat) : List Nat :=
  vecDedup eq (l.mergeSort fun i j =>
    cmpStr (preferredLabelFor sty (h.concept i).uri (h.concept i).labels lang)
      (preferredLabelFor sty (h.concept j).uri (h.concept j).labels lang) != .gt)

/-- `document.rs` 72-157, `make_document_with_mappings`, as far as it changes the thesaurus; `none` is
recursion beyond the number of levels. -/
def makeDocument (sty : IriStyle) (lang : Option Str) (eq : Nat → Nat → Bool) (n : Nat) (t : Thesaurus) :
    Option (Outcome Thesaurus) :=
  if t.scheme.concepts.isEmpty then some (.ok t)
  else (t.scheme.conceptsFlattened t.store n).map fun l =>
    addInverses (documentConcepts sty lang eq t.store l) t

end Rdftk
