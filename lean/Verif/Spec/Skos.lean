import Verif.Model.Skos
import Mathlib.Logic.Relation

/-! What a thesaurus says: which concepts belong to it and which statements describe it. -/

namespace Rdftk.Spec

/-- One concept is given as a narrower one of another. -/
def NarrowerThan (h : SkosStore) (i j : Nat) : Prop := ∃ r, (r, j) ∈ (h.concept i).concepts ∧ r.isNarrower = true

/-- One collection is a member of another. -/
def HasSubCollection (h : SkosStore) (i j : Nat) : Prop := Member.collection j ∈ (h.collection i).members

/-- The concepts that are top concepts, narrower than one, and so on. -/
def ConceptOf (h : SkosStore) (s : Scheme) (i : Nat) : Prop :=
  ∃ t ∈ s.concepts, Relation.ReflTransGen (NarrowerThan h) t i

/-- The collections of a scheme, their members, and so on. -/
def CollectionOf (h : SkosStore) (s : Scheme) (i : Nat) : Prop :=
  ∃ t ∈ s.collections, Relation.ReflTransGen (HasSubCollection h) t i

/-- No chain of narrower concepts and no chain of collections goes on for ever. -/
def Ends (h : SkosStore) (s : Scheme) : Prop :=
  (∀ i ∈ s.concepts, Acc (fun b a => NarrowerThan h a b) i) ∧
  ∀ i ∈ s.collections, Acc (fun b a => HasSubCollection h a b) i

/-- The literal of a label. -/
def labelLiteral (pr : Char → Bool) (l : Label) : Literal := ⟨escapeString pr l.text, none, l.language⟩

/-- The literal of a property. -/
def propertyLiteral (pr : Char → Bool) (p : LiteralProperty) : Literal :=
  ⟨escapeString pr p.lexicalForm, p.dataType, if p.dataType.isSome then none else p.language⟩

/-- What labels and properties say of a resource. -/
inductive SaysOf (pr : Char → Bool) (u : Iri) (ls : List Label) (ps : List LiteralProperty) : Stmt → Prop
  | label {l : Label} : l ∈ ls → SaysOf pr u ls ps (.mk (.res u) l.kind.toUri (.lit (labelLiteral pr l)))
  | property {p : LiteralProperty} : p ∈ ps → SaysOf pr u ls ps (.mk (.res u) p.predicate (.lit (propertyLiteral pr p)))

/-- What a thesaurus says, without the lists of ordered collections. -/
inductive Says (pr : Char → Bool) (h : SkosStore) (s : Scheme) : Stmt → Prop
  | scheme : Says pr h s (.mk (.res s.uri) rdfType (.res (skosIri (str! "ConceptScheme"))))
  | schemeOf {st : Stmt} : SaysOf pr s.uri s.labels s.properties st → Says pr h s st
  | concept {i : Nat} : ConceptOf h s i →
      Says pr h s (.mk (.res (h.concept i).uri) rdfType (.res (skosIri (str! "Concept"))))
  | conceptIn {i : Nat} : ConceptOf h s i →
      Says pr h s (.mk (.res (h.concept i).uri) (skosIri (str! "inScheme")) (.res s.uri))
  | relation {i j : Nat} {r : ConceptRelation} : ConceptOf h s i → (r, j) ∈ (h.concept i).concepts →
      Says pr h s (.mk (.res (h.concept i).uri) r.toUri (.res (h.concept j).uri))
  | external {i : Nat} {r o : Iri} : ConceptOf h s i → (r, o) ∈ (h.concept i).external →
      Says pr h s (.mk (.res (h.concept i).uri) r (.res o))
  | conceptOf {i : Nat} {st : Stmt} : ConceptOf h s i →
      SaysOf pr (h.concept i).uri (h.concept i).labels (h.concept i).properties st → Says pr h s st
  | topConceptOf {i : Nat} : i ∈ s.concepts →
      Says pr h s (.mk (.res (h.concept i).uri) (skosIri (str! "topConceptOf")) (.res s.uri))
  | hasTopConcept {i : Nat} : i ∈ s.concepts →
      Says pr h s (.mk (.res s.uri) (skosIri (str! "hasTopConcept")) (.res (h.concept i).uri))
  | collection {i : Nat} : CollectionOf h s i →
      Says pr h s (.mk (.res (h.collection i).uri) rdfType
        (.res (skosIri (if (h.collection i).ordered then str! "OrderedCollection" else str! "Collection"))))
  | collectionIn {i : Nat} : CollectionOf h s i →
      Says pr h s (.mk (.res (h.collection i).uri) (skosIri (str! "inScheme")) (.res s.uri))
  | member {i : Nat} {m : Member} : CollectionOf h s i → (h.collection i).ordered = false → m ∈ (h.collection i).members →
      Says pr h s (.mk (.res (h.collection i).uri) (skosIri (str! "member")) (.res (m.uri h)))
  | collectionOf {i : Nat} {st : Stmt} : CollectionOf h s i →
      SaysOf pr (h.collection i).uri (h.collection i).labels (h.collection i).properties st → Says pr h s st

/-- In a set of statements, a node is the list of these members: a node other than `nil` has the first
member and a rest which is the list of the others. -/
inductive IsMemberList (sts : List Stmt) : Object → List Iri → Prop
  | nil : IsMemberList sts (.res (rdfIri (str! "nil"))) []
  | cons {b : Str} {m : Iri} {o : Object} {l : List Iri} : .mk (.blank b) (rdfIri (str! "first")) (.res m) ∈ sts →
      .mk (.blank b) (rdfIri (str! "rest")) o ∈ sts → IsMemberList sts o l → IsMemberList sts (.blank b) (m :: l)

end Rdftk.Spec

namespace Rdftk.Spec

/-- The properties that SKOS (section 8.3, S25 and S23) and ISO 25964 declare to be inverse to each
other. -/
def inverseProperties : List (Iri × Iri) :=
  [(⟨str! "http://www.w3.org/2004/02/skos/core#narrower"⟩, ⟨str! "http://www.w3.org/2004/02/skos/core#broader"⟩),
   (⟨str! "http://www.w3.org/2004/02/skos/core#broader"⟩, ⟨str! "http://www.w3.org/2004/02/skos/core#narrower"⟩),
   (⟨str! "http://www.w3.org/2004/02/skos/core#related"⟩, ⟨str! "http://www.w3.org/2004/02/skos/core#related"⟩),
   (⟨str! "http://purl.org/iso25964/skos-thes#narrowerPartitive"⟩, ⟨str! "http://purl.org/iso25964/skos-thes#broaderPartitive"⟩),
   (⟨str! "http://purl.org/iso25964/skos-thes#broaderPartitive"⟩, ⟨str! "http://purl.org/iso25964/skos-thes#narrowerPartitive"⟩),
   (⟨str! "http://purl.org/iso25964/skos-thes#narrowerInstantial"⟩, ⟨str! "http://purl.org/iso25964/skos-thes#broaderInstantial"⟩),
   (⟨str! "http://purl.org/iso25964/skos-thes#broaderInstantial"⟩, ⟨str! "http://purl.org/iso25964/skos-thes#narrowerInstantial"⟩)]

/-- The predicate that the documentation of Dublin Core, SKOS and the vocabulary for the status of terms has
under the name of a constructor. -/
def namedPredicate : PropertyKind → Iri
  | .changeNote => ⟨str! "http://www.w3.org/2004/02/skos/core#changeNote"⟩
  | .definition => ⟨str! "http://www.w3.org/2004/02/skos/core#definition"⟩
  | .editorialNote => ⟨str! "http://www.w3.org/2004/02/skos/core#editorialNote"⟩
  | .«example» => ⟨str! "http://www.w3.org/2004/02/skos/core#example"⟩
  | .historyNote => ⟨str! "http://www.w3.org/2004/02/skos/core#historyNote"⟩
  | .note => ⟨str! "http://www.w3.org/2004/02/skos/core#note"⟩
  | .scopeNote => ⟨str! "http://www.w3.org/2004/02/skos/core#scopeNote"⟩
  | .«notation» => ⟨str! "http://www.w3.org/2004/02/skos/core#notation"⟩
  | .available => ⟨str! "http://purl.org/dc/terms/available"⟩
  | .created => ⟨str! "http://purl.org/dc/terms/created"⟩
  | .creator => ⟨str! "http://purl.org/dc/terms/creator"⟩
  | .dateAccepted => ⟨str! "http://purl.org/dc/terms/dateAccepted"⟩
  | .dateSubmitted => ⟨str! "http://purl.org/dc/terms/dateSubmitted"⟩
  | .issued => ⟨str! "http://purl.org/dc/terms/issued"⟩
  | .modified => ⟨str! "http://purl.org/dc/terms/modified"⟩
  | .publisher => ⟨str! "http://purl.org/dc/terms/publisher"⟩
  | .rights => ⟨str! "http://purl.org/dc/terms/rights"⟩
  | .source => ⟨str! "http://purl.org/dc/terms/source"⟩
  | .subject => ⟨str! "http://purl.org/dc/terms/subject"⟩
  | .title => ⟨str! "http://purl.org/dc/terms/title"⟩
  | .termStatus => ⟨str! "http://www.w3.org/2003/06/sw-vocab-status/ns#term_status"⟩

/-- The resources that a thesaurus describes, with their labels and properties. -/
inductive Described (h : SkosStore) (s : Scheme) : Iri → List Label → List LiteralProperty → Prop
  | scheme : Described h s s.uri s.labels s.properties
  | concept {i : Nat} : ConceptOf h s i →
      Described h s (h.concept i).uri (h.concept i).labels (h.concept i).properties
  | collection {i : Nat} : CollectionOf h s i →
      Described h s (h.collection i).uri (h.collection i).labels (h.collection i).properties

/-- The predicates of the three kinds of labels. -/
def labelPredicates : List Iri :=
  [skosIri (str! "prefLabel"), skosIri (str! "altLabel"), skosIri (str! "hiddenLabel")]

/-- SKOS, conditions S9 and S37: nothing is two of concept, concept scheme and collection. -/
def DisjointClasses (sts : List Stmt) : Prop :=
  ∀ s c c', c ∈ [[skosIri (str! "Concept")], [skosIri (str! "ConceptScheme")],
      [skosIri (str! "Collection"), skosIri (str! "OrderedCollection")]] →
    c' ∈ [[skosIri (str! "Concept")], [skosIri (str! "ConceptScheme")],
      [skosIri (str! "Collection"), skosIri (str! "OrderedCollection")]] →
    (∃ x ∈ c, .mk s rdfType (.res x) ∈ sts) → (∃ x ∈ c', .mk s rdfType (.res x) ∈ sts) → c = c'

/-- SKOS, condition S13: no label of a resource is of two kinds. -/
def DisjointLabels (sts : List Stmt) : Prop :=
  ∀ s p p' l, p ∈ labelPredicates → p' ∈ labelPredicates → .mk s p (.lit l) ∈ sts → .mk s p' (.lit l) ∈ sts → p = p'

/-- SKOS, condition S14: a resource has at most one preferred label for each language. -/
def OnePreferredLabel (sts : List Stmt) : Prop :=
  ∀ s l l', .mk s (skosIri (str! "prefLabel")) (.lit l) ∈ sts → .mk s (skosIri (str! "prefLabel")) (.lit l') ∈ sts →
    l.language = l'.language → l = l'

end Rdftk.Spec
