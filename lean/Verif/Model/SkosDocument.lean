import Verif.Model.Skos

/-! Model of `rdftk_skos/src/document.rs`: the blocks of the document about a thesaurus.

Simplifications.  A document of the crate `somedoc` is the list of its blocks.  `Anchor::safe_from(label, Some(prefix))`
is a parameter `safe`, and `Anchor::from_str` of the fixed names is the name.  What the mappings make of an IRI,
`compress(…)` and then `to_string`, is a parameter `name`; `makeDocumentBlocks` gives it for a prefix map and panics if
`compress` does for an IRI that the document asks for.  The text of the last block is left to the writer of Turtle: the
graph for it is given.  Recursion that may not end takes a number of levels and answers `none` beyond. -/

namespace Rdftk

/-- How text is set: `text_str`, `plain_str`, `bold_str`, `italic_str` and the like. -/
inductive DocStyle where
  | text | plain | bold | italic
deriving DecidableEq, Repr

/-- Text and links within a block. -/
inductive DocSpan where
  | text (style : DocStyle) (s : Str)
  /-- `HyperLink::internal_with_caption_str` -/
  | jump (anchor caption : Str)
  /-- `HyperLink::external`, `external_with_caption_str` -/
  | link (target : Str) (caption : Option Str)
deriving DecidableEq, Repr

/-- The items of a list. -/
inductive DocItem where
  | item (style : DocStyle) (spans : List DocSpan)
  /-- `add_sub_list` -/
  | sub (items : List DocItem)

/-- A row of a table; an empty cell has no content. -/
abbrev DocRow := List (List DocSpan)

/-- The blocks of a document. -/
inductive DocBlock where
  /-- the level is 1 for `Section`, 2 for `SubSection` and so on -/
  | heading (level : Nat) (text : Str) (anchor : Option Str)
  | paragraph (spans : List DocSpan)
  | list (items : List DocItem)
  | table (columns : List Str) (rows : List DocRow)

/-- `document.rs` 38-42, `Context`, and the parameters. -/
structure DocContext where
  name : Iri → Option Str
  sty : IriStyle
  safe : Str → Str → Str
  collections : List Nat
  lang : Option Str

namespace DocContext

/-- `match compress(iri) { None => iri.to_string(), Some(qname) => qname.to_string() }`. -/
def shown (x : DocContext) (i : Iri) : Str := (x.name i).getD (i.fmt x.sty)

/-- `get_preferred_label_for(&context.language)` of a concept. -/
def conceptLabel (x : DocContext) (c : Concept) : Str := preferredLabelFor x.sty c.uri c.labels x.lang
/-- `get_preferred_label_for(&context.language)` of a collection. -/
def collectionLabel (x : DocContext) (c : SkosCollection) : Str := preferredLabelFor x.sty c.uri c.labels x.lang

end DocContext

/-- `document.rs` 184-193, `level_to_heading`. -/
def levelToHeading (n : Nat) : Nat :=
  match n with
  | 1 => 1
  | 2 => 2
  | 3 => 3
  | 4 => 4
  | 5 => 5
  | _ => 6

/-- `properties.rs` 24-30, the derived order of kinds of labels. -/
def LabelKind.cmp : LabelKind → LabelKind → Ordering
  | .preferred, .preferred => .eq
  | .preferred, _ => .lt
  | .alternative, .preferred => .gt
  | .alternative, .alternative => .eq
  | .alternative, _ => .lt
  | .hidden, .hidden => .eq
  | .hidden, .other _ => .lt
  | .hidden, _ => .gt
  | .other i, .other j => cmpStr i.text j.text
  | .other _, _ => .gt

/-- `document.rs` 264-273 and 310-319, the cell for a language. -/
def languageCell (x : DocContext) (l : Option Str) : List DocSpan :=
  match l with
  | none => []
  | some t => [.text (if l = x.lang then .bold else .plain) t]

/-- `document.rs` 262-274, the row for a label. -/
def labelRow (x : DocContext) (l : Label) : DocRow := [[.text .text l.text], languageCell x l.language]

/-- `document.rs` 246-248 and 276-278: a table with columns is added. -/
def flushLabels : Option (List DocRow) → List DocBlock
  | none => []
  | some rows => [.table [str! "Label text", str! "Language"] rows]

/-- `document.rs` 244-278, the loop over the labels with the current kind and the rows of the table, if it has columns. -/
def labelLoop (x : DocContext) : List Label → Option LabelKind → Option (List DocRow) → List DocBlock
  | [], _, tb => flushLabels tb
  | l :: ls, cur, tb =>
    if some l.kind ≠ cur then
      flushLabels tb ++ .paragraph [.text .bold (x.shown l.kind.toUri)] :: labelLoop x ls (some l.kind) (some [labelRow x l])
    else labelLoop x ls cur (tb.map (· ++ [labelRow x l]))

/-- `document.rs` 239-279, `write_labels`. -/
def writeLabels (x : DocContext) (ls : List Label) : List DocBlock :=
  labelLoop x (ls.mergeSort fun a b => a.kind.cmp b.kind != .gt) none none

/-- `document.rs` 295-320, the row for a property.  For a data type without a prefix it is the predicate that is shown. -/
def propertyRow (x : DocContext) (p : LiteralProperty) : DocRow :=
  [[.text .text (x.shown p.predicate)], [.text .text p.lexicalForm],
   [.text .text (match p.dataType with
      | none => []
      | some t => (x.name t.asIri).getD (p.predicate.fmt x.sty))],
   languageCell x p.language]

/-- `document.rs` 281-323, `write_other_properties`. -/
def writeOtherProperties (x : DocContext) (ps : List LiteralProperty) : List DocBlock :=
  [.table [str! "Predicate", str! "Literal Form", str! "Data Type", str! "Language"]
    ((ps.mergeSort fun a b => cmpStr (a.predicate.fmt x.sty) (b.predicate.fmt x.sty) != .gt).map (propertyRow x))]

/-- `document.rs` 194-237, `write_entity_header`; `low` is the header text in lower case. -/
def writeEntityHeader (x : DocContext) (uri : Iri) (ls : List Label) (ps : List LiteralProperty) (header low : Str)
    (depth : Nat) : List DocBlock :=
  let label := preferredLabelFor x.sty uri ls x.lang
  [.heading (levelToHeading depth) (header ++ str! ": " ++ label) (some (x.safe low label))] ++
  (match ps.find? fun p => p.predicate = skosIri (str! "definition") ∧ p.language = x.lang with
    | some d => [.paragraph [.text .italic d.lexicalForm]]
    | none => []) ++
  [.paragraph [.link (uri.fmt x.sty) none]] ++
  (if ls.isEmpty then [] else .heading (levelToHeading (depth + 1)) (str! "Labels") none :: writeLabels x ls) ++
  (if ps.isEmpty then []
   else .heading (levelToHeading (depth + 1)) (str! "Other Properties") none :: writeOtherProperties x ps)

/-- The link to the section of a concept. -/
def conceptJump (x : DocContext) (c : Concept) : DocSpan :=
  .jump (x.safe (str! "concept") (x.conceptLabel c)) (x.conceptLabel c)
/-- The link to the section of a collection. -/
def collectionJump (x : DocContext) (c : SkosCollection) : DocSpan :=
  .jump (x.safe (str! "collection") (x.collectionLabel c)) (x.collectionLabel c)

/-- `document.rs` 335-371, `write_concept_relations`. -/
def writeConceptRelations (x : DocContext) (h : SkosStore) (c : Concept) : List DocBlock :=
  [.heading (levelToHeading 4) (str! "Related Concepts") none,
   .table [str! "Relationship", str! "Concept Iri"]
    (c.concepts.map (fun e => [[.text .text (x.shown e.1.toUri)], [conceptJump x (h.concept e.2)]]) ++
     c.external.map fun e => [[.text .text (x.shown e.1)], [.link (e.2.fmt x.sty) (some (x.shown e.2))]])]

/-- `collection.rs` 261-263, `has_member`. -/
def SkosCollection.hasMember (h : SkosStore) (c : SkosCollection) (u : Iri) : Bool := c.members.any fun m => m.uri h = u

/-- `document.rs` 448-475, `write_collection_membership`. -/
def writeCollectionMembership (x : DocContext) (h : SkosStore) (u : Iri) : List DocBlock :=
  let cs := x.collections.filter fun i => (h.collection i).hasMember h u
  if cs.isEmpty then []
  else [.heading (levelToHeading 4) (str! "In Collections") (some (str! "Collections")),
    .list (cs.map fun i => .item .text [collectionJump x (h.collection i)])]

/-- `document.rs` 325-333, `write_concept`. -/
def writeConcept (x : DocContext) (h : SkosStore) (c : Concept) : List DocBlock :=
  writeEntityHeader x c.uri c.labels c.properties (str! "Concept") (str! "concept") 3 ++
  (if c.concepts.isEmpty then [] else writeConceptRelations x h c) ++
  writeCollectionMembership x h c.uri

/-- `document.rs` 399-436, `write_concept_tree_inner`, for the concepts of a concept, at most so many levels deep: the
list that is added. -/
def writeConceptTreeInner (x : DocContext) (h : SkosStore) : Nat → List (ConceptRelation × Nat) → Option DocItem
  | 0, _ => none
  | n + 1, es =>
    (((es.mergeSort fun a b => cmpStr (x.conceptLabel (h.concept a.2)) (x.conceptLabel (h.concept b.2)) != .gt).filter
        fun e => e.1.isNarrower).mapM fun e =>
      let c := h.concept e.2
      let item := DocItem.item (if e.1 = .narrowerPartitive ∨ e.1 = .narrowerInstantial then .italic else .plain) [conceptJump x c]
      if c.concepts.isEmpty then some [item]
      else (writeConceptTreeInner x h n c.concepts).map fun s => [item, s]).map fun l => .sub l.flatten

/-- `document.rs` 373-397, `write_concept_tree`. -/
def writeConceptTree (x : DocContext) (h : SkosStore) (n : Nat) (tops : List Nat) : Option (List DocBlock) :=
  (tops.mapM fun i =>
    let c := h.concept i
    let item := DocItem.item .bold [conceptJump x c]
    if c.concepts.isEmpty then some (DocBlock.list [item])
    else (writeConceptTreeInner x h n c.concepts).map fun s => DocBlock.list [item, s]).map fun l =>
    .heading 2 (str! "Concepts Hierarchy") (some (str! "ConceptsHierarchy")) :: l

/-- `document.rs` 477-513, `write_collection_members`. -/
def writeCollectionMembers (x : DocContext) (h : SkosStore) (ms : List Member) : List DocBlock :=
  [.heading (levelToHeading 4) (str! "Members") none] ++
  (if ms.isEmpty then []
   else [.list (ms.map fun
    | .collection i => .item .text [.text .text (str! "Collection "), collectionJump x (h.collection i)]
    | .concept i => .item .text [.text .text (str! "Concept "), conceptJump x (h.concept i)])])

/-- `document.rs` 438-446, `write_collection`. -/
def writeSkosCollection (x : DocContext) (h : SkosStore) (c : SkosCollection) : List DocBlock :=
  writeEntityHeader x c.uri c.labels c.properties (str! "Collection") (str! "collection") 3 ++
  (if c.members.isEmpty then [] else writeCollectionMembers x h c.members) ++
  writeCollectionMembership x h c.uri

/-- `document.rs` 84-107, the links to the parts of the document. -/
def jumpLine (s : Scheme) : DocBlock :=
  .paragraph ([.text .text (str! "Jump to: "), .jump (str! "ConceptsHierarchy") (str! "Concepts Hierarchy"),
    .text .text (str! " | "), .jump (str! "Concepts") (str! "Concepts")] ++
    (if s.collections.isEmpty then [] else [.text .text (str! " | "), .jump (str! "Collections") (str! "Collections")]) ++
    [.text .text (str! " | "), .jump (str! "Appendix-RDF") (str! "Appendix - RDF")])

/-- `document.rs` 167-177, `Context::new`: the collections in the order of their labels. -/
def sortCollections (x : DocContext) (h : SkosStore) (l : List Nat) : List Nat :=
  l.mergeSort fun i j => cmpStr (x.collectionLabel (h.collection i)) (x.collectionLabel (h.collection j)) != .gt

/-- `document.rs` 72-160, `make_document_with_mappings`: the blocks before the last one, and the thesaurus whose graph is
written there.  `x` is the context without the collections. -/
def documentBlocks (x : DocContext) (eq : Nat → Nat → Bool) (n : Nat) (t : Thesaurus) :
    Option (Outcome (List DocBlock × Thesaurus)) := do
  let ks ← t.scheme.collectionsFlattened t.store n
  let x := { x with collections := sortCollections x t.store ks }
  let s := t.scheme
  let header := writeEntityHeader x s.uri s.labels s.properties (str! "Scheme") (str! "scheme") 1
  let colls (t : Thesaurus) : List DocBlock :=
    (if s.collections.isEmpty then []
     else .heading 2 (str! "Collections") none :: x.collections.flatMap fun i => writeSkosCollection x t.store (t.store.collection i)) ++
    [.heading 2 (str! "Appendix - RDF") (some (str! "Appendix-RDF"))]
  if s.concepts.isEmpty then some (.ok (header ++ colls t, t))
  else
    let tree ← writeConceptTree x t.store n s.concepts
    let l ← s.conceptsFlattened t.store n
    let d := documentConcepts x.sty x.lang eq t.store l
    match addInverses d t with
    | .panic => some .panic
    | .ok t' => some (.ok (header ++ jumpLine s :: tree ++
        .heading 2 (str! "Concepts") (some (str! "Concepts")) :: d.flatMap (fun i => writeConcept x t'.store (t'.store.concept i)) ++
        colls t', t'))

/-- The IRIs of a resource that the document asks the mappings for. -/
def headerIris (ls : List Label) (ps : List LiteralProperty) : List Iri :=
  ls.map (·.kind.toUri) ++ ps.flatMap fun p => p.predicate :: (p.dataType.map DataType.asIri).toList
/-- The IRIs of a concept that the document asks the mappings for. -/
def conceptIris (c : Concept) : List Iri :=
  headerIris c.labels c.properties ++
  (if c.concepts.isEmpty then [] else c.concepts.map (·.1.toUri) ++ c.external.flatMap fun e => [e.2, e.1])

/-- What the mappings make of an IRI for which `compress` does not panic. -/
def PrefixMap.nameOf (m : PrefixMap) (i : Iri) : Option Str :=
  match m.compress i with
  | .ok (some l) => some l.display
  | _ => none

/-- Whether `compress` panics. -/
def PrefixMap.compressPanics (m : PrefixMap) (i : Iri) : Bool :=
  match m.compress i with
  | .panic => true
  | .ok _ => false

/-- `document.rs` 53-160, with a prefix map. -/
def makeDocumentBlocks (m : PrefixMap) (sty : IriStyle) (safe : Str → Str → Str) (lang : Option Str) (eq : Nat → Nat → Bool)
    (n : Nat) (t : Thesaurus) : Option (Outcome (List DocBlock × Thesaurus)) := do
  let r ← documentBlocks ⟨m.nameOf, sty, safe, [], lang⟩ eq n t
  let cs ← t.scheme.conceptsFlattened t.store n
  let ks ← t.scheme.collectionsFlattened t.store n
  match r with
  | .panic => some .panic
  | .ok (b, t') =>
    if (headerIris t.scheme.labels t.scheme.properties ++ cs.flatMap (fun i => conceptIris (t'.store.concept i)) ++
        ks.flatMap fun i => headerIris (t'.store.collection i).labels (t'.store.collection i).properties).any m.compressPanics
    then some .panic
    else some (.ok (b, t'))

end Rdftk
