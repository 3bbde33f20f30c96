import Verif.Model.Iri

/-!
Model of `rdftk_iri/src/map.rs` (`IriPrefixMap`) and of the vocabulary constants of
`rdftk_iri/src/vocab.rs`.

The `BiBTreeMap<Namespace, Iri>` is a list of pairs sorted by prefix.
-/

namespace Rdftk

/-- `map.rs` 45-47, `IriPrefixMap`. -/
structure PrefixMap where
  entries : List (Namespace × Iri)
deriving DecidableEq, Repr

namespace PrefixMap

/-- `map.rs` 87-91, `empty`. -/
def empty : PrefixMap := ⟨[]⟩

/-- Insertion into the sorted list of pairs. -/
def insertSorted (p : Namespace) (i : Iri) : List (Namespace × Iri) → List (Namespace × Iri)
  | [] => [(p, i)]
  | e :: es => match cmpStr p.text e.1.text with
    | .lt => (p, i) :: e :: es
    | _ => e :: insertSorted p i es

/-- `map.rs` 229-231, `insert`: `BiBTreeMap::insert` first removes every pair that has
the prefix or the IRI. -/
def insert (m : PrefixMap) (p : Namespace) (i : Iri) : PrefixMap :=
  ⟨insertSorted p i (m.entries.filter fun e => !(e.1 == p) && !(e.2 == i))⟩

/-- `map.rs` 244-246, `remove`. -/
def remove (m : PrefixMap) (p : Namespace) : PrefixMap := ⟨m.entries.filter fun e => !(e.1 == p)⟩

/-- `map.rs` 251-253, `clear`. -/
def clear (_ : PrefixMap) : PrefixMap := ⟨[]⟩

/-- `map.rs` 194-196, `get_namespace`. -/
def getNamespace (m : PrefixMap) (p : Namespace) : Option Iri :=
  (m.entries.find? fun e => e.1 == p).map (·.2)

/-- `map.rs` 201-203, `get_prefix`. -/
def getPrefix (m : PrefixMap) (i : Iri) : Option Namespace :=
  (m.entries.find? fun e => e.2 == i).map (·.1)

/-- `map.rs` 167-169, `get_default_namespace`. -/
def getDefaultNamespace (m : PrefixMap) : Option Iri := m.getNamespace Namespace.newDefault

/-- `map.rs` 177-179, `set_default_namespace`. -/
def setDefaultNamespace (m : PrefixMap) (i : Iri) : PrefixMap := m.insert Namespace.newDefault i

/-- `map.rs` 187-189, `remove_default_namespace`. -/
def removeDefaultNamespace (m : PrefixMap) : PrefixMap := m.remove Namespace.newDefault

/-- `map.rs` 157-159, `len`. -/
def len (m : PrefixMap) : Nat := m.entries.length
/-- `map.rs` 150-152, `is_empty`. -/
def isEmpty (m : PrefixMap) : Bool := m.entries.isEmpty
/-- `map.rs` 208-210, `mappings`. -/
def mappings (m : PrefixMap) : List (Namespace × Iri) := m.entries
/-- `map.rs` 215-217, `prefixes`. -/
def prefixes (m : PrefixMap) : List Namespace := m.entries.map (·.1)
/-- `map.rs` 222-224, `iris` (the order by IRI of the right hand tree is not modelled). -/
def iris (m : PrefixMap) : List Iri := m.entries.map (·.2)

/-- `map.rs` 264-272, `expand`. -/
def expand (m : PrefixMap) (l : LocalName) : Option Iri :=
  match (m.getNamespace l.namespace).map (fun ns => ns.makeName l.name) with
  | some expanded => expanded
  | none => none

/-- `map.rs` 295-305, `compress`; panics when `split` does. -/
def compress (m : PrefixMap) (i : Iri) : Outcome (Option LocalName) :=
  match i.split with
  | .panic => .panic
  | .ok none => .ok none
  | .ok (some (ns, name)) =>
    match m.getPrefix ns with
    | none => .ok none
    | some p => .ok (some ⟨p, name⟩)

end PrefixMap

/-- `iri.rs` 51-56, `IriRef`, restricted to the local names that `compress_to_iriref`
produces. -/
inductive IriRef where
  | iri (i : Iri)
  | prefixed (l : LocalName)
deriving DecidableEq, Repr

/-- `iri.rs` 489-496, `Display for IriRef`; the `#` flag is passed on and only IRIs heed it. -/
def IriRef.display (alternate : Bool) : IriRef → Str
  | .iri i => i.display alternate
  | .prefixed l => l.display

/-- `map.rs` 56-58, the line of one mapping. -/
def mappingLine (e : Namespace × Iri) : Str :=
  str! "    " ++ e.1.display ++ str! "  " ++ e.2.display false ++ str! " ,\n"

/-- `map.rs` 53-61, `Display for IriPrefixMap`. -/
def PrefixMap.display (m : PrefixMap) : Str :=
  str! "Prefixes(\n" ++ m.entries.flatMap mappingLine ++ str! ")\n"

/-- `map.rs` 336-341, `compress_to_iriref`. -/
def PrefixMap.compressToIriRef (m : PrefixMap) (i : Iri) : Outcome IriRef :=
  match m.compress i with
  | .panic => .panic
  | .ok none => .ok (.iri i)
  | .ok (some l) => .ok (.prefixed l)

/-- `vocab.rs` 39-44, `Vocabulary` (without the description). -/
structure Vocabulary where
  pfx : Str
  iri : Str
deriving DecidableEq, Repr

/-- `vocab.rs` 58-331: the predefined vocabularies in source order. -/
def vocabularies : List Vocabulary := [
  ⟨str! "cal", str! "http://www.w3.org/2002/12/cal/ical#"⟩,
  ⟨str! "dbpedia", str! "http://dbpedia.org/ontology/"⟩,
  ⟨str! "dc", str! "http://purl.org/dc/elements/1.1/"⟩,
  ⟨str! "dcterms", str! "http://purl.org/dc/terms/"⟩,
  ⟨str! "doap", str! "http://usefulinc.com/ns/doap#"⟩,
  ⟨str! "foaf", str! "http://xmlns.com/foaf/0.1/"⟩,
  ⟨str! "geonames", str! "http://www.geonames.org/ontology#"⟩,
  ⟨str! "isothes", str! "http://purl.org/iso25964/skos-thes#"⟩,
  ⟨str! "opengis", str! "http://www.opengis.net/ont/geosparql#"⟩,
  ⟨str! "org", str! "http://www.w3.org/ns/org#"⟩,
  ⟨str! "owl", str! "http://www.w3.org/2002/07/owl#"⟩,
  ⟨str! "rdf", str! "http://www.w3.org/1999/02/22-rdf-syntax-ns#"⟩,
  ⟨str! "rdfs", str! "http://www.w3.org/2000/01/rdf-schema#"⟩,
  ⟨str! "sioc", str! "http://rdfs.org/sioc/ns#"⟩,
  ⟨str! "skos", str! "http://www.w3.org/2004/02/skos/core#"⟩,
  ⟨str! "skosxl", str! "http://www.w3.org/2008/05/skos-xl#"⟩,
  ⟨str! "vann", str! "http://purl.org/vocab/vann/"⟩,
  ⟨str! "void", str! "http://rdfs.org/ns/void#"⟩,
  ⟨str! "wot", str! "http://xmlns.com/wot/0.1/"⟩,
  ⟨str! "xml", str! "http://www.w3.org/XML/1998/namespace#"⟩,
  ⟨str! "xsd", str! "http://www.w3.org/2001/XMLSchema#"⟩]

/-- `vocab.rs` 377-380, `prefix_as_namespace`; `none` is the panic of `expect`. -/
def Vocabulary.prefixAsNamespace (v : Vocabulary) : Option Namespace :=
  match Namespace.parse (v.pfx ++ [':']) with
  | .ok n => some n
  | .error _ => none

/-- `vocab.rs` 397-399, `iri_as_iri`, for texts that are their own serialisation. -/
def Vocabulary.iriAsIri (v : Vocabulary) : Iri := ⟨v.iri⟩

/-- `map.rs` 135-141 `with_vocabulary`, 236-238 `insert_vocabulary`. -/
def PrefixMap.insertVocabulary (m : PrefixMap) (v : Vocabulary) : Option PrefixMap :=
  v.prefixAsNamespace.map fun p => m.insert p v.iriAsIri

/-- `map.rs` 69-75, `Default`: rdf, rdfs, xsd, owl. -/
def PrefixMap.default : Option PrefixMap :=
  [11, 12, 20, 10].foldl (init := some .empty) fun m k => do
    let m ← m
    let v ← vocabularies[k]?
    m.insertVocabulary v

/-- `map.rs` 109-114, `common`: default and dcterms, skos, void. -/
def PrefixMap.common : Option PrefixMap :=
  [3, 14, 17].foldl (init := PrefixMap.default) fun m k => do
    let m ← m
    let v ← vocabularies[k]?
    m.insertVocabulary v

end Rdftk
