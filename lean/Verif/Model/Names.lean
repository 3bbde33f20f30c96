import Verif.Model.Iri

/-!
Tables of `rdftk_names/src`, transcribed from the `namespace!` invocations.
A member is the name of its function with the name of the IRI.
-/

namespace Rdftk

/-- What `namespace!` (`lib.rs` 103-160) is called with. -/
structure NameTable where
  pfx : Str
  ns : Str
  members : List (Str × Str)
deriving DecidableEq, Repr

/-- `rdftk_names/src/dc/dcam.rs` 8-17. -/
def dcamTable : NameTable where
  pfx := str! "dcam"
  ns := str! "http://purl.org/dc/dcam/"
  members := [
    (str! "vocabulary_encoding_scheme", str! "VocabularyEncodingScheme"),
    (str! "domain_includes", str! "domainIncludes"),
    (str! "member_of", str! "memberOf"),
    (str! "range_includes", str! "rangeIncludes")]

/-- `rdftk_names/src/dc/dcmi_type.rs` 7-24. -/
def dcTypeTable : NameTable where
  pfx := str! "dctype"
  ns := str! "http://purl.org/dc/dcmitype/"
  members := [
    (str! "collection", str! "Collection"),
    (str! "dataset", str! "Dataset"),
    (str! "event", str! "Event"),
    (str! "image", str! "Image"),
    (str! "interactive_resource", str! "InteractiveResource"),
    (str! "moving_image", str! "MovingImage"),
    (str! "physical_object", str! "PhysicalObject"),
    (str! "service", str! "Service"),
    (str! "software", str! "Software"),
    (str! "sound", str! "Sound"),
    (str! "still_image", str! "StillImage"),
    (str! "text", str! "Text")]

/-- `rdftk_names/src/dc/elements.rs` 7-27. -/
def dcTable : NameTable where
  pfx := str! "dc"
  ns := str! "http://purl.org/dc/elements/1.1/"
  members := [
    (str! "contributor", str! "contributor"),
    (str! "coverage", str! "coverage"),
    (str! "creator", str! "creator"),
    (str! "date", str! "date"),
    (str! "description", str! "description"),
    (str! "format", str! "format"),
    (str! "identifier", str! "identifier"),
    (str! "language", str! "language"),
    (str! "publisher", str! "publisher"),
    (str! "relation", str! "relation"),
    (str! "rights", str! "rights"),
    (str! "source", str! "source"),
    (str! "subject", str! "subject"),
    (str! "title", str! "title"),
    (str! "a_type", str! "type")]

/-- `rdftk_names/src/dc/terms.rs` 7-109. -/
def dcTermsTable : NameTable where
  pfx := str! "dcterms"
  ns := str! "http://purl.org/dc/terms/"
  members := [
    (str! "agent", str! "Agent"),
    (str! "agent_class", str! "AgentClass"),
    (str! "bibliographic_resource", str! "BibliographicResource"),
    (str! "a_box", str! "Box"),
    (str! "dcmi_type", str! "DCMIType"),
    (str! "ddc_classify", str! "DDC"),
    (str! "file_format", str! "FileFormat"),
    (str! "frequency", str! "Frequency"),
    (str! "imt_classify", str! "IMT"),
    (str! "iso_3166", str! "ISO3166"),
    (str! "iso_639_2", str! "ISO639-2"),
    (str! "iso_639_3", str! "ISO639-3"),
    (str! "jurisdiction", str! "Jurisdiction"),
    (str! "lcc_classify", str! "LCC"),
    (str! "lcsh_classify", str! "LCSH"),
    (str! "license_document", str! "LicenseDocument"),
    (str! "linguistic_system", str! "LinguisticSystem"),
    (str! "location", str! "Location"),
    (str! "location_period_or_jurisdiction", str! "LocationPeriodOrJurisdiction"),
    (str! "mesh_classify", str! "MESH"),
    (str! "media_type", str! "MediaType"),
    (str! "media_type_or_extent", str! "MediaTypeOrExtent"),
    (str! "method_of_accrual", str! "MethodOfAccrual"),
    (str! "method_of_instruction", str! "MethodOfInstruction"),
    (str! "nlm_classify", str! "NLM"),
    (str! "period", str! "Period"),
    (str! "period_of_time", str! "PeriodOfTime"),
    (str! "physical_medium", str! "PhysicalMedium"),
    (str! "physical_resource", str! "PhysicalResource"),
    (str! "point", str! "Point"),
    (str! "policy", str! "Policy"),
    (str! "rfc_1766", str! "RFC1766"),
    (str! "rfc_3066", str! "RFC3066"),
    (str! "rfc_4646", str! "RFC4646"),
    (str! "rfc_5646", str! "RFC5646"),
    (str! "rights_statement", str! "RightsStatement"),
    (str! "size_or_duration", str! "SizeOrDuration"),
    (str! "standard", str! "Standard"),
    (str! "tgn_classify", str! "TGN"),
    (str! "udc_classify", str! "UDC"),
    (str! "uri", str! "URI"),
    (str! "w3c_dtf", str! "W3CDTF"),
    (str! "an_abstract", str! "abstract"),
    (str! "access_rights", str! "accessRights"),
    (str! "accrual_method", str! "accrualMethod"),
    (str! "accrual_periodicity", str! "accrualPeriodicity"),
    (str! "accrual_policy", str! "accrualPolicy"),
    (str! "alternative", str! "alternative"),
    (str! "audience", str! "audience"),
    (str! "available", str! "available"),
    (str! "bibliographic_citation", str! "bibliographicCitation"),
    (str! "conforms_to", str! "conformsTo"),
    (str! "contributor", str! "contributor"),
    (str! "coverage", str! "coverage"),
    (str! "created", str! "created"),
    (str! "creator", str! "creator"),
    (str! "date", str! "date"),
    (str! "date_accepted", str! "dateAccepted"),
    (str! "date_copyrighted", str! "dateCopyrighted"),
    (str! "date_submitted", str! "dateSubmitted"),
    (str! "description", str! "description"),
    (str! "education_level", str! "educationLevel"),
    (str! "extent", str! "extent"),
    (str! "format", str! "format"),
    (str! "has_format", str! "hasFormat"),
    (str! "has_part", str! "hasPart"),
    (str! "has_version", str! "hasVersion"),
    (str! "identifier", str! "identifier"),
    (str! "instructional_method", str! "instructionalMethod"),
    (str! "is_format_of", str! "isFormatOf"),
    (str! "is_part_of", str! "isPartOf"),
    (str! "is_referenced_by", str! "isReferencedBy"),
    (str! "is_replaced_by", str! "isReplacedBy"),
    (str! "is_required_by", str! "isRequiredBy"),
    (str! "is_version_of", str! "isVersionOf"),
    (str! "issued", str! "issued"),
    (str! "language", str! "language"),
    (str! "license", str! "license"),
    (str! "mediator", str! "mediator"),
    (str! "medium", str! "medium"),
    (str! "modified", str! "modified"),
    (str! "provenance", str! "provenance"),
    (str! "publisher", str! "publisher"),
    (str! "references", str! "references"),
    (str! "relation", str! "relation"),
    (str! "replaces", str! "replaces"),
    (str! "requires", str! "requires"),
    (str! "rights", str! "rights"),
    (str! "rights_holder", str! "rightsHolder"),
    (str! "source", str! "source"),
    (str! "spatial", str! "spatial"),
    (str! "subject", str! "subject"),
    (str! "temporal", str! "temporal"),
    (str! "title", str! "title"),
    (str! "a_type", str! "type"),
    (str! "valid", str! "valid")]

/-- `rdftk_names/src/foaf.rs` 6-59. -/
def foafTable : NameTable where
  pfx := str! "foaf"
  ns := str! "http://xmlns.com/foaf/0.1/"
  members := [
    (str! "agent", str! "Agent"),
    (str! "person", str! "Person"),
    (str! "name", str! "name"),
    (str! "title", str! "title"),
    (str! "img", str! "img"),
    (str! "depiction", str! "depiction"),
    (str! "depicts", str! "depicts"),
    (str! "family_name", str! "familyName"),
    (str! "given_name", str! "givenName"),
    (str! "knows", str! "knows"),
    (str! "based_near", str! "based_near"),
    (str! "age", str! "age"),
    (str! "made", str! "made"),
    (str! "maker", str! "maker"),
    (str! "primary_topic", str! "primaryTopic"),
    (str! "primary_topic_of", str! "primaryTopicOf"),
    (str! "project", str! "Project"),
    (str! "organization", str! "Organization"),
    (str! "group", str! "Group"),
    (str! "member", str! "member"),
    (str! "document", str! "Document"),
    (str! "image", str! "Image"),
    (str! "nick", str! "nick"),
    (str! "mbox", str! "mbox"),
    (str! "homepage", str! "homepage"),
    (str! "weblog", str! "weblog"),
    (str! "openid", str! "openid"),
    (str! "jabber_id", str! "jabberID"),
    (str! "mbox_sha1sum", str! "mbox_sha1sum"),
    (str! "interest", str! "interest"),
    (str! "topic_interest", str! "topic_interest"),
    (str! "topic", str! "topic"),
    (str! "page", str! "page"),
    (str! "workplace_homepage", str! "workplaceHomepage"),
    (str! "work_info_homepage", str! "workInfoHomepage"),
    (str! "school_homepage", str! "schoolHomepage"),
    (str! "publications", str! "publications"),
    (str! "current_project", str! "currentProject"),
    (str! "past_project", str! "pastProject"),
    (str! "account", str! "account"),
    (str! "online_account", str! "OnlineAccount"),
    (str! "account_name", str! "accountName"),
    (str! "account_service_homepage", str! "accountServiceHomepage"),
    (str! "personal_profile_document", str! "PersonalProfileDocument"),
    (str! "tipjar", str! "tipjar"),
    (str! "sha1", str! "sha1"),
    (str! "thumbnail", str! "thumbnail"),
    (str! "logo", str! "logo")]

/-- `rdftk_names/src/geo.rs` 5-19. -/
def geoTable : NameTable where
  pfx := str! "geo"
  ns := str! "http://www.w3.org/2003/01/geo/wgs84_pos#"
  members := [
    (str! "spatial_thing", str! "SpatialThing"),
    (str! "temporal_thing", str! "TemporalThing"),
    (str! "event", str! "Event"),
    (str! "point", str! "Point"),
    (str! "lat", str! "lat"),
    (str! "location", str! "location"),
    (str! "long", str! "long"),
    (str! "alt", str! "alt"),
    (str! "lat_long", str! "lat_long")]

/-- `rdftk_names/src/owl.rs` 6-82. -/
def owlTable : NameTable where
  pfx := str! "owl"
  ns := str! "http://www.w3.org/2002/07/owl#"
  members := [
    (str! "thing", str! "Thing"),
    (str! "nothing", str! "Nothing"),
    (str! "intersection_of", str! "intersectionOf"),
    (str! "union_of", str! "unionOf"),
    (str! "complement_of", str! "complementOf"),
    (str! "one_of", str! "oneOf"),
    (str! "restriction", str! "Restriction"),
    (str! "on_property", str! "onProperty"),
    (str! "on_class", str! "onClass"),
    (str! "on_datatype", str! "onDatatype"),
    (str! "all_values_from", str! "allValuesFrom"),
    (str! "some_values_from", str! "someValuesFrom"),
    (str! "has_value", str! "hasValue"),
    (str! "has_self", str! "hasSelf"),
    (str! "cardinality", str! "cardinality"),
    (str! "qualified_cardinality", str! "qualifiedCardinality"),
    (str! "max_cardinality", str! "maxCardinality"),
    (str! "max_qualified_cardinality", str! "maxQualifiedCardinality"),
    (str! "min_cardinality", str! "minCardinality"),
    (str! "min_qualified_cardinality", str! "minQualifiedCardinality"),
    (str! "datatype_complement_of", str! "datatypeComplementOf"),
    (str! "with_restrictions", str! "withRestrictions"),
    (str! "equivalent_class", str! "equivalentClass"),
    (str! "disjoint_with", str! "disjointWith"),
    (str! "all_disjoint_classes", str! "AllDisjointClasses"),
    (str! "members", str! "members"),
    (str! "disjoint_union_of", str! "disjointUnionOf"),
    (str! "property_chain_axiom", str! "propertyChainAxiom"),
    (str! "equivalent_property", str! "equivalentProperty"),
    (str! "property_disjoint_with", str! "propertyDisjointWith"),
    (str! "all_disjoint_properties", str! "AllDisjointProperties"),
    (str! "inverse_of", str! "inverseOf"),
    (str! "functional_property", str! "FunctionalProperty"),
    (str! "inverse_functional_property", str! "InverseFunctionalProperty"),
    (str! "reflexive_property", str! "ReflexiveProperty"),
    (str! "irreflexive_property", str! "IrreflexiveProperty"),
    (str! "symmetric_property", str! "SymmetricProperty"),
    (str! "asymmetric_property", str! "AsymmetricProperty"),
    (str! "transitive_property", str! "TransitiveProperty"),
    (str! "same_as", str! "sameAs"),
    (str! "different_from", str! "differentFrom"),
    (str! "all_different", str! "AllDifferent"),
    (str! "negative_property_assertion", str! "NegativePropertyAssertion"),
    (str! "source_individual", str! "sourceIndividual"),
    (str! "assertion_property", str! "assertionProperty"),
    (str! "target_individual", str! "targetIndividual"),
    (str! "target_value", str! "targetValue"),
    (str! "has_key", str! "hasKey"),
    (str! "class", str! "Class"),
    (str! "object_property", str! "ObjectProperty"),
    (str! "datatype_property", str! "DatatypeProperty"),
    (str! "annotation_property", str! "AnnotationProperty"),
    (str! "named_individual", str! "NamedIndividual"),
    (str! "axiom", str! "Axiom"),
    (str! "annotated_source", str! "annotatedSource"),
    (str! "annotated_property", str! "annotatedProperty"),
    (str! "annotated_target", str! "annotatedTarget"),
    (str! "version_info", str! "versionInfo"),
    (str! "deprecated", str! "deprecated"),
    (str! "backward_compatible_with", str! "backwardCompatibleWith"),
    (str! "incompatible_with", str! "incompatible_with"),
    (str! "prior_version", str! "priorVersion"),
    (str! "ontology", str! "Ontology"),
    (str! "version", str! "version"),
    (str! "imports", str! "imports"),
    (str! "rational", str! "rational"),
    (str! "real", str! "real"),
    (str! "distinct_members", str! "distinctMembers"),
    (str! "ontology_property", str! "OntologyProperty"),
    (str! "deprecated_class", str! "DeprecatedClass"),
    (str! "deprecated_property", str! "DeprecatedProperty")]

/-- `rdftk_names/src/rdf.rs` 8-36. -/
def rdfTable : NameTable where
  pfx := str! "rdf"
  ns := str! "http://www.w3.org/1999/02/22-rdf-syntax-ns#"
  members := [
    (str! "html", str! "HTML"),
    (str! "lang_string", str! "langString"),
    (str! "plain_literal", str! "PlainLiteral"),
    (str! "a_type", str! "type"),
    (str! "property", str! "Property"),
    (str! "statement", str! "Statement"),
    (str! "subject", str! "subject"),
    (str! "predicate", str! "predicate"),
    (str! "object", str! "object"),
    (str! "bag", str! "Bag"),
    (str! "seq", str! "Seq"),
    (str! "alt", str! "Alt"),
    (str! "value", str! "value"),
    (str! "list", str! "List"),
    (str! "nil", str! "nil"),
    (str! "first", str! "first"),
    (str! "rest", str! "rest"),
    (str! "li", str! "li"),
    (str! "xml_literal", str! "XMLLiteral"),
    (str! "json", str! "JSON"),
    (str! "compound_literal", str! "CompoundLiteral"),
    (str! "language", str! "language"),
    (str! "direction", str! "direction")]

/-- `rdftk_names/src/rdfs.rs` 5-37. -/
def rdfsTable : NameTable where
  pfx := str! "rdfs"
  ns := str! "http://www.w3.org/2000/01/rdf-schema#"
  members := [
    (str! "resource", str! "Resource"),
    (str! "class", str! "Class"),
    (str! "literal", str! "Literal"),
    (str! "data_type", str! "Datatype"),
    (str! "lang_string", str! "langString"),
    (str! "html_literal", str! "HTML"),
    (str! "xml_literal", str! "XMLLiteral"),
    (str! "property", str! "Property"),
    (str! "range", str! "range"),
    (str! "domain", str! "domain"),
    (str! "subclass_of", str! "subClassOf"),
    (str! "subproperty_of", str! "subPropertyOf"),
    (str! "label", str! "label"),
    (str! "comment", str! "comment"),
    (str! "container", str! "Container"),
    (str! "container_membership_property", str! "ContainerMembershipProperty"),
    (str! "member", str! "member"),
    (str! "see_also", str! "seeAlso"),
    (str! "is_defined_by", str! "isDefinedBy"),
    (str! "value", str! "value")]

/-- `rdftk_names/src/skos.rs` 5-43. -/
def skosTable : NameTable where
  pfx := str! "skos"
  ns := str! "http://www.w3.org/2004/02/skos/core#"
  members := [
    (str! "collection", str! "Collection"),
    (str! "concept", str! "Concept"),
    (str! "concept_scheme", str! "ConceptScheme"),
    (str! "ordered_collection", str! "OrderedCollection"),
    (str! "alt_label", str! "altLabel"),
    (str! "broad_match", str! "broadMatch"),
    (str! "broader", str! "broader"),
    (str! "broader_transitive", str! "broaderTransitive"),
    (str! "change_note", str! "changeNote"),
    (str! "close_match", str! "closeMatch"),
    (str! "definition", str! "definition"),
    (str! "editorial_note", str! "editorialNote"),
    (str! "exact_match", str! "exactMatch"),
    (str! "example", str! "example"),
    (str! "has_top_concept", str! "hasTopConcept"),
    (str! "hidden_label", str! "hiddenLabel"),
    (str! "history_note", str! "historyNote"),
    (str! "in_scheme", str! "inScheme"),
    (str! "mapping_relation", str! "mappingRelation"),
    (str! "member", str! "member"),
    (str! "member_list", str! "memberList"),
    (str! "narrow_match", str! "narrowMatch"),
    (str! "narrower", str! "narrower"),
    (str! "narrower_transitive", str! "narrowerTransitive"),
    (str! "notation", str! "notation"),
    (str! "note", str! "note"),
    (str! "pref_label", str! "prefLabel"),
    (str! "related", str! "related"),
    (str! "related_match", str! "relatedMatch"),
    (str! "scope_note", str! "scopeNote"),
    (str! "semantic_relation", str! "semanticRelation"),
    (str! "top_concept_of", str! "topConceptOf")]

/-- `rdftk_names/src/skos.rs` 47-57. -/
def skosXlTable : NameTable where
  pfx := str! "skosxl"
  ns := str! "http://www.w3.org/2008/05/skos-xl#"
  members := [
    (str! "label", str! "Label"),
    (str! "literal_form", str! "literalForm"),
    (str! "pref_label", str! "prefLabel"),
    (str! "alt_label", str! "altLabel"),
    (str! "label_relation", str! "labelRelation")]

/-- `rdftk_names/src/skos.rs` 62-86. -/
def skosIsoTable : NameTable where
  pfx := str! "isothes"
  ns := str! "http://purl.org/iso25964/skos-thes#"
  members := [
    (str! "compound_equivalence", str! "CompoundEquivalence"),
    (str! "concept_group", str! "ConceptGroup"),
    (str! "preferred_term", str! "PreferredTerm"),
    (str! "thesaurus_array", str! "ThesaurusArray"),
    (str! "micro_thesaurus_of", str! "microThesaurusOf"),
    (str! "plus_uf_term", str! "plusUFTerm"),
    (str! "plus_use_term", str! "plusUseTerm"),
    (str! "sub_group", str! "subGroup"),
    (str! "subordinate_array", str! "subordinateArray"),
    (str! "super_group", str! "superGroup"),
    (str! "super_ordinate", str! "superOrdinate"),
    (str! "broader_generic", str! "broaderGeneric"),
    (str! "broader_instantial", str! "broaderInstantial"),
    (str! "broader_partitive", str! "broaderPartitive"),
    (str! "narrower_generic", str! "narrowerGeneric"),
    (str! "narrower_instantial", str! "narrowerInstantial"),
    (str! "narrower_partitive", str! "narrowerPartitive")]

/-- `rdftk_names/src/skos.rs` 91-97. -/
def skosTermStatusTable : NameTable where
  pfx := str! "status"
  ns := str! "http://www.w3.org/2003/06/sw-vocab-status/ns#"
  members := [
    (str! "term_status", str! "term_status")]

/-- `rdftk_names/src/xsd.rs` 5-56. -/
def xsdTable : NameTable where
  pfx := str! "xsd"
  ns := str! "http://www.w3.org/2001/XMLSchema#"
  members := [
    (str! "any_uri", str! "anyURI"),
    (str! "base64_binary", str! "base64Binary"),
    (str! "date", str! "date"),
    (str! "date_time", str! "dateTime"),
    (str! "date_time_stamp", str! "dateTimeStamp"),
    (str! "day_time_duration", str! "dayTimeDuration"),
    (str! "decimal", str! "decimal"),
    (str! "duration", str! "duration"),
    (str! "entity", str! "entity"),
    (str! "g_day", str! "gDay"),
    (str! "g_month", str! "gMonth"),
    (str! "g_month_day", str! "gMonthDay"),
    (str! "g_year", str! "gYear"),
    (str! "g_year_month", str! "gYearMonth"),
    (str! "hex_binary", str! "hexBinary"),
    (str! "id", str! "ID"),
    (str! "id_ref", str! "IDREF"),
    (str! "id_refs", str! "IDREFS"),
    (str! "integer", str! "integer"),
    (str! "language", str! "language"),
    (str! "name", str! "Name"),
    (str! "nc_name", str! "NCName"),
    (str! "nm_token", str! "NMTOKEN"),
    (str! "nm_tokens", str! "NMTOKENS"),
    (str! "non_negative_integer", str! "nonNegativeInteger"),
    (str! "non_positive_integer", str! "nonPositiveInteger"),
    (str! "normalized_string", str! "normalizedString"),
    (str! "notation", str! "NOTATION"),
    (str! "ns", str! "NS"),
    (str! "positive_integer", str! "positiveInteger"),
    (str! "q_name", str! "QName"),
    (str! "time", str! "time"),
    (str! "token", str! "token"),
    (str! "unsigned_byte", str! "unsignedByte"),
    (str! "unsigned_int", str! "unsignedInt"),
    (str! "unsigned_long", str! "unsignedLong"),
    (str! "unsigned_short", str! "unsignedShort"),
    (str! "boolean", str! "boolean"),
    (str! "byte", str! "byte"),
    (str! "double", str! "double"),
    (str! "float", str! "float"),
    (str! "int", str! "int"),
    (str! "long", str! "long"),
    (str! "short", str! "short"),
    (str! "string", str! "string"),
    (str! "year_month_duration", str! "yearMonthDuration")]

/-- All the tables of the crate. -/
def nameTables : List NameTable := [dcamTable, dcTypeTable, dcTable, dcTermsTable, foafTable, geoTable, owlTable, rdfTable, rdfsTable, skosTable, skosXlTable, skosIsoTable, skosTermStatusTable, xsdTable]
/-- `namespace()` of a table: `Iri::from_str` of its text (a text that is its own
serialisation). -/
def NameTable.iri (t : NameTable) : Iri := ⟨t.ns⟩

/-- `lib.rs` 124-142, one entry of `make_cache`; `none` is a panic of one of the
`unwrap`s. -/
def NameTable.entry (t : NameTable) (name : Str) : Option (Str × Iri × Str) :=
  match Name.parse name with
  | .error _ => none
  | .ok n =>
    match t.iri.makeName n with
    | none => none
    | some i => some (name, i, t.pfx ++ ':' :: name)

/-- `lib.rs` 128-140, one insertion of `make_cache` into the hash map: a later entry for a
name replaces an earlier one; `none` is a panic. -/
def NameTable.cacheStep (t : NameTable) (cache : Option (List (Str × Iri × Str)))
    (m : Str × Str) : Option (List (Str × Iri × Str)) :=
  match cache, t.entry m.2 with
  | some c, some e => some ((c.filter fun x => x.1 != m.2) ++ [e])
  | _, _ => none

/-- `lib.rs` 124-142, `make_cache`. -/
def NameTable.makeCache (t : NameTable) : Option (List (Str × Iri × Str)) :=
  t.members.foldl t.cacheStep (some [])

/-- `lib.rs` 180-183, the function of a member: looked up by its name in the cache. -/
def NameTable.lookup (t : NameTable) (name : Str) : Option Iri :=
  (t.makeCache.bind fun c => c.find? fun e => e.1 == name).map (·.2.1)

/-- The function `fn` of a table. -/
def NameTable.call (t : NameTable) (fn : Str) : Option Iri :=
  (t.members.find? fun m => m.1 == fn).bind fun m => t.lookup m.2

/-- `rdf.rs` 39-42, `member`. -/
def rdfMember (index : Nat) : Iri := ⟨rdfTable.ns ++ '_' :: Nat.toDigits 10 index⟩

/-- `rdf.rs` 45-48, `member_qname`. -/
def rdfMemberQname (index : Nat) : Str := rdfTable.pfx ++ ':' :: '_' :: Nat.toDigits 10 index

end Rdftk
