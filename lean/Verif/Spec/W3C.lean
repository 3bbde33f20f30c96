import Verif.Model.Str

/-! Terms defined by W3C recommendations, as an independent list. -/

namespace Rdftk.W3C

/-- XML Schema 1.1 part 2, built-in datatypes. -/
def xsd : List Str := [
  str! "anyType", str! "anySimpleType", str! "anyAtomicType", str! "string", str! "boolean",
  str! "decimal", str! "float", str! "double", str! "duration", str! "dateTime", str! "time",
  str! "date", str! "gYearMonth", str! "gYear", str! "gMonthDay", str! "gDay", str! "gMonth",
  str! "hexBinary", str! "base64Binary", str! "anyURI", str! "QName", str! "NOTATION", str!
  "normalizedString", str! "token", str! "language", str! "NMTOKEN", str! "NMTOKENS", str!
  "Name", str! "NCName", str! "ID", str! "IDREF", str! "IDREFS", str! "ENTITY", str! "ENTITIES",
  str! "integer", str! "nonPositiveInteger", str! "negativeInteger", str! "long", str! "int",
  str! "short", str! "byte", str! "nonNegativeInteger", str! "unsignedLong", str! "unsignedInt",
  str! "unsignedShort", str! "unsignedByte", str! "positiveInteger", str! "yearMonthDuration",
  str! "dayTimeDuration", str! "dateTimeStamp"]

/-- RDF 1.1 concepts, schema and XML syntax, rdf:PlainLiteral, JSON-LD 1.1. -/
def rdf : List Str := [
  str! "RDF", str! "Description", str! "ID", str! "about", str! "resource", str! "datatype",
  str! "nodeID", str! "parseType", str! "li", str! "type", str! "Property", str! "Statement",
  str! "subject", str! "predicate", str! "object", str! "Bag", str! "Seq", str! "Alt", str!
  "value", str! "List", str! "nil", str! "first", str! "rest", str! "XMLLiteral", str! "HTML",
  str! "langString", str! "dirLangString", str! "PlainLiteral", str! "langRange", str! "JSON",
  str! "CompoundLiteral", str! "language", str! "direction"]

/-- RDF Schema 1.1. -/
def rdfs : List Str := [
  str! "Resource", str! "Class", str! "Literal", str! "Datatype", str! "range", str! "domain",
  str! "subClassOf", str! "subPropertyOf", str! "label", str! "comment", str! "Container", str!
  "ContainerMembershipProperty", str! "member", str! "seeAlso", str! "isDefinedBy"]

/-- OWL 2 structural specification and mapping to RDF. -/
def owl : List Str := [
  str! "AllDifferent", str! "AllDisjointClasses", str! "AllDisjointProperties", str!
  "allValuesFrom", str! "annotatedProperty", str! "annotatedSource", str! "annotatedTarget",
  str! "Annotation", str! "AnnotationProperty", str! "assertionProperty", str!
  "AsymmetricProperty", str! "Axiom", str! "backwardCompatibleWith", str! "bottomDataProperty",
  str! "bottomObjectProperty", str! "cardinality", str! "Class", str! "complementOf", str!
  "DataRange", str! "datatypeComplementOf", str! "DatatypeProperty", str! "deprecated", str!
  "DeprecatedClass", str! "DeprecatedProperty", str! "differentFrom", str! "disjointUnionOf",
  str! "disjointWith", str! "distinctMembers", str! "equivalentClass", str!
  "equivalentProperty", str! "FunctionalProperty", str! "hasKey", str! "hasSelf", str!
  "hasValue", str! "imports", str! "incompatibleWith", str! "intersectionOf", str!
  "InverseFunctionalProperty", str! "inverseOf", str! "IrreflexiveProperty", str!
  "maxCardinality", str! "maxQualifiedCardinality", str! "members", str! "minCardinality", str!
  "minQualifiedCardinality", str! "NamedIndividual", str! "NegativePropertyAssertion", str!
  "Nothing", str! "ObjectProperty", str! "onClass", str! "onDataRange", str! "onDatatype", str!
  "oneOf", str! "onProperties", str! "onProperty", str! "Ontology", str! "OntologyProperty",
  str! "priorVersion", str! "propertyChainAxiom", str! "propertyDisjointWith", str!
  "qualifiedCardinality", str! "rational", str! "real", str! "ReflexiveProperty", str!
  "Restriction", str! "sameAs", str! "someValuesFrom", str! "sourceIndividual", str!
  "SymmetricProperty", str! "targetIndividual", str! "targetValue", str! "Thing", str!
  "topDataProperty", str! "topObjectProperty", str! "TransitiveProperty", str! "unionOf", str!
  "versionInfo", str! "versionIRI", str! "withRestrictions"]

end Rdftk.W3C
