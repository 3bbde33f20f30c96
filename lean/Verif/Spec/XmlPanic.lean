import Verif.Model.Xml

/-! What makes the reader of RDF/XML panic, said of attributes, names and the calls that are open. -/

namespace Rdftk.Spec

/-- An attribute of the vocabulary of RDF. -/
def IsRdf (loc : Str) (a : XAttr) : Prop := a.name.ns = some rdfTable.ns ∧ a.name.loc = loc

/-- An attribute of XML itself. -/
def IsXml (loc : Str) (a : XAttr) : Prop := a.name.ns = some xmlNamespace ∧ a.name.loc = loc

/-- An attribute that ends reading with an error: an IRI or a language tag that is none. -/
def Refused (env : ReadEnv) (a : XAttr) : Prop :=
  (IsXml (str! "base") a ∨ IsRdf (str! "about") a ∨ IsRdf (str! "resource") a) ∧ Iri.fromStr env.url a.value = none ∨
  IsXml (str! "lang") a ∧ env.lang a.value = none

/-- A parse type that is not known. -/
def Strange (a : XAttr) : Prop :=
  IsRdf (str! "parseType") a ∧ a.value ≠ str! "Literal" ∧ a.value ≠ str! "Resource" ∧ a.value ≠ str! "Collection"

/-- Attributes that are all read. -/
def AttributesRead (env : ReadEnv) (as : List XAttr) : Prop := ∀ a ∈ as, ¬Refused env a ∧ ¬Strange a

/-- Attributes with a strange parse type before any that is refused. -/
def AttributesStrange (env : ReadEnv) (as : List XAttr) : Prop :=
  ∃ l a r, as = l ++ a :: r ∧ AttributesRead env l ∧ Strange a

/-- The attributes that are taken as properties. -/
def propertyAttributes (as : List XAttr) : List XAttr :=
  as.filter fun a => a.name.ns ≠ some xmlNamespace ∧ a.name.ns ≠ some rdfTable.ns

/-- The last attribute that says what a node element is about. -/
def lastSubject (as : List XAttr) : Option XAttr :=
  (as.filter fun a => a.name.ns = some rdfTable.ns ∧ (a.name.loc = str! "about" ∨ a.name.loc = str! "nodeID" ∨ a.name.loc = str! "ID")).getLast?

/-- The last parse type. -/
def lastParseType (as : List XAttr) : Option Str :=
  ((as.filter fun a => a.name.ns = some rdfTable.ns ∧ a.name.loc = str! "parseType").getLast?).map XAttr.value

/-- A name that stands for an IRI. -/
def Named (env : ReadEnv) (n : XName) : Prop := ∃ ns, n.ns = some ns ∧ (Iri.fromStr env.url (ns ++ n.loc)).isSome = true

/-- The subject of a node element can be made. -/
def SubjectMade (env : ReadEnv) (sty : IriStyle) (base : Option Iri) (as : List XAttr) : Prop :=
  ∀ a, lastSubject as = some a →
    (a.name.loc = str! "nodeID" → (blankParse env.blankOk a.value).isSome = true) ∧
    (a.name.loc = str! "ID" → ∃ b, base = some b ∧ (Iri.fromStr env.url (b.fmt sty ++ a.value)).isSome = true)

/-- A node element that makes the reader panic: a strange parse type, `rdf:ID` without a base, a type without a namespace, or a property
attribute without a namespace, as the first thing that is wrong. -/
inductive NodePanics (env : ReadEnv) (sty : IriStyle) (base : Option Iri) (name : XName) (as : List XAttr) : Prop
  | parseType (h : AttributesStrange env as)
  | noBase (h : AttributesRead env as) (a : XAttr) (ha : lastSubject as = some a) (hi : a.name.loc = str! "ID") (hb : base = none)
  | type (h : AttributesRead env as) (hs : SubjectMade env sty base as) (hn : name.ns = none)
  | property (h : AttributesRead env as) (hs : SubjectMade env sty base as)
      (hn : name = ⟨some rdfTable.ns, str! "Description"⟩ ∨ Named env name) (l : List XAttr) (a : XAttr) (r : List XAttr)
      (e : propertyAttributes as = l ++ a :: r) (hl : ∀ b ∈ l, Named env b.name) (ha : a.name.ns = none)

/-- A property element that makes the reader panic as soon as it begins: a strange parse type, a resource as value of a property without
a namespace, or a collection. -/
inductive PropertyPanics (env : ReadEnv) (name : XName) (as : List XAttr) : Prop
  | parseType (h : AttributesStrange env as)
  | resource (h : AttributesRead env as) (hr : ∃ a ∈ as, IsRdf (str! "resource") a) (hn : name.ns = none)
  | collection (h : AttributesRead env as) (hr : ¬∃ a ∈ as, IsRdf (str! "resource") a) (hp : lastParseType as = some (str! "Collection"))

/-- An event that makes the reader panic, for the call that is on top. -/
inductive EventPanics (env : ReadEnv) (sty : IriStyle) (emit : Emit) : List XmlFrame → XmlIn → Prop
  | document (name : XName) (as : List XAttr) (h : AttributesStrange env as) : EventPanics env sty emit [] (.start name as)
  | node (base : Option Iri) (rest : List XmlFrame) (name : XName) (as : List XAttr) (h : NodePanics env sty base name as) :
      EventPanics env sty emit (.subject base :: rest) (.start name as)
  | property (base : Option Iri) (s : Subject) (rest : List XmlFrame) (name : XName) (as : List XAttr) (h : PropertyPanics env name as) :
      EventPanics env sty emit (.predicate base s false :: rest) (.start name as)
  | inside (base : Option Iri) (s : Subject) (name : XName) (at' : XmlAttributes) (content : Str) (e : Bool) (rest : List XmlFrame)
      (n : XName) (as : List XAttr) (h : AttributesStrange env as) :
      EventPanics env sty emit (.object base s name at' content e false :: rest) (.start n as)
  | unnamed (base : Option Iri) (s : Subject) (name : XName) (at' : XmlAttributes) (content : Str) (e c : Bool) (rest : List XmlFrame)
      (n : XName) (h : name.ns = none) :
      EventPanics env sty emit (.object base s name at' content e c :: rest) (.stop n)
  | closed (s : Subject) (name : XName) (content : List XmlIn) (rest : List XmlFrame) (n : XName) :
      EventPanics env sty emit (.literal s name 0 content :: rest) (.stop n)
  | notWritten (s : Subject) (name : XName) (content : List XmlIn) (rest : List XmlFrame) (n : XName)
      (h : emit (content ++ [.stop n]) = none) : EventPanics env sty emit (.literal s name 1 content :: rest) (.stop n)
  | literalUnnamed (s : Subject) (name : XName) (content : List XmlIn) (rest : List XmlFrame) (n : XName) (t : Str)
      (h : emit (content ++ [.stop n]) = some t) (hn : name.ns = none) : EventPanics env sty emit (.literal s name 1 content :: rest) (.stop n)

end Rdftk.Spec
