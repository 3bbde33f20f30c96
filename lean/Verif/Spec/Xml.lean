import Verif.Model.Xml
import Verif.Spec.Resolve

/-!
RDF/XML, independent of the code: what an XML processor finds in a document of which the writer
gave the parts (Namespaces in XML 1.1), and the statements that a document stands for (RDF 1.1 XML
Syntax, section 7.2, without `rdf:li`, reification by `rdf:ID`, XML literals and collections).
-/

namespace Rdftk.Spec

/-! ### XML -/

/-- The code points in some ranges. -/
def inCodeRanges (rs : List (Nat × Nat)) (c : Char) : Bool := rs.any fun r => r.1 ≤ c.toNat && c.toNat ≤ r.2

/-- `NameStartChar` of XML 1.1 but for the colon. -/
def isNcStart : Char → Bool := inCodeRanges
  [(0x41, 0x5A), (0x5F, 0x5F), (0x61, 0x7A), (0xC0, 0xD6), (0xD8, 0xF6), (0xF8, 0x2FF), (0x370, 0x37D),
    (0x37F, 0x1FFF), (0x200C, 0x200D), (0x2070, 0x218F), (0x2C00, 0x2FEF), (0x3001, 0xD7FF),
    (0xF900, 0xFDCF), (0xFDF0, 0xFFFD), (0x10000, 0xEFFFF)]

/-- `NameChar` of XML 1.1 but for the colon. -/
def isNcChar (c : Char) : Bool :=
  isNcStart c || inCodeRanges [(0x2D, 0x2E), (0x30, 0x39), (0xB7, 0xB7), (0x300, 0x36F), (0x203F, 0x2040)] c

/-- `NCName` -/
def isNcName : Str → Bool
  | [] => false
  | c :: s => isNcStart c && s.all isNcChar

/-- The prefix, empty if there is none, and the local part of a qualified name. -/
def qname (s : Str) : Option (Str × Str) :=
  match (s.takeWhile (· != ':'), s.dropWhile (· != ':')) with
  | (a, []) => if isNcName a then some ([], a) else none
  | (a, _ :: b) => if isNcName a && isNcName b then some (a, b) else none

/-- A character that text and attributes carry unchanged: allowed, not a control character and
not the end of a line. -/
def xmlPlain (c : Char) : Bool :=
  inCodeRanges [(0x20, 0x7E), (0xA0, 0x2027), (0x2029, 0xD7FF), (0xE000, 0xFFFD), (0x10000, 0x10FFFF)] c

/-- White space among the plain characters. -/
def xmlBlank (c : Char) : Bool := c == ' '

/-- Namespaces in scope, the nearest first; the empty prefix has the default one. -/
abbrev Scope := List (Str × Str)

/-- The namespace of a prefix. -/
def Scope.find (sc : Scope) (p : Str) : Option Str := (List.find? (fun e => e.1 == p) sc).map (·.2)

/-- A declaration of a namespace. -/
def declOk (d : Str × Str) : Bool :=
  (d.1.isEmpty || isNcName d.1) && (d.1 != str! "xml") && (d.1 != str! "xmlns") && !d.2.isEmpty &&
    d.2.all xmlPlain

/-- The expanded name of an element. -/
def elementName (sc : Scope) (s : Str) : Option XName :=
  match qname s with
  | none => none
  | some (p, l) =>
    match sc.find p with
    | some ns => some ⟨some ns, l⟩
    | none => if p.isEmpty then some ⟨none, l⟩ else none

/-- The expanded name of an attribute. -/
def attributeName (sc : Scope) (s : Str) : Option XName :=
  match qname s with
  | none => none
  | some (p, l) =>
    if p.isEmpty then some ⟨none, l⟩
    else if p = str! "xml" then some ⟨some (str! "http://www.w3.org/XML/1998/namespace"), l⟩
    else (sc.find p).map fun ns => ⟨some ns, l⟩

/-- The attributes of an element, all of them plain. -/
def attributesIn (sc : Scope) : List (Str × Str) → Option (List XAttr)
  | [] => some []
  | (n, v) :: as =>
    match attributeName sc n, attributesIn sc as with
    | some n, some as => if v.all xmlPlain then some (⟨n, v⟩ :: as) else none
    | _, _ => none

/-- The events of text. -/
def textIn (s : Str) : List XmlIn :=
  if s.isEmpty then [] else if s.all xmlBlank then [.space s] else [.chars s]

/-- An open element: its name as written, its expanded name and what is in scope inside. -/
abbrev Open := Str × XName × Scope

/-- What is in scope inside the open elements. -/
def scopeOf : List Open → Scope
  | [] => []
  | e :: _ => e.2.2

/-- What an XML processor finds in the written parts inside the open elements, if they are well
formed and use the namespaces well. -/
def contentIn : List Open → List XmlOut → Option (List XmlIn)
  | [], [] => some []
  | _ :: _, [] => none
  | _, .document _ :: _ => none
  | stack, .start n ns as :: es =>
    match elementName (ns ++ scopeOf stack) n, attributesIn (ns ++ scopeOf stack) as with
    | some name, some attrs =>
      if ns.all declOk && decide ((attrs.map (·.name)).Nodup) then
        (contentIn ((n, name, ns ++ scopeOf stack) :: stack) es).map (.start name attrs :: ·)
      else none
    | _, _ => none
  | [], .chars _ :: _ => none
  | e :: stack, .chars s :: es =>
    if s.all xmlPlain then (contentIn (e :: stack) es).map (textIn s ++ ·) else none
  | [], .stop _ :: _ => none
  | (n, name, _) :: stack, .stop m :: es =>
    if n = m then (contentIn stack es).map (.stop name :: ·) else none

/-- The events of a written document. -/
def deliver : List XmlOut → Option (List XmlIn)
  | .document _ :: es => (contentIn [] es).map (.other :: ·)
  | _ => none

/-- Each end has the name of the element it closes, and all are closed. -/
def balanced : List Str → List XmlOut → Bool
  | stack, [] => stack.isEmpty
  | stack, .start n _ _ :: es => balanced (n :: stack) es
  | [], .stop _ :: _ => false
  | m :: stack, .stop n :: es => m == n && balanced stack es
  | stack, _ :: es => balanced stack es

/-- Each end closes an element, and all are closed; `k` are open. -/
def wellNested : Nat → List XmlIn → Bool
  | k, [] => k == 0
  | k, .start _ _ :: es => wellNested (k + 1) es
  | 0, .stop _ :: _ => false
  | k + 1, .stop _ :: es => wellNested k es
  | k, _ :: es => wellNested k es

/-! ### RDF/XML -/

/-- The namespace of RDF. -/
def rdfNs : Str := str! "http://www.w3.org/1999/02/22-rdf-syntax-ns#"

/-- A name of RDF. -/
def rdfX (s : Str) : XName := ⟨some rdfNs, s⟩

/-- A name of XML. -/
def xmlX (s : Str) : XName := ⟨some (str! "http://www.w3.org/XML/1998/namespace"), s⟩

/-- Section 5.1: names that are neither classes nor properties, and `rdf:li`. -/
def syntaxNames : List Str :=
  [str! "RDF", str! "ID", str! "about", str! "parseType", str! "resource", str! "nodeID",
    str! "datatype", str! "aboutEach", str! "aboutEachPrefix", str! "bagID", str! "li"]

/-- The IRI of a name that is not one of the syntax. -/
def nameIri (n : XName) : Option Iri :=
  match n.ns with
  | none => none
  | some ns => if ns = rdfNs ∧ n.loc ∈ syntaxNames then none else some ⟨ns ++ n.loc⟩

/-- The IRI of a property element. -/
def propertyIri (n : XName) : Option Iri := if n = rdfX (str! "Description") then none else nameIri n

/-- The base and the language in scope. -/
structure XmlScope where
  base : Option Str
  lang : Option Str
deriving DecidableEq, Repr

/-- The value of an attribute. -/
def attr (n : XName) (as : List XAttr) : Option Str := (as.find? fun a => a.name == n).map (·.value)

/-- The scope inside an element. -/
def XmlScope.enter (c : XmlScope) (as : List XAttr) : XmlScope where
  base := match attr (xmlX (str! "base")) as with
    | some b => iriValue c.base b
    | none => c.base
  lang := match attr (xmlX (str! "lang")) as with
    | some [] => none
    | some l => some l
    | none => c.lang

/-- Attributes of XML, which say nothing about properties. -/
def isXmlAttr (a : XAttr) : Bool := a.name.ns == some (str! "http://www.w3.org/XML/1998/namespace")

/-- The subject of a node element; blank nodes without a label are given labels in order. -/
inductive SubjectOf (gen : Nat → Str) (c : XmlScope) (n : Nat) : List XAttr → Subject → Nat → List XAttr → Prop
  | about {as : List XAttr} {v i : Str} : attr (rdfX (str! "about")) as = some v →
      iriValue c.base v = some i →
      SubjectOf gen c n as (.res ⟨i⟩) n (as.filter fun a => !isXmlAttr a && a.name != rdfX (str! "about"))
  | id {as : List XAttr} {v i : Str} : attr (rdfX (str! "ID")) as = some v → isNcName v = true →
      iriValue c.base ('#' :: v) = some i →
      SubjectOf gen c n as (.res ⟨i⟩) n (as.filter fun a => !isXmlAttr a && a.name != rdfX (str! "ID"))
  | nodeId {as : List XAttr} {v : Str} : attr (rdfX (str! "nodeID")) as = some v → isNcName v = true →
      SubjectOf gen c n as (.blank v) n (as.filter fun a => !isXmlAttr a && a.name != rdfX (str! "nodeID"))
  | none {as : List XAttr} :
      SubjectOf gen c n as (.blank (gen n)) (n + 1) (as.filter fun a => !isXmlAttr a)

/-- A literal with a text, the IRI of its type and its language. -/
def LiteralOf (text : Str) (type : Option Str) (lang : Option Str) (l : Literal) : Prop :=
  l.lexicalForm = text ∧ l.dataType.map DataType.asIri = type.map Iri.mk ∧
    l.language = if type.isSome then none else lang

/-- The statement of a property attribute. -/
inductive AttrStmt (c : XmlScope) (s : Subject) : XAttr → Stmt → Prop
  | type {v i : Str} : iriValue c.base v = some i →
      AttrStmt c s ⟨rdfX (str! "type"), v⟩ (.mk s rdfType (.res ⟨i⟩))
  | literal {n : XName} {v : Str} {p : Iri} {l : Literal} : n ≠ rdfX (str! "type") →
      propertyIri n = some p → LiteralOf v none c.lang l → AttrStmt c s ⟨n, v⟩ (.mk s p (.lit l))

/-- The statements of property attributes. -/
inductive AttrStmts (c : XmlScope) (s : Subject) : List XAttr → List Stmt → Prop
  | nil : AttrStmts c s [] []
  | cons {a : XAttr} {as : List XAttr} {t : Stmt} {ts : List Stmt} :
      AttrStmt c s a t → AttrStmts c s as ts → AttrStmts c s (a :: as) (t :: ts)

/-- Events that say nothing between elements. -/
def isFill : XmlIn → Bool
  | .space _ => true
  | .other => true
  | _ => false

/-- The text of an event. -/
def textOf : XmlIn → Option Str
  | .chars s => some s
  | .cdata s => some s
  | .space s => some s
  | .other => some []
  | _ => none

/-- The text of events none of which is an element. -/
def textsOf : List XmlIn → Option Str
  | [] => some []
  | e :: es =>
    match textOf e, textsOf es with
    | some a, some b => some (a ++ b)
    | _, _ => none

/-- The node of a subject as an object. -/
def nodeOf : Subject → Object
  | .res i => .res i
  | .blank b => .blank b
  | .stmt t => .stmt t

/-- The statement that says the type of a node element. -/
def typeStmts (name : XName) (s : Subject) : List Stmt :=
  if name = rdfX (str! "Description") then []
  else (nameIri name).toList.map fun t => .mk s rdfType (.res t)

mutual
/-- 7.2.11 -/
inductive NodeElt (gen : Nat → Str) : XmlScope → Nat → List XmlIn → Subject → Nat → List Stmt → Prop
  | mk {c : XmlScope} {n n' n'' : Nat} {name : XName} {as ps : List XAttr} {s : Subject}
      {body : List XmlIn} {ts : List Stmt} {T : List Stmt} :
      (nameIri name).isSome = true →
      SubjectOf gen (c.enter as) n as s n' ps →
      AttrStmts (c.enter as) s ps ts →
      PropList gen (c.enter as) s n' body n'' T →
      NodeElt gen c n (.start name as :: body ++ [.stop name]) s n'' (typeStmts name s ++ ts ++ T)
/-- 7.2.13 -/
inductive PropList (gen : Nat → Str) : XmlScope → Subject → Nat → List XmlIn → Nat → List Stmt → Prop
  | nil {c : XmlScope} {s : Subject} {n : Nat} : PropList gen c s n [] n []
  | fill {c : XmlScope} {s : Subject} {n n' : Nat} {e : XmlIn} {es : List XmlIn} {T : List Stmt} :
      isFill e = true → PropList gen c s n es n' T → PropList gen c s n (e :: es) n' T
  | cons {c : XmlScope} {s : Subject} {n n' n'' : Nat} {a b : List XmlIn} {T T' : List Stmt} :
      PropElt gen c s n a n' T → PropList gen c s n' b n'' T' → PropList gen c s n (a ++ b) n'' (T ++ T')
/-- 7.2.14 -/
inductive PropElt (gen : Nat → Str) : XmlScope → Subject → Nat → List XmlIn → Nat → List Stmt → Prop
  /-- 7.2.15 -/
  | node {c : XmlScope} {s o : Subject} {n n' : Nat} {name : XName} {p : Iri} {as : List XAttr}
      {a b body : List XmlIn} {T : List Stmt} :
      propertyIri name = some p → as.all isXmlAttr = true →
      a.all isFill = true → b.all isFill = true →
      NodeElt gen (c.enter as) n body o n' T →
      PropElt gen c s n (.start name as :: a ++ body ++ b ++ [.stop name]) n' (.mk s p (nodeOf o) :: T)
  /-- 7.2.16, and 7.2.21 without attributes -/
  | literal {c : XmlScope} {s : Subject} {n : Nat} {name : XName} {p : Iri} {as : List XAttr}
      {body : List XmlIn} {t : Str} {type : Option Str} {l : Literal} :
      propertyIri name = some p →
      (as.all fun a => isXmlAttr a || a.name == rdfX (str! "datatype")) = true →
      textsOf body = some t →
      ((attr (rdfX (str! "datatype")) as).bind (iriValue (c.enter as).base)) = type →
      (type = none → attr (rdfX (str! "datatype")) as = none) →
      LiteralOf t type (c.enter as).lang l →
      PropElt gen c s n (.start name as :: body ++ [.stop name]) n [.mk s p (.lit l)]
  /-- 7.2.18 -/
  | parseResource {c : XmlScope} {s : Subject} {n n' : Nat} {name : XName} {p : Iri} {as : List XAttr}
      {body : List XmlIn} {T : List Stmt} :
      propertyIri name = some p →
      (as.all fun a => isXmlAttr a || a == ⟨rdfX (str! "parseType"), str! "Resource"⟩) = true →
      attr (rdfX (str! "parseType")) as = some (str! "Resource") →
      PropList gen (c.enter as) (.blank (gen n)) (n + 1) body n' T →
      PropElt gen c s n (.start name as :: body ++ [.stop name]) n' (.mk s p (.blank (gen n)) :: T)
  /-- 7.2.21 with `rdf:resource` -/
  | resource {c : XmlScope} {s : Subject} {n : Nat} {name : XName} {p : Iri} {as ps : List XAttr}
      {v i : Str} {ts : List Stmt} :
      propertyIri name = some p → attr (rdfX (str! "resource")) as = some v →
      iriValue (c.enter as).base v = some i →
      ps = as.filter (fun a => !isXmlAttr a && a.name != rdfX (str! "resource")) →
      AttrStmts (c.enter as) (.res ⟨i⟩) ps ts →
      PropElt gen c s n [.start name as, .stop name] n (.mk s p (.res ⟨i⟩) :: ts)
  /-- 7.2.21 with `rdf:nodeID` -/
  | nodeId {c : XmlScope} {s : Subject} {n : Nat} {name : XName} {p : Iri} {as ps : List XAttr}
      {v : Str} {ts : List Stmt} :
      propertyIri name = some p → attr (rdfX (str! "nodeID")) as = some v → isNcName v = true →
      ps = as.filter (fun a => !isXmlAttr a && a.name != rdfX (str! "nodeID")) →
      AttrStmts (c.enter as) (.blank v) ps ts →
      PropElt gen c s n [.start name as, .stop name] n (.mk s p (.blank v) :: ts)
end

/-- 7.2.10 -/
inductive NodeList (gen : Nat → Str) : XmlScope → Nat → List XmlIn → Nat → List Stmt → Prop
  | nil {c : XmlScope} {n : Nat} : NodeList gen c n [] n []
  | fill {c : XmlScope} {n n' : Nat} {e : XmlIn} {es : List XmlIn} {T : List Stmt} :
      isFill e = true → NodeList gen c n es n' T → NodeList gen c n (e :: es) n' T
  | cons {c : XmlScope} {s : Subject} {n n' n'' : Nat} {a b : List XmlIn} {T T' : List Stmt} :
      NodeElt gen c n a s n' T → NodeList gen c n' b n'' T' → NodeList gen c n (a ++ b) n'' (T ++ T')

/-- 7.2.8 and 7.2.9: the events of a document with `rdf:RDF` stand for statements. -/
def RdfXml (gen : Nat → Str) (n : Nat) (evs : List XmlIn) (T : List Stmt) : Prop :=
  ∃ pre post as body n', evs = pre ++ .start (rdfX (str! "RDF")) as :: body ++ .stop (rdfX (str! "RDF")) :: post ∧
    pre.all isFill = true ∧ post.all isFill = true ∧ as.all isXmlAttr = true ∧
    NodeList gen (XmlScope.enter ⟨none, none⟩ as) n body n' T

/-! ### Documents the reader takes -/

/-- An attribute with a namespace, neither `rdf:ID` nor `rdf:parseType` but for `Resource`. -/
def calmAttr (a : XAttr) : Bool :=
  a.name.ns.isSome && a.name != rdfX (str! "ID") &&
    (a.name != rdfX (str! "parseType") || a.value == str! "Resource")

/-- An element with a namespace and calm attributes. -/
def calm : XmlIn → Bool
  | .start n as => n.ns.isSome && as.all calmAttr
  | _ => true

/-- Objects that the reader makes. -/
def readable : Object → Bool
  | .res _ => true
  | .lit l => l.dataType == none || l.dataType == some .xmlLiteral
  | _ => false

/-! ### Flat documents -/

/-- The attributes of a property element with a literal. -/
def litAttrs (l : Literal) : List XAttr :=
  (if (l.language.getD []).isEmpty then [] else [⟨xmlX (str! "lang"), l.language.getD []⟩]) ++
    match l.dataType with
    | some t => [⟨rdfX (str! "datatype"), t.asIri.text⟩]
    | none => []

/-- The events of a property element, without its end. -/
def propHead (x : XName) : Object → List XmlIn
  | .res i => [.start x [⟨rdfX (str! "resource"), i.text⟩]]
  | .blank b => [.start x [⟨rdfX (str! "nodeID"), b⟩]]
  | .lit l => .start x (litAttrs l) :: textIn l.lexicalForm
  | _ => []

/-- The events of a property element. -/
def propIn (x : XName) (o : Object) : List XmlIn := propHead x o ++ [.stop x]

/-- The attribute of a node element. -/
def nodeAttr : Subject → List XAttr
  | .res i => [⟨rdfX (str! "about"), i.text⟩]
  | .blank b => [⟨rdfX (str! "nodeID"), b⟩]
  | .stmt _ => []

/-- The events of a node element with a subject and its properties. -/
def descIn (d : Subject × List (XName × Object)) : List XmlIn :=
  .start (rdfX (str! "Description")) (nodeAttr d.1) :: d.2.flatMap (fun q => propIn q.1 q.2) ++
    [.stop (rdfX (str! "Description"))]

/-- The events of a document of flat node elements. -/
def flatIn (ds : List (Subject × List (XName × Object))) : List XmlIn :=
  .other :: .start (rdfX (str! "RDF")) [] :: ds.flatMap descIn ++ [.stop (rdfX (str! "RDF"))]

/-! ### What RDF/XML can say -/

/-- A character at which names are split. -/
def isSep (c : Char) : Prop := c = '#' ∨ c = '/'

/-- The namespace and the local name of an IRI, split after the last separator. -/
def SplitAt (i : Iri) (ns name : Str) : Prop :=
  ns ++ name = i.text ∧ (∃ a c, ns = a ++ [c] ∧ isSep c) ∧ ∀ c ∈ name, ¬isSep c

/-- An IRI that an attribute carries and that is not relative. -/
def XmlIri (i : Iri) : Prop := i.text.all xmlPlain = true ∧ hasScheme i.text = true

/-- A property that has a name in XML: ASCII, with a local name, not part of the syntax. -/
def XmlProperty (p : Iri) : Prop :=
  (∀ c ∈ p.text, 0x20 ≤ c.toNat ∧ c.toNat < 0x7F) ∧
  ∃ ns name, SplitAt p ns name ∧ isNcName name = true ∧ propertyIri ⟨some ns, name⟩ = some p

/-- A literal that XML carries. -/
def XmlLiteralOk (l : Literal) : Prop :=
  l.lexicalForm.all xmlPlain = true ∧ (l.dataType = none ∨ l.language = none) ∧
  (∀ t, l.dataType = some t → XmlIri t.asIri) ∧ ∀ g, l.language = some g → g ≠ [] ∧ g.all xmlPlain = true

/-- A statement that RDF/XML can say. -/
def XmlStmt (st : Stmt) : Prop :=
  (match st.subject with
    | .res i => XmlIri i
    | .blank b => isNcName b = true
    | .stmt _ => False) ∧
  XmlProperty st.predicate ∧
  match st.object with
  | .res i => XmlIri i
  | .blank b => isNcName b = true
  | .lit l => XmlLiteralOk l
  | .coll _ => False
  | .stmt _ => False

/-- The namespaces for which the writer knows a prefix. -/
def knownNamespaces : List Str :=
  [str! "http://purl.org/dc/elements/1.1/", str! "http://xmlns.com/foaf/0.1/",
    str! "http://www.w3.org/2003/01/geo/wgs84_pos#", str! "http://www.w3.org/2002/07/owl#",
    str! "http://www.w3.org/1999/02/22-rdf-syntax-ns#", str! "http://www.w3.org/2000/01/rdf-schema#",
    str! "http://www.w3.org/2001/XMLSchema#"]

/-- A property in one of these namespaces. -/
def Known (p : Iri) : Prop := ∃ ns name, SplitAt p ns name ∧ ns ∈ knownNamespaces

end Rdftk.Spec
