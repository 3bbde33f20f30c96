import Verif.Spec.Xml
import Verif.Spec.Json

/-!
Documents of RDF/XML with node elements, property elements and nothing deeper, and the content of
XML literals; independent of the code.
-/

namespace Rdftk.Spec

/-- No attribute says the language. -/
def noLang (as : List XAttr) : Bool := as.all fun a => a.name != xmlX (str! "lang")

/-- The attributes of a node element: besides those of XML and properties outside RDF, `rdf:about`
and `rdf:nodeID`. -/
def nodeEltAttrs (as : List XAttr) : Bool :=
  noLang as && as.all fun a =>
    a.name.ns != some rdfNs || a.name == rdfX (str! "about") || a.name == rdfX (str! "nodeID")

/-- Inside `k` open elements there are node elements inside the document element, property elements
without attributes of RDF inside these, and inside these text that is not white space alone. -/
def twoLevel : Nat → List XmlIn → Bool
  | _, [] => true
  | 0, .start _ as :: es => noLang as && twoLevel 1 es
  | 1, .start _ as :: es => nodeEltAttrs as && twoLevel 2 es
  | 2, .start _ as :: es => as.all isXmlAttr && twoLevel 3 es
  | _ + 3, .start _ _ :: _ => false
  | k, .stop _ :: es => twoLevel (k - 1) es
  | k, .space s :: es => (decide (k < 3) || s.isEmpty) && twoLevel k es
  | k, _ :: es => twoLevel k es

/-- How many elements are open after the events. -/
def levelAfter : Nat → List XmlIn → Nat
  | k, [] => k
  | k, .start _ _ :: es => levelAfter (k + 1) es
  | k, .stop _ :: es => levelAfter (k - 1) es
  | k, _ :: es => levelAfter k es

/-- An event that is neither the start nor the end of an element. -/
def isInside : XmlIn → Bool
  | .start _ _ => false
  | .stop _ => false
  | _ => true

/-- The IRI that is spelled by an expanded name. -/
def nameSpelled (x : XName) : Iri := ⟨x.ns.getD [] ++ x.loc⟩

/-- A text that is not changed by escaping. -/
def StillText (pr : Char → Bool) (t : Str) : Prop := ∀ c ∈ t, escapeChar pr c = [c]

/-- An attribute whose value can be read: bases and subjects are absolute IRIs. -/
def ReadAttr (env : ReadEnv) (a : XAttr) : Prop :=
  if isXmlAttr a = true then
    (a.name = xmlX (str! "base") → IriRead env ⟨a.value⟩) ∧
    (a.name = xmlX (str! "lang") → a.value ≠ [] ∧ env.lang a.value = some a.value)
  else if a.name = rdfX (str! "about") then IriRead env ⟨a.value⟩ ∧ hasScheme a.value = true
  else if a.name = rdfX (str! "nodeID") then blankValid env.blankOk a.value = true
  else IriRead env (nameSpelled a.name) ∧ StillText env.pr a.value

/-- An event whose names and values can be read; no attribute occurs twice. -/
def ReadIn (env : ReadEnv) : XmlIn → Prop
  | .start x as => (x = rdfX (str! "RDF") ∨ x = rdfX (str! "Description") ∨ IriRead env (nameSpelled x)) ∧
      (as.map (·.name)).Nodup ∧ ∀ a ∈ as, ReadAttr env a
  | .chars t => StillText env.pr t
  | .cdata t => StillText env.pr t
  | _ => True

/-! ### XML literals -/

/-- 7.2.17: the statement of a property element whose content is an XML literal, which `text` gives
the text of. -/
def xmlLiteralStmt (text : List XmlIn → Option Str) (s : Subject) (p : Iri) (body : List XmlIn) : Option Stmt :=
  (text body).map fun t => .mk s p (.lit ⟨t, some .xmlLiteral, none⟩)

/-- A document with one node element, whose one property has the content as XML literal. -/
def xmlLiteralDoc (s : Iri) (x : XName) (body : List XmlIn) : List XmlIn :=
  [.other, .start (rdfX (str! "RDF")) [], .start (rdfX (str! "Description")) [⟨rdfX (str! "about"), s.text⟩],
    .start x [⟨rdfX (str! "parseType"), str! "Literal"⟩]] ++ body ++
    [.stop x, .stop (rdfX (str! "Description")), .stop (rdfX (str! "RDF"))]

/-- Inside `k + 1` open elements the events end them, the last with the last event. -/
def closesAtEnd : Nat → List XmlIn → Bool
  | _, [] => false
  | k, .start _ _ :: es => closesAtEnd (k + 1) es
  | 0, .stop _ :: es => es.isEmpty
  | k + 1, .stop _ :: es => closesAtEnd k es
  | _, .bad :: _ => false
  | k, _ :: es => closesAtEnd k es

/-- One element, possibly after text. -/
def oneElement : List XmlIn → Bool
  | [] => false
  | .start _ _ :: es => closesAtEnd 0 es
  | .stop _ :: _ => false
  | .bad :: _ => false
  | _ :: es => oneElement es

/-- Text of XML as written: what is not markup is escaped. -/
def escapeXml (s : Str) : Str :=
  s.flatMap fun c => if c = '<' then str! "&lt;" else if c = '>' then str! "&gt;" else if c = '&' then str! "&amp;" else [c]

/-- The text of elements without namespaces and attributes. -/
def simpleXml : List XmlIn → Option Str
  | [] => some []
  | .start n [] :: es => (simpleXml es).map fun t => '<' :: n.loc ++ '>' :: t
  | .stop n :: es => (simpleXml es).map fun t => '<' :: '/' :: n.loc ++ '>' :: t
  | .chars s :: es => (simpleXml es).map fun t => escapeXml s ++ t
  | _ => none

end Rdftk.Spec
