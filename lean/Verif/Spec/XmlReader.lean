import Verif.Spec.XmlPanic

/-! What the reader of RDF/XML makes of a document: a grammar of the documents it takes, with the statements of each part. -/

namespace Rdftk.Spec

/-- The last attribute of the vocabulary of RDF with a name. -/
def lastRdf (loc : Str) (as : List XAttr) : Option XAttr := (as.filter fun a => a.name.ns = some rdfTable.ns ∧ a.name.loc = loc).getLast?

/-- The last attribute of XML itself with a name. -/
def lastXml (loc : Str) (as : List XAttr) : Option XAttr := (as.filter fun a => a.name.ns = some xmlNamespace ∧ a.name.loc = loc).getLast?

/-- The base for what is inside an element: its own, or that from outside. -/
def baseInside (env : ReadEnv) (as : List XAttr) (base : Option Iri) : Option Iri :=
  match lastXml (str! "base") as with
  | some a => Iri.fromStr env.url a.value
  | none => base

/-- The IRI of a name. -/
def NameIs (env : ReadEnv) (name : XName) (i : Iri) : Prop := ∃ ns, name.ns = some ns ∧ Iri.fromStr env.url (ns ++ name.loc) = some i

/-- The subject of a node element; the numbers are those of blank nodes made before and after. -/
inductive SubjectIs (env : ReadEnv) (sty : IriStyle) (gen : Nat → Str) (base : Option Iri) (as : List XAttr) : Nat → Subject → Nat → Prop
  | blank (n : Nat) (h : lastSubject as = none) : SubjectIs env sty gen base as n (.blank (gen n)) (n + 1)
  | about (n : Nat) (a : XAttr) (i : Iri) (h : lastSubject as = some a) (hl : a.name.loc = str! "about")
      (hi : Iri.fromStr env.url a.value = some i) : SubjectIs env sty gen base as n (.res i) n
  | nodeId (n : Nat) (a : XAttr) (b : Str) (h : lastSubject as = some a) (hl : a.name.loc = str! "nodeID")
      (hb : blankParse env.blankOk a.value = some b) : SubjectIs env sty gen base as n (.blank b) n
  | id (n : Nat) (a : XAttr) (b i : Iri) (h : lastSubject as = some a) (hl : a.name.loc = str! "ID") (hb : base = some b)
      (hi : Iri.fromStr env.url (b.fmt sty ++ a.value) = some i) : SubjectIs env sty gen base as n (.res i) n

/-- The type that the name of a node element gives. -/
inductive TypeSays (env : ReadEnv) (name : XName) (s : Subject) : List Stmt → Prop
  | description (h : name = ⟨some rdfTable.ns, str! "Description"⟩) : TypeSays env name s []
  | typed (t : Iri) (h : name ≠ ⟨some rdfTable.ns, str! "Description"⟩) (hn : NameIs env name t) :
      TypeSays env name s [.mk s rdfType (.res t)]

/-- The statements of property attributes. -/
inductive AttributesSay (env : ReadEnv) (s : Subject) : List XAttr → List Stmt → Prop
  | nil : AttributesSay env s [] []
  | cons (a : XAttr) (p : Iri) (as : List XAttr) (ts : List Stmt) (h : NameIs env a.name p) (hr : AttributesSay env s as ts) :
      AttributesSay env s (a :: as) (.mk s p (.lit (Literal.plain env.pr a.value)) :: ts)

/-- Events that are passed over everywhere but in a property element: text and what is no content. -/
def Passed : XmlIn → Prop
  | .chars _ | .cdata _ | .space _ | .other => True
  | _ => False

/-- Nothing but events that are passed over, up to an end. -/
inductive Childless : List XmlIn → Prop
  | stop (x : XName) : Childless [.stop x]
  | pass (ev : XmlIn) (evs : List XmlIn) (h : Passed ev) (hr : Childless evs) : Childless (ev :: evs)

/-- Text up to an end. -/
inductive TextOnly : List XmlIn → Str → Prop
  | stop (x : XName) : TextOnly [.stop x] []
  | space (s : Str) (evs : List XmlIn) (t : Str) (h : TextOnly evs t) : TextOnly (.space s :: evs) t
  | other (evs : List XmlIn) (t : Str) (h : TextOnly evs t) : TextOnly (.other :: evs) t
  | chars (s : Str) (evs : List XmlIn) (t : Str) (h : TextOnly evs t) : TextOnly (.chars s :: evs) (s ++ t)
  | cdata (s : Str) (evs : List XmlIn) (t : Str) (h : TextOnly evs t) : TextOnly (.cdata s :: evs) (s ++ t)

/-- Events in which so many elements are still open, up to the end of the first. -/
inductive Closes : Nat → List XmlIn → Prop
  | last (x : XName) : Closes 1 [.stop x]
  | start (k : Nat) (x : XName) (as : List XAttr) (evs : List XmlIn) (h : Closes (k + 1) evs) : Closes k (.start x as :: evs)
  | stop (k : Nat) (x : XName) (evs : List XmlIn) (h : Closes (k + 1) evs) : Closes (k + 2) (.stop x :: evs)
  | pass (k : Nat) (ev : XmlIn) (evs : List XmlIn) (hp : Passed ev) (h : Closes k evs) : Closes k (ev :: evs)

/-- The literal for the text of a property element, with the last language. -/
def textLiteral (env : ReadEnv) (as : List XAttr) (t : Str) : Literal :=
  match (lastXml (str! "lang") as).bind fun a => env.lang a.value with
  | some l => Literal.withLanguage env.pr t l
  | none => Literal.plain env.pr t

/-- The literal for XML. -/
def markupLiteral (env : ReadEnv) (t : Str) : Literal :=
  Literal.withDataType env.pr (t.flatMap fun c => if c = '<' then str! "&lt;" else if c = '>' then str! "&gt;" else [c]) .xmlLiteral

mutual
/-- What is read where node elements are expected, up to the end of the element around them: the statements, in order, and the number of
blank nodes made before and after. -/
inductive Nodes (env : ReadEnv) (sty : IriStyle) (gen : Nat → Str) (emit : Emit) :
    Option Iri → Nat → List XmlIn → List Stmt → Nat → Prop
  | stop (base : Option Iri) (n : Nat) (x : XName) : Nodes env sty gen emit base n [.stop x] [] n
  | pass (base : Option Iri) (n m : Nat) (ev : XmlIn) (evs : List XmlIn) (ts : List Stmt) (h : Passed ev)
      (hr : Nodes env sty gen emit base n evs ts m) : Nodes env sty gen emit base n (ev :: evs) ts m
  | node (base : Option Iri) (n n₁ n₂ n₃ : Nat) (name : XName) (as : List XAttr) (s : Subject) (evs₁ evs₂ : List XmlIn)
      (t₁ t₂ t₃ t₄ : List Stmt) (ha : AttributesRead env as) (hs : SubjectIs env sty gen base as n s n₁) (ht : TypeSays env name s t₁)
      (hp : AttributesSay env s (propertyAttributes as) t₂)
      (hi : Properties env sty gen emit (baseInside env as base) s n₁ evs₁ t₃ n₂) (hr : Nodes env sty gen emit base n₂ evs₂ t₄ n₃) :
      Nodes env sty gen emit base n (.start name as :: (evs₁ ++ evs₂)) (t₁ ++ t₂ ++ t₃ ++ t₄) n₃
/-- What is read where property elements of a subject are expected.  One with `rdf:resource` is the last: its end is taken for the end of
the node element. -/
inductive Properties (env : ReadEnv) (sty : IriStyle) (gen : Nat → Str) (emit : Emit) :
    Option Iri → Subject → Nat → List XmlIn → List Stmt → Nat → Prop
  | stop (base : Option Iri) (s : Subject) (n : Nat) (x : XName) : Properties env sty gen emit base s n [.stop x] [] n
  | pass (base : Option Iri) (s : Subject) (n m : Nat) (ev : XmlIn) (evs : List XmlIn) (ts : List Stmt) (h : Passed ev)
      (hr : Properties env sty gen emit base s n evs ts m) : Properties env sty gen emit base s n (ev :: evs) ts m
  | resource (base : Option Iri) (s : Subject) (n : Nat) (name : XName) (as : List XAttr) (a : XAttr) (p r : Iri) (evs : List XmlIn)
      (ha : AttributesRead env as) (hl : lastRdf (str! "resource") as = some a) (hi : Iri.fromStr env.url a.value = some r)
      (hp : NameIs env name p) (hr : Childless evs) : Properties env sty gen emit base s n (.start name as :: evs) [.mk s p (.res r)] n
  | text (base : Option Iri) (s : Subject) (n m : Nat) (name : XName) (as : List XAttr) (p : Iri) (t : Str) (evs₁ evs₂ : List XmlIn)
      (ts : List Stmt) (ha : AttributesRead env as) (hl : lastRdf (str! "resource") as = none) (ht : lastParseType as = none)
      (hp : NameIs env name p) (hc : TextOnly evs₁ t) (hr : Properties env sty gen emit base s n evs₂ ts m) :
      Properties env sty gen emit base s n (.start name as :: (evs₁ ++ evs₂)) (.mk s p (.lit (textLiteral env as t)) :: ts) m
  | elements (base : Option Iri) (s : Subject) (n n₁ m : Nat) (name : XName) (as : List XAttr) (p : Iri) (evs₁ evs₂ : List XmlIn)
      (t₁ t₂ : List Stmt) (ha : AttributesRead env as) (hl : lastRdf (str! "resource") as = none) (ht : lastParseType as = none)
      (hp : NameIs env name p) (hc : Elements env sty gen emit base n evs₁ t₁ n₁) (hr : Properties env sty gen emit base s n₁ evs₂ t₂ m) :
      Properties env sty gen emit base s n (.start name as :: (evs₁ ++ evs₂)) (t₁ ++ .mk s p (.lit (textLiteral env as [])) :: t₂) m
  | literal (base : Option Iri) (s : Subject) (n m : Nat) (name : XName) (as : List XAttr) (p : Iri) (t : Str) (evs₁ evs₂ : List XmlIn)
      (ts : List Stmt) (ha : AttributesRead env as) (hl : lastRdf (str! "resource") as = none)
      (ht : lastParseType as = some (str! "Literal")) (hp : NameIs env name p) (hc : Closes 0 evs₁) (he : emit evs₁ = some t)
      (hr : Properties env sty gen emit base s n evs₂ ts m) :
      Properties env sty gen emit base s n (.start name as :: (evs₁ ++ evs₂)) (.mk s p (.lit (markupLiteral env t)) :: ts) m
  | nested (base : Option Iri) (s : Subject) (n n₁ m : Nat) (name : XName) (as : List XAttr) (evs₁ evs₂ : List XmlIn) (t₁ t₂ : List Stmt)
      (ha : AttributesRead env as) (hl : lastRdf (str! "resource") as = none) (ht : lastParseType as = some (str! "Resource"))
      (hc : Nodes env sty gen emit (baseInside env as base) (n + 1) evs₁ t₁ n₁) (hr : Properties env sty gen emit base s n₁ evs₂ t₂ m) :
      Properties env sty gen emit base s n (.start name as :: (evs₁ ++ evs₂)) (t₁ ++ t₂) m
/-- What is read inside a property element that has elements and no text: each is passed through, for the node elements in it. -/
inductive Elements (env : ReadEnv) (sty : IriStyle) (gen : Nat → Str) (emit : Emit) :
    Option Iri → Nat → List XmlIn → List Stmt → Nat → Prop
  | stop (base : Option Iri) (n : Nat) (x : XName) : Elements env sty gen emit base n [.stop x] [] n
  | space (base : Option Iri) (n m : Nat) (s : Str) (evs : List XmlIn) (ts : List Stmt) (hr : Elements env sty gen emit base n evs ts m) :
      Elements env sty gen emit base n (.space s :: evs) ts m
  | other (base : Option Iri) (n m : Nat) (evs : List XmlIn) (ts : List Stmt) (hr : Elements env sty gen emit base n evs ts m) :
      Elements env sty gen emit base n (.other :: evs) ts m
  | element (base : Option Iri) (n n₁ m : Nat) (name : XName) (as : List XAttr) (evs₁ evs₂ : List XmlIn) (t₁ t₂ : List Stmt)
      (ha : AttributesRead env as) (hc : Nodes env sty gen emit (baseInside env as base) (n + 1) evs₁ t₁ n₁)
      (hr : Elements env sty gen emit base n₁ evs₂ t₂ m) :
      Elements env sty gen emit base n (.start name as :: (evs₁ ++ evs₂)) (t₁ ++ t₂) m
end

/-- A document: any number of elements `rdf:RDF`, and events that are passed over. -/
inductive XmlDocument (env : ReadEnv) (sty : IriStyle) (gen : Nat → Str) (emit : Emit) : Nat → List XmlIn → List Stmt → Prop
  | nil (n : Nat) : XmlDocument env sty gen emit n [] []
  | pass (n : Nat) (ev : XmlIn) (evs : List XmlIn) (ts : List Stmt) (h : Passed ev ∨ ∃ x, ev = .stop x)
      (hr : XmlDocument env sty gen emit n evs ts) : XmlDocument env sty gen emit n (ev :: evs) ts
  | root (n m : Nat) (as : List XAttr) (evs₁ evs₂ : List XmlIn) (t₁ t₂ : List Stmt) (ha : AttributesRead env as)
      (hc : Nodes env sty gen emit (baseInside env as none) n evs₁ t₁ m) (hr : XmlDocument env sty gen emit m evs₂ t₂) :
      XmlDocument env sty gen emit n (.start ⟨some rdfTable.ns, str! "RDF"⟩ as :: (evs₁ ++ evs₂)) (t₁ ++ t₂)

end Rdftk.Spec
