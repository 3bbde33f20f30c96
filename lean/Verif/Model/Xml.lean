import Verif.Model.Turtle

/-!
Model of RDF/XML (`rdftk_io/src/xml/writer.rs` and `reader.rs`).

Both sides are modelled at the events they exchange with the crate `xml-rs`: the writer gives a
list of events to be written, the reader takes a list of events found in a document, ended by
`EndDocument`.  When an error or a panic ends the writer the events given so far are not kept.
-/

namespace Rdftk

/-! ### The writer -/

/-- `xml::writer::XmlEvent`, the events that the writer uses: a start with the name, the
namespaces it declares (the default one has the empty prefix) and the attributes. -/
inductive XmlOut where
  | document (encoding : Str)
  | start (name : Str) (ns : List (Str × Str)) (attrs : List (Str × Str))
  | chars (s : Str)
  | stop (name : Str)
deriving DecidableEq, Repr

/-- Slices of a text at a byte index, which panic inside a character. -/
def splitBytes : Nat → Str → Outcome (Str × Str)
  | 0, s => .ok ([], s)
  | _ + 1, [] => .panic
  | k + 1, c :: s =>
    if c.utf8Size ≤ k + 1 then
      match splitBytes (k + 1 - c.utf8Size) s with
      | .ok (a, b) => .ok (c :: a, b)
      | .panic => .panic
    else .panic

/-- `xml/writer.rs` 336-347, `split_uri`: the index is counted in characters from the end and
used in bytes from the start. -/
def splitUri (sty : IriStyle) (i : Iri) : Outcome (Str × Str) :=
  match (i.fmt sty).reverse.findIdx? fun c => c == '#' || c == '/' with
  | none => .panic
  | some index =>
    if index = byteLen (i.fmt sty) then .panic
    else splitBytes (byteLen (i.fmt sty) - index) (i.fmt sty)

/-- `xml/writer.rs` 197-234, `default_mappings`: the keys are displayed IRIs. -/
def xmlMappings (sty : IriStyle) : List (Str × Str) :=
  [dcTable, foafTable, geoTable, owlTable, rdfTable, rdfsTable, xsdTable].map fun t =>
    (t.iri.fmt sty, t.pfx)

/-- `HashMap::get`. -/
def xmlPrefix (sty : IriStyle) (ns : Str) : Option Str :=
  ((xmlMappings sty).find? fun e => e.1 == ns).map (·.2)

/-- `xml/writer.rs` 61-68, names made with the prefix of RDF. -/
def rdfName (s : Str) : Str := rdfTable.pfx ++ ':' :: s

/-- `xml/writer.rs` 241-263: the start of a node element. -/
def xmlHead (flat : Bool) : Subject → Run XmlOut
  | .blank b =>
    .ok (.start (rdfName (str! "Description")) [] (if flat then [(rdfName (str! "nodeID"), b)] else []))
  | .res i => .ok (.start (rdfName (str! "Description")) [] [(rdfName (str! "about"), i.text)])
  | .stmt _ => .err

/-- `xml/writer.rs` 269-274: the name of the element, which becomes the new value of `name`, and
the namespaces declared. -/
def xmlElement (sty : IriStyle) (ns name : Str) : Str × List (Str × Str) :=
  match xmlPrefix sty ns with
  | some p => (p ++ ':' :: name, [(p, ns)])
  | none => (name, [([], ns)])

/-- `xml/writer.rs` 276-309: a property element without its end.  `nested` writes a blank node
inside the element. -/
def xmlProperty (sty : IriStyle) (flat : Bool) (nested : Subject → Run (List XmlOut)) (name : Str)
    (ns : List (Str × Str)) : Object → Run (List XmlOut)
  | .res i => .ok [.start name ns [(rdfName (str! "resource"), i.fmt sty)]]
  | .blank b =>
    if flat then .ok [.start name ns [(rdfName (str! "nodeID"), b)]]
    else (nested (.blank b)).bind fun es => .ok (.start name ns [] :: es)
  | .lit l =>
    .ok [.start name ns
        ((if (l.language.getD []).isEmpty then [] else [(str! "xml:lang", l.language.getD [])]) ++
          match l.dataType with
          | some t => [(rdfName (str! "datatype"), t.asIri.fmt sty)]
          | none => []),
      .chars l.lexicalForm]
  | .coll _ => .err
  | .stmt _ => .err

/-- `xml/writer.rs` 268-313: the loop over the objects of a predicate. -/
def xmlObjects (sty : IriStyle) (flat : Bool) (nested : Subject → Run (List XmlOut)) (ns : Str) :
    Str → List Object → Run (List XmlOut)
  | _, [] => .ok []
  | name, o :: os =>
    let e := xmlElement sty ns name
    (xmlProperty sty flat nested e.1 e.2 o).bind fun es =>
      (xmlObjects sty flat nested ns e.1 os).bind fun rest => .ok (es ++ .stop e.1 :: rest)

/-- `xml/writer.rs` 265-314: the loop over the predicates of a subject. -/
def xmlPredicates (sty : IriStyle) (flat : Bool) (o : Orders) (g : Graph)
    (nested : Subject → Run (List XmlOut)) (s : Subject) : List Iri → Run (List XmlOut)
  | [] => .ok []
  | p :: ps =>
    match splitUri sty p with
    | .panic => .panic
    | .ok (ns, name) =>
      (xmlObjects sty flat nested ns name (o.obj s p (g.objectsFor s p))).bind fun es =>
        (xmlPredicates sty flat o g nested s ps).bind fun rest => .ok (es ++ rest)

/-- `xml/writer.rs` 234-321, `write_subject`, to a depth. -/
def xmlSubject (sty : IriStyle) (flat : Bool) (o : Orders) (g : Graph) : Nat → Subject → Run (List XmlOut)
  | 0, _ => .deep
  | d + 1, s =>
    (xmlHead flat s).bind fun h =>
      (xmlPredicates sty flat o g (xmlSubject sty flat o g d) s (o.pred s (g.predicatesFor s))).bind
        fun es => .ok (h :: es ++ [.stop (rdfName (str! "Description"))])

/-- The loops of `xml/writer.rs` 176-184. -/
def xmlSubjects (f : Subject → Run (List XmlOut)) : List Subject → Run (List XmlOut)
  | [] => .ok []
  | s :: ss => (f s).bind fun es => (xmlSubjects f ss).bind fun rest => .ok (es ++ rest)

/-- `xml/writer.rs` 149-191, `write`; `flat` is the style. -/
def writeXml (gen : Nat → Str) (n : Nat) (sty : IriStyle) (flat : Bool) (encoding : Str) (o : Orders)
    (depth : Nat) (g : Graph) : Run (List XmlOut) :=
  let g' := (g.simplify gen n).1
  (xmlSubjects (xmlSubject sty flat o g' depth)
    ((o.subj g'.subjects).filter fun s => flat || s.isResource)).bind fun es =>
    .ok (.document encoding :: .start (rdfName (str! "RDF")) [(rdfTable.pfx, rdfTable.ns)] [] :: es ++
      [.stop (rdfName (str! "RDF"))])

/-! ### The reader -/

/-- `xml::name::OwnedName`, without the prefix. -/
structure XName where
  ns : Option Str
  loc : Str
deriving DecidableEq, Repr

/-- `xml::attribute::OwnedAttribute`. -/
structure XAttr where
  name : XName
  value : Str
deriving DecidableEq, Repr

/-- `xml::reader::XmlEvent`; `other` stands for the start of the document, processing
instructions, comments and document types, `bad` for an error of the tokenizer. -/
inductive XmlIn where
  | start (name : XName) (attrs : List XAttr)
  | stop (name : XName)
  | chars (s : Str)
  | cdata (s : Str)
  | space (s : Str)
  | other
  | bad
deriving DecidableEq, Repr

/-- `xml/reader.rs` 41-46, `SubjectType`. -/
inductive XmlSubject where
  | blankNamed (b : Str)
  | resource (i : Iri)
  | relative (s : Str)
deriving DecidableEq, Repr

/-- `xml/reader.rs` 48-53, `ParseType`. -/
inductive ParseType where
  | xmlLiteral
  | resource
  | collection
deriving DecidableEq, Repr

/-- `xml/reader.rs` 55-64, `Attributes`. -/
structure XmlAttributes where
  subject : Option XmlSubject
  parseType : Option ParseType
  base : Option Iri
  dataType : Option Iri
  language : Option Str
  resource : Option Iri
  inner : List XAttr
deriving DecidableEq, Repr

/-- `xml/syntax.rs` 7. -/
def xmlNamespace : Str := str! "http://www.w3.org/XML/1998/namespace"

/-- `xml/reader.rs` 256-258, `value_to_iri`. -/
def valueToIri (env : ReadEnv) (s : Str) : Res Iri := Res.ofOption (Iri.fromStr env.url s)

/-- `xml/reader.rs` 247-253, `name_to_iri`; the `unwrap` is an explicit panic. -/
def nameToIri (env : ReadEnv) (n : XName) : Res Iri :=
  match n.ns with
  | none => .panic
  | some ns => Res.ofOption (Iri.fromStr env.url (ns ++ n.loc))

/-- `xml/reader.rs` 499-529: one attribute. -/
def xmlAttribute (env : ReadEnv) (r : XmlAttributes) (a : XAttr) : Res XmlAttributes :=
  if a.name.ns = some xmlNamespace then
    if a.name.loc = str! "base" then (valueToIri env a.value).bind fun i => .ok { r with base := some i }
    else if a.name.loc = str! "lang" then
      (Res.ofOption (env.lang a.value)).bind fun l => .ok { r with language := some l }
    else .ok r
  else if a.name.ns = some rdfTable.ns then
    if a.name.loc = str! "about" then
      (valueToIri env a.value).bind fun i => .ok { r with subject := some (.resource i) }
    else if a.name.loc = str! "nodeID" then .ok { r with subject := some (.blankNamed a.value) }
    else if a.name.loc = str! "ID" then .ok { r with subject := some (.relative a.value) }
    else if a.name.loc = str! "resource" then
      (valueToIri env a.value).bind fun i => .ok { r with resource := some i }
    else if a.name.loc = str! "parseType" then
      if a.value = str! "Literal" then .ok { r with parseType := some .xmlLiteral }
      else if a.value = str! "Resource" then .ok { r with parseType := some .resource }
      else if a.value = str! "Collection" then .ok { r with parseType := some .collection }
      else .panic
    else .ok r
  else .ok { r with inner := r.inner ++ [a] }

/-- The loop of `parse_attributes`. -/
def xmlAttributesFrom (env : ReadEnv) : XmlAttributes → List XAttr → Res XmlAttributes
  | r, [] => .ok r
  | r, a :: as => (xmlAttribute env r a).bind fun r => xmlAttributesFrom env r as

/-- `xml/reader.rs` 488-534, `parse_attributes`. -/
def xmlAttributes (env : ReadEnv) (as : List XAttr) : Res XmlAttributes :=
  xmlAttributesFrom env ⟨none, none, none, none, none, none, []⟩ as

/-- The graph being built and the number of blank nodes generated. -/
structure XmlState where
  graph : Graph
  count : Nat

/-- `Graph::insert` on the state. -/
def XmlState.insert (st : XmlState) (s : Subject) (p : Iri) (o : Object) : XmlState :=
  { st with graph := st.graph.insert (.mk s p o) }

/-- A call that has not returned yet, with the variables it still uses.  The value of a call of
`parse_subject_element` is never used. -/
inductive XmlFrame where
  /-- `parse_subject_element` -/
  | subject (base : Option Iri)
  /-- `parse_predicate_element` -/
  | predicate (base : Option Iri) (subject : Subject) (noChild : Bool)
  /-- `parse_object_element`, called for the property element of the name and the attributes -/
  | object (base : Option Iri) (subject : Subject) (name : XName) (attrs : XmlAttributes)
      (content : Str) (hasElements hasCharacters : Bool)
  /-- `parse_xml_literal_element`, called for the property element of the name -/
  | literal (subject : Subject) (name : XName) (opened : Nat) (content : List XmlIn)

/-- `xml/reader.rs` 190-208: the subject of a node element. -/
def xmlSubjectNode (env : ReadEnv) (sty : IriStyle) (gen : Nat → Str) (base : Option Iri) (n : Nat) :
    Option XmlSubject → Res (Subject × Nat)
  | none => .ok (.blank (gen n), n + 1)
  | some (.resource i) => .ok (.res i, n)
  | some (.relative s) =>
    match base with
    | none => .panic
    | some b => (valueToIri env (b.fmt sty ++ s)).bind fun i => .ok (.res i, n)
  | some (.blankNamed b) => (Res.ofOption (blankParse env.blankOk b)).bind fun b => .ok (.blank b, n)

/-- `xml/reader.rs` 260-279, `parse_predicate_attributes`. -/
def xmlPropertyAttributes (env : ReadEnv) (s : Subject) : XmlState → List XAttr → Res XmlState
  | st, [] => .ok st
  | st, a :: as =>
    (nameToIri env a.name).bind fun p =>
      xmlPropertyAttributes env s (st.insert s p (.lit (Literal.plain env.pr a.value))) as

/-- The base handed down: that of the element if it has one. -/
def xmlBase (a : XmlAttributes) (base : Option Iri) : Option Iri := if a.base.isSome then a.base else base

/-- `str::replace` of a character. -/
def replaceChar (c : Char) (t : Str) (s : Str) : Str := s.flatMap fun d => if d = c then t else [d]

/-- What the events of an XML literal are turned into, by the event writer of `xml-rs`. -/
abbrev Emit := List XmlIn → Option Str

/-- `xml/reader.rs` 316-325: the literal of a property element. -/
def xmlContentLiteral (env : ReadEnv) (a : XmlAttributes) (content : Str) : Literal :=
  match a.dataType with
  | some t => Literal.withDataType env.pr content (DataType.fromIri t)
  | none =>
    match a.language with
    | some l => Literal.withLanguage env.pr content l
    | none => Literal.plain env.pr content

/-- `xml/reader.rs` 183-230: an element met by `parse_subject_element`. -/
def xmlNodeElement (env : ReadEnv) (sty : IriStyle) (gen : Nat → Str) (base : Option Iri) (st : XmlState)
    (name : XName) (attrs : List XAttr) : Res (XmlFrame × XmlState) :=
  (xmlAttributes env attrs).bind fun a =>
    (xmlSubjectNode env sty gen base st.count a.subject).bind fun sn =>
      (if name = ⟨some rdfTable.ns, str! "Description"⟩ then .ok { st with count := sn.2 }
       else (nameToIri env name).bind fun t =>
        .ok ({ st with count := sn.2 }.insert sn.1 rdfType (.res t))).bind fun st' =>
          (xmlPropertyAttributes env sn.1 st' a.inner).bind fun st'' =>
            .ok (.predicate (xmlBase a base) sn.1 false, st'')

/-- `xml/reader.rs` 291-364: an element met by `parse_predicate_element`. -/
def xmlPropertyElement (env : ReadEnv) (base : Option Iri) (s : Subject)
    (st : XmlState) (name : XName) (attrs : List XAttr) : Res (List XmlFrame × XmlState) :=
  (xmlAttributes env attrs).bind fun a =>
    match a.resource with
    | some r =>
      (nameToIri env name).bind fun p => .ok ([.predicate base s true], st.insert s p (.res r))
    | none =>
      match a.parseType with
      | none => .ok ([.object base s name a [] false false, .predicate base s false], st)
      | some .xmlLiteral => .ok ([.literal s name 0 [], .predicate base s false], st)
      | some .resource =>
        .ok ([.subject (xmlBase a base), .predicate base s false], { st with count := st.count + 1 })
      | some .collection => .panic

/-- One event, met by the call on top of the stack.  The empty stack is `parse_document`
(`xml/reader.rs` 133-170), the calls are at 172-244, 281-377, 379-444 and 446-486.  A blank node
generated for the content of a property element is not used. -/
def xmlStep (env : ReadEnv) (sty : IriStyle) (gen : Nat → Str) (emit : Emit) (stack : List XmlFrame)
    (st : XmlState) (ev : XmlIn) : Res (List XmlFrame × XmlState) :=
  match stack with
  | [] =>
    match ev with
    | .start name attrs =>
      (xmlAttributes env attrs).bind fun a =>
        if name = ⟨some rdfTable.ns, str! "RDF"⟩ then .ok ([.subject a.base], st) else .err
    | .bad => .err
    | _ => .ok ([], st)
  | .subject base :: rest =>
    match ev with
    | .start name attrs =>
      (xmlNodeElement env sty gen base st name attrs).bind fun r =>
        .ok (r.1 :: .subject base :: rest, r.2)
    | .stop _ => .ok (rest, st)
    | .bad => .err
    | _ => .ok (.subject base :: rest, st)
  | .predicate base s noChild :: rest =>
    match ev with
    | .start name attrs =>
      if noChild then .err
      else (xmlPropertyElement env base s st name attrs).bind fun r => .ok (r.1 ++ rest, r.2)
    | .stop _ => .ok (rest, st)
    | .bad => .err
    | _ => .ok (.predicate base s noChild :: rest, st)
  | .object base s name a content hasElements hasCharacters :: rest =>
    match ev with
    | .start _ attrs =>
      if hasCharacters then .err
      else (xmlAttributes env attrs).bind fun b =>
        .ok (.subject (xmlBase b base) :: .object base s name a content true hasCharacters :: rest,
          { st with count := st.count + 1 })
    | .stop _ =>
      (nameToIri env name).bind fun p => .ok (rest, st.insert s p (.lit (xmlContentLiteral env a content)))
    | .chars t =>
      if hasElements then .err else .ok (.object base s name a (content ++ t) hasElements true :: rest, st)
    | .cdata t =>
      if hasElements then .err else .ok (.object base s name a (content ++ t) hasElements true :: rest, st)
    | .bad => .err
    | _ => .ok (.object base s name a content hasElements hasCharacters :: rest, st)
  | .literal s name opened content :: rest =>
    match ev with
    | .start n attrs => .ok (.literal s name (opened + 1) (content ++ [.start n attrs]) :: rest, st)
    | .stop n =>
      match opened with
      | 0 => .panic
      | 1 =>
        match emit (content ++ [.stop n]) with
        | none => .panic
        | some t =>
          (nameToIri env name).bind fun p =>
            .ok (rest, st.insert s p (.lit (Literal.withDataType env.pr
              (replaceChar '>' (str! "&gt;") (replaceChar '<' (str! "&lt;") t)) .xmlLiteral)))
      | k + 2 => .ok (.literal s name (k + 1) (content ++ [.stop n]) :: rest, st)
    | .bad => .err
    | e => .ok (.literal s name opened (content ++ [e]) :: rest, st)

/-- The events up to the end of the document.  There `parse_document` returns; the other calls
ignore `EndDocument` and ask for events again for ever, which is the answer `deep`. -/
def xmlRun (env : ReadEnv) (sty : IriStyle) (gen : Nat → Str) (emit : Emit) :
    List XmlFrame → XmlState → List XmlIn → Run Graph
  | [], st, [] => .ok st.graph
  | _ :: _, _, [] => .deep
  | stack, st, ev :: evs =>
    match xmlStep env sty gen emit stack st ev with
    | .ok (stack', st') => xmlRun env sty gen emit stack' st' evs
    | .err => .err
    | .panic => .panic

/-- `xml/reader.rs` 73-79 and 133-170, `read`. -/
def readXml (env : ReadEnv) (sty : IriStyle) (gen : Nat → Str) (n : Nat) (emit : Emit)
    (evs : List XmlIn) : Run Graph :=
  xmlRun env sty gen emit [] ⟨Graph.default, n⟩ evs

end Rdftk
