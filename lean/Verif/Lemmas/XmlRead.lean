import Verif.Lemmas.Xml
import Verif.Lemmas.Json

/-!
Lemmas on the RDF/XML reader.
-/

namespace Rdftk
open Spec

/-! ### Flat documents -/

theorem xmlNamespace_eq : xmlNamespace = str! "http://www.w3.org/XML/1998/namespace" := rfl

theorem rdfX_ns (s : Str) : (rdfX s).ns = some rdfTable.ns := by rw [rdfTable_ns]; rfl

theorem ns_ne : some rdfTable.ns ≠ some xmlNamespace := by decide +kernel

theorem xmlAttribute_rdf {env : ReadEnv} {r : XmlAttributes} {s v : Str} :
    xmlAttribute env r ⟨rdfX s, v⟩ =
      if s = str! "about" then
        (valueToIri env v).bind fun i => .ok { r with subject := some (.resource i) }
      else if s = str! "nodeID" then .ok { r with subject := some (.blankNamed v) }
      else if s = str! "ID" then .ok { r with subject := some (.relative v) }
      else if s = str! "resource" then
        (valueToIri env v).bind fun i => .ok { r with resource := some i }
      else if s = str! "parseType" then
        if v = str! "Literal" then .ok { r with parseType := some .xmlLiteral }
        else if v = str! "Resource" then .ok { r with parseType := some .resource }
        else if v = str! "Collection" then .ok { r with parseType := some .collection }
        else .panic
      else .ok r := by
  unfold xmlAttribute
  rw [rdfX_ns, if_neg ns_ne, if_pos rfl]
  rfl

theorem xmlAttribute_lang {env : ReadEnv} {r : XmlAttributes} {v g : Str} (h : env.lang v = some g) :
    xmlAttribute env r ⟨xmlX (str! "lang"), v⟩ = .ok { r with language := some g } := by
  unfold xmlAttribute
  rw [if_pos (by rfl), if_neg (by show ¬(str! "lang") = _; decide), if_pos (by rfl), h]
  rfl

/-- No attribute says anything. -/
def noAttributes : XmlAttributes := ⟨none, none, none, none, none, none, []⟩

theorem xmlAttributes_nil (env : ReadEnv) : xmlAttributes env [] = .ok noAttributes := rfl

theorem xmlAttributes_lit {env : ReadEnv} {l : Literal} (hl : ∀ g, l.language = some g → g ≠ [] ∧ env.lang g = some g) :
    xmlAttributes env (litAttrs l) = .ok { noAttributes with language := l.language } := by
  have hd : ∀ v r, xmlAttribute env r ⟨rdfX (str! "datatype"), v⟩ = .ok r := fun v r => by
    rw [xmlAttribute_rdf]
    rw [if_neg (by decide), if_neg (by decide), if_neg (by decide), if_neg (by decide), if_neg (by decide)]
  unfold xmlAttributes litAttrs
  cases e : l.language with
  | none =>
    cases e' : l.dataType with
    | none => rfl
    | some t => simp [xmlAttributesFrom, hd, Res.bind, noAttributes]
  | some g =>
    obtain ⟨h1, h2⟩ := hl g e
    cases e' : l.dataType with
    | none => simp [xmlAttributesFrom, h1, xmlAttribute_lang h2, Res.bind, noAttributes]
    | some t => simp [xmlAttributesFrom, h1, xmlAttribute_lang h2, Res.bind, noAttributes, hd]

theorem xmlAttributes_nodeId (env : ReadEnv) (b : Str) : xmlAttributes env [⟨rdfX (str! "nodeID"), b⟩] =
    .ok { noAttributes with subject := some (.blankNamed b) } := by
  unfold xmlAttributes xmlAttributesFrom
  rw [xmlAttribute_rdf, if_neg (by decide), if_pos rfl]
  rfl

theorem xmlAttributes_about {env : ReadEnv} {i : Iri} (h : IriRead env i) :
    xmlAttributes env [⟨rdfX (str! "about"), i.text⟩] =
    .ok { noAttributes with subject := some (.resource i) } := by
  have : valueToIri env i.text = .ok i := by
    have := fromStr_fmt h .bare
    simp only [Iri.fmt] at this
    simp [valueToIri, this, Res.ofOption]
  unfold xmlAttributes xmlAttributesFrom
  rw [xmlAttribute_rdf, if_pos rfl, this]
  rfl

theorem xmlAttributes_resource {env : ReadEnv} {i : Iri} (h : IriRead env i) :
    xmlAttributes env [⟨rdfX (str! "resource"), i.text⟩] =
    .ok { noAttributes with resource := some i } := by
  have : valueToIri env i.text = .ok i := by
    have := fromStr_fmt h .bare
    simp only [Iri.fmt] at this
    simp [valueToIri, this, Res.ofOption]
  unfold xmlAttributes xmlAttributesFrom
  rw [xmlAttribute_rdf, if_neg (by decide), if_neg (by decide), if_neg (by decide), if_pos rfl, this]
  rfl

/-- What the name of a property element is read as. -/
def NameRead (env : ReadEnv) (x : XName) (p : Iri) : Prop :=
  IriRead env p ∧ ∃ ns, x.ns = some ns ∧ ns ++ x.loc = p.text

theorem nameToIri_read {env : ReadEnv} {x : XName} {p : Iri} (h : NameRead env x p) :
    nameToIri env x = .ok p := by
  obtain ⟨h1, ns, h2, h3⟩ := h
  have := fromStr_fmt h1 .bare
  simp only [Iri.fmt] at this
  simp [nameToIri, h2, h3, this, Res.ofOption]

/-- What the reader makes of the object of a property element. -/
def xmlReread (pr : Char → Bool) : Object → Object
  | .lit l =>
    let t := if l.lexicalForm.all xmlBlank then [] else l.lexicalForm
    match l.language with
    | some g => .lit (Literal.withLanguage pr t g)
    | none => .lit (Literal.plain pr t)
  | .blank _ => .lit (Literal.plain pr [])
  | o => o

/-- A literal or a blank node that the reader takes. -/
def ReadObject (env : ReadEnv) : Object → Prop
  | .lit l => ∀ g, l.language = some g → g ≠ [] ∧ env.lang g = some g
  | .blank _ => True
  | _ => False

section
variable {env : ReadEnv} {sty : IriStyle} {gen : Nat → Str} {emit : Emit}

theorem xmlRun_ok {stack stack' : List XmlFrame} {st st' : XmlState} {ev : XmlIn} {evs : List XmlIn}
    (h : xmlStep env sty gen emit stack st ev = .ok (stack', st')) :
    xmlRun env sty gen emit stack st (ev :: evs) = xmlRun env sty gen emit stack' st' evs := by
  cases stack <;> simp only [xmlRun, h]

theorem xmlRun_err {stack : List XmlFrame} {st : XmlState} {ev : XmlIn} {evs : List XmlIn}
    (h : xmlStep env sty gen emit stack st ev = .err) :
    xmlRun env sty gen emit stack st (ev :: evs) = .err := by
  cases stack <;> simp only [xmlRun, h]

/-- The text of a literal is collected. -/
theorem xmlRun_text {base : Option Iri} {s : Subject} {x : XName} {a : XmlAttributes} {rest : List XmlFrame}
    {st : XmlState} {t : Str} {evs : List XmlIn} {p : Iri} (hx : NameRead env x p) {y : XName} :
    xmlRun env sty gen emit (.object base s x a [] false false :: rest) st (textIn t ++ .stop y :: evs) =
      xmlRun env sty gen emit rest
        (st.insert s p (.lit (xmlContentLiteral env a (if t.all xmlBlank then [] else t)))) evs := by
  have stop : ∀ c h st, xmlStep env sty gen emit (.object base s x a c false h :: rest) st (.stop y) =
      .ok (rest, st.insert s p (.lit (xmlContentLiteral env a c))) := fun c h st => by
    simp [xmlStep, nameToIri_read hx, Res.bind]
  unfold textIn
  split
  · rename_i h
    rw [List.isEmpty_iff.1 h]
    simp only [List.nil_append]
    rw [xmlRun_ok (stop _ _ _)]
    rfl
  · split
    · rename_i h
      rw [List.singleton_append, xmlRun_ok (by rfl), xmlRun_ok (stop _ _ _)]
    · rename_i h
      rw [List.singleton_append, xmlRun_ok (by rfl), xmlRun_ok (stop _ _ _)]
      rfl

/-- A property element with a literal or a blank node. -/
theorem xmlRun_prop {base : Option Iri} {s : Subject} {x : XName} {rest : List XmlFrame}
    {st : XmlState} {evs : List XmlIn} {p : Iri} (hx : NameRead env x p) {o : Object} (ho : ReadObject env o) :
    xmlRun env sty gen emit (.predicate base s false :: rest) st (propIn x o ++ evs) =
      xmlRun env sty gen emit (.predicate base s false :: rest) (st.insert s p (xmlReread env.pr o)) evs := by
  cases o with
  | lit l =>
    simp only [propIn, propHead, List.cons_append, List.append_assoc, List.nil_append]
    have : xmlStep env sty gen emit (.predicate base s false :: rest) st (.start x (litAttrs l)) =
        .ok (.object base s x { noAttributes with language := l.language } [] false false ::
          .predicate base s false :: rest, st) := by
      simp [xmlStep, xmlPropertyElement, xmlAttributes_lit ho, Res.bind, noAttributes]
    rw [xmlRun_ok this, xmlRun_text hx]
    congr 2
    unfold xmlReread xmlContentLiteral
    cases e : l.language <;> simp only [noAttributes, e]
  | blank b =>
    simp only [propIn, propHead, List.cons_append, List.nil_append]
    have : xmlStep env sty gen emit (.predicate base s false :: rest) st (.start x [⟨rdfX (str! "nodeID"), b⟩]) =
        .ok (.object base s x { noAttributes with subject := some (.blankNamed b) } [] false false ::
          .predicate base s false :: rest, st) := by
      simp only [xmlStep, xmlPropertyElement, xmlAttributes_nodeId]
      rfl
    rw [xmlRun_ok this]
    exact xmlRun_text (t := []) hx
  | res _ => exact ho.elim
  | coll _ => exact ho.elim
  | stmt _ => exact ho.elim

/-- The statements read from the properties of a subject. -/
def rereadProps (pr : Char → Bool) (iri : XName → Iri) (s : Subject) (qs : List (XName × Object)) : List Stmt :=
  qs.map fun q => .mk s (iri q.1) (xmlReread pr q.2)

theorem xmlRun_props {base : Option Iri} {s : Subject} {rest : List XmlFrame} {iri : XName → Iri}
    {qs : List (XName × Object)} (h : ∀ q ∈ qs, NameRead env q.1 (iri q.1) ∧ ReadObject env q.2)
    {st : XmlState} {evs : List XmlIn} :
    xmlRun env sty gen emit (.predicate base s false :: rest) st (qs.flatMap (fun q => propIn q.1 q.2) ++ evs) =
      xmlRun env sty gen emit (.predicate base s false :: rest)
        { st with graph := (rereadProps env.pr iri s qs).foldl Graph.insert st.graph } evs := by
  induction qs generalizing st with
  | nil => rfl
  | cons q qs ih =>
    rw [List.flatMap_cons, List.append_assoc]
    obtain ⟨h1, h2⟩ := h q (List.mem_cons_self ..)
    rw [xmlRun_prop h1 h2, ih fun q hq => h q (List.mem_cons_of_mem _ hq)]
    rfl

/-- A subject that the reader takes. -/
def ReadSubject (env : ReadEnv) : Subject → Prop
  | .res i => IriRead env i
  | .blank b => blankValid env.blankOk b = true
  | .stmt _ => False

theorem description_eq : rdfX (str! "Description") = (⟨some rdfTable.ns, str! "Description"⟩ : XName) := by
  rw [rdfTable_ns]; rfl

theorem rdf_eq : rdfX (str! "RDF") = (⟨some rdfTable.ns, str! "RDF"⟩ : XName) := by
  rw [rdfTable_ns]; rfl

theorem xmlStep_node {base : Option Iri} {s : Subject} (hs : ReadSubject env s) {rest : List XmlFrame}
    {st : XmlState} :
    xmlStep env sty gen emit (.subject base :: rest) st (.start (rdfX (str! "Description")) (nodeAttr s)) =
      .ok (.predicate base s false :: .subject base :: rest, st) := by
  cases s with
  | res i =>
    simp only [xmlStep, xmlNodeElement, nodeAttr, xmlAttributes_about hs, Res.bind, noAttributes,
      xmlSubjectNode, xmlPropertyAttributes]
    rw [if_pos description_eq]
    rfl
  | blank b =>
    have : blankParse env.blankOk b = some b := by
      have h : blankValid env.blankOk b = true := hs
      simp [blankParse, h]
    simp only [xmlStep, xmlNodeElement, nodeAttr, xmlAttributes_nodeId, Res.bind, noAttributes,
      xmlSubjectNode, xmlPropertyAttributes, this, Res.ofOption]
    rw [if_pos description_eq]
    rfl
  | stmt _ => exact hs.elim

/-- The statements read from flat node elements. -/
def rereadDescs (pr : Char → Bool) (iri : XName → Iri) (ds : List (Subject × List (XName × Object))) :
    List Stmt := ds.flatMap fun d => rereadProps pr iri d.1 d.2

theorem xmlRun_descs {base : Option Iri} {rest : List XmlFrame} {iri : XName → Iri}
    {ds : List (Subject × List (XName × Object))}
    (h : ∀ d ∈ ds, ReadSubject env d.1 ∧ ∀ q ∈ d.2, NameRead env q.1 (iri q.1) ∧ ReadObject env q.2)
    {st : XmlState} {evs : List XmlIn} :
    xmlRun env sty gen emit (.subject base :: rest) st (ds.flatMap descIn ++ evs) =
      xmlRun env sty gen emit (.subject base :: rest)
        { st with graph := (rereadDescs env.pr iri ds).foldl Graph.insert st.graph } evs := by
  induction ds generalizing st with
  | nil => rfl
  | cons d ds ih =>
    obtain ⟨h1, h2⟩ := h d (List.mem_cons_self ..)
    simp only [List.flatMap_cons, List.append_assoc, descIn, List.cons_append]
    rw [xmlRun_ok (xmlStep_node h1), xmlRun_props h2, List.nil_append, xmlRun_ok (by rfl),
      ih fun d hd => h d (List.mem_cons_of_mem _ hd)]
    simp [rereadDescs]

theorem readXml_flat {n : Nat} {iri : XName → Iri} {ds : List (Subject × List (XName × Object))}
    (h : ∀ d ∈ ds, ReadSubject env d.1 ∧ ∀ q ∈ d.2, NameRead env q.1 (iri q.1) ∧ ReadObject env q.2) :
    readXml env sty gen n emit (flatIn ds) =
      .ok ((rereadDescs env.pr iri ds).foldl Graph.insert Graph.default) := by
  unfold readXml flatIn
  have h1 : xmlStep env sty gen emit [] ⟨Graph.default, n⟩ (.start (rdfX (str! "RDF")) []) =
      .ok ([.subject none], ⟨Graph.default, n⟩) := by
    simp only [xmlStep, xmlAttributes_nil, Res.bind, noAttributes]
    rw [if_pos rdf_eq]
  simp only [List.cons_append]
  rw [xmlRun_ok (by rfl), xmlRun_ok h1, xmlRun_descs h, xmlRun_ok (by rfl)]
  rfl

/-- After a property element with `rdf:resource` the end of the node element ends the reading of
the document, and the next node element is an error. -/
theorem readXml_resource {n : Nat} {iri : XName → Iri} {ds : List (Subject × List (XName × Object))}
    {s : Subject} {qs : List (XName × Object)} {x : XName} {p i : Iri} {as : List XAttr} {evs : List XmlIn}
    (h : ∀ d ∈ ds, ReadSubject env d.1 ∧ ∀ q ∈ d.2, NameRead env q.1 (iri q.1) ∧ ReadObject env q.2)
    (hs : ReadSubject env s) (hq : ∀ q ∈ qs, NameRead env q.1 (iri q.1) ∧ ReadObject env q.2)
    (hx : NameRead env x p) (hi : IriRead env i) (ha : ∃ a, xmlAttributes env as = .ok a) :
    readXml env sty gen n emit (.other :: .start (rdfX (str! "RDF")) [] :: ds.flatMap descIn ++
      (.start (rdfX (str! "Description")) (nodeAttr s) :: qs.flatMap (fun q => propIn q.1 q.2) ++
        (propIn x (.res i) ++ .stop (rdfX (str! "Description")) ::
          .start (rdfX (str! "Description")) as :: evs))) = .err := by
  unfold readXml
  have h1 : xmlStep env sty gen emit [] ⟨Graph.default, n⟩ (.start (rdfX (str! "RDF")) []) =
      .ok ([.subject none], ⟨Graph.default, n⟩) := by
    simp only [xmlStep, xmlAttributes_nil, Res.bind, noAttributes]
    rw [if_pos rdf_eq]
  simp only [List.cons_append]
  rw [xmlRun_ok (by rfl), xmlRun_ok h1, xmlRun_descs h, xmlRun_ok (xmlStep_node hs), xmlRun_props hq]
  simp only [propIn, propHead, List.cons_append, List.nil_append]
  have h2 : ∀ base s rest st, xmlStep env sty gen emit (.predicate base s false :: rest) st
      (.start x [⟨rdfX (str! "resource"), i.text⟩]) =
      .ok (.predicate base s true :: rest, st.insert s p (.res i)) := fun base s rest st => by
    simp only [xmlStep, xmlPropertyElement, xmlAttributes_resource hi, Res.bind, noAttributes,
      nameToIri_read hx]
    rfl
  rw [xmlRun_ok (h2 ..), xmlRun_ok (by rfl), xmlRun_ok (by rfl)]
  obtain ⟨a, ha⟩ := ha
  apply xmlRun_err
  simp only [xmlStep, ha, Res.bind]
  rw [if_neg]
  rw [rdfTable_ns]
  decide +kernel

/-! ### The end of the document -/

/-- How many elements a call has to see ended at least. -/
def XmlFrame.weight : XmlFrame → Nat
  | .literal _ _ opened _ => opened + 1
  | _ => 1

/-- The same for all calls. -/
def weights (stack : List XmlFrame) : Nat := (stack.map XmlFrame.weight).sum

theorem Res.bind_ok {α β : Type _} {x : Res α} {f : α → Res β} {b : β} (h : x.bind f = .ok b) :
    ∃ a, x = .ok a ∧ f a = .ok b := by
  cases x with
  | ok a => exact ⟨a, rfl, h⟩
  | err => cases h
  | panic => cases h

theorem weights_cons (f : XmlFrame) (fs : List XmlFrame) : weights (f :: fs) = f.weight + weights fs := by
  simp [weights]

theorem xmlPropertyElement_weight {base : Option Iri} {s : Subject} {st st' : XmlState} {name : XName}
    {as : List XAttr} {fs : List XmlFrame}
    (h : xmlPropertyElement env base s st name as = .ok (fs, st')) : weights fs ≤ 2 := by
  obtain ⟨a, _, h⟩ := Res.bind_ok h
  split at h
  · obtain ⟨p, _, h⟩ := Res.bind_ok h
    cases h
    simp [weights, XmlFrame.weight]
  · split at h <;> cases h <;> simp [weights, XmlFrame.weight]

theorem xmlNodeElement_weight {base : Option Iri} {st : XmlState} {name : XName} {as : List XAttr}
    {r : XmlFrame × XmlState} (h : xmlNodeElement env sty gen base st name as = .ok r) : r.1.weight = 1 := by
  obtain ⟨a, _, h⟩ := Res.bind_ok h
  obtain ⟨b, _, h⟩ := Res.bind_ok h
  obtain ⟨c, _, h⟩ := Res.bind_ok h
  obtain ⟨d, _, h⟩ := Res.bind_ok h
  cases h
  rfl

/-- The calls never wait for more elements to end than there are open. -/
theorem xmlStep_weight {stack stack' : List XmlFrame} {st st' : XmlState} {ev : XmlIn}
    (h : xmlStep env sty gen emit stack st ev = .ok (stack', st')) :
    match ev with
    | .start _ _ => weights stack' ≤ weights stack + 1
    | .stop _ => weights stack' ≤ weights stack - 1
    | _ => weights stack' ≤ weights stack := by
  cases stack with
  | nil =>
    cases ev with
    | start name attrs =>
      obtain ⟨a, _, h⟩ := Res.bind_ok h
      split at h
      · cases h; simp [weights, XmlFrame.weight]
      · cases h
    | bad => cases h
    | _ => cases h; exact Nat.le_refl _
  | cons f rest =>
    cases f with
    | subject base =>
      cases ev with
      | start name attrs =>
        obtain ⟨r, hr, h⟩ := Res.bind_ok h
        cases h
        have := xmlNodeElement_weight hr
        simp only [weights_cons, this]
        omega
      | stop _ => cases h; simp only [weights_cons, XmlFrame.weight]; omega
      | bad => cases h
      | _ => cases h; exact Nat.le_refl _
    | predicate base s noChild =>
      cases ev with
      | start name attrs =>
        simp only [xmlStep] at h
        split at h
        · cases h
        · obtain ⟨r, hr, h⟩ := Res.bind_ok h
          cases h
          have := xmlPropertyElement_weight (fs := r.1) (st' := r.2) hr
          have e : weights (r.1 ++ rest) = weights r.1 + weights rest := by simp [weights]
          simp only [weights_cons, XmlFrame.weight, e]
          omega
      | stop _ => cases h; simp only [weights_cons, XmlFrame.weight]; omega
      | bad => cases h
      | _ => cases h; exact Nat.le_refl _
    | object base s name a content he hc =>
      cases ev with
      | start n attrs =>
        simp only [xmlStep] at h
        split at h
        · cases h
        · obtain ⟨r, hr, h⟩ := Res.bind_ok h
          cases h
          simp only [weights_cons, XmlFrame.weight]
          omega
      | stop _ =>
        obtain ⟨r, hr, h⟩ := Res.bind_ok h
        cases h
        simp only [weights_cons, XmlFrame.weight]
        omega
      | chars t =>
        simp only [xmlStep] at h
        split at h
        · cases h
        · cases h; simp only [weights_cons, XmlFrame.weight]; omega
      | cdata t =>
        simp only [xmlStep] at h
        split at h
        · cases h
        · cases h; simp only [weights_cons, XmlFrame.weight]; omega
      | bad => cases h
      | _ => cases h; exact Nat.le_refl _
    | literal s name opened content =>
      cases ev with
      | start n attrs => cases h; simp only [weights_cons, XmlFrame.weight]; omega
      | stop n =>
        match opened, h with
        | 0, h => cases h
        | 1, h =>
          simp only [xmlStep] at h
          split at h
          · cases h
          · obtain ⟨r, hr, h⟩ := Res.bind_ok h
            cases h
            simp only [weights_cons, XmlFrame.weight]
            omega
        | k + 2, h => cases h; simp only [weights_cons, XmlFrame.weight]; omega
      | bad => cases h
      | chars t => cases h; simp only [weights_cons, XmlFrame.weight]; omega
      | cdata t => cases h; simp only [weights_cons, XmlFrame.weight]; omega
      | space t => cases h; simp only [weights_cons, XmlFrame.weight]; omega
      | other => cases h; simp only [weights_cons, XmlFrame.weight]; omega

theorem mem_insert {g : Graph} {x t : Stmt} (h : t ∈ (g.insert x).stmts) : t ∈ g.stmts ∨ t = x := by
  unfold Graph.insert Graph.stmts at *
  cases hs : g.statements with
  | nonUnique l =>
    rw [hs] at h
    simpa [Statements.insert, Statements.iter] using h
  | unique l =>
    rw [hs] at h
    exact mem_setInsert.1 h

/-- The objects read so far are those the reader makes. -/
def XmlState.Readable (st : XmlState) : Prop := ∀ t ∈ st.graph.stmts, readable t.object = true

/-- No type is kept for the literal. -/
def XmlFrame.untyped : XmlFrame → Prop
  | .object _ _ _ a _ _ _ => a.dataType = none
  | _ => True

theorem XmlState.Readable.insert {st : XmlState} (h : st.Readable) {s : Subject} {p : Iri} {o : Object}
    (ho : readable o = true) : (st.insert s p o).Readable := by
  intro t ht
  rcases mem_insert ht with ht | rfl
  · exact h t ht
  · exact ho

theorem xmlAttribute_untyped {r r' : XmlAttributes} {a : XAttr} (h : xmlAttribute env r a = .ok r')
    (hr : r.dataType = none) : r'.dataType = none := by
  unfold xmlAttribute at h
  split at h
  · split at h
    · obtain ⟨_, _, h⟩ := Res.bind_ok h; cases h; exact hr
    · split at h
      · obtain ⟨_, _, h⟩ := Res.bind_ok h; cases h; exact hr
      · cases h; exact hr
  · split at h
    · split at h
      · obtain ⟨_, _, h⟩ := Res.bind_ok h; cases h; exact hr
      · split at h
        · cases h; exact hr
        · split at h
          · cases h; exact hr
          · split at h
            · obtain ⟨_, _, h⟩ := Res.bind_ok h; cases h; exact hr
            · split at h
              · split at h
                · cases h; exact hr
                · split at h
                  · cases h; exact hr
                  · split at h
                    · cases h; exact hr
                    · cases h
              · cases h; exact hr
    · cases h; exact hr

theorem xmlAttributes_untyped {as : List XAttr} {r : XmlAttributes} (h : xmlAttributes env as = .ok r) :
    r.dataType = none := by
  have : ∀ (as : List XAttr) (r r' : XmlAttributes), r.dataType = none →
      xmlAttributesFrom env r as = .ok r' → r'.dataType = none := by
    intro as
    induction as with
    | nil => intro r r' hr h; cases h; exact hr
    | cons a as ih =>
      intro r r' hr h
      obtain ⟨r1, h1, h⟩ := Res.bind_ok h
      exact ih r1 r' (xmlAttribute_untyped h1 hr) h
  exact this as _ r rfl h

theorem readable_content {a : XmlAttributes} (h : a.dataType = none) (t : Str) :
    readable (.lit (xmlContentLiteral env a t)) = true := by
  unfold xmlContentLiteral
  rw [h]
  cases a.language <;> rfl

theorem xmlPropertyAttributes_readable {s : Subject} {as : List XAttr} {st st' : XmlState}
    (h : xmlPropertyAttributes env s st as = .ok st') (hst : st.Readable) : st'.Readable := by
  induction as generalizing st with
  | nil => cases h; exact hst
  | cons a as ih =>
    obtain ⟨p, _, h⟩ := Res.bind_ok h
    exact ih h (hst.insert rfl)

theorem xmlStep_readable {stack stack' : List XmlFrame} {st st' : XmlState} {ev : XmlIn}
    (h : xmlStep env sty gen emit stack st ev = .ok (stack', st')) (hst : st.Readable)
    (hf : ∀ f ∈ stack, f.untyped) : st'.Readable ∧ ∀ f ∈ stack', f.untyped := by
  cases stack with
  | nil =>
    cases ev with
    | start name attrs =>
      obtain ⟨a, _, h⟩ := Res.bind_ok h
      split at h
      · cases h; exact ⟨hst, by simp [XmlFrame.untyped]⟩
      · cases h
    | bad => cases h
    | _ => cases h; exact ⟨hst, hf⟩
  | cons f rest =>
    have hrest : ∀ f ∈ rest, f.untyped := fun f hm => hf f (List.mem_cons_of_mem _ hm)
    have hfirst := hf f (List.mem_cons_self ..)
    cases f with
    | subject base =>
      cases ev with
      | start name attrs =>
        obtain ⟨r, hr, h⟩ := Res.bind_ok h
        cases h
        obtain ⟨a, _, hr⟩ := Res.bind_ok hr
        obtain ⟨b, _, hr⟩ := Res.bind_ok hr
        obtain ⟨c, hc, hr⟩ := Res.bind_ok hr
        obtain ⟨d, hd, hr⟩ := Res.bind_ok hr
        cases hr
        refine ⟨xmlPropertyAttributes_readable hd ?_, ?_⟩
        · split at hc
          · cases hc; exact hst
          · obtain ⟨t, _, hc⟩ := Res.bind_ok hc
            cases hc
            exact XmlState.Readable.insert (st := { st with count := b.2 }) hst rfl
        · intro f hm
          rcases List.mem_cons.1 hm with rfl | hm
          · trivial
          · exact hf f hm
      | stop _ => cases h; exact ⟨hst, hrest⟩
      | bad => cases h
      | _ => cases h; exact ⟨hst, hf⟩
    | predicate base s noChild =>
      cases ev with
      | start name attrs =>
        simp only [xmlStep] at h
        split at h
        · cases h
        · obtain ⟨r, hr, h⟩ := Res.bind_ok h
          cases h
          obtain ⟨a, ha, hr⟩ := Res.bind_ok hr
          have hu := xmlAttributes_untyped ha
          split at hr
          · obtain ⟨p, _, hr⟩ := Res.bind_ok hr
            cases hr
            refine ⟨hst.insert rfl, ?_⟩
            intro f hm
            rcases List.mem_cons.1 hm with rfl | hm
            · trivial
            · exact hrest f hm
          · split at hr
            · cases hr
              refine ⟨hst, fun f hm => ?_⟩
              simp only [List.cons_append, List.nil_append, List.mem_cons] at hm
              rcases hm with rfl | rfl | hm
              · exact hu
              · trivial
              · exact hrest f hm
            · cases hr
              refine ⟨hst, fun f hm => ?_⟩
              simp only [List.cons_append, List.nil_append, List.mem_cons] at hm
              rcases hm with rfl | rfl | hm
              · trivial
              · trivial
              · exact hrest f hm
            · cases hr
              refine ⟨hst, fun f hm => ?_⟩
              simp only [List.cons_append, List.nil_append, List.mem_cons] at hm
              rcases hm with rfl | rfl | hm
              · trivial
              · trivial
              · exact hrest f hm
            · cases hr
      | stop _ => cases h; exact ⟨hst, hrest⟩
      | bad => cases h
      | _ => cases h; exact ⟨hst, hf⟩
    | object base s name a content he hc =>
      cases ev with
      | start n attrs =>
        simp only [xmlStep] at h
        split at h
        · cases h
        · obtain ⟨r, hr, h⟩ := Res.bind_ok h
          cases h
          refine ⟨hst, fun f hm => ?_⟩
          simp only [List.mem_cons] at hm
          rcases hm with rfl | rfl | hm
          · trivial
          · exact hfirst
          · exact hrest f hm
      | stop _ =>
        obtain ⟨r, hr, h⟩ := Res.bind_ok h
        cases h
        exact ⟨hst.insert (readable_content hfirst _), hrest⟩
      | chars t =>
        simp only [xmlStep] at h
        split at h
        · cases h
        · cases h
          refine ⟨hst, fun f hm => ?_⟩
          rcases List.mem_cons.1 hm with rfl | hm
          · exact hfirst
          · exact hrest f hm
      | cdata t =>
        simp only [xmlStep] at h
        split at h
        · cases h
        · cases h
          refine ⟨hst, fun f hm => ?_⟩
          rcases List.mem_cons.1 hm with rfl | hm
          · exact hfirst
          · exact hrest f hm
      | bad => cases h
      | _ => cases h; exact ⟨hst, hf⟩
    | literal s name opened content =>
      have more : ∀ o c, ∀ f ∈ XmlFrame.literal s name o c :: rest, f.untyped := fun o c f hm => by
        rcases List.mem_cons.1 hm with rfl | hm
        · trivial
        · exact hrest f hm
      cases ev with
      | start n attrs => cases h; exact ⟨hst, more _ _⟩
      | stop n =>
        match opened, h with
        | 0, h => cases h
        | 1, h =>
          simp only [xmlStep] at h
          split at h
          · cases h
          · obtain ⟨r, hr, h⟩ := Res.bind_ok h
            cases h
            exact ⟨hst.insert rfl, hrest⟩
        | k + 2, h => cases h; exact ⟨hst, more _ _⟩
      | bad => cases h
      | chars t => cases h; exact ⟨hst, more _ _⟩
      | cdata t => cases h; exact ⟨hst, more _ _⟩
      | space t => cases h; exact ⟨hst, more _ _⟩
      | other => cases h; exact ⟨hst, more _ _⟩

theorem xmlRun_readable {stack : List XmlFrame} {st : XmlState} {evs : List XmlIn} {g : Graph}
    (hst : st.Readable) (hf : ∀ f ∈ stack, f.untyped)
    (h : xmlRun env sty gen emit stack st evs = .ok g) : ∀ t ∈ g.stmts, readable t.object = true := by
  induction evs generalizing stack st with
  | nil =>
    cases stack with
    | nil => cases h; exact hst
    | cons _ _ => cases h
  | cons ev evs ih =>
    generalize hs : xmlStep env sty gen emit stack st ev = r at *
    cases r with
    | ok r =>
      obtain ⟨stack', st'⟩ := r
      rw [xmlRun_ok hs] at h
      obtain ⟨h1, h2⟩ := xmlStep_readable hs hst hf
      exact ih h1 h2 h
    | err => rw [xmlRun_err hs] at h; cases h
    | panic => cases stack <;> simp [xmlRun, hs] at h

/-! ### Panics -/

theorem nameToIri_calm {x : XName} (h : x.ns.isSome = true) : nameToIri env x ≠ .panic := by
  unfold nameToIri
  cases e : x.ns with
  | none => rw [e] at h; cases h
  | some ns => cases hh : Iri.fromStr env.url (ns ++ x.loc) <;> simp [hh, Res.ofOption]

theorem Res.bind_calm {α β : Type _} {x : Res α} {f : α → Res β} (hx : x ≠ .panic)
    (hf : ∀ a, x = .ok a → f a ≠ .panic) : x.bind f ≠ .panic := by
  cases x with
  | ok a => exact hf a rfl
  | err => simp [Res.bind]
  | panic => exact absurd rfl hx

theorem ofOption_calm {α : Type _} (x : Option α) : Res.ofOption x ≠ .panic := by
  cases x <;> simp [Res.ofOption]

/-- Attributes without `rdf:ID`, XML literals and collections. -/
def XmlAttributes.Calm (r : XmlAttributes) : Prop :=
  (∀ s, r.subject ≠ some (.relative s)) ∧ (r.parseType = none ∨ r.parseType = some .resource) ∧
    ∀ a ∈ r.inner, a.name.ns.isSome = true

theorem calm_cases {a : XAttr} (h : calmAttr a = true) : a.name.ns.isSome = true ∧
    a.name ≠ rdfX (str! "ID") ∧ (a.name = rdfX (str! "parseType") → a.value = str! "Resource") := by
  simp only [calmAttr, Bool.and_eq_true, bne_iff_ne, Bool.or_eq_true, beq_iff_eq] at h
  exact ⟨h.1.1, h.1.2, fun e => h.2.resolve_left (fun h => h e)⟩

theorem xmlAttribute_calm {r : XmlAttributes} {a : XAttr} (ha : calmAttr a = true) (hr : r.Calm) :
    xmlAttribute env r a ≠ .panic ∧ ∀ r', xmlAttribute env r a = .ok r' → r'.Calm := by
  obtain ⟨h1, h2, h3⟩ := calm_cases ha
  obtain ⟨⟨ns, loc⟩, v⟩ := a
  simp only at h1 h2 h3
  by_cases hx : ns = some xmlNamespace
  · subst hx
    unfold xmlAttribute
    simp only [if_true]
    split
    · refine ⟨Res.bind_calm (ofOption_calm _) (fun _ _ => by simp), fun r' h => ?_⟩
      obtain ⟨_, _, h⟩ := Res.bind_ok h; cases h; exact hr
    · split
      · refine ⟨Res.bind_calm (ofOption_calm _) (fun _ _ => by simp), fun r' h => ?_⟩
        obtain ⟨_, _, h⟩ := Res.bind_ok h; cases h; exact hr
      · exact ⟨by simp, fun r' h => by cases h; exact hr⟩
  · by_cases hy : ns = some rdfTable.ns
    · rw [rdfTable_ns] at hy
      subst hy
      have e : xmlAttribute env r ⟨⟨some rdfNs, loc⟩, v⟩ = _ := xmlAttribute_rdf (s := loc)
      rw [e]
      split
      · refine ⟨Res.bind_calm (ofOption_calm _) (fun _ _ => by simp), fun r' h => ?_⟩
        obtain ⟨_, _, h⟩ := Res.bind_ok h; cases h
        exact ⟨by simp, hr.2⟩
      · split
        · exact ⟨by simp, fun r' h => by cases h; exact ⟨by simp, hr.2⟩⟩
        · split
          · rename_i hid
            subst hid
            exact absurd rfl h2
          · split
            · refine ⟨Res.bind_calm (ofOption_calm _) (fun _ _ => by simp), fun r' h => ?_⟩
              obtain ⟨_, _, h⟩ := Res.bind_ok h; cases h
              exact hr
            · split
              · rename_i hp
                subst hp
                have := h3 rfl
                subst this
                rw [if_neg (by decide), if_pos rfl]
                exact ⟨by simp, fun r' h => by cases h; exact ⟨hr.1, .inr rfl, hr.2.2⟩⟩
              · exact ⟨by simp, fun r' h => by cases h; exact hr⟩
    · unfold xmlAttribute
      simp only [hx, hy, if_false]
      refine ⟨by simp, fun r' h => ?_⟩
      cases h
      refine ⟨hr.1, hr.2.1, fun b hb => ?_⟩
      rcases List.mem_append.1 hb with hb | hb
      · exact hr.2.2 b hb
      · simp only [List.mem_singleton] at hb
        subst hb
        exact h1

theorem xmlAttributes_calm {as : List XAttr} (h : as.all calmAttr = true) :
    xmlAttributes env as ≠ .panic ∧ ∀ r, xmlAttributes env as = .ok r → r.Calm := by
  have : ∀ (as : List XAttr) (r : XmlAttributes), as.all calmAttr = true → r.Calm →
      xmlAttributesFrom env r as ≠ .panic ∧ ∀ r', xmlAttributesFrom env r as = .ok r' → r'.Calm := by
    intro as
    induction as with
    | nil => intro r _ hr; exact ⟨by simp [xmlAttributesFrom], fun r' h => by cases h; exact hr⟩
    | cons a as ih =>
      intro r h hr
      simp only [List.all_cons, Bool.and_eq_true] at h
      obtain ⟨h1, h2⟩ := xmlAttribute_calm (env := env) h.1 hr
      refine ⟨Res.bind_calm h1 fun r1 e => (ih r1 h.2 (h2 r1 e)).1, fun r' h' => ?_⟩
      obtain ⟨r1, e, h'⟩ := Res.bind_ok h'
      exact (ih r1 h.2 (h2 r1 e)).2 r' h'
  exact this as _ h ⟨by simp, .inl rfl, by simp⟩

/-- Calls that do not panic when they return. -/
def XmlFrame.Calm : XmlFrame → Prop
  | .object _ _ name _ _ _ _ => name.ns.isSome = true
  | .literal _ _ _ _ => False
  | _ => True

theorem xmlPropertyAttributes_calm {s : Subject} {as : List XAttr} {st : XmlState}
    (h : ∀ a ∈ as, a.name.ns.isSome = true) : xmlPropertyAttributes env s st as ≠ .panic := by
  induction as generalizing st with
  | nil => simp [xmlPropertyAttributes]
  | cons a as ih =>
    exact Res.bind_calm (nameToIri_calm (h a (List.mem_cons_self ..))) fun p _ =>
      ih fun a ha => h a (List.mem_cons_of_mem _ ha)

theorem xmlStep_calm {stack : List XmlFrame} {st : XmlState} {ev : XmlIn} (he : calm ev = true)
    (hf : ∀ f ∈ stack, f.Calm) : xmlStep env sty gen emit stack st ev ≠ .panic ∧
      ∀ stack' st', xmlStep env sty gen emit stack st ev = .ok (stack', st') → ∀ f ∈ stack', f.Calm := by
  cases stack with
  | nil =>
    cases ev with
    | start name attrs =>
      simp only [calm, Bool.and_eq_true] at he
      obtain ⟨h1, h2⟩ := xmlAttributes_calm (env := env) he.2
      refine ⟨Res.bind_calm h1 fun a _ => ?_, fun _ _ h => ?_⟩
      · split <;> simp
      · obtain ⟨a, _, h⟩ := Res.bind_ok h
        split at h
        · cases h; simp [XmlFrame.Calm]
        · cases h
    | bad => exact ⟨by simp [xmlStep], fun _ _ h => by cases h⟩
    | _ => exact ⟨by simp [xmlStep], fun _ _ h => by cases h; exact hf⟩
  | cons f rest =>
    have hrest : ∀ f ∈ rest, f.Calm := fun f hm => hf f (List.mem_cons_of_mem _ hm)
    have hfirst := hf f (List.mem_cons_self ..)
    cases f with
    | subject base =>
      cases ev with
      | start name attrs =>
        simp only [calm, Bool.and_eq_true] at he
        obtain ⟨h1, h2⟩ := xmlAttributes_calm (env := env) he.2
        refine ⟨Res.bind_calm ?_ fun _ _ => by simp, fun _ _ h => ?_⟩
        · refine Res.bind_calm h1 fun a ha => ?_
          obtain ⟨c1, _, c3⟩ := h2 a ha
          refine Res.bind_calm ?_ fun b _ => ?_
          · cases hs : a.subject with
            | none => simp [xmlSubjectNode]
            | some x =>
              cases x with
              | blankNamed b => exact Res.bind_calm (ofOption_calm _) fun _ _ => by simp
              | resource i => simp [xmlSubjectNode]
              | relative t => exact absurd hs (c1 t)
          · refine Res.bind_calm ?_ fun c _ => ?_
            · split
              · simp
              · exact Res.bind_calm (nameToIri_calm he.1) fun _ _ => by simp
            · exact Res.bind_calm (xmlPropertyAttributes_calm c3) fun _ _ => by simp
        · obtain ⟨r, hr, h⟩ := Res.bind_ok h
          cases h
          obtain ⟨a, _, hr⟩ := Res.bind_ok hr
          obtain ⟨b, _, hr⟩ := Res.bind_ok hr
          obtain ⟨c, _, hr⟩ := Res.bind_ok hr
          obtain ⟨d, _, hr⟩ := Res.bind_ok hr
          cases hr
          intro f hm
          rcases List.mem_cons.1 hm with rfl | hm
          · trivial
          · exact hf f hm
      | stop _ => exact ⟨by simp [xmlStep], fun _ _ h => by cases h; exact hrest⟩
      | bad => exact ⟨by simp [xmlStep], fun _ _ h => by cases h⟩
      | _ => exact ⟨by simp [xmlStep], fun _ _ h => by cases h; exact hf⟩
    | predicate base s noChild =>
      cases ev with
      | start name attrs =>
        simp only [calm, Bool.and_eq_true] at he
        obtain ⟨h1, h2⟩ := xmlAttributes_calm (env := env) he.2
        simp only [xmlStep]
        split
        · exact ⟨by simp, fun _ _ h => by cases h⟩
        · refine ⟨Res.bind_calm ?_ fun _ _ => by simp, fun _ _ h => ?_⟩
          · refine Res.bind_calm h1 fun a ha => ?_
            obtain ⟨_, c2, _⟩ := h2 a ha
            split
            · exact Res.bind_calm (nameToIri_calm he.1) fun _ _ => by simp
            · rcases c2 with c2 | c2 <;> rw [c2] <;> simp
          · obtain ⟨r, hr, h⟩ := Res.bind_ok h
            cases h
            obtain ⟨a, ha, hr⟩ := Res.bind_ok hr
            obtain ⟨_, c2, _⟩ := h2 a ha
            split at hr
            · obtain ⟨p, _, hr⟩ := Res.bind_ok hr
              cases hr
              intro f hm
              rcases List.mem_cons.1 hm with rfl | hm
              · trivial
              · exact hrest f hm
            · rcases c2 with c2 | c2 <;> rw [c2] at hr <;> cases hr <;> intro f hm <;>
                simp only [List.cons_append, List.nil_append, List.mem_cons] at hm <;>
                rcases hm with rfl | rfl | hm
              · exact he.1
              · trivial
              · exact hrest f hm
              · trivial
              · trivial
              · exact hrest f hm
      | stop _ => exact ⟨by simp [xmlStep], fun _ _ h => by cases h; exact hrest⟩
      | bad => exact ⟨by simp [xmlStep], fun _ _ h => by cases h⟩
      | _ => exact ⟨by simp [xmlStep], fun _ _ h => by cases h; exact hf⟩
    | object base s name a content hel hch =>
      have more : ∀ c b b', ∀ f ∈ XmlFrame.object base s name a c b b' :: rest, f.Calm := fun c b b' f hm => by
        rcases List.mem_cons.1 hm with rfl | hm
        · exact hfirst
        · exact hrest f hm
      cases ev with
      | start n attrs =>
        simp only [calm, Bool.and_eq_true] at he
        obtain ⟨h1, h2⟩ := xmlAttributes_calm (env := env) he.2
        simp only [xmlStep]
        split
        · exact ⟨by simp, fun _ _ h => by cases h⟩
        · refine ⟨Res.bind_calm h1 fun _ _ => by simp, fun _ _ h => ?_⟩
          obtain ⟨r, hr, h⟩ := Res.bind_ok h
          cases h
          intro f hm
          rcases List.mem_cons.1 hm with rfl | hm
          · trivial
          · exact more _ _ _ f hm
      | stop _ =>
        refine ⟨Res.bind_calm (nameToIri_calm hfirst) fun _ _ => by simp, fun _ _ h => ?_⟩
        obtain ⟨r, hr, h⟩ := Res.bind_ok h
        cases h
        exact hrest
      | chars t =>
        simp only [xmlStep]
        split
        · exact ⟨by simp, fun _ _ h => by cases h⟩
        · exact ⟨by simp, fun _ _ h => by cases h; exact more _ _ _⟩
      | cdata t =>
        simp only [xmlStep]
        split
        · exact ⟨by simp, fun _ _ h => by cases h⟩
        · exact ⟨by simp, fun _ _ h => by cases h; exact more _ _ _⟩
      | bad => exact ⟨by simp [xmlStep], fun _ _ h => by cases h⟩
      | _ => exact ⟨by simp [xmlStep], fun _ _ h => by cases h; exact hf⟩
    | literal s name opened content => exact hfirst.elim

theorem xmlRun_calm {stack : List XmlFrame} {st : XmlState} {evs : List XmlIn}
    (he : ∀ ev ∈ evs, calm ev = true) (hf : ∀ f ∈ stack, f.Calm) :
    xmlRun env sty gen emit stack st evs ≠ .panic := by
  induction evs generalizing stack st with
  | nil => cases stack <;> simp [xmlRun]
  | cons ev evs ih =>
    obtain ⟨h1, h2⟩ := xmlStep_calm (env := env) (sty := sty) (gen := gen) (emit := emit) (st := st)
      (he ev (List.mem_cons_self ..)) hf
    generalize hs : xmlStep env sty gen emit stack st ev = r at *
    cases r with
    | ok r =>
      obtain ⟨stack', st'⟩ := r
      rw [xmlRun_ok hs]
      exact ih (fun ev h => he ev (List.mem_cons_of_mem _ h)) (h2 _ _ rfl)
    | err => rw [xmlRun_err hs]; exact fun h => by cases h
    | panic => exact absurd rfl h1

theorem weight_pos (f : XmlFrame) : 0 < f.weight := by cases f <;> simp [XmlFrame.weight]

theorem xmlRun_ends {k : Nat} {stack : List XmlFrame} {st : XmlState} {evs : List XmlIn}
    (hk : weights stack ≤ k) (hn : wellNested k evs = true) : xmlRun env sty gen emit stack st evs ≠ .deep := by
  induction evs generalizing k stack st with
  | nil =>
    cases stack with
    | nil => simp [xmlRun]
    | cons f fs =>
      simp only [wellNested, beq_iff_eq] at hn
      have := weight_pos f
      rw [weights_cons] at hk
      omega
  | cons ev evs ih =>
    generalize hs : xmlStep env sty gen emit stack st ev = r
    cases r with
    | ok r =>
      obtain ⟨stack', st'⟩ := r
      rw [xmlRun_ok hs]
      have hw := xmlStep_weight hs
      cases ev with
      | start n as => exact ih (k := k + 1) (by simp only at hw; omega) hn
      | stop n =>
        cases k with
        | zero => simp [wellNested] at hn
        | succ k => exact ih (k := k) (by simp only at hw; omega) hn
      | chars t => exact ih (k := k) (by simp only at hw; omega) hn
      | cdata t => exact ih (k := k) (by simp only at hw; omega) hn
      | space t => exact ih (k := k) (by simp only at hw; omega) hn
      | other => exact ih (k := k) (by simp only at hw; omega) hn
      | bad => exact ih (k := k) (by simp only at hw; omega) hn
    | err => rw [xmlRun_err hs]; exact fun h => by cases h
    | panic => cases stack <;> simp [xmlRun, hs]

end

end Rdftk
