import Verif.Props.DotSame

/-! Diagrams that the command `draw` makes of RDF/XML documents (C210). -/

namespace Rdftk
open Spec

/-! ### What is read -/

/-- A literal as RDF/XML documents give them, but for its type. -/
def XmlSafe (l : Literal) : Prop := dotSafe l.lexicalForm ∧ (l.dataType = none ∨ l.language = none)

/-- A blank node, or a resource as said. -/
def PlainSubject (Q : Iri → Prop) (s : Subject) : Prop := (∃ b, s = .blank b) ∨ ∃ i, s = .res i ∧ Q i

/-- The subject is no statement, the IRIs are as said and a literal can stand in quotes. -/
def XmlDrawn (Q : Iri → Prop) (st : Stmt) : Prop :=
  PlainSubject Q st.subject ∧ Q st.predicate ∧ (∀ i, st.object = .res i → Q i) ∧ ∀ l, st.object = .lit l → XmlSafe l

/-- The call has no statement as its subject and no data type. -/
def XmlFrame.plain (Q : Iri → Prop) : XmlFrame → Prop
  | .subject _ => True
  | .predicate _ s _ => PlainSubject Q s
  | .object _ s _ a _ _ _ => PlainSubject Q s ∧ a.dataType = none
  | .literal s _ _ _ => PlainSubject Q s

/-- Every statement of the state. -/
def XmlState.Drawn (Q : Iri → Prop) (st : XmlState) : Prop := ∀ t ∈ st.graph.stmts, XmlDrawn Q t

variable {env : ReadEnv} {sty : IriStyle} {gen : Nat → Str} {emit : Emit} {Q : Iri → Prop}

theorem XmlState.Drawn.insert {st : XmlState} (h : st.Drawn Q) {s : Subject} {p : Iri} {o : Object} (hs : PlainSubject Q s)
    (hp : Q p) (hi : ∀ i, o = .res i → Q i) (ho : ∀ l, o = .lit l → XmlSafe l) : (st.insert s p o).Drawn Q := by
  intro t ht
  rcases (insert_mem _ _ _).1 ht with h2 | rfl
  · exact h t h2
  · exact ⟨hs, hp, hi, ho⟩

theorem xmlSafe_plain (t : Str) : XmlSafe (Literal.plain env.pr t) := ⟨noBareQuote_escapeString _ _, .inl rfl⟩

theorem xmlSafe_typed (t : Str) (d : DataType) : XmlSafe (Literal.withDataType env.pr t d) :=
  ⟨noBareQuote_escapeString _ _, .inr rfl⟩

theorem xmlSafe_content {a : XmlAttributes} (h : a.dataType = none) (t : Str) : XmlSafe (xmlContentLiteral env a t) := by
  unfold xmlContentLiteral
  rw [h]
  cases a.language with
  | none => exact xmlSafe_plain t
  | some l => exact ⟨noBareQuote_escapeString _ _, .inl rfl⟩

theorem valueToIri_free (he : ∀ t i, env.url t = some i → Q i) {s : Str} {i : Iri} (h : valueToIri env s = .ok i) : Q i :=
  fromStr_free he (ofOption_ok h)

theorem nameToIri_free (he : ∀ t i, env.url t = some i → Q i) {x : XName} {i : Iri} (h : nameToIri env x = .ok i) : Q i := by
  unfold nameToIri at h
  split at h
  · cases h
  · exact fromStr_free he (ofOption_ok h)

/-- The IRIs among attributes are as said. -/
def XmlAttributes.Free (Q : Iri → Prop) (r : XmlAttributes) : Prop :=
  (∀ i, r.subject = some (.resource i) → Q i) ∧ ∀ i, r.resource = some i → Q i

theorem xmlAttribute_free (he : ∀ t i, env.url t = some i → Q i) {r r' : XmlAttributes} {a : XAttr}
    (h : xmlAttribute env r a = .ok r') (hr : r.Free Q) : r'.Free Q := by
  unfold xmlAttribute at h
  split at h
  · split at h
    · obtain ⟨_, _, h⟩ := Res.bind_ok h; cases h; exact hr
    · split at h
      · obtain ⟨_, _, h⟩ := Res.bind_ok h; cases h; exact hr
      · cases h; exact hr
  · split at h
    · split at h
      · obtain ⟨i, hi, h⟩ := Res.bind_ok h
        cases h
        exact ⟨fun j e => by cases e; exact valueToIri_free he hi, hr.2⟩
      · split at h
        · cases h; exact ⟨fun j e => (by cases e), hr.2⟩
        · split at h
          · cases h; exact ⟨fun j e => (by cases e), hr.2⟩
          · split at h
            · obtain ⟨i, hi, h⟩ := Res.bind_ok h
              cases h
              exact ⟨hr.1, fun j e => by cases e; exact valueToIri_free he hi⟩
            · split at h
              · split at h
                · cases h; exact hr
                · split at h
                  · cases h; exact hr
                  · split at h
                    · cases h; exact hr
                    · cases h
              · cases h; exact hr
    · cases h; exact hr

theorem xmlAttributes_free (he : ∀ t i, env.url t = some i → Q i) {as : List XAttr} {r : XmlAttributes}
    (h : xmlAttributes env as = .ok r) : r.Free Q := by
  have : ∀ (as : List XAttr) (r r' : XmlAttributes), r.Free Q → xmlAttributesFrom env r as = .ok r' → r'.Free Q := by
    intro as
    induction as with
    | nil => intro r r' hr h; cases h; exact hr
    | cons a as ih =>
      intro r r' hr h
      obtain ⟨r1, h1, h⟩ := Res.bind_ok h
      exact ih r1 r' (xmlAttribute_free he h1 hr) h
  exact this as _ r ⟨fun i e => (by cases e), fun i e => (by cases e)⟩ h

theorem xmlPropertyAttributes_drawn (he : ∀ t i, env.url t = some i → Q i) {s : Subject} (hs : PlainSubject Q s)
    {as : List XAttr} {st st' : XmlState} (h : xmlPropertyAttributes env s st as = .ok st') (hst : st.Drawn Q) :
    st'.Drawn Q := by
  induction as generalizing st with
  | nil => cases h; exact hst
  | cons a as ih =>
    obtain ⟨p, hp, h⟩ := Res.bind_ok h
    exact ih h (hst.insert hs (nameToIri_free he hp) (fun i e => by cases e) fun l e => by cases e; exact xmlSafe_plain _)

theorem xmlSubjectNode_plain (he : ∀ t i, env.url t = some i → Q i) {base : Option Iri} {n : Nat} {x : Option XmlSubject}
    {r : Subject × Nat} (hx : ∀ i, x = some (.resource i) → Q i) (h : xmlSubjectNode env sty gen base n x = .ok r) :
    PlainSubject Q r.1 := by
  unfold xmlSubjectNode at h
  split at h
  · cases h; exact .inl ⟨_, rfl⟩
  · cases h; exact .inr ⟨_, rfl, hx _ rfl⟩
  · split at h
    · cases h
    · obtain ⟨i, hi, h⟩ := Res.bind_ok h; cases h; exact .inr ⟨_, rfl, valueToIri_free he hi⟩
  · obtain ⟨i, _, h⟩ := Res.bind_ok h; cases h; exact .inl ⟨_, rfl⟩

theorem xmlStep_drawn (he : ∀ t i, env.url t = some i → Q i) (ht : Q rdfType) {stack stack' : List XmlFrame} {st st' : XmlState} {ev : XmlIn}
    (h : xmlStep env sty gen emit stack st ev = .ok (stack', st')) (hst : st.Drawn Q)
    (hf : ∀ f ∈ stack, f.plain Q) : st'.Drawn Q ∧ ∀ f ∈ stack', f.plain Q := by
  cases stack with
  | nil =>
    cases ev with
    | start name attrs =>
      obtain ⟨a, _, h⟩ := Res.bind_ok h
      split at h
      · cases h; exact ⟨hst, by simp [XmlFrame.plain]⟩
      · cases h
    | bad => cases h
    | _ => cases h; exact ⟨hst, hf⟩
  | cons f rest =>
    have hrest : ∀ f ∈ rest, f.plain Q := fun f hm => hf f (List.mem_cons_of_mem _ hm)
    have hfirst := hf f (List.mem_cons_self ..)
    cases f with
    | subject base =>
      cases ev with
      | start name attrs =>
        obtain ⟨r, hr, h⟩ := Res.bind_ok h
        cases h
        obtain ⟨a, ha, hr⟩ := Res.bind_ok hr
        obtain ⟨b, hb, hr⟩ := Res.bind_ok hr
        obtain ⟨c, hc, hr⟩ := Res.bind_ok hr
        obtain ⟨d, hd, hr⟩ := Res.bind_ok hr
        cases hr
        have hs := xmlSubjectNode_plain he (xmlAttributes_free he ha).1 hb
        refine ⟨xmlPropertyAttributes_drawn he hs hd ?_, ?_⟩
        · split at hc
          · cases hc; exact hst
          · obtain ⟨t, hn, hc⟩ := Res.bind_ok hc
            cases hc
            exact XmlState.Drawn.insert (st := { st with count := b.2 }) hst hs ht
              (fun i e => by cases e; exact nameToIri_free he hn) (fun l e => by cases e)
        · intro f hm
          rcases List.mem_cons.1 hm with rfl | hm
          · exact hs
          · exact hf f hm
      | stop _ => cases h; exact ⟨hst, hrest⟩
      | bad => cases h
      | _ => cases h; exact ⟨hst, hf⟩
    | predicate base s noChild =>
      cases ev with
      | start name attrs =>
        simp only [xmlStep] at h
        split at h
        · cases h
        · obtain ⟨r, hr, h⟩ := Res.bind_ok h
          cases h
          obtain ⟨a, ha, hr⟩ := Res.bind_ok hr
          have hu := xmlAttributes_untyped ha
          split at hr
          · rename_i x hx
            obtain ⟨p, hp, hr⟩ := Res.bind_ok hr
            cases hr
            refine ⟨hst.insert hfirst (nameToIri_free he hp)
              (fun i e => by cases e; exact (xmlAttributes_free he ha).2 _ hx) (fun l e => by cases e), ?_⟩
            intro f hm
            rcases List.mem_cons.1 hm with rfl | hm
            · exact hfirst
            · exact hrest f hm
          · split at hr
            · cases hr
              refine ⟨hst, fun f hm => ?_⟩
              simp only [List.cons_append, List.nil_append, List.mem_cons] at hm
              rcases hm with rfl | rfl | hm
              · exact ⟨hfirst, hu⟩
              · exact hfirst
              · exact hrest f hm
            · cases hr
              refine ⟨hst, fun f hm => ?_⟩
              simp only [List.cons_append, List.nil_append, List.mem_cons] at hm
              rcases hm with rfl | rfl | hm
              · exact hfirst
              · exact hfirst
              · exact hrest f hm
            · cases hr
              refine ⟨hst, fun f hm => ?_⟩
              simp only [List.cons_append, List.nil_append, List.mem_cons] at hm
              rcases hm with rfl | rfl | hm
              · trivial
              · exact hfirst
              · exact hrest f hm
            · cases hr
      | stop _ => cases h; exact ⟨hst, hrest⟩
      | bad => cases h
      | _ => cases h; exact ⟨hst, hf⟩
    | object base s name a content _ _ =>
      cases ev with
      | start n attrs =>
        simp only [xmlStep] at h
        split at h
        · cases h
        · obtain ⟨r, hr, h⟩ := Res.bind_ok h
          cases h
          refine ⟨hst, fun f hm => ?_⟩
          simp only [List.mem_cons] at hm
          rcases hm with rfl | rfl | hm
          · trivial
          · exact hfirst
          · exact hrest f hm
      | stop _ =>
        obtain ⟨r, hr, h⟩ := Res.bind_ok h
        cases h
        exact ⟨hst.insert hfirst.1 (nameToIri_free he hr) (fun i e => by cases e) (fun l e => by cases e; exact xmlSafe_content hfirst.2 _), hrest⟩
      | chars t =>
        simp only [xmlStep] at h
        split at h
        · cases h
        · cases h
          refine ⟨hst, fun f hm => ?_⟩
          rcases List.mem_cons.1 hm with rfl | hm
          · exact hfirst
          · exact hrest f hm
      | cdata t =>
        simp only [xmlStep] at h
        split at h
        · cases h
        · cases h
          refine ⟨hst, fun f hm => ?_⟩
          rcases List.mem_cons.1 hm with rfl | hm
          · exact hfirst
          · exact hrest f hm
      | bad => cases h
      | _ => cases h; exact ⟨hst, hf⟩
    | literal s name opened content =>
      have more : ∀ o c, ∀ f ∈ XmlFrame.literal s name o c :: rest, f.plain Q := fun o c f hm => by
        rcases List.mem_cons.1 hm with rfl | hm
        · exact hfirst
        · exact hrest f hm
      cases ev with
      | start n attrs => cases h; exact ⟨hst, more _ _⟩
      | stop n =>
        match opened, h with
        | 0, h => cases h
        | 1, h =>
          simp only [xmlStep] at h
          split at h
          · cases h
          · obtain ⟨r, hr, h⟩ := Res.bind_ok h
            cases h
            exact ⟨hst.insert hfirst (nameToIri_free he hr) (fun i e => by cases e) (fun l e => by cases e; exact xmlSafe_typed _ _), hrest⟩
        | k + 2, h => cases h; exact ⟨hst, more _ _⟩
      | bad => cases h
      | chars t => cases h; exact ⟨hst, more _ _⟩
      | cdata t => cases h; exact ⟨hst, more _ _⟩
      | space t => cases h; exact ⟨hst, more _ _⟩
      | other => cases h; exact ⟨hst, more _ _⟩

theorem xmlRun_drawn (he : ∀ t i, env.url t = some i → Q i) (ht : Q rdfType) {stack : List XmlFrame} {st : XmlState}
    {evs : List XmlIn} {g : Graph} (hst : st.Drawn Q) (hf : ∀ f ∈ stack, f.plain Q)
    (h : xmlRun env sty gen emit stack st evs = .ok g) : ∀ t ∈ g.stmts, XmlDrawn Q t := by
  induction evs generalizing stack st with
  | nil =>
    cases stack with
    | nil => cases h; exact hst
    | cons _ _ => cases h
  | cons ev evs ih =>
    generalize hs : xmlStep env sty gen emit stack st ev = r at *
    cases r with
    | ok r =>
      obtain ⟨stack', st'⟩ := r
      rw [xmlRun_ok hs] at h
      obtain ⟨h1, h2⟩ := xmlStep_drawn he ht hs hst hf
      exact ih h1 h2 h
    | err => rw [xmlRun_err hs] at h; cases h
    | panic => cases stack <;> simp [xmlRun, hs] at h

/-- The nodes of what is read. -/
theorem readXml_nodes (he : ∀ t i, env.url t = some i → Q i) (ht : Q rdfType) {n : Nat} {evs : List XmlIn} {g : Graph}
    (h : readXml env sty gen n emit evs = .ok g) : (∀ st ∈ g.stmts, Q st.predicate) ∧
    ∀ o ∈ nodesOf g.stmts, (Drawable o ∧ ∀ l, o = .lit l → XmlSafe l ∧ (l.dataType = none ∨ l.dataType = some .xmlLiteral)) ∧
      ∀ i, o = .res i → Q i := by
  have h1 := xmlRun_drawn he ht (st := ⟨Graph.default, n⟩) (by intro t ht; cases ht) (by intro f hf; cases hf) h
  have h2 := xmlRun_readable (st := ⟨Graph.default, n⟩) (by intro t ht; cases ht) (by intro f hf; cases hf) h
  refine ⟨fun st hst => (h1 st hst).2.1, fun o ho => ?_⟩
  rw [nodesOf, mem_setOf, List.mem_flatMap] at ho
  obtain ⟨st, hst, ho⟩ := ho
  simp only [List.mem_cons, List.not_mem_nil, or_false] at ho
  obtain ⟨a, -, a', b⟩ := h1 st hst
  have c := h2 st hst
  rcases ho with rfl | rfl
  · rcases a with ⟨x, e⟩ | ⟨x, e, hx⟩ <;> rw [e]
    · exact ⟨⟨trivial, fun l e => by cases e⟩, fun i e => by cases e⟩
    · exact ⟨⟨trivial, fun l e => by cases e⟩, fun i e => by cases e; exact hx⟩
  · cases e : st.object with
    | res x => exact ⟨⟨trivial, fun l e => by cases e⟩, fun i e' => by cases e'; exact a' x e⟩
    | lit l =>
      refine ⟨⟨trivial, fun k e' => ?_⟩, fun i e => by cases e⟩
      cases e'
      rw [e] at c
      exact ⟨b l e, by simpa [readable] using c⟩
    | blank x => rw [e] at c; cases c
    | coll x => rw [e] at c; cases c
    | stmt x => rw [e] at c; cases c

/-- No two nodes are displayed alike. -/
theorem keysDiffer_xml {sty : IriStyle} {L : List Object}
    (hd : ∀ o ∈ L, Drawable o ∧ ∀ l, o = .lit l → XmlSafe l ∧ (l.dataType = none ∨ l.dataType = some .xmlLiteral)) :
    KeysDiffer sty L := by
  have shown : ∀ l, Object.lit l ∈ L → l.display sty false = l.display sty true ∧ ∃ r, l.display sty true = '"' :: r := by
    intro l hl
    unfold Literal.display
    rcases ((hd _ hl).2 l rfl).2 with h | h <;> simp [h, DataType.isBare]
  intro a ha b hb h
  have da := (hd a ha).1
  have db := (hd b hb).1
  cases a with
  | coll c => cases da
  | stmt c => cases da
  | blank x =>
    cases b with
    | coll c => cases db
    | stmt c => cases db
    | blank y => simpa [Object.display] using h
    | res j => simp [Object.display] at h
    | lit l =>
      obtain ⟨e, r, hr⟩ := shown l hb
      rw [Object.display, Object.display, e, hr] at h
      simp at h
  | res i =>
    cases b with
    | coll c => cases db
    | stmt c => cases db
    | blank y => simp [Object.display] at h
    | res j =>
      simp only [Object.display, List.cons_append, List.cons.injEq, true_and,
        List.append_cancel_right_eq] at h
      rw [fmt_inj h]
    | lit l =>
      obtain ⟨e, r, hr⟩ := shown l hb
      rw [Object.display, Object.display, e, hr] at h
      simp at h
  | lit l =>
    obtain ⟨e, r, hr⟩ := shown l ha
    cases b with
    | coll c => cases db
    | stmt c => cases db
    | blank y =>
      rw [Object.display, Object.display, e, hr] at h
      simp at h
    | res j =>
      rw [Object.display, Object.display, e, hr] at h
      simp at h
    | lit l' =>
      obtain ⟨e', _, _⟩ := shown l' hb
      rw [Object.display, Object.display, e, e'] at h
      obtain ⟨ha, ta⟩ := (hd _ ha).2 l rfl
      obtain ⟨hb, tb⟩ := (hd _ hb).2 l' rfl
      obtain ⟨x, y, z⟩ := C23_injective sty l l' ha.1 hb.1 ha.2 hb.2 h
      have t : l.dataType = l'.dataType := by
        rcases ta with h1 | h1 <;> rcases tb with h2 | h2 <;> rw [h1, h2] at y ⊢ <;> cases y
      cases l; cases l'
      simp_all

/-! ### C210 -/

/-- C210, the full statement: what `draw` writes for an RDF/XML document is a DOT text that draws the graph the document
is read as, whatever the URL crate leaves in IRIs. -/
def C210_statement (sty : IriStyle) : Prop :=
  ∀ (e : CliEnv) (s out : Str), e.sty = sty → (∀ m, (e.nodeOrder m).Perm m) →
    (∀ t i, e.read.url t = some i → i.wf = true) → cliMain e s (.draw .xml) = .success out →
    ∃ g items, cliRead e s .xml = .ok g ∧ readDot out = some items ∧ Draws sty DotOptions.default g items

/-- C210, exactly: it draws the graph if and only if every label can stand in quotes. -/
theorem C210_iff (e : CliEnv) (s out : Str) (g : Graph) (hord : ∀ m, (e.nodeOrder m).Perm m)
    (h : cliMain e s (.draw .xml) = .success out) (hr : cliRead e s .xml = .ok g) :
    (∃ items, readDot out = some items ∧ Draws e.sty DotOptions.default g items) ↔
      (∀ st ∈ g.stmts, dotSafe (edgeLabel e.sty g.mappings st.predicate)) ∧
      ∀ i, Object.res i ∈ nodesOf g.stmts → dotSafe (i.fmt e.sty) := by
  obtain ⟨g', e1, e2⟩ := C50_command_iff e s out .xml hord h
  cases e1.symm.trans hr
  have nodes := fun o ho => ((readXml_nodes (Q := fun _ => True) (fun _ _ _ => trivial) trivial hr).2 o ho).1
  rw [e2]
  constructor
  · rintro ⟨-, -, h1, h2⟩
    exact ⟨h1, fun i hi => (h2 _ hi).1 i rfl⟩
  · rintro ⟨h1, h2⟩
    refine ⟨fun o ho => (nodes o ho).1, keysDiffer_xml nodes, h1, fun o ho => ⟨fun i e => ?_, fun l e => ?_⟩⟩
    · subst e; exact h2 i ho
    · subst e; exact ((nodes _ ho).2 l rfl).1.1

/-- C210, what holds: it does when the IRIs that were read are without quotes and backslashes. -/
theorem C210_partial (e : CliEnv) (s out : Str) (g : Graph) (hord : ∀ m, (e.nodeOrder m).Perm m)
    (h : cliMain e s (.draw .xml) = .success out) (hr : cliRead e s .xml = .ok g)
    (hp : ∀ st ∈ g.stmts, quoteFree st.predicate.text) (hn : ∀ i, Object.res i ∈ nodesOf g.stmts → quoteFree i.text) :
    ∃ items, readDot out = some items ∧ Draws e.sty DotOptions.default g items := by
  refine (C210_iff e s out g hord h hr).2 ⟨fun st hst => edgeLabel_safe (hp st hst) ?_,
    fun i hi => quoteFree.safe (quoteFree.fmt (hn i hi) e.sty)⟩
  rw [(C87_fresh _ _ _ _ hr).2]
  unfold quoteFree
  decide

/-- C210, URLs: it does when the URL crate leaves no quotes and backslashes in IRIs. -/
theorem C210_urls (e : CliEnv) (s out : Str) (hord : ∀ m, (e.nodeOrder m).Perm m)
    (he : ∀ t i, e.read.url t = some i → quoteFree i.text) (h : cliMain e s (.draw .xml) = .success out) :
    ∃ g items, cliRead e s .xml = .ok g ∧ readDot out = some items ∧ Draws e.sty DotOptions.default g items := by
  obtain ⟨g, hr, -⟩ := C50_command_iff e s out .xml hord h
  obtain ⟨h1, h2⟩ := readXml_nodes (Q := fun i => quoteFree i.text) he (by unfold quoteFree; decide) hr
  obtain ⟨items, h3, h4⟩ := C210_partial e s out g hord h hr h1 fun i hi => (h2 _ hi).2 i rfl
  exact ⟨g, items, hr, h3, h4⟩

/-- C210, strict environments: the diagram always is right. -/
theorem C210_strict (e : CliEnv) (s out : Str) (hord : ∀ m, (e.nodeOrder m).Perm m)
    (he : StrictEnv e.read) (h : cliMain e s (.draw .xml) = .success out) :
    ∃ g items, cliRead e s .xml = .ok g ∧ readDot out = some items ∧ Draws e.sty DotOptions.default g items := by
  refine C210_urls e s out hord (fun t i hi c hc => ?_) h
  have := ((he.url t i hi).1 c hc).2
  constructor <;> intro hq <;> rw [hq] at this <;> simp at this

/-- C209, two formats: documents of N-Triples or RDF/XML with the same diagram are the same but for the names of blank
nodes and the types and languages of literals. -/
theorem C209_formats (e : CliEnv) (s s' out : Str) (src src' : Representation) (g g' : Graph)
    (hord : ∀ m, (e.nodeOrder m).Perm m) (he : StrictEnv e.read) (hs : ∀ r ∈ [src, src'], r = .nTriples ∨ r = .xml)
    (h : cliMain e s (.draw src) = .success out) (h' : cliMain e s' (.draw src') = .success out)
    (hr : cliRead e s src = .ok g) (hr' : cliRead e s' src' = .ok g') : SameButTypes g g' := by
  have right : ∀ {t : Str} {r : Representation} {k : Graph}, (r = .nTriples ∨ r = .xml) →
      cliMain e t (.draw r) = .success out → cliRead e t r = .ok k →
      ∃ items, readDot out = some items ∧ Draws e.sty DotOptions.default k items := by
    intro t r k hx hm hk
    rcases hx with rfl | rfl
    · obtain ⟨k', items, e1, e2, e3⟩ := C207_strict e t out hord he hm
      cases e1.symm.trans (Res.toRun_ok hk)
      exact ⟨items, e2, e3⟩
    · obtain ⟨k', items, e1, e2, e3⟩ := C210_strict e t out hord he hm
      cases e1.symm.trans hk
      exact ⟨items, e2, e3⟩
  exact C209_sources e s s' out src src' g g' hord h h' hr hr' (right (hs src (by simp)) h hr)
    (right (hs src' (by simp)) h' hr')

/-- The events of a document about one subject. -/
def aboutEvents (s : Str) : List XmlIn :=
  [.start ⟨some rdfTable.ns, str! "RDF"⟩ [],
    .start ⟨some rdfTable.ns, str! "Description"⟩ [⟨⟨some rdfTable.ns, str! "about"⟩, s⟩],
    .start ⟨some (str! "http://a/"), ['p']⟩ [], .chars ['x'], .stop ⟨some (str! "http://a/"), ['p']⟩,
    .stop ⟨some rdfTable.ns, str! "Description"⟩, .stop ⟨some rdfTable.ns, str! "RDF"⟩]

/-- An environment in which every text is a document about it. -/
def aboutCli (sty : IriStyle) : CliEnv := { wfCli sty with tokens := aboutEvents }

/-- C210 fails: the quote of `urn:a"b` ends the label early, and what is written is no DOT text. -/
theorem C210_fails (sty : IriStyle) : ¬ C210_statement sty := by
  intro h
  have key : ∃ out, cliMain (aboutCli sty) (str! "urn:a\"b") (.draw .xml) = .success out ∧ readDot out = none := by
    cases sty
    all_goals
      refine ⟨_, rfl, ?_⟩
      decide +kernel
  obtain ⟨out, h1, h2⟩ := key
  obtain ⟨g, items, -, h3, -⟩ := h (aboutCli sty) (str! "urn:a\"b") out rfl (fun m => .refl _) (by
    intro t i hi
    simp only [aboutCli, wfCli] at hi
    split at hi
    · cases hi; assumption
    · cases hi) h1
  rw [h2] at h3
  cases h3

/-! A document that is drawn right. -/

example (sty : IriStyle) : ∃ out items, cliMain (aboutCli sty) (str! "http://a/s") (.draw .xml) = .success out ∧
    readDot out = some items ∧ items.length = 3 := by
  have : ∃ out, cliMain (aboutCli sty) (str! "http://a/s") (.draw .xml) = .success out ∧
      (readDot out).map List.length = some 3 := by
    cases sty
    all_goals
      refine ⟨_, rfl, ?_⟩
      decide +kernel
  obtain ⟨out, h1, h2⟩ := this
  obtain ⟨items, h3, h4⟩ := Option.map_eq_some_iff.1 h2
  exact ⟨out, items, h1, h3, h4⟩

end Rdftk
