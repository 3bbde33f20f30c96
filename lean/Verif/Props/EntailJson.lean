import Verif.Props.Entail
import Verif.Props.JsonTurtle
import Verif.Props.XmlTurtle

/-! What follows from documents converted to Turtle: C169 for RDF/JSON and RDF/XML. -/

namespace Rdftk
open Spec

/-- Lists of the same triples follow from each other. -/
theorem entails_same {L M : List Triple} (h : ∀ t, t ∈ M → t ∈ L) : Entails L M := by
  rw [C168_interpolation]
  refine ⟨id, fun _ _ => rfl, fun x hx => ?_⟩
  have : mapTriple id x = x := rfl
  rw [this]
  exact h x hx

/-- If nothing is escaped and the numbers have the type that Turtle gives them, what was read from RDF/JSON says the document. -/
theorem json_turtle_facts (e : CliEnv) (s out : Str) (ts : List RdfTriple) (hb : e.sty = .bare) (he : StrictEnv e.read)
    (hsane : SaneEnv e.read) (hw : WebUrl e.read.url) (hpr : AsciiPrintable e.read.pr) (ho : e.orders.Fair)
    (hs : JsonSays e.read s ts) (hp : ∀ t ∈ ts, ∀ v, t.2.2.text = some v → Printed e.read.pr v)
    (hi : ∀ t ∈ ts, ∀ v g, t.2.2 ≠ .lit v (some DataType.iri.asIri) g)
    (hout : cliMain e s (.convert .json .turtle) = .success out)
    (hesc : ∀ t ∈ ts, ∀ v, t.2.2.text = some v → escapeString e.read.pr v = v)
    (hnum : ∀ t ∈ ts, ∀ v d g, d ∈ unquotedTypes → t.2.2 = .lit v (some d.asIri) g → bareType v = some d.asIri.text) :
    ∃ g : Graph, g.mappings = Graph.default.mappings ∧
    writeTurtle e.read.pr e.read.url .bare TurtleOptions.default e.orders e.gen e.startWrite e.deep g = .ok out ∧
    (∀ st ∈ g.stmts, StmtReadable (turtleEnv e.read.pr e.read.url TurtleOptions.default e.orders g) st) ∧
    (∀ t, t ∈ g.stmts.map tripleSays ↔ t ∈ ts.map tripleNode) ∧ ∀ p, (∃ st ∈ g.stmts, st.predicate = p) ↔ ∃ t ∈ ts, t.2.1 = p := by
  obtain ⟨g, hr, fwd, bwd⟩ := json_graph he hsane hs
  have hgot := readJson_got he hr
  have hcr : cliRead e s .json = .ok g := by simp only [cliRead, hr, Res.toRun]
  have hgm : g.mappings = Graph.default.mappings := (C87_fresh e s .json g hcr).2
  have hw' := convert_turtle hcr hout
  rw [hb] at hw'
  have htype : ∀ st ∈ g.stmts, ∀ l d, st.object = .lit l → l.dataType = some d → ∀ t, stmtTriple st = some (escTriple e.read.pr t) →
      ∃ v k, t.2.2 = .lit v (some d.asIri) k ∧ l.lexicalForm = escapeString e.read.pr v := by
    rintro ⟨a, p, c⟩ hst l d (rfl : c = _) hd ⟨x, i, y⟩ h
    obtain ⟨-, -, h3⟩ := triple_terms h
    cases y with
    | lit v d' k =>
      simp only [objectTerm, escTriple, escTerm, Option.some.injEq, RdfTerm.lit.injEq] at h3
      rw [hd] at h3
      exact ⟨v, k, by rw [← h3.2.1]; rfl, h3.1⟩
    | _ => cases h3
  have hbare : ∀ st ∈ g.stmts, ∀ l d, st.object = .lit l → l.dataType = some d → d ∈ bareTypes →
      bareType l.lexicalForm = some d.asIri.text := by
    intro st hst l d hl hd hbd
    obtain ⟨t, ht, k, -⟩ := fwd st hst
    obtain ⟨v, k', h4, h5⟩ := htype st hst l d hl hd t k
    rw [h5, hesc t ht v (by rw [h4]; rfl)]
    exact hnum t ht v d k' ((unquoted_iff d).2 ⟨hbd, (hgot st hst).2 l hl d hd⟩) h4
  have hrd : ∀ st ∈ g.stmts, StmtReadable (turtleEnv e.read.pr e.read.url TurtleOptions.default e.orders g) st := by
    intro st hst
    obtain ⟨t, ht, k, g1, -, g2, g3⟩ := fwd st hst
    refine json_readable hw hpr e.orders hgm k g1 g2 g3 (hp t ht) (terms_split ho hw' (fun st hst => by
      obtain ⟨t, -, k, g1, -, g2, g3⟩ := fwd st hst
      exact ⟨t, k, g1, g2, g3⟩) hst k) (hi t ht) fun l d hl hd hbd => ?_
    rw [hbare st hst l d hl hd hbd]; rfl
  have said : ∀ st ∈ g.stmts, tripleSays st = tripleOf st := by
    intro st hst
    have : objectSays st.object = objectNode st.object := by
      cases ho' : st.object with
      | lit l =>
        simp only [objectSays, objectNode, literalSays]
        split
        · rename_i d hd
          split
          · rename_i hbd
            simp only [hbare st hst l d ho' hd hbd, Option.getD_some, literalNode, hd]
          · rfl
        · rfl
      | _ => rfl
    simp only [tripleSays, tripleOf, this]
  refine ⟨g, hgm, hw', hrd, fun t => ⟨fun ht => ?_, fun ht => ?_⟩, fun p => ⟨?_, ?_⟩⟩
  · obtain ⟨st, hst, rfl⟩ := List.mem_map.1 ht
    obtain ⟨x, hx, k, -⟩ := fwd st hst
    rw [escTriple_id (hesc x hx)] at k
    exact List.mem_map.2 ⟨x, hx, by rw [said st hst]; exact (tripleOf_term k).symm⟩
  · obtain ⟨x, hx, rfl⟩ := List.mem_map.1 ht
    obtain ⟨st, hst, k⟩ := bwd x hx
    rw [escTriple_id (hesc x hx)] at k
    exact List.mem_map.2 ⟨st, hst, by rw [said st hst]; exact tripleOf_term k⟩
  · rintro ⟨st, hst, rfl⟩
    obtain ⟨t, ht, k, -⟩ := fwd st hst
    exact ⟨t, ht, (stmtTriple_parts k).1.symm⟩
  · rintro ⟨t, ht, rfl⟩
    obtain ⟨st, hst, k⟩ := bwd t ht
    exact ⟨st, hst, (stmtTriple_parts k).1⟩

/-- C169 for RDF/JSON: the Turtle that a document is converted to follows from what the document says, whatever it says of
blank nodes, if nothing is escaped, numbers have the type that Turtle gives them and no predicate is written as another. -/
theorem C169_json_partial (e : CliEnv) (s out : Str) (ts : List RdfTriple) (hb : e.sty = .bare) (he : StrictEnv e.read)
    (hsane : SaneEnv e.read) (hw : WebUrl e.read.url) (hpr : AsciiPrintable e.read.pr) (ho : e.orders.Fair)
    (hs : JsonSays e.read s ts) (hp : ∀ t ∈ ts, ∀ v, t.2.2.text = some v → Printed e.read.pr v)
    (hi : ∀ t ∈ ts, ∀ v g, t.2.2 ≠ .lit v (some DataType.iri.asIri) g)
    (hout : cliMain e s (.convert .json .turtle) = .success out)
    (hesc : ∀ t ∈ ts, ∀ v, t.2.2.text = some v → escapeString e.read.pr v = v)
    (hnum : ∀ t ∈ ts, ∀ v d g, d ∈ unquotedTypes → t.2.2 = .lit v (some d.asIri) g → bareType v = some d.asIri.text)
    (hm : ∀ t ∈ ts, t.2.1 ∉ mistyped) :
    ∃ L, readTurtle out = some L ∧ Entails (ts.map tripleNode) L := by
  obtain ⟨g, hgm, hw', hrd, same, preds⟩ := json_turtle_facts e s out ts hb he hsane hw hpr ho hs hp hi hout hesc hnum
  have hpred : ∀ st ∈ g.stmts, st.predicate ∉ mistyped := fun st hst => by
    obtain ⟨t, ht, k⟩ := (preds st.predicate).1 ⟨st, hst, rfl⟩
    rw [← k]
    exact hm t ht
  obtain ⟨L, hL, hE⟩ := C169_sound e.read.pr e.read.url TurtleOptions.default e.orders e.gen e.startWrite e.deep g out ho (by decide) rfl
    (by rw [hgm]; exact defaultMappings_reachable) (by rw [hgm]; exact defaultMappings_faithful) hrd hw' hpred
  exact ⟨L, hL, entails_trans (entails_same fun t ht => (same t).1 ht) hE⟩

/-- A literal in what follows from a list of triples is in the list. -/
theorem entails_literal {L M : List Triple} (h : Entails L M) {x : Triple} (hx : x ∈ M) {v d : Str} {k : Option Str}
    (ho : x.o = .lit v d k) : ∃ y ∈ L, y.o = .lit v d k := by
  rw [C168_interpolation] at h
  obtain ⟨σ, hσ, hm⟩ := h
  refine ⟨_, hm x hx, ?_⟩
  show σ x.o = _
  rw [ho]
  exact hσ _ (by simp [Node.IsBlank])

/-- C169 for RDF/JSON, for all documents: if document and Turtle text follow from each other, nothing is escaped, numbers have
the type that Turtle gives them and no predicate is written as another. -/
theorem C169_json_needs (e : CliEnv) (s out : Str) (ts : List RdfTriple) (hb : e.sty = .bare) (he : StrictEnv e.read)
    (hsane : SaneEnv e.read) (hw : WebUrl e.read.url) (hpr : AsciiPrintable e.read.pr) (ho : e.orders.Fair)
    (hs : JsonSays e.read s ts) (hp : ∀ t ∈ ts, ∀ v, t.2.2.text = some v → Printed e.read.pr v)
    (hn : ∀ t ∈ ts, ∀ v d g, d ∈ unquotedTypes → t.2.2 = .lit v (some d.asIri) g → (bareType (escapeString e.read.pr v)).isSome = true)
    (hi : ∀ t ∈ ts, ∀ v g, t.2.2 ≠ .lit v (some DataType.iri.asIri) g)
    (hout : cliMain e s (.convert .json .turtle) = .success out)
    (L : List Triple) (hL : readTurtle out = some L) (h1 : Entails (ts.map tripleNode) L) (h2 : Entails L (ts.map tripleNode)) :
    (∀ t ∈ ts, ∀ v, t.2.2.text = some v → escapeString e.read.pr v = v) ∧
    (∀ t ∈ ts, ∀ v d g, d ∈ unquotedTypes → t.2.2 = .lit v (some d.asIri) g → bareType v = some d.asIri.text) ∧
    ∀ t ∈ ts, t.2.1 ∉ mistyped := by
  obtain ⟨hesc, hnum⟩ := json_turtle_literals e s out ts hb he hsane hw hpr ho hs hp hn hi hout L hL (fun x hx v d k hxo => by
      obtain ⟨y, hy, hyo⟩ := entails_literal h1 hx hxo
      obtain ⟨t, ht, rfl⟩ := List.mem_map.1 hy
      exact ⟨t, ht, hyo⟩)
    fun t ht v d k ho' => entails_literal h2 (List.mem_map_of_mem ht) ho'
  refine ⟨hesc, hnum, fun t ht => ?_⟩
  obtain ⟨g, hgm, hw', hrd, same, preds⟩ := json_turtle_facts e s out ts hb he hsane hw hpr ho hs hp hi hout hesc hnum
  obtain ⟨st, hst, k⟩ := (preds t.2.1).2 ⟨t, ht, rfl⟩
  rw [← k]
  exact C169_needs e.read.pr e.read.url TurtleOptions.default e.orders e.gen e.startWrite e.deep g out ho (by decide) rfl
    (by rw [hgm]; exact defaultMappings_reachable) (by rw [hgm]; exact defaultMappings_faithful) hrd hw' L hL
    (entails_trans h2 (entails_same fun t ht => (same t).1 ht)) st hst

/-- C169 for RDF/JSON, exactly, for documents without blank nodes as objects: document and Turtle text follow from each other if
and only if nothing is escaped, numbers have the type that Turtle gives them and no predicate is written as another. -/
theorem C169_json_iff (e : CliEnv) (s out : Str) (ts : List RdfTriple) (hb : e.sty = .bare) (he : StrictEnv e.read)
    (hsane : SaneEnv e.read) (hw : WebUrl e.read.url) (hpr : AsciiPrintable e.read.pr) (ho : e.orders.Fair)
    (hs : JsonSays e.read s ts) (hp : ∀ t ∈ ts, ∀ v, t.2.2.text = some v → Printed e.read.pr v)
    (hn : ∀ t ∈ ts, ∀ v d g, d ∈ unquotedTypes → t.2.2 = .lit v (some d.asIri) g → (bareType (escapeString e.read.pr v)).isSome = true)
    (hi : ∀ t ∈ ts, ∀ v g, t.2.2 ≠ .lit v (some DataType.iri.asIri) g)
    (hout : cliMain e s (.convert .json .turtle) = .success out)
    (hbl : ∀ t ∈ ts, ∀ b, t.2.2 ≠ .blank b) :
    (∃ L, readTurtle out = some L ∧ Entails (ts.map tripleNode) L ∧ Entails L (ts.map tripleNode)) ↔
      (∀ t ∈ ts, ∀ v, t.2.2.text = some v → escapeString e.read.pr v = v) ∧
      (∀ t ∈ ts, ∀ v d g, d ∈ unquotedTypes → t.2.2 = .lit v (some d.asIri) g → bareType v = some d.asIri.text) ∧
      ∀ t ∈ ts, t.2.1 ∉ mistyped := by
  constructor
  · rintro ⟨L, hL, h1, h2⟩
    exact C169_json_needs e s out ts hb he hsane hw hpr ho hs hp hn hi hout L hL h1 h2
  · rintro ⟨hesc, hnum, hm⟩
    obtain ⟨L, hL, hI⟩ := C162_partial e s out ts hb he hsane hw hpr ho hs hp hi hout hesc hnum hm hbl
    exact ⟨L, hL, (isomorphic_entails hI).2, (isomorphic_entails hI).1⟩

/-- C169 for RDF/XML: the Turtle that a document is converted to and the triples that were read follow from each other if
and only if no predicate is written as another. -/
theorem C169_xml_iff (e : CliEnv) (s out : Str) (hb : e.sty = .bare) (hd : XmlPlainDoc e s) (hw : WebUrl e.read.url)
    (hpr : AsciiPrintable e.read.pr) (g : Graph) (hr : XmlReadAs e s g) (ts : List RdfTriple) (hs : StandFor g.stmts ts)
    (hout : cliMain e s (.convert .xml .turtle) = .success out) :
    (∃ L, readTurtle out = some L ∧ Entails (ts.map tripleNode) L ∧ Entails L (ts.map tripleNode)) ↔ ∀ t ∈ ts, t.2.1 ∉ mistyped := by
  obtain ⟨hgm, hw', hrd, same⟩ := xml_turtle_facts e s out hb hd hw hpr g hr ts hs hout
  constructor
  · rintro ⟨L, hL, -, hE⟩ x hx
    obtain ⟨st, hst, k⟩ := hs.2 x hx
    rw [← (stmtTriple_parts k).1]
    exact C169_needs e.read.pr e.read.url TurtleOptions.default e.orders e.gen e.startWrite e.deep g out hd.fair (by decide) rfl
      (by rw [hgm]; exact defaultMappings_reachable) (by rw [hgm]; exact defaultMappings_faithful) hrd hw' L hL
      (entails_trans hE (entails_same fun t ht => (same t).1 ht)) st hst
  · intro hm
    obtain ⟨L, hL, hi⟩ := (C166_iff e s out hb hd hw hpr g hr ts hs hout).2 hm
    exact ⟨L, hL, (isomorphic_entails hi).2, (isomorphic_entails hi).1⟩

/-- The hypotheses of `C169_json_partial` hold together. -/
example : ∃ out L, cliMain (docCli .bare) (Json.text false 0 (.obj (typedDoc (str! "http://a/s") (str! "true") DataType.boolean.asIri.text)))
    (.convert .json .turtle) = .success out ∧ readTurtle out = some L ∧
    Entails [tripleNode (.iri ⟨str! "http://a/s"⟩, ⟨str! "http://a/p"⟩, .lit (str! "true") (some ⟨DataType.boolean.asIri.text⟩) none)] L := by
  have hs := typedDoc_says (v := str! "true") (d := DataType.boolean.asIri.text) keyMeans_web rfl
  obtain ⟨out, hw⟩ := typedGraph_out .bare (str! "true") .boolean (by simp)
  have ho : cliMain (docCli .bare) (Json.text false 0 (.obj (typedDoc (str! "http://a/s") (str! "true") DataType.boolean.asIri.text)))
      (.convert .json .turtle) = .success out := by
    have h1 : readJson (docCli .bare).read (Json.text false 0 (.obj (typedDoc (str! "http://a/s") (str! "true") DataType.boolean.asIri.text))) =
      .ok (typedGraph (str! "true") .boolean) := typedDoc_true
    have h2 : writeTurtle (docCli .bare).read.pr (docCli .bare).read.url (docCli .bare).sty TurtleOptions.default (docCli .bare).orders
      (docCli .bare).gen (docCli .bare).startWrite (docCli .bare).deep (typedGraph (str! "true") .boolean) = .ok out := hw
    simp only [cliMain, cliRead, h1, Res.toRun, Run.bind, cliWrite, h2, Run.exit]
  obtain ⟨L, h1, h2⟩ := C169_json_partial (docCli .bare) _ out _ rfl docEnv_strict docEnv_sane webEnv_web easyEnv_ascii sameOrder_fair hs (by
      intro t ht v hv
      cases List.mem_singleton.1 ht
      cases hv
      exact webCli_printed _ (by decide +kernel)) (by
      intro t ht v g e
      cases List.mem_singleton.1 ht
      simp only [RdfTerm.lit.injEq, Option.some.injEq] at e
      exact absurd e.2.1 (by decide +kernel)) ho (by
      intro t ht v hv
      cases List.mem_singleton.1 ht
      cases hv
      exact (by decide +kernel : escapeString easyEnv.pr (str! "true") = (str! "true"))) (by
      intro t ht v d g _ e
      cases List.mem_singleton.1 ht
      have h1 := (RdfTerm.lit.inj e).1
      have h2 := (RdfTerm.lit.inj e).2.1
      simp only [Option.some.injEq] at h2
      rw [← h1, ← h2]
      decide +kernel) (by decide +kernel)
  exact ⟨out, L, ho, h1, h2⟩

end Rdftk
