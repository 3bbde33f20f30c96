import Verif.Props.XmlXml
import Verif.Props.JsonTurtle

/-! RDF/XML converted to Turtle: C166. -/

namespace Rdftk
open Spec

/-- What was read from a plain document of RDF/XML can be read as Turtle, and says the triples that were read. -/
theorem xml_turtle_facts (e : CliEnv) (s out : Str) (hb : e.sty = .bare) (hd : XmlPlainDoc e s) (hw : WebUrl e.read.url)
    (hpr : AsciiPrintable e.read.pr) (g : Graph) (hr : XmlReadAs e s g) (ts : List RdfTriple) (hs : StandFor g.stmts ts)
    (hout : cliMain e s (.convert .xml .turtle) = .success out) :
    g.mappings = Graph.default.mappings ∧
    writeTurtle e.read.pr e.read.url .bare TurtleOptions.default e.orders e.gen e.startWrite e.deep g = .ok out ∧
    (∀ st ∈ g.stmts, StmtReadable (turtleEnv e.read.pr e.read.url TurtleOptions.default e.orders g) st) ∧
    ∀ t, t ∈ g.stmts.map tripleSays ↔ t ∈ ts.map tripleNode := by
  have hcr : cliRead e s .xml = .ok g := hr
  have hgm : g.mappings = Graph.default.mappings := (C87_fresh e s .xml g hcr).2
  have hw' := convert_turtle hcr hout
  rw [hb] at hw'
  have hf := (xml_read_facts hd hr).2
  have htypes : ∀ st ∈ g.stmts, ∀ l d, st.object = .lit l → l.dataType = some d → d = .xmlLiteral := by
    intro st hst l d hl hdt
    rcases C77_objects _ _ _ _ _ _ _ hr _ hst with ⟨i, hi⟩ | ⟨l', hl', h⟩
    · rw [hl] at hi; cases hi
    · rw [hl] at hl'
      cases hl'
      rcases h with h | h <;> rw [hdt] at h <;> cases h
      rfl
  have hrd : ∀ st ∈ g.stmts, StmtReadable (turtleEnv e.read.pr e.read.url TurtleOptions.default e.orders g) st := by
    intro st hst
    obtain ⟨-, t, k, g1, g2, g3, g4, g5, g6⟩ := hf st hst
    refine json_readable hw hpr e.orders hgm k g1 g3 g4 (fun v hv => ?_) (terms_split hd.fair hw' (fun st hst => ?_) hst k) (fun v q h => ?_) fun l d hl hdt hbd => ?_
    · obtain ⟨t1, t2, t3⟩ := t
      cases t3 with
      | lit w d q => cases hv; exact (g6 _ _ _ rfl).1
      | _ => cases hv
    · obtain ⟨-, t, k, g1, g2, g3, g4, g5, g6⟩ := hf st hst
      exact ⟨t, k, g1, g3, g4⟩
    · rcases (g6 _ _ _ h).2 with h' | h'
      · cases h'
      · exact absurd h' (by decide +kernel)
    · rw [htypes st hst l d hl hdt] at hbd
      exact absurd hbd (by decide)
  have said : ∀ st ∈ g.stmts, tripleSays st = tripleOf st := by
    intro st hst
    have : objectSays st.object = objectNode st.object := by
      cases ho' : st.object with
      | lit l =>
        simp only [objectSays, objectNode, literalSays]
        split
        · rename_i d hdt
          rw [if_neg]
          rw [htypes st hst l d ho' hdt]
          decide
        · rfl
      | _ => rfl
    simp only [tripleSays, tripleOf, this]
  have same : ∀ t, t ∈ g.stmts.map tripleSays ↔ t ∈ ts.map tripleNode := by
    intro t
    rw [List.mem_map, List.mem_map]
    constructor
    · rintro ⟨st, hst, rfl⟩
      obtain ⟨x, hx, k⟩ := hs.1 st hst
      exact ⟨x, hx, by rw [said st hst]; exact (tripleOf_term k).symm⟩
    · rintro ⟨x, hx, rfl⟩
      obtain ⟨st, hst, k⟩ := hs.2 x hx
      exact ⟨st, hst, by rw [said st hst]; exact tripleOf_term k⟩
  exact ⟨hgm, hw', hrd, same⟩

/-- C166, exactly: the Turtle text that a document of RDF/XML is converted to, with IRIs once in brackets, says the triples that the
statements read stand for if and only if no predicate is one of the three written as `rdf:type`. -/
theorem C166_iff (e : CliEnv) (s out : Str) (hb : e.sty = .bare) (hd : XmlPlainDoc e s) (hw : WebUrl e.read.url)
    (hpr : AsciiPrintable e.read.pr) (g : Graph) (hr : XmlReadAs e s g) (ts : List RdfTriple) (hs : StandFor g.stmts ts)
    (hout : cliMain e s (.convert .xml .turtle) = .success out) :
    (∃ L, readTurtle out = some L ∧ Isomorphic L (ts.map tripleNode)) ↔ ∀ t ∈ ts, t.2.1 ∉ mistyped := by
  obtain ⟨hgm, hw', hrd, same⟩ := xml_turtle_facts e s out hb hd hw hpr g hr ts hs hout
  have key := C129_iff e.read.pr e.read.url TurtleOptions.default e.orders e.gen e.startWrite e.deep g out hd.fair (by decide) rfl
    (by rw [hgm]; exact defaultMappings_reachable) (by rw [hgm]; exact defaultMappings_faithful) hrd hw'
  simp only [← isomorphic_same same]
  rw [key]
  constructor
  · rintro ⟨h1, -⟩ x hx
    obtain ⟨st, hst, k⟩ := hs.2 x hx
    rw [← (stmtTriple_parts k).1]
    exact h1 st hst
  · intro h1
    refine ⟨fun st hst => ?_, fun _ st hst b hsb => ?_⟩
    · obtain ⟨x, hx, k⟩ := hs.1 st hst
      rw [(stmtTriple_parts k).1]
      exact h1 x hx
    · obtain ⟨x, hx, k⟩ := hs.1 st hst
      exact absurd (((stmtTriple_parts k).2.2 b).1 hsb) (standFor_objects hr hs x hx b)

/-- C166, the full statement: a document of RDF/XML converted to Turtle says what it said. -/
def C166_statement (sty : IriStyle) : Prop :=
  ∀ (e : CliEnv) (s out : Str) (ts : List RdfTriple), e.sty = sty → XmlPlainDoc e s → WebUrl e.read.url → AsciiPrintable e.read.pr →
    XmlDocSays e s ts →
    cliMain e s (.convert .xml .turtle) = .success out →
    ∃ L, readTurtle out = some L ∧ Isomorphic L (ts.map tripleNode)

/-- C166, what holds: documents of two levels whose names and values are read as they are, without the three predicates. -/
theorem C166_partial (e : CliEnv) (s out : Str) (ts : List RdfTriple) (hb : e.sty = .bare) (hd : XmlPlainDoc e s) (hw : WebUrl e.read.url)
    (hpr : AsciiPrintable e.read.pr) (hs : XmlDocSays e s ts) (h2 : twoLevel 0 (e.tokens s) = true)
    (hr : ∀ ev ∈ e.tokens s, ReadIn e.read ev)
    (hout : cliMain e s (.convert .xml .turtle) = .success out) (hm : ∀ t ∈ ts, t.2.1 ∉ mistyped) :
    ∃ L, readTurtle out = some L ∧ Isomorphic L (ts.map tripleNode) := by
  obtain ⟨T, h1, h3⟩ := hs
  obtain ⟨g, k1, k2⟩ := C77_levels_partial e.read e.sty e.gen e.startRead e.emit _ T h1 h2 hr
  rw [← k2] at h3
  exact (C166_iff e s out hb hd hw hpr g k1 ts h3 hout).2 hm

/-- One description with one property of a namespace. -/
def oneOf (ns name : Str) : List (Subject × List (XName × Object)) :=
  [(.res ⟨str! "http://a/s"⟩, [(⟨some ns, name⟩, .lit plainOne)])]

/-- Its graph. -/
def oneGraph (ns name : Str) : Graph :=
  Graph.default.insert (.mk (.res ⟨str! "http://a/s"⟩) ⟨ns ++ name⟩ (.lit plainOne))

/-- The names that the examples use. -/
def oneNames : List (Str × Str) := [(str! "http://a/", str! "p"), (str! "http://www.w3.org/2000/01/rdf-schema#", str! "subClassOf")]

theorem oneOf_read (sty : IriStyle) (s : Str) (x : Str × Str) (h : x ∈ oneNames) :
    XmlReadAs (eventCli sty (flatIn (oneOf x.1 x.2))) s (oneGraph x.1 x.2) := by
  have url : docEnv.url (x.1 ++ x.2) = some ⟨x.1 ++ x.2⟩ ∧ (x.1 ++ x.2).head? ≠ some '<' := by
    revert x
    decide +kernel
  refine (readXml_flat (env := docEnv) (sty := sty) (gen := blankGen) (emit := fun _ => none) (iri := nameText) (n := 0)
    (ds := oneOf x.1 x.2) fun d hd => ?_).trans rfl
  rw [List.mem_singleton.1 hd]
  refine ⟨?_, fun q hq => ?_⟩
  · exact (⟨by decide +kernel, by decide +kernel⟩ : IriRead docEnv ⟨str! "http://a/s"⟩)
  · rw [List.mem_singleton.1 hq]
    exact ⟨⟨url, _, rfl, rfl⟩, fun g h => by cases h⟩

theorem oneOf_says (sty : IriStyle) (s : Str) (x : Str × Str) (h : x ∈ oneNames) :
    XmlDocSays (eventCli sty (flatIn (oneOf x.1 x.2))) s [(.iri ⟨str! "http://a/s"⟩, ⟨x.1 ++ x.2⟩, .lit ['1'] none none)] := by
  have prop : propertyIri ⟨some x.1, x.2⟩ = some (nameText ⟨some x.1, x.2⟩) := by
    revert x
    decide +kernel
  refine ⟨_, rdfXml_flat blankGen 0 (oneOf x.1 x.2) (fun d hd => ?_), fun st hst => ?_, fun x hx => ?_⟩
  · rw [List.mem_singleton.1 hd]
    exact ⟨sampleIri_ok, fun q hq => by
      rw [List.mem_singleton.1 hq]
      exact ⟨prop, plainOne_object⟩⟩
  · rw [List.mem_singleton.1 (show st ∈ [_] from hst)]
    exact ⟨_, List.mem_singleton_self _, rfl⟩
  · rw [List.mem_singleton.1 hx]
    exact ⟨_, List.mem_singleton_self _, rfl⟩

theorem oneOf_plain (sty : IriStyle) (s : Str) (x : Str × Str) (h : x ∈ oneNames) : XmlPlainDoc (eventCli sty (flatIn (oneOf x.1 x.2))) s :=
  eventCli_plain sty (by
    revert x
    decide +kernel) s

theorem oneOf_out (sty : IriStyle) (s : Str) (x : Str × Str) (h : x ∈ oneNames) :
    ∃ out, cliMain (eventCli sty (flatIn (oneOf x.1 x.2))) s (.convert .xml .turtle) = .success out := by
  have : ∀ sty, ∀ x ∈ oneNames,
      (match writeTurtle webEnv.pr webEnv.url sty TurtleOptions.default sameOrder blankGen 0 9 (oneGraph x.1 x.2) with
        | .ok _ => true | _ => false) = true := by
    intro sty; cases sty <;> decide +kernel
  have := this sty x h
  split at this
  · rename_i out hw
    have h1 : cliRead (eventCli sty (flatIn (oneOf x.1 x.2))) s .xml = .ok (oneGraph x.1 x.2) := oneOf_read sty s x h
    have h2 : writeTurtle (eventCli sty (flatIn (oneOf x.1 x.2))).read.pr (eventCli sty (flatIn (oneOf x.1 x.2))).read.url
      (eventCli sty (flatIn (oneOf x.1 x.2))).sty TurtleOptions.default (eventCli sty (flatIn (oneOf x.1 x.2))).orders
      (eventCli sty (flatIn (oneOf x.1 x.2))).gen (eventCli sty (flatIn (oneOf x.1 x.2))).startWrite
      (eventCli sty (flatIn (oneOf x.1 x.2))).deep (oneGraph x.1 x.2) = .ok out := hw
    exact ⟨out, by simp only [cliMain, h1, Run.bind, cliWrite, h2, Run.exit]⟩
  · cases this

theorem oneOf_stand (x : Str × Str) :
    StandFor (oneGraph x.1 x.2).stmts [(.iri ⟨str! "http://a/s"⟩, ⟨x.1 ++ x.2⟩, .lit ['1'] none none)] := by
  refine ⟨fun st hst => ⟨_, List.mem_singleton_self _, ?_⟩, fun x hx => ⟨_, List.mem_singleton_self _, ?_⟩⟩
  · rw [List.mem_singleton.1 (show st ∈ [_] from hst)]
    rfl
  · rw [List.mem_singleton.1 hx]
    rfl

/-- C166 fails in either style: the property `rdfs:subClassOf` is written as `rdf:type`. -/
theorem C166_fails (sty : IriStyle) : ¬ C166_statement sty := fun h => by
  have hm : (str! "http://www.w3.org/2000/01/rdf-schema#", str! "subClassOf") ∈ oneNames := by decide
  obtain ⟨out, hout⟩ := oneOf_out sty [] _ hm
  have := h _ [] out _ rfl (oneOf_plain sty [] _ hm) webEnv_web easyEnv_ascii (oneOf_says sty [] _ hm) hout
  cases sty with
  | bare =>
    exact (C166_iff _ [] out rfl (oneOf_plain .bare [] _ hm) webEnv_web easyEnv_ascii _ (oneOf_read .bare [] _ hm) _ (oneOf_stand _) hout).1 this _ (List.mem_singleton_self _) (by decide)
  | bracketed =>
    obtain ⟨L, hL, -⟩ := this
    rw [C153_fails_bracketed _ [] out .xml rfl hout] at hL
    cases hL

/-! Another property says the same as Turtle. -/

example : ∃ out L, cliMain (eventCli .bare (flatIn (oneOf (str! "http://a/") (str! "p")))) [] (.convert .xml .turtle) = .success out ∧
    readTurtle out = some L ∧ Isomorphic L [tripleNode (.iri ⟨str! "http://a/s"⟩, ⟨str! "http://a/p"⟩, .lit ['1'] none none)] := by
  have hm : (str! "http://a/", str! "p") ∈ oneNames := by decide
  obtain ⟨out, hout⟩ := oneOf_out .bare [] _ hm
  obtain ⟨L, h1, h2⟩ := (C166_iff _ [] out rfl (oneOf_plain .bare [] _ hm) webEnv_web easyEnv_ascii _ (oneOf_read .bare [] _ hm) _ (oneOf_stand _) hout).2 (by decide)
  exact ⟨out, L, hout, h1, h2⟩

end Rdftk
