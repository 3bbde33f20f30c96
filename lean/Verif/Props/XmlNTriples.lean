import Verif.Lemmas.XmlGot
import Verif.Props.JsonXml
import Verif.Props.XmlRead

/-! RDF/XML converted to N-Triples: C163. -/

namespace Rdftk
open Spec

/-- Reading the document gives the graph. -/
def XmlReadAs (e : CliEnv) (s : Str) (g : Graph) : Prop := readXml e.read e.sty e.gen e.startRead e.emit (e.tokens s) = .ok g

/-- The document says the triples, by the grammar of RDF/XML. -/
def XmlDocSays (e : CliEnv) (s : Str) (ts : List RdfTriple) : Prop :=
  ∃ T, RdfXml e.gen e.startRead (e.tokens s) T ∧ StandFor T ts

/-- The statements stand for the triples with the texts of literals escaped. -/
def EscStand (pr : Char → Bool) (T : List Stmt) (ts : List RdfTriple) : Prop :=
  (∀ st ∈ T, ∃ x ∈ ts, stmtTriple st = some (escTriple pr x)) ∧ ∀ x ∈ ts, ∃ st ∈ T, stmtTriple st = some (escTriple pr x)

/-- The strings of the document are printed characters, and the environment knows the names of RDF. -/
structure XmlPlainDoc (e : CliEnv) (s : Str) : Prop where
  strict : StrictEnv e.read
  sane : SaneEnv e.read
  knows : KnowsRdf e.read e.gen
  fair : e.orders.Fair
  doc : DocPlain e.read.pr e.emit (e.tokens s)

/-- A triple that the reader makes. -/
def TripleGot (env : ReadEnv) (t : RdfTriple) : Prop :=
  TermGood env t.1 ∧ (∀ v d g, t.1 ≠ .lit v d g) ∧ IriGood env t.2.1 ∧
    TermGood env t.2.2 ∧ (∀ b, t.2.2 ≠ .blank b) ∧ ∀ v d g, t.2.2 = .lit v d g → Printed env.pr v ∧ (d = none ∨ d = some DataType.xmlLiteral.asIri)

/-- What the reader makes of a document stands for triples. -/
theorem xml_source {e : CliEnv} {s : Str} (hd : XmlPlainDoc e s) {g : Graph} (hr : XmlReadAs e s g) :
    ∃ us, EscStand e.read.pr g.stmts us ∧ ∀ u ∈ us, TripleGot e.read u := by
  have hgot := readXml_got hd.strict hd.sane hd.knows hd.doc hr
  obtain ⟨f, hf⟩ := (Classical.skolem (p := fun st t => st ∈ g.stmts → stmtTriple st = some (escTriple e.read.pr t) ∧ TripleGot e.read t)).1 fun st => by
    by_cases hst : st ∈ g.stmts
    · obtain ⟨t, h1, h2⟩ := (hgot st hst).triple hd.strict hd.knows
      exact ⟨t, fun _ => ⟨h1, h2⟩⟩
    · exact ⟨(.blank [], ⟨[]⟩, .blank []), fun h => absurd h hst⟩
  refine ⟨g.stmts.map f, ⟨fun st hst => ⟨_, List.mem_map_of_mem hst, (hf st hst).1⟩, fun x hx => ?_⟩, fun u hu => ?_⟩
  · obtain ⟨st, hst, rfl⟩ := List.mem_map.1 hx
    exact ⟨st, hst, (hf st hst).1⟩
  · obtain ⟨st, hst, rfl⟩ := List.mem_map.1 hu
    exact (hf st hst).2

theorem escStand_iff {pr : Char → Bool} {T : List Stmt} {us ts : List RdfTriple} (h : EscStand pr T us) :
    EscStand pr T ts ↔ ∀ t, t ∈ us ↔ t ∈ ts := by
  have half : ∀ {us ts : List RdfTriple}, EscStand pr T us → EscStand pr T ts → ∀ t ∈ us, t ∈ ts := by
    intro us ts h k t ht
    obtain ⟨st, h1, h2⟩ := h.2 t ht
    obtain ⟨x, h3, h4⟩ := k.1 st h1
    rw [h2, Option.some.injEq] at h4
    rwa [escTriple_tells h4]
  refine ⟨fun k t => ⟨half h k t, half k h t⟩, fun k => ⟨fun st hst => ?_, fun x hx => h.2 x ((k x).2 hx)⟩⟩
  obtain ⟨x, h1, h2⟩ := h.1 st hst
  exact ⟨x, (k x).1 h1, h2⟩

/-- Statements that were read are simple. -/
theorem escStand_simple {pr : Char → Bool} {T : List Stmt} {us : List RdfTriple} (h : EscStand pr T us) : ∀ st ∈ T, simple st = true :=
  fun st hst => by
    obtain ⟨t, -, k⟩ := h.1 st hst
    exact triple_simple k

theorem cliRead_xml {e : CliEnv} {s : Str} {g : Graph} : cliRead e s .xml = .ok g ↔ XmlReadAs e s g := Iff.rfl

/-- C163: a document of RDF/XML that is read, converted to N-Triples, says what was read. -/
theorem C163_reads (e : CliEnv) (s : Str) (hb : e.sty = .bare) (hd : XmlPlainDoc e s) (g : Graph) (hr : XmlReadAs e s g)
    (us : List RdfTriple) (hu : EscStand e.read.pr g.stmts us) :
    ∃ out, cliMain e s (.convert .xml .nTriples) = .success out ∧ NtSays e.read out us := by
  obtain ⟨us', hs', hgot⟩ := xml_source hd hr
  have same := (escStand_iff hs').1 hu
  have hsim : (g.simplify e.gen e.startWrite).1.stmts = g.stmts := (C34_unchanged _ _ g (escStand_simple hu)).1
  have hvis : ∀ st, st ∈ (g.simplify e.gen e.startWrite).1.visit e.orders ↔ st ∈ g.stmts := fun st => by
    rw [visit_mem hd.fair, hsim]
  have hc : cliMain e s (.convert .xml .nTriples) = .success (((g.simplify e.gen e.startWrite).1.visit e.orders).flatMap (ntLine .bare false)) := by
    have : cliRead e s .xml = .ok g := hr
    simp only [cliMain, this, Run.bind, cliWrite, Run.exit, hb]
    rfl
  refine ⟨_, hc, ?_⟩
  generalize (g.simplify e.gen e.startWrite).1.visit e.orders = V at hvis
  have xo := readXml_got hd.strict hd.sane hd.knows hd.doc hr
  obtain ⟨f, hf⟩ := (Classical.skolem (p := fun st t => st ∈ g.stmts → t ∈ us ∧ stmtTriple st = some (escTriple e.read.pr t))).1 fun st => by
    by_cases hst : st ∈ g.stmts
    · obtain ⟨t, h1, h2⟩ := hu.1 st hst
      exact ⟨t, fun _ => ⟨h1, h2⟩⟩
    · exact ⟨(.blank [], ⟨[]⟩, .blank []), fun h => absurd h hst⟩
  have htypes : ∀ st ∈ g.stmts, ∀ l, st.object = .lit l → l.dataType = none ∨ l.dataType = some .xmlLiteral := by
    rintro ⟨a, b, c⟩ hst l (rfl : c = _)
    rcases (xo _ hst).2.2 with ⟨i, h, -⟩ | ⟨v, d, k, h, -, hd, -⟩ <;> cases h
    rcases hd with h | ⟨h, -⟩
    · exact .inl h
    · exact .inr h
  have good : ∀ st ∈ V, StmtGood e.read false (asPrinted st) ∧ (stmtLine none (asPrinted st)).Means e.read (printedTriple e.read.pr (f st)) := by
    intro st hst
    have hst := (hvis st).1 hst
    obtain ⟨h1, h2⟩ := hf st hst
    obtain ⟨g1, g2, g3, g4, -, g5⟩ := hgot _ ((same _).2 h1)
    refine printed_good h2 ⟨g1, g2, g3, g4⟩ (fun l hl d hd => ?_) (fun v hv => ?_) (fun v k h => ?_) fun l d hl hd => ?_
    · rcases htypes st hst l hl with h | h <;> rw [h] at hd <;> cases hd
      decide +kernel
    · cases ho : (f st).2.2 with
      | lit w d k =>
        rw [ho] at hv
        cases hv
        exact (g5 _ _ _ ho).1
      | _ => rw [ho] at hv; cases hv
    · rcases (g5 _ _ _ h).2 with h | h
      · cases h
      · exact absurd h (by decide +kernel)
    · rcases htypes st hst l hl with h | h <;> rw [h] at hd <;> cases hd
      decide
  have hpt : ∀ t ∈ us, printedTriple e.read.pr t = t := by
    rintro ⟨x, i, y⟩ ht
    obtain ⟨-, -, -, -, -, g5⟩ := hgot _ ((same _).2 ht)
    cases y with
    | lit v d k =>
      simp only [printedTriple]
      rw [if_neg]
      rintro rfl
      rcases (g5 v _ k rfl).2 with h | h
      · cases h
      · exact absurd h (by decide +kernel)
    | _ => rfl
  obtain ⟨a, b, c, d1, d2, d3, d4, d5⟩ := nt_says (V.map fun st => (asPrinted st, printedTriple e.read.pr (f st))) (by
      intro x hx
      obtain ⟨st, hst, rfl⟩ := List.mem_map.1 hx
      exact (good st hst).1) (by
      intro x hx
      obtain ⟨st, hst, rfl⟩ := List.mem_map.1 hx
      exact (good st hst).2)
  refine ⟨a, b, c, d1, d2, d3, ?_, fun t => ?_⟩
  · rw [← d4]
    simp only [List.map_map, List.flatMap_map, Function.comp_def, asPrinted_line]
  · rw [d5, List.map_map, List.mem_map]
    constructor
    · rintro ⟨st, hst, rfl⟩
      have h1 := (hf st ((hvis st).1 hst)).1
      simp only [Function.comp_apply]
      rw [hpt _ h1]
      exact h1
    · intro ht
      obtain ⟨st, hst, h⟩ := hu.2 t ht
      refine ⟨st, (hvis st).2 hst, ?_⟩
      obtain ⟨h1, h2⟩ := hf st hst
      rw [h] at h2
      have := escTriple_tells (Option.some.inj h2)
      simp only [Function.comp_apply]
      rw [← this, hpt _ ht]

/-- C163, exactly: a document of RDF/XML converted to N-Triples, with IRIs once in brackets, says certain triples if and only if
it is read, and the statements stand for them: the texts of literals, which the reader escapes, are as they were again. -/
theorem C163_iff (e : CliEnv) (s : Str) (hb : e.sty = .bare) (hd : XmlPlainDoc e s) (ts : List RdfTriple) :
    (∃ out, cliMain e s (.convert .xml .nTriples) = .success out ∧ NtSays e.read out ts) ↔
    ∃ g, XmlReadAs e s g ∧ EscStand e.read.pr g.stmts ts := by
  constructor
  · rintro ⟨out, h1, h2⟩
    obtain ⟨g, hg⟩ : ∃ g, cliRead e s .xml = .ok g := by
      cases h : cliRead e s .xml with
      | ok g => exact ⟨g, rfl⟩
      | err | panic | deep => simp [cliMain, h, Run.bind, Run.exit] at h1
    obtain ⟨us, hs, -⟩ := xml_source hd (cliRead_xml.1 hg)
    obtain ⟨out', k1, k2⟩ := C163_reads e s hb hd g hg us hs
    rw [h1] at k1
    cases k1
    exact ⟨g, hg, (escStand_iff hs).2 (C157_unique e.read hd.sane _ _ _ k2 h2)⟩
  · rintro ⟨g, h1, h2⟩
    exact C163_reads e s hb hd g h1 ts h2

/-- In the style of the code the result is no document of N-Triples, if anything is read. -/
theorem C163_fails_bracketed (e : CliEnv) (s : Str) (hb : e.sty = .bracketed) (hd : XmlPlainDoc e s) (g : Graph) (hr : XmlReadAs e s g)
    (hne : g.stmts ≠ []) : ∃ out, cliMain e s (.convert .xml .nTriples) = .success out ∧ ∀ ts, ¬ NtSays e.read out ts := by
  obtain ⟨us, hs, -⟩ := xml_source hd hr
  have xo := readXml_got hd.strict hd.sane hd.knows hd.doc hr
  refine ⟨writeNt e.gen e.startWrite e.orders .bracketed false g, by
    have : cliRead e s .xml = .ok g := hr
    simp only [cliMain, this, Run.bind, cliWrite, Run.exit, hb], ?_⟩
  rintro ts' ⟨a, b, c, d1, d2, d3, d4, -⟩
  obtain ⟨g', hg', -⟩ := C83_reads e.read a b c hd.sane d1 d2 d3
  rw [← d4, C38_fails_bracketed e.read e.gen e.startWrite e.orders hd.fair false g (fun st hst => ⟨escStand_simple hs st hst, by
    obtain ⟨a, b, c⟩ := st
    exact ⟨(xo _ hst).1, (xo _ hst).2.1⟩⟩) hne] at hg'
  cases hg'

/-- C163, the full statement: a document of RDF/XML, with printed characters, converted to N-Triples says what it said. -/
def C163_statement (sty : IriStyle) : Prop :=
  ∀ (e : CliEnv) (s : Str) (ts : List RdfTriple), e.sty = sty → XmlPlainDoc e s → XmlDocSays e s ts →
    ∃ out, cliMain e s (.convert .xml .nTriples) = .success out ∧ NtSays e.read out ts

/-- C163, what holds: documents of two levels whose names and values are read as they are and whose texts have nothing to
escape. -/
theorem C163_partial (e : CliEnv) (s : Str) (ts : List RdfTriple) (hb : e.sty = .bare) (hd : XmlPlainDoc e s) (hs : XmlDocSays e s ts)
    (h2 : twoLevel 0 (e.tokens s) = true) (hr : ∀ ev ∈ e.tokens s, ReadIn e.read ev)
    (hesc : ∀ t ∈ ts, ∀ v, t.2.2.text = some v → escapeString e.read.pr v = v) :
    ∃ out, cliMain e s (.convert .xml .nTriples) = .success out ∧ NtSays e.read out ts := by
  obtain ⟨T, h1, h3, h4⟩ := hs
  obtain ⟨g, k1, k2⟩ := C77_levels_partial e.read e.sty e.gen e.startRead e.emit _ T h1 h2 hr
  refine (C163_iff e s hb hd ts).2 ⟨g, k1, ?_⟩
  rw [k2]
  refine ⟨fun st hst => ?_, fun x hx => ?_⟩
  · obtain ⟨x, hx, h⟩ := h3 st hst
    exact ⟨x, hx, by rw [escTriple_id (hesc x hx)]; exact h⟩
  · obtain ⟨st, hst, h⟩ := h4 x hx
    exact ⟨st, hst, by rw [escTriple_id (hesc x hx)]; exact h⟩

/-- The labels that are generated are labels. -/
theorem label_blankGen (n : Nat) : Label (blankGen n) := by
  have hdig : ∀ c ∈ Nat.toDigits 10 n, PN_CHARS c ∧ c ≠ '.' := fun c hc => by
    obtain ⟨d, hd, rfl⟩ := toDigits_mem (b := 10) (by decide) hc
    have : ∀ d < 10, isPnChars d.digitChar = true ∧ d.digitChar ≠ '.' := by decide
    exact ⟨(isPnChars_iff _).1 (this d hd).1, (this d hd).2⟩
  have hdot : '.' ∉ blankGen n := fun h => by
    rcases List.mem_cons.1 h with h | h
    · exact absurd h (by decide)
    · exact (hdig _ h).2 rfl
  refine ⟨⟨'B', .inl ((isPnCharsU_iff _).1 (by decide)), ?_⟩, fun a b e => hdot (by rw [e]; simp)⟩
  rcases List.eq_nil_or_concat (Nat.toDigits 10 n) with h | ⟨m, l, h⟩
  · exact .inl (by rw [blankGen, h])
  · rw [List.concat_eq_append] at h
    exact .inr ⟨m, l, by rw [blankGen, h]; rfl, fun x hx => .inl (hdig x (by rw [h]; simp [hx])).1, (hdig l (by rw [h]; simp)).1⟩

instance (pr : Char → Bool) (s : Str) : Decidable (Printed pr s) := by unfold Printed; infer_instance

instance (pr : Char → Bool) : DecidablePred (EventPlain pr) := fun ev => by unfold EventPlain; split <;> infer_instance

/-- The commands in an environment where every text has the given events. -/
noncomputable def eventCli (sty : IriStyle) (evs : List XmlIn) : CliEnv := { docCli sty with tokens := fun _ => evs }

theorem eventCli_plain (sty : IriStyle) {evs : List XmlIn} (h : ∀ ev ∈ evs, EventPlain docEnv.pr ev) (s : Str) :
    XmlPlainDoc (eventCli sty evs) s where
  strict := docEnv_strict
  sane := docEnv_sane
  knows := ⟨(by decide +kernel : docEnv.url rdfType.text = some rdfType),
    (by decide +kernel : docEnv.url DataType.xmlLiteral.asIri.text = some DataType.xmlLiteral.asIri), label_blankGen⟩
  fair := sameOrder_fair
  doc := ⟨h, (fun _ _ h => by cases h), (by decide +kernel : Printed docEnv.pr (str! "<>&gtl;"))⟩

/-- One description with one literal. -/
def oneLit (l : Literal) : List (Subject × List (XName × Object)) :=
  [(.res ⟨str! "http://a/s"⟩, [(⟨some (str! "http://a/"), str! "p"⟩, .lit l)])]

/-- Its triple. -/
def oneTriple (l : Literal) : RdfTriple :=
  (.iri ⟨str! "http://a/s"⟩, ⟨str! "http://a/p"⟩, .lit l.lexicalForm (l.dataType.map DataType.asIri) l.language)

theorem oneLit_says (sty : IriStyle) (s : Str) (l : Literal) (h : XmlObject (.lit l)) :
    XmlDocSays (eventCli sty (flatIn (oneLit l))) s [oneTriple l] := by
  refine ⟨_, rdfXml_flat blankGen 0 (oneLit l) (fun d hd => ?_), fun st hst => ?_, fun x hx => ?_⟩
  · rw [List.mem_singleton.1 hd]
    exact ⟨sampleIri_ok, fun q hq => by
      rw [List.mem_singleton.1 hq]
      exact ⟨(by decide +kernel : propertyIri ⟨some (str! "http://a/"), str! "p"⟩ = some (nameText ⟨some (str! "http://a/"), str! "p"⟩)), h⟩⟩
  · rw [List.mem_singleton.1 (show st ∈ [_] from hst)]
    exact ⟨_, List.mem_singleton_self _, rfl⟩
  · rw [List.mem_singleton.1 hx]
    exact ⟨_, List.mem_singleton_self _, rfl⟩

/-- The literal with a type. -/
def typedOne : Literal := ⟨str! "1", some .int, none⟩

/-- The literal without a type. -/
def plainOne : Literal := ⟨str! "1", none, none⟩

theorem typedOne_plain (sty : IriStyle) (s : Str) : XmlPlainDoc (eventCli sty (flatIn (oneLit typedOne))) s :=
  eventCli_plain sty (by decide +kernel) s

theorem plainOne_plain (sty : IriStyle) (s : Str) : XmlPlainDoc (eventCli sty (flatIn (oneLit plainOne))) s :=
  eventCli_plain sty (by decide +kernel) s

theorem typedOne_object : XmlObject (.lit typedOne) :=
  ⟨by decide +kernel, .inr rfl, fun t ht => by cases ht; exact ⟨by decide +kernel, by decide +kernel⟩, fun g h => by cases h⟩

theorem plainOne_object : XmlObject (.lit plainOne) := ⟨by decide +kernel, .inl rfl, (fun t ht => by cases ht), fun g h => by cases h⟩

/-- No graph that is read has the literal with its type. -/
theorem typedOne_unread {sty : IriStyle} {s : Str} {g : Graph} (hr : XmlReadAs (eventCli sty (flatIn (oneLit typedOne))) s g)
    {st : Stmt} (hst : st ∈ g.stmts) : stmtTriple st ≠ some (oneTriple typedOne) := by
  obtain ⟨a, b, c⟩ := st
  intro h
  have ho : objectTerm c = some (.lit (str! "1") (some DataType.int.asIri) none) := by
    unfold stmtTriple at h
    split at h
    · rename_i h1 h2
      cases h
      exact h2
    · cases h
  rcases C77_objects _ _ _ _ _ _ _ hr _ hst with ⟨i, hi⟩ | ⟨⟨x, d, k⟩, hl, hd⟩
  · cases (show c = _ from hi)
    cases ho
  · cases (show c = _ from hl)
    have ho : some (RdfTerm.lit x (d.map DataType.asIri) k) = some (.lit (str! "1") (some DataType.int.asIri) none) := ho
    rcases hd with (hd : d = _) | (hd : d = _) <;> rw [hd] at ho <;> simp only [Option.some.injEq, RdfTerm.lit.injEq] at ho
    · cases ho.2.1
    · exact absurd ho.2.1 (by decide +kernel)

/-- The literal without a type is read. -/
theorem plainOne_read (sty : IriStyle) (s : Str) : ∃ g, XmlReadAs (eventCli sty (flatIn (oneLit plainOne))) s g ∧
    g.stmts = flatStmts (oneLit plainOne) := by
  refine ⟨_, readXml_flat (env := docEnv) (sty := sty) (gen := blankGen) (emit := fun _ => none) (iri := nameText) (n := 0) (ds := oneLit plainOne) fun d hd => ?_,
    (foldl_insert_default _).1.trans rfl⟩
  rw [List.mem_singleton.1 hd]
  refine ⟨?_, fun q hq => ?_⟩
  · exact ⟨by decide +kernel, by decide +kernel⟩
  · rw [List.mem_singleton.1 hq]
    exact ⟨⟨⟨(by decide +kernel), (by decide +kernel)⟩, _, rfl, rfl⟩, fun g h => by cases h⟩

/-- C163 fails: a type is not read. -/
theorem C163_fails (sty : IriStyle) : ¬ C163_statement sty := fun h => by
  cases sty with
  | bare =>
    have := h _ [] _ rfl (typedOne_plain .bare []) (oneLit_says .bare [] typedOne typedOne_object)
    obtain ⟨g, h1, h2⟩ := (C163_iff _ _ rfl (typedOne_plain .bare []) _).1 this
    obtain ⟨st, h3, h4⟩ := h2.2 _ (List.mem_singleton_self _)
    exact typedOne_unread h1 h3 h4
  | bracketed =>
    obtain ⟨g, h1, h2⟩ := plainOne_read .bracketed []
    obtain ⟨out, h3, h4⟩ := C163_fails_bracketed _ [] rfl (plainOne_plain .bracketed []) g h1 (by rw [h2]; exact List.cons_ne_nil _ _)
    obtain ⟨out', h5, h6⟩ := h _ [] _ rfl (plainOne_plain .bracketed []) (oneLit_says .bracketed [] plainOne plainOne_object)
    rw [h3] at h5
    cases h5
    exact h4 _ h6

/-! The literal without a type is converted. -/

example : ∃ out, cliMain (eventCli .bare (flatIn (oneLit plainOne))) [] (.convert .xml .nTriples) = .success out ∧
    NtSays docEnv out [oneTriple plainOne] := by
  obtain ⟨g, h1, h2⟩ := plainOne_read .bare []
  refine (C163_iff _ _ rfl (plainOne_plain .bare []) _).2 ⟨g, h1, ?_⟩
  have esc : escTriple docEnv.pr (oneTriple plainOne) = oneTriple plainOne :=
    escTriple_id fun v hv => by cases hv; exact (by decide +kernel : escapeString easyEnv.pr ['1'] = ['1'])
  rw [h2]
  refine ⟨fun st hst => ⟨_, List.mem_singleton_self _, ?_⟩, fun x hx => ⟨_, List.mem_singleton_self _, ?_⟩⟩
  · rw [List.mem_singleton.1 (show st ∈ [_] from hst)]
    exact congrArg some esc.symm
  · rw [List.mem_singleton.1 hx]
    exact congrArg some esc.symm

end Rdftk
