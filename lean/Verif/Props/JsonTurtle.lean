import Verif.Props.JsonJson

/-! RDF/JSON converted to Turtle: C162. -/

namespace Rdftk
open Spec

/-- What a statement read from RDF/JSON can be: its triple, its data type as it was recognised, and no language with a type. -/
theorem json_parts {env : ReadEnv} {st : Stmt} {t : RdfTriple} (e : stmtTriple st = some (escTriple env.pr t)) :
    subjectTerm st.subject = some t.1 ∧ st.predicate = t.2.1 ∧ objectTerm st.object = some (escTerm env.pr t.2.2) := by
  obtain ⟨a, p, o⟩ := st
  exact triple_terms e

/-- Converted to Turtle, what was read from RDF/JSON can be read. -/
theorem json_readable {env : ReadEnv} (hw : WebUrl env.url) (hpr : AsciiPrintable env.pr) (o : Orders) {g : Graph}
    (hg : g.mappings = Graph.default.mappings) {st : Stmt} {t : RdfTriple} (e : stmtTriple st = some (escTriple env.pr t))
    (h1 : TermGood env t.1) (h2 : IriGood env t.2.1) (h3 : TermGood env t.2.2)
    (hp : ∀ v, t.2.2.text = some v → Printed env.pr v) (hsp : ∀ i ∈ irisOfTriple t, i.split ≠ .panic)
    (hi : ∀ v d, t.2.2 = .lit v (some DataType.iri.asIri) d → False)
    (hn : ∀ l d, st.object = .lit l → l.dataType = some d → d ∈ bareTypes → (bareType l.lexicalForm).isSome = true) :
    StmtReadable (turtleEnv env.pr env.url TurtleOptions.default o g) st := by
  have iri : ∀ i ∈ irisOfTriple t, IriGood env i → IriFaithful (turtleEnv env.pr env.url TurtleOptions.default o g) i := by
    intro i hi hgood
    have := hw.parsed _ _ hgood.2
    exact iri_default rfl rfl hg hgood.1 hgood.2 this.1 this.2 (hsp i hi)
  obtain ⟨k1, k2, k3⟩ := json_parts e
  obtain ⟨a, p, z⟩ := st
  obtain ⟨x, i, y⟩ := t
  simp only [Stmt.subject, Stmt.predicate, Stmt.object] at k1 k2 k3 hn
  subst k2
  refine ⟨?_, ⟨iri p (by simp [irisOfTriple]) h2, fun hm => ⟨?_, fun s s' h1 h2' => ?_⟩⟩, ?_⟩
  · cases a with
    | blank b => cases k1; exact isLabel_of h1.1
    | res j => cases k1; exact iri j (by simp [irisOfTriple]) h1
    | stmt _ => cases k1
  · refine iri_default rfl rfl hg ?_ hw.type (hw.parsed _ _ hw.type).1 (hw.parsed _ _ hw.type).2 (by decide +kernel)
    have : ∀ c ∈ rdfType.text, 0x20 < c.toNat ∧ c ∉ (str! "<>\"{}|^`\\") := by decide +kernel
    exact this
  · exact mistyped_room (env := turtleEnv env.pr env.url TurtleOptions.default o g) rfl rfl hg hw.type hm h2.2 s s' h1 h2'
  · show ObjectReadable _ z
    cases z with
    | coll _ => cases k3
    | stmt _ => cases k3
    | blank b => cases y <;> cases k3; exact isLabel_of h3.1
    | res j => cases y <;> cases k3; exact iri j (by simp [irisOfTriple]) h3
    | lit l =>
      cases y with
      | lit v d k =>
        simp only [objectTerm, escTerm, Option.some.injEq, RdfTerm.lit.injEq] at k3
        obtain ⟨e1, e2, e3⟩ := k3
        subst e2 e3
        by_cases hb : ∃ t ∈ bareTypes, l.dataType = some t
        · obtain ⟨t, ht, hd⟩ := hb
          exact .inr ⟨t, ht, hd, hn l t rfl hd ht⟩
        · refine .inl ⟨by rw [e1]; exact escape_turtleChar hpr (hp v rfl), fun t ht => ⟨?_, ?_, ?_, ?_⟩, fun k hk => isTag_of (h3.2.1 k hk).1⟩
          · rcases h3.2.2 with h | h
            · rw [ht] at h; cases h
            · exact h
          · rintro rfl
            exact hi v _ (by rw [ht]; rfl)
          · exact fun h => hb ⟨t, h, ht⟩
          · exact iri _ (by simp [irisOfTriple, ht]) (h3.1 _ (by rw [ht]; rfl))
      | iri _ => cases k3
      | blank _ => cases k3

theorem irisOf_esc (pr : Char → Bool) (t : RdfTriple) : irisOfTriple (escTriple pr t) = irisOfTriple t := by
  obtain ⟨a, p, b⟩ := t
  cases b <;> rfl

theorem terms_iris {env : ReadEnv} {t : RdfTriple} (h1 : TermGood env t.1) (h2 : IriGood env t.2.1) (h3 : TermGood env t.2.2) :
    ∀ i ∈ irisOfTriple t, IriGood env i := by
  obtain ⟨a, p, b⟩ := t
  intro i hi
  simp only [irisOfTriple, List.mem_append, List.mem_cons] at hi
  rcases hi with hi | rfl | hi
  · cases a with
    | iri j => rw [List.mem_singleton] at hi; subst hi; exact h1
    | _ => cases hi
  · exact h2
  · cases b with
    | iri j => rw [List.mem_singleton] at hi; subst hi; exact h3
    | lit v d k => exact h3.1 i (by simpa using hi)
    | _ => cases hi

/-- What was written as Turtle has IRIs that can be divided. -/
theorem terms_split {e : CliEnv} {out : Str} {g : Graph} (ho : e.orders.Fair)
    (h : writeTurtle e.read.pr e.read.url .bare TurtleOptions.default e.orders e.gen e.startWrite e.deep g = .ok out)
    (hf : ∀ st ∈ g.stmts, ∃ t, stmtTriple st = some (escTriple e.read.pr t) ∧ TermGood e.read t.1 ∧ IriGood e.read t.2.1 ∧
      TermGood e.read t.2.2) {st : Stmt} (hst : st ∈ g.stmts) {t : RdfTriple}
    (k : stmtTriple st = some (escTriple e.read.pr t)) : ∀ i ∈ irisOfTriple t, i.split ≠ .panic := by
  intro i hi
  refine written_split ho h (fun st hst => ?_) (fun st hst i hi => ?_) (fun st hst l hl => ?_) st hst i
    (by rwa [irisOf_triple k, irisOf_esc])
  · obtain ⟨t, k, -⟩ := hf st hst
    obtain ⟨a, p, b⟩ := st
    obtain ⟨k1, -, k3⟩ := json_parts k
    cases a <;> cases b <;> first | rfl | cases k1 | cases k3
  · obtain ⟨t, k, h1, h2, h3⟩ := hf st hst
    rw [irisOf_triple k, irisOf_esc] at hi
    exact terms_iris h1 h2 h3 i hi
  · obtain ⟨t, k, -, -, h3⟩ := hf st hst
    obtain ⟨-, -, k3⟩ := json_parts k
    rw [hl] at k3
    obtain ⟨a, p, b⟩ := t
    cases b with
    | lit v d k =>
      simp only [objectTerm, escTerm, Option.some.injEq, RdfTerm.lit.injEq] at k3
      obtain ⟨-, e2, e3⟩ := k3
      rcases h3.2.2 with h | h
      · rw [h] at e2; exact .inl (by simpa using e2)
      · exact .inr (e3.trans h)
    | _ => cases k3

/-- If the literals of a Turtle text converted from RDF/JSON are those of the document, nothing was escaped and the numbers have
the type that Turtle gives them. -/
theorem json_turtle_literals (e : CliEnv) (s out : Str) (ts : List RdfTriple) (hb : e.sty = .bare) (he : StrictEnv e.read) (hsane : SaneEnv e.read)
    (hw : WebUrl e.read.url) (hpr : AsciiPrintable e.read.pr) (ho : e.orders.Fair) (hs : JsonSays e.read s ts)
    (hp : ∀ t ∈ ts, ∀ v, t.2.2.text = some v → Printed e.read.pr v)
    (hn : ∀ t ∈ ts, ∀ v d g, d ∈ unquotedTypes → t.2.2 = .lit v (some d.asIri) g → (bareType (escapeString e.read.pr v)).isSome = true)
    (hi : ∀ t ∈ ts, ∀ v g, t.2.2 ≠ .lit v (some DataType.iri.asIri) g)
    (hout : cliMain e s (.convert .json .turtle) = .success out) (L : List Triple) (hL : readTurtle out = some L)
    (hthere : ∀ x ∈ L, ∀ v d k, x.o = .lit v d k → ∃ t ∈ ts, termNode t.2.2 = .lit v d k)
    (hhere : ∀ t ∈ ts, ∀ v d k, termNode t.2.2 = .lit v d k → ∃ x ∈ L, x.o = .lit v d k) :
    (∀ t ∈ ts, ∀ v, t.2.2.text = some v → escapeString e.read.pr v = v) ∧
    (∀ t ∈ ts, ∀ v d g, d ∈ unquotedTypes → t.2.2 = .lit v (some d.asIri) g → bareType v = some d.asIri.text) := by
  obtain ⟨g, hr, fwd, bwd⟩ := json_graph he hsane hs
  have hgot := readJson_got he hr
  have hcr : cliRead e s .json = .ok g := by simp only [cliRead, hr, Res.toRun]
  have hgm : g.mappings = Graph.default.mappings := (C87_fresh e s .json g hcr).2
  have hw' := convert_turtle hcr hout
  rw [hb] at hw'
  -- literals of a type, and the triples they are of
  have htype : ∀ st ∈ g.stmts, ∀ l d, st.object = .lit l → l.dataType = some d → ∀ t, stmtTriple st = some (escTriple e.read.pr t) →
      ∃ v k, t.2.2 = .lit v (some d.asIri) k ∧ l.lexicalForm = escapeString e.read.pr v := by
    rintro ⟨a, p, c⟩ hst l d (rfl : c = _) hd ⟨x, i, y⟩ h
    obtain ⟨-, -, h3⟩ := triple_terms h
    cases y with
    | lit v d' k =>
      simp only [objectTerm, escTriple, escTerm, Option.some.injEq, RdfTerm.lit.injEq] at h3
      rw [hd] at h3
      exact ⟨v, k, by rw [← h3.2.1]; rfl, h3.1⟩
    | _ => cases h3
  have hrd : ∀ st ∈ g.stmts, StmtReadable (turtleEnv e.read.pr e.read.url TurtleOptions.default e.orders g) st := by
    intro st hst
    obtain ⟨t, ht, k, g1, -, g2, g3⟩ := fwd st hst
    refine json_readable hw hpr e.orders hgm k g1 g2 g3 (hp t ht) (terms_split ho hw' (fun st hst => by
      obtain ⟨t, -, k, g1, -, g2, g3⟩ := fwd st hst
      exact ⟨t, k, g1, g2, g3⟩) hst k) (hi t ht) fun l d hl hd hbd => ?_
    obtain ⟨v, k', h4, h5⟩ := htype st hst l d hl hd t k
    rw [h5]
    exact hn t ht v d k' ((unquoted_iff d).2 ⟨hbd, (hgot st hst).2 l hl d hd⟩) h4
  obtain ⟨L', σ, hL', hσ⟩ := C129_says e.read.pr e.read.url TurtleOptions.default e.orders e.gen e.startWrite e.deep g out ho
    (by decide) rfl (by rw [hgm]; exact defaultMappings_reachable) (by rw [hgm]; exact defaultMappings_faithful) hrd hw'
  rw [hL] at hL'
  cases hL'
  have there : ∀ st ∈ g.stmts, ∀ v d k, objectSays st.object = .lit v d k → ∃ t ∈ ts, termNode t.2.2 = .lit v d k := by
    intro st hst v d k hsay
    obtain ⟨z, hz, hze⟩ := (hσ (tripleWritten st)).2 ⟨st, hst, rfl⟩
    have ho1 : renameNode σ z.o = .lit v d k := by
      have h4 := congrArg Triple.o hze
      simp only [renameTriple, tripleWritten] at h4
      rw [h4, hsay]
    refine hthere z hz v d k ?_
    cases hzo : z.o with
    | fresh n => rw [hzo] at ho1; cases ho1
    | _ => rw [hzo] at ho1; exact ho1
  have here : ∀ t ∈ ts, ∀ v d k, termNode t.2.2 = .lit v d k → ∃ st ∈ g.stmts, objectSays st.object = .lit v d k := by
    intro t ht v d k hnode
    obtain ⟨z, hz, hzo⟩ := hhere t ht v d k hnode
    obtain ⟨st, hst, hy⟩ := (hσ (renameTriple σ z)).1 ⟨z, hz, rfl⟩
    have := congrArg Triple.o hy
    simp only [renameTriple, tripleWritten, hzo, renameNode] at this
    exact ⟨st, hst, this.symm⟩
  -- the text of a literal that is written
  have text : ∀ l : Literal, ∃ d k, literalSays l = .lit l.lexicalForm d k := by
    intro l
    unfold literalSays literalNode
    split
    · split
      · exact ⟨_, _, rfl⟩
      · split <;> exact ⟨_, _, rfl⟩
    · split <;> exact ⟨_, _, rfl⟩
  have hesc : ∀ t ∈ ts, ∀ v, t.2.2.text = some v → escapeString e.read.pr v = v := by
    intro t ht v hv
    refine closed_escapes (A := literalTexts ts) (fun a ha => ?_) v (mem_literalTexts.2 ⟨t, ht, hv⟩)
    obtain ⟨u, hu, hua⟩ := mem_literalTexts.1 ha
    obtain ⟨⟨x, p, z⟩, hst, k⟩ := bwd u hu
    obtain ⟨-, -, t3⟩ := triple_terms k
    obtain ⟨u1, u2, u3⟩ := u
    cases u3 with
    | lit w d q =>
      cases hua
      cases z <;> simp [objectTerm, escTriple, escTerm] at t3
      rename_i l
      obtain ⟨d', k', hsay⟩ := text l
      obtain ⟨y, hy, hnode⟩ := there _ hst _ _ _ hsay
      obtain ⟨d2, g2, h7⟩ := termNode_lit hnode
      refine mem_literalTexts.2 ⟨y, hy, ?_⟩
      rw [h7, t3.1]
      rfl
    | iri _ => cases hua
    | blank _ => cases hua
  refine ⟨hesc, fun t ht v d k hd hty => ?_⟩
  obtain ⟨hbd, hfrom⟩ := (unquoted_iff d).1 hd
  obtain ⟨st, hst, hsay⟩ := here t ht v d.asIri.text none (by rw [hty]; rfl)
  obtain ⟨u, hu, ku, -⟩ := fwd st hst
  cases hso : st.object with
  | lit l =>
    rw [hso] at hsay
    simp only [objectSays] at hsay
    have hty' : l.dataType = some d ∨ ∃ d' ∈ bareTypes, l.dataType = some d' := by
      unfold literalSays at hsay
      split at hsay
      · rename_i d' hd'
        split at hsay
        · rename_i hb'; exact .inr ⟨d', hb', hd'⟩
        · simp only [literalNode, hd', Node.lit.injEq] at hsay
          left
          have h1 : d'.asIri = d.asIri := congrArg Iri.mk hsay.2.1
          rw [hd', ← (hgot st hst).2 l hso d' hd', h1, hfrom]
      · rename_i hd'
        left
        unfold literalNode at hsay
        rw [hd'] at hsay
        exfalso
        cases hlang : l.language with
        | some q =>
          simp only [hlang, Node.lit.injEq] at hsay
          exact absurd hsay.2.2 (by simp)
        | none =>
          simp only [hlang, Node.lit.injEq] at hsay
          have : ∀ d ∈ bareTypes, xsdText (str! "string") ≠ d.asIri.text := by decide +kernel
          exact this d hbd hsay.2.1
    obtain ⟨d', hb', hd'⟩ : ∃ d' ∈ bareTypes, l.dataType = some d' := by
      rcases hty' with h | h
      · exact ⟨d, hbd, h⟩
      · exact h
    simp only [literalSays, hd', if_pos hb', Node.lit.injEq] at hsay
    obtain ⟨v', k', h4, h5⟩ := htype st hst l d' hso hd' u ku
    have hsome := hn u hu v' d' k' ((unquoted_iff d').2 ⟨hb', (hgot st hst).2 l hso d' hd'⟩) h4
    rw [← h5, hsay.1] at hsome
    obtain ⟨w, hw⟩ := Option.isSome_iff_exists.1 hsome
    rw [hsay.1, hw] at hsay
    simp only [Option.getD_some] at hsay
    rw [hw, hsay.2.1]
  | _ => rw [hso] at hsay; cases hsay

/-- C162, exactly: the Turtle text that a document of RDF/JSON is converted to, with IRIs once in brackets, says what the document says
if and only if no literal has anything to escape, the numbers and truth values of types written without quotes are of the type that
Turtle gives them, no predicate is one of the three written as `rdf:type`, and a blank node that is an object is no subject and the
object of one triple only.  The texts of those numbers are numbers of Turtle, and there is no `xsd:anyURI`. -/
theorem C162_iff (e : CliEnv) (s out : Str) (ts : List RdfTriple) (hb : e.sty = .bare) (he : StrictEnv e.read) (hsane : SaneEnv e.read)
    (hw : WebUrl e.read.url) (hpr : AsciiPrintable e.read.pr) (ho : e.orders.Fair) (hs : JsonSays e.read s ts)
    (hp : ∀ t ∈ ts, ∀ v, t.2.2.text = some v → Printed e.read.pr v)
    (hn : ∀ t ∈ ts, ∀ v d g, d ∈ unquotedTypes → t.2.2 = .lit v (some d.asIri) g → (bareType (escapeString e.read.pr v)).isSome = true)
    (hi : ∀ t ∈ ts, ∀ v g, t.2.2 ≠ .lit v (some DataType.iri.asIri) g)
    (hout : cliMain e s (.convert .json .turtle) = .success out) :
    (∃ L, readTurtle out = some L ∧ Isomorphic L (ts.map tripleNode)) ↔
      (∀ t ∈ ts, ∀ v, t.2.2.text = some v → escapeString e.read.pr v = v) ∧
      (∀ t ∈ ts, ∀ v d g, d ∈ unquotedTypes → t.2.2 = .lit v (some d.asIri) g → bareType v = some d.asIri.text) ∧
      (∀ t ∈ ts, t.2.1 ∉ mistyped) ∧
      ∀ t ∈ ts, ∀ b, t.2.2 = .blank b → (∀ u ∈ ts, u.1 ≠ .blank b) ∧ ∀ u ∈ ts, u.2.2 = .blank b → u = t := by
  obtain ⟨g, hr, fwd, bwd⟩ := json_graph he hsane hs
  have hgot := readJson_got he hr
  have hcr : cliRead e s .json = .ok g := by simp only [cliRead, hr, Res.toRun]
  have hgm : g.mappings = Graph.default.mappings := (C87_fresh e s .json g hcr).2
  have hw' := convert_turtle hcr hout
  rw [hb] at hw'
  -- literals of a type, and the triples they are of
  have htype : ∀ st ∈ g.stmts, ∀ l d, st.object = .lit l → l.dataType = some d → ∀ t, stmtTriple st = some (escTriple e.read.pr t) →
      ∃ v k, t.2.2 = .lit v (some d.asIri) k ∧ l.lexicalForm = escapeString e.read.pr v := by
    rintro ⟨a, p, c⟩ hst l d (rfl : c = _) hd ⟨x, i, y⟩ h
    obtain ⟨-, -, h3⟩ := triple_terms h
    cases y with
    | lit v d' k =>
      simp only [objectTerm, escTriple, escTerm, Option.some.injEq, RdfTerm.lit.injEq] at h3
      rw [hd] at h3
      exact ⟨v, k, by rw [← h3.2.1]; rfl, h3.1⟩
    | _ => cases h3
  have hrd : ∀ st ∈ g.stmts, StmtReadable (turtleEnv e.read.pr e.read.url TurtleOptions.default e.orders g) st := by
    intro st hst
    obtain ⟨t, ht, k, g1, -, g2, g3⟩ := fwd st hst
    refine json_readable hw hpr e.orders hgm k g1 g2 g3 (hp t ht) (terms_split ho hw' (fun st hst => by
      obtain ⟨t, -, k, g1, -, g2, g3⟩ := fwd st hst
      exact ⟨t, k, g1, g2, g3⟩) hst k) (hi t ht) fun l d hl hd hbd => ?_
    obtain ⟨v, k', h4, h5⟩ := htype st hst l d hl hd t k
    rw [h5]
    exact hn t ht v d k' ((unquoted_iff d).2 ⟨hbd, (hgot st hst).2 l hl d hd⟩) h4
  have key := C129_iff e.read.pr e.read.url TurtleOptions.default e.orders e.gen e.startWrite e.deep g out ho (by decide) rfl
    (by rw [hgm]; exact defaultMappings_reachable) (by rw [hgm]; exact defaultMappings_faithful) hrd hw'
  -- once nothing is escaped and numbers are what they are, the graph says the document
  have back : (∀ t ∈ ts, ∀ v, t.2.2.text = some v → escapeString e.read.pr v = v) →
      (∀ t ∈ ts, ∀ v d g, d ∈ unquotedTypes → t.2.2 = .lit v (some d.asIri) g → bareType v = some d.asIri.text) →
      ((∃ L, readTurtle out = some L ∧ Isomorphic L (ts.map tripleNode)) ↔
      (∀ t ∈ ts, t.2.1 ∉ mistyped) ∧
      ∀ t ∈ ts, ∀ b, t.2.2 = .blank b → (∀ u ∈ ts, u.1 ≠ .blank b) ∧ ∀ u ∈ ts, u.2.2 = .blank b → u = t) := by
    intro hesc hnum
    have fwd' : ∀ st ∈ g.stmts, ∃ x ∈ ts, stmtTriple st = some x := fun st hst => by
      obtain ⟨t, ht, k, -⟩ := fwd st hst
      exact ⟨t, ht, by rw [k, escTriple_id (hesc t ht)]⟩
    have bwd' : ∀ x ∈ ts, ∃ st ∈ g.stmts, stmtTriple st = some x := fun x hx => by
      obtain ⟨st, hst, k⟩ := bwd x hx
      exact ⟨st, hst, by rw [k, escTriple_id (hesc x hx)]⟩
    have said : ∀ st ∈ g.stmts, tripleSays st = tripleOf st := by
      intro st hst
      have : objectSays st.object = objectNode st.object := by
        cases ho' : st.object with
        | lit l =>
          simp only [objectSays, objectNode, literalSays]
          split
          · rename_i d hd
            split
            · rename_i hbd
              obtain ⟨t, ht, k, -⟩ := fwd st hst
              obtain ⟨v, k', h4, h5⟩ := htype st hst l d ho' hd t k
              have hv := hesc t ht v (by rw [h4]; rfl)
              have := hnum t ht v d k' ((unquoted_iff d).2 ⟨hbd, (hgot st hst).2 l ho' d hd⟩) h4
              rw [hv] at h5
              rw [← h5] at this
              simp only [this, Option.getD_some, literalNode, hd]
            · rfl
          · rfl
        | _ => rfl
      simp only [tripleSays, tripleOf, this]
    have same : ∀ t, t ∈ g.stmts.map tripleSays ↔ t ∈ ts.map tripleNode := by
      intro t
      rw [List.mem_map, List.mem_map]
      constructor
      · rintro ⟨st, hst, rfl⟩
        obtain ⟨x, hx, k⟩ := fwd' st hst
        exact ⟨x, hx, by rw [said st hst]; exact (tripleOf_term k).symm⟩
      · rintro ⟨x, hx, rfl⟩
        obtain ⟨st, hst, k⟩ := bwd' x hx
        exact ⟨st, hst, by rw [said st hst]; exact tripleOf_term k⟩
    simp only [← isomorphic_same same]; rw [key]
    constructor
    · rintro ⟨h1, h2⟩
      have h2 := h2 rfl
      refine ⟨fun x hx => ?_, fun x hx b hxb => ?_⟩
      · obtain ⟨st, hst, k⟩ := bwd' x hx
        rw [← (stmtTriple_parts k).1]
        exact h1 st hst
      · obtain ⟨st, hst, k⟩ := bwd' x hx
        obtain ⟨h3, h4⟩ := h2 st hst b (((stmtTriple_parts k).2.2 b).2 hxb)
        refine ⟨fun y hy hyb => ?_, fun y hy hyb => ?_⟩
        · obtain ⟨st', hs', e'⟩ := bwd' y hy
          exact h3 st' hs' (((stmtTriple_parts e').2.1 b).2 hyb)
        · obtain ⟨st', hs', e'⟩ := bwd' y hy
          have := h4 st' hs' (((stmtTriple_parts e').2.2 b).2 hyb)
          rw [this, k] at e'
          exact (Option.some.inj e').symm
    · rintro ⟨h1, h2⟩
      refine ⟨fun st hst => ?_, fun _ st hst b hsb => ?_⟩
      · obtain ⟨x, hx, k⟩ := fwd' st hst
        rw [(stmtTriple_parts k).1]
        exact h1 x hx
      · obtain ⟨x, hx, k⟩ := fwd' st hst
        have hxb := ((stmtTriple_parts k).2.2 b).1 hsb
        obtain ⟨h3, h4⟩ := h2 x hx b hxb
        refine ⟨fun st' hs' hb' => ?_, fun st' hs' hb' => ?_⟩
        · obtain ⟨y, hy, e'⟩ := fwd' st' hs'
          exact h3 y hy (((stmtTriple_parts e').2.1 b).1 hb')
        · obtain ⟨y, hy, e'⟩ := fwd' st' hs'
          have := h4 y hy (((stmtTriple_parts e').2.2 b).1 hb')
          rw [this] at e'
          exact stmtTriple_blank e' k hxb
  constructor
  · intro h
    suffices hh : (∀ t ∈ ts, ∀ v, t.2.2.text = some v → escapeString e.read.pr v = v) ∧
        (∀ t ∈ ts, ∀ v d g, d ∈ unquotedTypes → t.2.2 = .lit v (some d.asIri) g → bareType v = some d.asIri.text) from
      ⟨hh.1, hh.2, (back hh.1 hh.2).1 h⟩
    obtain ⟨L, hL, ρ, hρ1, -, hρ2⟩ := h
    refine json_turtle_literals e s out ts hb he hsane hw hpr ho hs hp hn hi hout L hL (fun z hz v d k hzo => ?_) fun t ht v d k hnode => ?_
    · have hkeep : ρ z.o = z.o := (hρ1 z.o ⟨z, hz, .inr rfl⟩).2 (by rw [hzo]; simp [Node.IsBlank])
      obtain ⟨y, hy, hye⟩ := List.mem_map.1 ((hρ2 ⟨ρ z.s, z.p, ρ z.o⟩).2 ⟨z, hz, rfl⟩)
      have := congrArg Triple.o hye
      simp only [tripleNode] at this
      rw [hkeep, hzo] at this
      exact ⟨y, hy, this⟩
    · obtain ⟨z, hz, hze⟩ := (hρ2 (tripleNode t)).1 (List.mem_map_of_mem ht)
      have ho1 : ρ z.o = .lit v d k := by
        have h4 := congrArg Triple.o hze
        simp only [tripleNode] at h4
        rw [← h4, hnode]
      refine ⟨z, hz, ?_⟩
      by_cases hbl : z.o.IsBlank
      · have := (hρ1 z.o ⟨z, hz, .inr rfl⟩).1.1 hbl
        rw [ho1] at this
        exact this.elim
      · rw [← (hρ1 z.o ⟨z, hz, .inr rfl⟩).2 hbl]; exact ho1
  · rintro ⟨h1, h2, h3⟩
    exact (back h1 h2).2 h3

/-- C162, the full statement: a document of RDF/JSON converted to Turtle says what it said. -/
def C162_statement (sty : IriStyle) : Prop :=
  ∀ (e : CliEnv) (s out : Str) (ts : List RdfTriple), e.sty = sty → StrictEnv e.read → SaneEnv e.read → WebUrl e.read.url →
    AsciiPrintable e.read.pr → e.orders.Fair → JsonSays e.read s ts →
    (∀ t ∈ ts, ∀ v, t.2.2.text = some v → Printed e.read.pr v) →
    cliMain e s (.convert .json .turtle) = .success out →
    ∃ L, readTurtle out = some L ∧ Isomorphic L (ts.map tripleNode)

/-- C162, what holds. -/
theorem C162_partial (e : CliEnv) (s out : Str) (ts : List RdfTriple) (hb : e.sty = .bare) (he : StrictEnv e.read) (hsane : SaneEnv e.read)
    (hw : WebUrl e.read.url) (hpr : AsciiPrintable e.read.pr) (ho : e.orders.Fair) (hs : JsonSays e.read s ts)
    (hp : ∀ t ∈ ts, ∀ v, t.2.2.text = some v → Printed e.read.pr v)
    (hi : ∀ t ∈ ts, ∀ v g, t.2.2 ≠ .lit v (some DataType.iri.asIri) g)
    (hout : cliMain e s (.convert .json .turtle) = .success out)
    (hesc : ∀ t ∈ ts, ∀ v, t.2.2.text = some v → escapeString e.read.pr v = v)
    (hnum : ∀ t ∈ ts, ∀ v d g, d ∈ unquotedTypes → t.2.2 = .lit v (some d.asIri) g → bareType v = some d.asIri.text)
    (hm : ∀ t ∈ ts, t.2.1 ∉ mistyped) (hbl : ∀ t ∈ ts, ∀ b, t.2.2 ≠ .blank b) :
    ∃ L, readTurtle out = some L ∧ Isomorphic L (ts.map tripleNode) :=
  (C162_iff e s out ts hb he hsane hw hpr ho hs hp (fun t ht v d g hd hty => by
      rw [hesc t ht v (by rw [hty]; rfl), hnum t ht v d g hd hty]; rfl) hi hout).2
    ⟨hesc, hnum, hm, fun t ht b h => absurd h (hbl t ht b)⟩

/-- The graph of a document with one literal of a type. -/
def typedGraph (v : Str) (d : DataType) : Graph :=
  Graph.default.insert (.mk (.res ⟨str! "http://a/s"⟩) ⟨str! "http://a/p"⟩ (.lit ⟨v, some d, none⟩))

theorem typedDoc_parse (k v d : Str) : jParse (Json.text false 0 (.obj (typedDoc k v d))) = some (.obj (typedDoc k v d)) :=
  jParse_text _ _ (by simp [typedDoc, Json.Fits, Json.FitsAll, Json.FitsMembers, SortedKeys]; decide)

theorem typedDoc_int : readJson docEnv (Json.text false 0 (.obj (typedDoc (str! "http://a/s") ['1'] DataType.int.asIri.text))) =
    .ok (typedGraph ['1'] .int) := by
  rw [readJson, typedDoc_parse]; rfl

theorem typedDoc_true : readJson docEnv (Json.text false 0 (.obj (typedDoc (str! "http://a/s") (str! "true") DataType.boolean.asIri.text))) =
    .ok (typedGraph (str! "true") .boolean) := by
  rw [readJson, typedDoc_parse]; rfl

theorem typedGraph_out (sty : IriStyle) (v : Str) (d : DataType) (h : (v, d) ∈ [(['1'], DataType.int), (str! "true", DataType.boolean)]) :
    ∃ out, writeTurtle docEnv.pr docEnv.url sty TurtleOptions.default sameOrder blankGen 0 9 (typedGraph v d) = .ok out := by
  have : ∀ sty, ∀ x ∈ [(['1'], DataType.int), (str! "true", DataType.boolean)],
      (match writeTurtle webEnv.pr webEnv.url sty TurtleOptions.default sameOrder blankGen 0 9 (typedGraph x.1 x.2) with
        | .ok _ => true | _ => false) = true := by
    intro sty; cases sty <;> decide +kernel
  have := this sty _ h
  split at this
  · rename_i out h; exact ⟨out, h⟩
  · cases this

/-- C162 fails in either style: the type of an integer is another. -/
theorem C162_fails (sty : IriStyle) : ¬ C162_statement sty := by
  intro h
  have hs := typedDoc_says (v := ['1']) (d := DataType.int.asIri.text) keyMeans_web rfl
  obtain ⟨out, hw⟩ := typedGraph_out sty ['1'] .int (by simp)
  have ho : cliMain (docCli sty) (Json.text false 0 (.obj (typedDoc (str! "http://a/s") ['1'] DataType.int.asIri.text)))
      (.convert .json .turtle) = .success out := by
    have h1 : readJson (docCli sty).read (Json.text false 0 (.obj (typedDoc (str! "http://a/s") ['1'] DataType.int.asIri.text))) =
      .ok (typedGraph ['1'] .int) := typedDoc_int
    have h2 : writeTurtle (docCli sty).read.pr (docCli sty).read.url (docCli sty).sty TurtleOptions.default (docCli sty).orders
      (docCli sty).gen (docCli sty).startWrite (docCli sty).deep (typedGraph ['1'] .int) = .ok out := hw
    simp only [cliMain, cliRead, h1, Res.toRun, Run.bind, cliWrite, h2, Run.exit]
  have hp : ∀ t ∈ [((.iri ⟨str! "http://a/s"⟩, ⟨str! "http://a/p"⟩, .lit ['1'] (some ⟨DataType.int.asIri.text⟩) none) : RdfTriple)],
      ∀ v, t.2.2.text = some v → Printed docEnv.pr v := by
    intro t ht v hv
    cases List.mem_singleton.1 ht
    cases hv
    exact webCli_printed _ (by decide +kernel)
  have hr := h (docCli sty) _ out _ rfl docEnv_strict docEnv_sane webEnv_web easyEnv_ascii sameOrder_fair hs hp ho
  cases sty with
  | bracketed =>
    obtain ⟨L, hL, -⟩ := hr
    rw [C153_fails_bracketed (docCli .bracketed) _ out .json rfl ho] at hL
    cases hL
  | bare =>
    have := ((C162_iff (docCli .bare) _ out _ rfl docEnv_strict docEnv_sane webEnv_web easyEnv_ascii sameOrder_fair hs hp (by
        intro t ht v d g _ e
        cases List.mem_singleton.1 ht
        have := (RdfTerm.lit.inj e).1
        subst this
        exact (by decide +kernel : (bareType (escapeString easyEnv.pr ['1'])).isSome = true)) (by
        intro t ht v g e
        cases List.mem_singleton.1 ht
        simp only [RdfTerm.lit.injEq, Option.some.injEq] at e
        exact absurd e.2.1 (by decide +kernel)) ho).1 hr).2.1 _ (List.mem_singleton.2 rfl) ['1'] .int none (by decide) rfl
    exact absurd this (by decide +kernel)

/-! A truth value says the same as Turtle. -/

example : ∃ out L, cliMain (docCli .bare) (Json.text false 0 (.obj (typedDoc (str! "http://a/s") (str! "true") DataType.boolean.asIri.text)))
    (.convert .json .turtle) = .success out ∧ readTurtle out = some L ∧
    Isomorphic L [tripleNode (.iri ⟨str! "http://a/s"⟩, ⟨str! "http://a/p"⟩, .lit (str! "true") (some ⟨DataType.boolean.asIri.text⟩) none)] := by
  have hs := typedDoc_says (v := str! "true") (d := DataType.boolean.asIri.text) keyMeans_web rfl
  obtain ⟨out, hw⟩ := typedGraph_out .bare (str! "true") .boolean (by simp)
  have ho : cliMain (docCli .bare) (Json.text false 0 (.obj (typedDoc (str! "http://a/s") (str! "true") DataType.boolean.asIri.text)))
      (.convert .json .turtle) = .success out := by
    have h1 : readJson (docCli .bare).read (Json.text false 0 (.obj (typedDoc (str! "http://a/s") (str! "true") DataType.boolean.asIri.text))) =
      .ok (typedGraph (str! "true") .boolean) := typedDoc_true
    have h2 : writeTurtle (docCli .bare).read.pr (docCli .bare).read.url (docCli .bare).sty TurtleOptions.default (docCli .bare).orders
      (docCli .bare).gen (docCli .bare).startWrite (docCli .bare).deep (typedGraph (str! "true") .boolean) = .ok out := hw
    simp only [cliMain, cliRead, h1, Res.toRun, Run.bind, cliWrite, h2, Run.exit]
  obtain ⟨L, h1, h2⟩ := C162_partial (docCli .bare) _ out _ rfl docEnv_strict docEnv_sane webEnv_web easyEnv_ascii sameOrder_fair hs (by
      intro t ht v hv
      cases List.mem_singleton.1 ht
      cases hv
      exact webCli_printed _ (by decide +kernel)) (by
      intro t ht v g e
      cases List.mem_singleton.1 ht
      simp only [RdfTerm.lit.injEq, Option.some.injEq] at e
      exact absurd e.2.1 (by decide +kernel)) ho (by
      intro t ht v hv
      cases List.mem_singleton.1 ht
      cases hv
      exact (by decide +kernel : escapeString easyEnv.pr (str! "true") = (str! "true"))) (by
      intro t ht v d g _ e
      cases List.mem_singleton.1 ht
      have h1 := (RdfTerm.lit.inj e).1
      have h2 := (RdfTerm.lit.inj e).2.1
      simp only [Option.some.injEq] at h2
      rw [← h1, ← h2]
      decide +kernel) (by decide +kernel) (by
      intro t ht b e
      cases List.mem_singleton.1 ht
      cases e)
  exact ⟨out, L, ho, h1, h2⟩

end Rdftk
