import Verif.Props.ConvertSucceeds
import Verif.Props.XmlWrite

/-! Which conversions and drawings of documents succeed: C172. -/

namespace Rdftk
open Spec

/-- A document of N-Triples or RDF/JSON that says some triples. -/
def DocSays (e : CliEnv) (s : Str) (ts : List RdfTriple) : Representation → Prop
  | .nTriples => ∃ (first last : Str) (ls : List (Gaps × Line × RdfTriple)), Gap first ∧ LastGap last ∧
      (∀ x ∈ ls, x.2.1.g = none ∧ x.2.1.Valid ∧ x.1.Valid x.2.1 ∧ x.2.1.Means e.read x.2.2) ∧
      s = docText first last (ls.map fun x => (x.1, x.2.1)) ∧ ts = ls.map fun x => x.2.2
  | .json => JsonSays e.read s ts
  | _ => False

/-- It is read as a graph of the same nodes. -/
theorem docSays_read {e : CliEnv} {s : Str} {ts : List RdfTriple} {source : Representation} (he : StrictEnv e.read)
    (hsane : SaneEnv e.read) (h : DocSays e s ts source) :
    ∃ g, cliRead e s source = .ok g ∧ (∀ st ∈ g.stmts, simple st = true) ∧ (∀ st ∈ g.stmts, ∃ t ∈ ts, st.predicate = t.2.1) ∧
      ∀ t ∈ ts, ∃ st ∈ g.stmts, st.predicate = t.2.1 := by
  match source, h with
  | .nTriples, ⟨first, last, ls, hf, hl, hv, hs, hts⟩ =>
    subst hs hts
    obtain ⟨g, hr, hg⟩ := C83_reads e.read first last ls hsane hf hl hv
    have hsim : ∀ t ∈ g.stmts, simple t = true := fun t ht => (readNt_strict he hr t ht).2.2.1
    refine ⟨g, by simp [cliRead, hr, Res.toRun], hsim, fun st hs => ?_, fun t ht => ?_⟩
    · obtain ⟨t, ht⟩ : ∃ t, stmtTriple st = some t := by
        have := hsim st hs
        obtain ⟨s, p, o⟩ := st
        cases s <;> cases o <;> first | exact ⟨_, rfl⟩ | simp [simple, simpleSubject, simpleObject, Stmt.subject, Stmt.object] at this
      obtain ⟨x, hx, e⟩ := (hg t).1 ⟨st, hs, ht⟩
      refine ⟨x.2.2, List.mem_map.2 ⟨x, hx, rfl⟩, ?_⟩
      rw [(stmtTriple_parts ht).1, ← e]
      rfl
    · obtain ⟨x, hx, rfl⟩ := List.mem_map.1 ht
      obtain ⟨st, hs, k⟩ := (hg _).2 ⟨x, hx, rfl⟩
      exact ⟨st, hs, (stmtTriple_parts k).1⟩
  | .json, h =>
    obtain ⟨g, hr, fwd, bwd⟩ := json_graph he hsane h
    refine ⟨g, by simp only [cliRead, hr, Res.toRun], fun st hst => ?_, fun st hst => ?_, fun t ht => ?_⟩
    · obtain ⟨t, -, k, -⟩ := fwd st hst
      exact triple_simple k
    · obtain ⟨t, ht, k, -⟩ := fwd st hst
      exact ⟨t, ht, (stmtTriple_parts k).1⟩
    · obtain ⟨st, hst, k⟩ := bwd t ht
      exact ⟨st, hst, (stmtTriple_parts k).1⟩

/-- C172: a document that says triples is always converted to N-Triples, N-Quads, TriG and RDF/JSON. -/
theorem C172_texts (e : CliEnv) (s : Str) (ts : List RdfTriple) (source target : Representation) (he : StrictEnv e.read)
    (hsane : SaneEnv e.read) (ho : e.orders.Fair) (h : DocSays e s ts source)
    (ht : target ∈ [Representation.nTriples, .nQuads, .trig, .json]) : ∃ out, cliMain e s (.convert source target) = .success out := by
  obtain ⟨g, hr, hsim, -⟩ := docSays_read he hsane h
  simp only [List.mem_cons, List.not_mem_nil, or_false] at ht
  rcases ht with rfl | rfl | rfl | rfl
  · exact ⟨_, by simp only [cliMain, hr, Run.bind, cliWrite, Run.exit]; rfl⟩
  · exact ⟨_, by simp only [cliMain, hr, Run.bind, cliWrite, Run.exit]; rfl⟩
  · exact ⟨_, by simp only [cliMain, hr, Run.bind, cliWrite, Run.exit]; rfl⟩
  · cases hw : writeJson e.gen e.startWrite e.orders e.sty false g with
    | none =>
      obtain ⟨st, hs, h⟩ := (C64_refuses _ _ _ ho _ _ _).1 hw
      exact absurd h (by rw [simple_shallow (hsim st hs)]; simp)
    | some out => exact ⟨out, by simp only [cliMain, hr, Run.bind, cliWrite, hw, Run.ofOption, Run.exit]⟩

/-- C172, exactly, for RDF/XML: it is converted if and only if every predicate has a `#` or a `/`. -/
theorem C172_xml_iff (e : CliEnv) (s : Str) (ts : List RdfTriple) (source : Representation) (he : StrictEnv e.read)
    (hsane : SaneEnv e.read) (ho : e.orders.Fair) (h : DocSays e s ts source)
    (ha : ∀ t ∈ ts, ∀ c ∈ t.2.1.text, c.toNat < 0x80) :
    (∃ out, cliMain e s (.convert source .xml) = .success out) ↔ ∀ t ∈ ts, ∃ c ∈ t.2.1.text, c = '#' ∨ c = '/' := by
  obtain ⟨g, hr, hsim, fwd, bwd⟩ := docSays_read he hsane h
  have hun : (g.simplify e.gen e.startWrite).1.stmts = g.stmts := (C34_unchanged _ _ g hsim).1
  obtain ⟨h1, h2, h3⟩ := C81_flat_iff e.gen e.startWrite e.sty (str! "utf-8") e.orders ho 0 g
  have h4 := C81_panics_iff e.gen e.startWrite e.sty (str! "utf-8") e.orders ho 0 g (by
    rw [hun]
    intro st hst
    obtain ⟨t, ht, k⟩ := fwd st hst
    exact ⟨hsim st hst, by rw [k]; exact ha t ht⟩)
  rw [hun] at h3 h4
  have key : (∃ out, cliMain e s (.convert source .xml) = .success out) ↔
      writeXml e.gen e.startWrite e.sty true (str! "utf-8") e.orders 1 g ≠ .panic := by
    simp only [cliMain, hr, Run.bind, cliWrite]
    cases hw : writeXml e.gen e.startWrite e.sty true (str! "utf-8") e.orders 1 g with
    | ok es => simp [Run.exit]
    | err => exact absurd hw (h3 hsim)
    | panic => simp [Run.exit]
    | deep => exact absurd hw h2
  rw [key, Ne, h4]
  constructor
  · intro hn t ht
    apply Classical.byContradiction
    intro hc
    obtain ⟨st, hst, k⟩ := bwd t ht
    exact hn ⟨st, hst, fun c hc' hs => hc ⟨c, by rw [← k]; exact hc', hs⟩⟩
  · rintro hn ⟨st, hst, hc⟩
    obtain ⟨t, ht, k⟩ := fwd st hst
    obtain ⟨c, hc', hs⟩ := hn t ht
    exact hc c (by rw [k]; exact hc') hs

/-- C172, exactly, for diagrams: it is drawn if and only if every predicate can be divided. -/
theorem C172_draw_iff (e : CliEnv) (s : Str) (ts : List RdfTriple) (source : Representation) (he : StrictEnv e.read)
    (hsane : SaneEnv e.read) (h : DocSays e s ts source) :
    (∃ out, cliMain e s (.draw source) = .success out) ↔ ∀ t ∈ ts, t.2.1.split ≠ .panic := by
  obtain ⟨g, hr, -, fwd, bwd⟩ := docSays_read he hsane h
  have hds : source.isDataSet = false := by
    match source, h with
    | .nTriples, _ => rfl
    | .json, _ => rfl
  have key : (∃ out, cliMain e s (.draw source) = .success out) ↔ writeDot e.sty e.nodeOrder DotOptions.default [] g ≠ .panic := by
    simp only [cliMain, hds, hr, Run.bind]
    cases hw : writeDot e.sty e.nodeOrder DotOptions.default [] g <;> simp [Run.exit]
  rw [key, Ne, C73_panics_partial]
  constructor
  · intro hn t ht hp
    obtain ⟨st, hst, k⟩ := bwd t ht
    exact hn ⟨st, hst, by rw [k]; exact hp⟩
  · rintro hn ⟨st, hst, hp⟩
    obtain ⟨t, ht, k⟩ := fwd st hst
    exact hn t ht (by rw [← k]; exact hp)

/-- C172, the full statement: a document that says triples can be drawn, and converted to every format that is written. -/
def C172_statement (sty : IriStyle) : Prop :=
  ∀ (e : CliEnv) (s : Str) (ts : List RdfTriple) (source : Representation), e.sty = sty → StrictEnv e.read → SaneEnv e.read →
    e.orders.Fair → (∀ t ∈ ts, ∀ c ∈ t.2.1.text, c.toNat < 0x80) → DocSays e s ts source →
    (∀ target ∈ [Representation.nTriples, .nQuads, .trig, .json, .xml], ∃ out, cliMain e s (.convert source target) = .success out) ∧
    ∃ out, cliMain e s (.draw source) = .success out

/-- A document of one triple whose predicate is `urn:p`. -/
def urnPredicate : List (Gaps × Line × RdfTriple) :=
  [(blankGaps, ⟨.iri (str! "http://a/s"), str! "urn:p", .lit ['x'] .none, none⟩,
    ((.iri ⟨str! "http://a/s"⟩, ⟨str! "urn:p"⟩, .lit ['x'] none none) : RdfTriple))]

theorem urnPredicate_says (sty : IriStyle) : DocSays (docCli sty) (docText [] [] (urnPredicate.map fun x => (x.1, x.2.1)))
    (urnPredicate.map fun x => x.2.2) .nTriples := by
  refine ⟨[], [], urnPredicate, .nil, ⟨[], [], .nil, rfl, .inl rfl⟩, ?_, rfl, rfl⟩
  intro x hx
  rw [urnPredicate, List.mem_singleton] at hx
  subst hx
  have hs : docEnv.url (str! "http://a/s") = some ⟨str! "http://a/s"⟩ := by decide +kernel
  have hp : docEnv.url (str! "urn:p") = some ⟨str! "urn:p"⟩ := by decide +kernel
  refine ⟨rfl, ⟨iriText_chars (s := str! "http://a/s") (by decide), iriText_chars (s := str! "urn:p") (by decide),
    ⟨tokens_of_chars fun c hc => .inl ⟨c, by rw [List.mem_singleton.1 hc]; decide, rfl⟩, trivial⟩, by simp⟩, blankGaps_valid _, ?_⟩
  exact ⟨⟨_, _, decodesIri_plain (by decide), hs, rfl⟩, ⟨str! "urn:p", decodesIri_plain (s := str! "urn:p") (by decide), hp⟩, _,
    .plain (by decide) .nil, rfl⟩

/-- C172 fails: with the predicate `urn:p` neither RDF/XML is written nor a diagram drawn. -/
theorem C172_fails (sty : IriStyle) : ¬ C172_statement sty := by
  intro h
  have ha : ∀ t ∈ urnPredicate.map (fun x => x.2.2), ∀ c ∈ t.2.1.text, c.toNat < 0x80 := by decide +kernel
  have := (h (docCli sty) _ _ .nTriples rfl docEnv_strict docEnv_sane sameOrder_fair ha (urnPredicate_says sty)).1 .xml (by decide)
  have := (C172_xml_iff (docCli sty) _ _ .nTriples docEnv_strict docEnv_sane sameOrder_fair (urnPredicate_says sty) ha).1 this _
    (List.mem_singleton.2 rfl)
  revert this
  simp only []
  decide +kernel

/-- C172 fails for diagrams alone. -/
theorem C172_fails_draw (sty : IriStyle) (out : Str) :
    cliMain (docCli sty) (docText [] [] (urnPredicate.map fun x => (x.1, x.2.1))) (.draw .nTriples) ≠ .success out := by
  intro h
  have := (C172_draw_iff (docCli sty) _ _ .nTriples docEnv_strict docEnv_sane (urnPredicate_says sty)).1 ⟨out, h⟩ _
    (List.mem_singleton.2 rfl)
  exact this (by decide +kernel)

/-- C172, what holds: predicates of ASCII characters that have a `#` or `/` and can be divided. -/
theorem C172_partial (e : CliEnv) (s : Str) (ts : List RdfTriple) (source : Representation) (he : StrictEnv e.read)
    (hsane : SaneEnv e.read) (ho : e.orders.Fair) (h : DocSays e s ts source)
    (ha : ∀ t ∈ ts, ∀ c ∈ t.2.1.text, c.toNat < 0x80) (hc : ∀ t ∈ ts, ∃ c ∈ t.2.1.text, c = '#' ∨ c = '/')
    (hsp : ∀ t ∈ ts, t.2.1.split ≠ .panic) :
    (∀ target ∈ [Representation.nTriples, .nQuads, .trig, .json, .xml], ∃ out, cliMain e s (.convert source target) = .success out) ∧
    ∃ out, cliMain e s (.draw source) = .success out := by
  refine ⟨fun target ht => ?_, (C172_draw_iff e s ts source he hsane h).2 hsp⟩
  by_cases hx : target = .xml
  · subst hx
    exact (C172_xml_iff e s ts source he hsane ho h ha).2 hc
  · refine C172_texts e s ts source target he hsane ho h ?_
    revert ht hx
    cases target <;> simp

/-! A document that meets the conditions. -/

example (sty : IriStyle) : (∀ target ∈ [Representation.nTriples, .nQuads, .trig, .json, .xml],
    ∃ out, cliMain (docCli sty) (docText [] [] ((literalDoc ['x'] ['x']).map fun x => (x.1, x.2.1))) (.convert .nTriples target) = .success out) ∧
    ∃ out, cliMain (docCli sty) (docText [] [] ((literalDoc ['x'] ['x']).map fun x => (x.1, x.2.1))) (.draw .nTriples) = .success out := by
  have hv := literalDoc_valid (a := ['x']) (t := ['x']) (.plain (by decide) .nil) (tokens_of_chars fun c hc => .inl ⟨c, by rw [List.mem_singleton.1 hc]; decide, rfl⟩)
  exact C172_partial (docCli sty) _ ((literalDoc ['x'] ['x']).map fun x => x.2.2) .nTriples docEnv_strict docEnv_sane sameOrder_fair
    ⟨[], [], _, .nil, ⟨[], [], .nil, rfl, .inl rfl⟩, hv, rfl, rfl⟩ (by decide +kernel) (by decide +kernel) (by decide +kernel)

end Rdftk
