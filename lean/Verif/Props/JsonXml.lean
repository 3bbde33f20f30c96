import Verif.Props.JsonJson

/-! RDF/JSON converted to RDF/XML: C161. -/

namespace Rdftk
open Spec

/-- What converting a document to RDF/XML gives to the XML crate. -/
def XmlGivenFrom (e : CliEnv) (source : Representation) (s : Str) (es : List XmlOut) : Prop :=
  ∃ g, cliRead e s source = .ok g ∧ writeXml e.gen e.startWrite e.sty true (str! "utf-8") e.orders 1 g = .ok es

/-- The output is what the crate makes of what it is given. -/
theorem xmlGivenFrom_iff {e : CliEnv} {source : Representation} {s out : Str} :
    cliMain e s (.convert source .xml) = .success out ↔ ∃ es, XmlGivenFrom e source s es ∧ out = e.xmlText es := by
  unfold XmlGivenFrom
  cases hr : cliRead e s source with
  | ok g =>
    cases hw : writeXml e.gen e.startWrite e.sty true (str! "utf-8") e.orders 1 g with
    | ok es =>
      simp only [cliMain, hr, Run.bind, cliWrite, hw, Run.exit, Exit.success.injEq, Run.ok.injEq]
      constructor
      · rintro rfl; exact ⟨es, ⟨g, rfl, hw⟩, rfl⟩
      · rintro ⟨es', ⟨g', rfl, h⟩, rfl⟩
        rw [hw] at h
        cases h
        rfl
    | err | panic | deep =>
      simp only [cliMain, hr, Run.bind, cliWrite, hw, Run.exit, Run.ok.injEq]
      constructor
      · intro h; cases h
      · rintro ⟨es', ⟨g', rfl, h⟩, rfl⟩
        rw [hw] at h
        cases h
  | err | panic | deep =>
    simp [cliMain, hr, Run.bind, Run.exit]

/-- What is written as RDF/XML says triples exactly when the statements stand for them and no property of a known namespace
has two values at a subject, given that each triple has one statement. -/
theorem xml_says {gen : Nat → Str} {n : Nat} {enc : Str} {o : Orders} (ho : o.Fair) {d : Nat} {g : Graph} {es : List XmlOut}
    (hx : ∀ st ∈ (g.simplify gen n).1.stmts, XmlStmt st) (hes : writeXml gen n .bare true enc o d g = .ok es)
    (htell : ∀ st ∈ (g.simplify gen n).1.stmts, ∀ st' ∈ (g.simplify gen n).1.stmts, stmtTriple st = stmtTriple st' → st = st')
    (ts : List RdfTriple) :
    XmlSays es ts ↔ StandFor (g.simplify gen n).1.stmts ts ∧ OnceEach ts := by
  have key := C75_iff gen n enc o ho d g hx es hes
  have once : StandFor (g.simplify gen n).1.stmts ts → (KnownOnce (g.simplify gen n).1.stmts ↔ OnceEach ts) := by
    rintro ⟨fwd, bwd⟩
    refine ⟨fun h x hx y hy hk h1 h2 => ?_, fun h s p o o' hk h1 h2 => ?_⟩
    · obtain ⟨⟨s, p, o⟩, hs, k⟩ := bwd x hx
      obtain ⟨⟨s', p', o'⟩, hs', k'⟩ := bwd y hy
      obtain ⟨t1, t2, t3⟩ := triple_terms k
      obtain ⟨u1, u2, u3⟩ := triple_terms k'
      have a1 : s = s' := subjectTerm_tells ⟨t1, by rw [u1, h1]⟩
      have a2 : p = p' := by rw [← t2, ← u2] at h2; exact h2
      subst a1 a2
      have := h s p o o' (by rw [← t2] at hk; exact hk) hs hs'
      subst this
      rw [t3] at u3
      exact Option.some.inj u3
    · obtain ⟨x, hx, k⟩ := fwd _ h1
      obtain ⟨y, hy, k'⟩ := fwd _ h2
      obtain ⟨t1, t2, t3⟩ := triple_terms k
      obtain ⟨u1, u2, u3⟩ := triple_terms k'
      rw [t1, Option.some.injEq] at u1
      have := h x hx y hy (by rw [← t2]; exact hk) u1 (by rw [← t2, ← u2])
      have h3 : x = y := Prod.ext u1 (Prod.ext (by rw [← t2, ← u2]) this)
      subst h3
      have := htell _ h1 _ h2 (by rw [k, k'])
      injection this
  constructor
  · rintro ⟨ins, T, h1, h2, h3, h4⟩
    have hk : KnownOnce (g.simplify gen n).1.stmts := (C74_iff gen n enc o ho d g hx es hes).1 (by rw [h1]; rfl)
    obtain ⟨ins', T', k1, k2, k3⟩ := key.2 hk
    rw [h1] at k1
    cases k1
    have same := forall₂_triples (C75_unique blankGen 0 ins T T' (h2 _ _) (k2 _ _))
    have move : ∀ {A B : List Stmt}, A.map stmtTriple = B.map stmtTriple → ∀ st ∈ A, ∃ st' ∈ B, stmtTriple st' = stmtTriple st := by
      intro A B hAB st hst
      have : stmtTriple st ∈ A.map stmtTriple := List.mem_map_of_mem hst
      rw [hAB] at this
      obtain ⟨st', h, e⟩ := List.mem_map.1 this
      exact ⟨st', h, e⟩
    have hstand : StandFor (g.simplify gen n).1.stmts ts := by
      refine ⟨fun st hst => ?_, fun x hx => ?_⟩
      · obtain ⟨st', h, e⟩ := move same.symm st ((k3 st).2 hst)
        obtain ⟨x, hx, k⟩ := h3 st' h
        exact ⟨x, hx, by rw [← e]; exact k⟩
      · obtain ⟨st, h, k⟩ := h4 x hx
        obtain ⟨st', h, e⟩ := move same st h
        exact ⟨st', (k3 st').1 h, by rw [e]; exact k⟩
    exact ⟨hstand, (once hstand).1 hk⟩
  · rintro ⟨hstand, h⟩
    obtain ⟨ins, T, k1, k2, k3⟩ := key.2 ((once hstand).2 h)
    refine ⟨ins, T, k1, k2, fun st hs => hstand.1 st ((k3 st).1 hs), fun x hx => ?_⟩
    obtain ⟨st, hs, k⟩ := hstand.2 x hx
    exact ⟨st, (k3 st).2 hs, k⟩

/-- A triple tells the statement that was read. -/
theorem json_tells {env : ReadEnv} {st st' : Stmt} (h : JsonGot env st) (h' : JsonGot env st') {x : RdfTriple}
    (e : stmtTriple st = some x) (e' : stmtTriple st' = some x) : st = st' := by
  obtain ⟨a, p, o⟩ := st
  obtain ⟨a', p', o'⟩ := st'
  obtain ⟨t1, t2, t3⟩ := triple_terms e
  obtain ⟨u1, u2, u3⟩ := triple_terms e'
  have a1 : a = a' := subjectTerm_tells ⟨t1, u1⟩
  have a2 : p = p' := by rw [t2, u2]
  subst a1 a2
  have q := h.2
  have q' := h'.2
  rw [← t3] at u3
  cases o <;> cases o' <;> simp [objectTerm] at t3 u3
  · rw [u3]
  · rw [u3]
  · rename_i l l'
    obtain ⟨v, d, k⟩ := l
    obtain ⟨v', d', k'⟩ := l'
    obtain ⟨rfl, h2, rfl⟩ := u3
    have r1 : ∀ t, d = some t → DataType.fromIri t.asIri = t := q _ rfl
    have r2 : ∀ t, d' = some t → DataType.fromIri t.asIri = t := q' _ rfl
    cases d with
    | none => cases d' with
      | none => rfl
      | some _ => cases h2
    | some d => cases d' with
      | none => cases h2
      | some d' =>
        simp only [Option.map_some, Option.some.injEq] at h2
        rw [← r1 d rfl, ← r2 d' rfl, h2]

/-- A statement that was read and whose triple RDF/XML can say. -/
theorem json_xmlStmt {env : ReadEnv} (hp : AsciiPrintable env.pr) (hx : ∀ c, env.pr c = true → xmlPlain c = true)
    {st : Stmt} {t : RdfTriple} (e : stmtTriple st = some (escTriple env.pr t)) (hg : TermGood env t.2.2) (ht : XmlTriple t) :
    XmlStmt st := by
  obtain ⟨a, p, o⟩ := st
  obtain ⟨x, i, y⟩ := t
  obtain ⟨h1, h2, h3⟩ := ht
  obtain ⟨t1, t2, t3⟩ := triple_terms e
  cases (t2 : p = i)
  refine ⟨?_, h2, ?_⟩
  · cases a <;> simp [subjectTerm, escTriple] at t1 <;> subst t1 <;> exact h1
  · cases o <;> simp [objectTerm, escTriple] at t3
    · cases y <;> simp [escTerm] at t3; subst t3; exact h3
    · cases y <;> simp [escTerm] at t3; subst t3; exact h3
    · rename_i l
      cases y <;> simp [escTerm] at t3
      obtain ⟨e1, e2, e3⟩ := t3
      subst e3 e2
      refine ⟨List.all_eq_true.2 fun c hc => hx c ?_, ?_, fun t ht => h3.1 _ (by rw [ht]; rfl), h3.2⟩
      · rw [e1] at hc
        exact (escaped_shown hp _ c hc).1
      · rcases hg.2.2 with h | h
        · exact .inl (by simpa using h)
        · exact .inr h

/-- C161, exactly: a document of RDF/JSON whose triples RDF/XML can say is converted, and, with IRIs printed without brackets, the
result says what the document says if and only if no literal has anything to escape and no property of a known namespace has two
values at a subject. -/
theorem C161_iff (e : CliEnv) (s : Str) (ts : List RdfTriple) (hb : e.sty = .bare) (he : StrictEnv e.read) (hsane : SaneEnv e.read)
    (hpr : AsciiPrintable e.read.pr) (hx : ∀ c, e.read.pr c = true → xmlPlain c = true)
    (ho : e.orders.Fair) (hs : JsonSays e.read s ts) (ht : ∀ t ∈ ts, XmlTriple t) :
    ∃ es, XmlGivenFrom e .json s es ∧
      (XmlSays es ts ↔ (∀ t ∈ ts, ∀ v, t.2.2.text = some v → escapeString e.read.pr v = v) ∧ OnceEach ts) := by
  obtain ⟨g, hr, fwd, bwd⟩ := json_graph he hsane hs
  have hgot := readJson_got he hr
  have hsimple : ∀ st ∈ g.stmts, simple st = true := fun st hst => by
    obtain ⟨t, -, h, -⟩ := fwd st hst
    exact triple_simple h
  have hsim : (g.simplify e.gen e.startWrite).1.stmts = g.stmts := (C34_unchanged _ _ g hsimple).1
  have hxs : ∀ st ∈ (g.simplify e.gen e.startWrite).1.stmts, XmlStmt st := by
    rw [hsim]
    intro st hst
    obtain ⟨t, hm, h, -, -, -, hg⟩ := fwd st hst
    exact json_xmlStmt hpr hx h hg (ht t hm)
  obtain ⟨es, hes⟩ := writeXml_ok (enc := str! "utf-8") (d := 0) ho hxs
  refine ⟨es, ⟨g, by simp only [cliRead, hr, Res.toRun], by rw [hb]; exact hes⟩, ?_⟩
  rw [xml_says ho hxs hes (by
    rw [hsim]
    intro st hst st' hst' heq
    obtain ⟨t, -, h, -⟩ := fwd st hst
    exact json_tells (hgot st hst) (hgot st' hst') h (by rw [← heq]; exact h)) ts, hsim, ← esc_same]
  refine and_congr_left fun _ => ⟨fun h x => ⟨fun hx => ?_, ?_⟩, fun h => ⟨fun st hst => ?_, fun x hx => ?_⟩⟩
  · obtain ⟨st, hst, k⟩ := h.2 x hx
    obtain ⟨t, htm, k', -⟩ := fwd st hst
    rw [k] at k'
    exact ⟨t, htm, (Option.some.inj k').symm⟩
  · rintro ⟨t, htm, rfl⟩
    obtain ⟨st, hst, k⟩ := bwd t htm
    obtain ⟨x, hx, k'⟩ := h.1 st hst
    rw [k] at k'
    rw [Option.some.inj k']
    exact hx
  · obtain ⟨t, htm, k, -⟩ := fwd st hst
    exact ⟨_, (h _).2 ⟨t, htm, rfl⟩, k⟩
  · obtain ⟨t, htm, rfl⟩ := (h x).1 hx
    exact bwd t htm

/-- In the style of the code no document with a triple is well formed RDF/XML. -/
theorem C161_fails_bracketed (e : CliEnv) (s : Str) (ts : List RdfTriple) (es : List XmlOut) (hb : e.sty = .bracketed)
    (he : StrictEnv e.read) (hsane : SaneEnv e.read) (ho : e.orders.Fair) (hs : JsonSays e.read s ts) (hne : ts ≠ [])
    (h : XmlGivenFrom e .json s es) : deliver es = none := by
  obtain ⟨g, hr, fwd, bwd⟩ := json_graph he hsane hs
  obtain ⟨g', hr', hw⟩ := h
  simp only [cliRead, hr, Res.toRun, Run.ok.injEq] at hr'
  subst hr'
  rw [hb] at hw
  obtain ⟨t, ht⟩ := List.exists_mem_of_ne_nil _ hne
  obtain ⟨st, hst, -⟩ := bwd t ht
  refine C74_fails_brackets _ _ true _ _ ho _ g es st ?_ (.inl rfl) hw
  rw [(C34_unchanged _ _ g fun st hst => by obtain ⟨t, -, h, -⟩ := fwd st hst; exact triple_simple h).1]
  exact hst

/-- C161, the full statement: a document of RDF/JSON converted to RDF/XML says what it said. -/
def C161_statement (sty : IriStyle) : Prop :=
  ∀ (e : CliEnv) (s : Str) (ts : List RdfTriple), e.sty = sty → StrictEnv e.read → SaneEnv e.read →
    AsciiPrintable e.read.pr → (∀ c, e.read.pr c = true → xmlPlain c = true) → e.orders.Fair →
    JsonSays e.read s ts → (∀ t ∈ ts, XmlTriple t) → ∃ es, XmlGivenFrom e .json s es ∧ XmlSays es ts

/-- C161, what holds. -/
theorem C161_partial (e : CliEnv) (s : Str) (ts : List RdfTriple) (hb : e.sty = .bare) (he : StrictEnv e.read) (hsane : SaneEnv e.read)
    (hpr : AsciiPrintable e.read.pr) (hx : ∀ c, e.read.pr c = true → xmlPlain c = true)
    (ho : e.orders.Fair) (hs : JsonSays e.read s ts) (ht : ∀ t ∈ ts, XmlTriple t)
    (hesc : ∀ t ∈ ts, ∀ v, t.2.2.text = some v → escapeString e.read.pr v = v) (honce : OnceEach ts) :
    ∃ es, XmlGivenFrom e .json s es ∧ XmlSays es ts := by
  obtain ⟨es, h1, h2⟩ := C161_iff e s ts hb he hsane hpr hx ho hs ht
  exact ⟨es, h1, h2.2 ⟨hesc, honce⟩⟩

theorem typedTriple_xml {v : Str} : XmlTriple (.iri ⟨str! "http://a/s"⟩, ⟨str! "http://a/p"⟩, .lit v (some ⟨str! "http://a/d"⟩) none) := by
  have hp : XmlProperty ⟨str! "http://a/p"⟩ := ⟨by decide, str! "http://a/", str! "p",
    ⟨rfl, ⟨str! "http://a", '/', rfl, .inr rfl⟩, by simp [isSep]⟩, by decide +kernel, by decide +kernel⟩
  refine ⟨⟨by decide +kernel, by decide +kernel⟩, hp, ?_, by simp⟩
  · rintro i hi
    cases hi
    exact ⟨by decide +kernel, by decide +kernel⟩

/-- C161 fails in either style: a line feed in a literal becomes a backslash and a letter. -/
theorem C161_fails (sty : IriStyle) : ¬ C161_statement sty := by
  intro h
  have hs := typedDoc_says (v := ['\n']) (d := str! "http://a/d") keyMeans_web rfl
  have ht : ∀ t ∈ [((.iri ⟨str! "http://a/s"⟩, ⟨str! "http://a/p"⟩, .lit ['\n'] (some ⟨str! "http://a/d"⟩) none) : RdfTriple)], XmlTriple t := by
    intro t ht
    cases List.mem_singleton.1 ht
    exact typedTriple_xml
  obtain ⟨es, h1, h2⟩ := h (docCli sty) _ _ rfl docEnv_strict docEnv_sane easyEnv_ascii saneEnv_plain sameOrder_fair hs ht
  cases sty with
  | bare =>
    obtain ⟨es', h1', h3⟩ := C161_iff (docCli .bare) _ _ rfl docEnv_strict docEnv_sane easyEnv_ascii saneEnv_plain sameOrder_fair hs ht
    obtain ⟨g, k1, k2⟩ := h1
    obtain ⟨g', k1', k2'⟩ := h1'
    rw [k1] at k1'
    cases k1'
    rw [k2] at k2'
    cases k2'
    exact absurd ((h3.1 h2).1 _ (List.mem_singleton.2 rfl) _ rfl) (by decide)
  | bracketed =>
    obtain ⟨ins, T, h3, -⟩ := h2
    rw [C161_fails_bracketed (docCli .bracketed) _ _ es rfl docEnv_strict docEnv_sane sameOrder_fair hs (by simp) h1] at h3
    cases h3

/-! A document that says the same as RDF/XML. -/

example : ∃ es, XmlGivenFrom (docCli .bare) .json (Json.text false 0 (.obj (typedDoc (str! "http://a/s") ['v'] (str! "http://a/d")))) es ∧
    XmlSays es [(.iri ⟨str! "http://a/s"⟩, ⟨str! "http://a/p"⟩, .lit ['v'] (some ⟨str! "http://a/d"⟩) none)] := by
  refine C161_partial (docCli .bare) _ _ rfl docEnv_strict docEnv_sane easyEnv_ascii saneEnv_plain sameOrder_fair
    (typedDoc_says keyMeans_web rfl) ?_ ?_ ?_
  · intro t ht
    cases List.mem_singleton.1 ht
    exact typedTriple_xml
  · intro t ht v hv
    cases List.mem_singleton.1 ht
    cases hv
    exact (by decide +kernel : escapeString easyEnv.pr ['v'] = ['v'])
  · intro x hx y hy _ _ _
    rw [List.mem_singleton.1 hx, List.mem_singleton.1 hy]

end Rdftk
