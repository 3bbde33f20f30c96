import Verif.Props.XmlJson

/-! RDF/XML converted to itself: C165. -/

namespace Rdftk
open Spec

/-- Statements that were read are told apart by their triples. -/
theorem xml_tells {e : CliEnv} {s : Str} {g : Graph} (hr : XmlReadAs e s g) {st st' : Stmt} (h : st ∈ g.stmts) (h' : st' ∈ g.stmts)
    {x : RdfTriple} (k : stmtTriple st = some x) (k' : stmtTriple st' = some x) : st = st' := by
  obtain ⟨a, p, o⟩ := st
  obtain ⟨a', p', o'⟩ := st'
  obtain ⟨t1, t2, t3⟩ := triple_terms k
  obtain ⟨u1, u2, u3⟩ := triple_terms k'
  have a1 : a = a' := subjectTerm_tells ⟨t1, u1⟩
  have a2 : p = p' := (t2 : p = _).trans (u2 : p' = _).symm
  have a3 : o = o' := by
    rcases C77_objects _ _ _ _ _ _ _ hr _ h with ⟨i, hi⟩ | ⟨⟨v, d, w⟩, hl, hd⟩ <;>
    rcases C77_objects _ _ _ _ _ _ _ hr _ h' with ⟨i', hi'⟩ | ⟨⟨v', d', w'⟩, hl', hd'⟩
    · cases (show o = _ from hi)
      cases (show o' = _ from hi')
      rw [← u3] at t3
      cases t3
      rfl
    · cases (show o = _ from hi)
      cases (show o' = _ from hl')
      rw [← u3] at t3
      cases t3
    · cases (show o = _ from hl)
      cases (show o' = _ from hi')
      rw [← u3] at t3
      cases t3
    · cases (show o = _ from hl)
      cases (show o' = _ from hl')
      rw [← u3] at t3
      have t3 : some (RdfTerm.lit v (d.map DataType.asIri) w) = some (RdfTerm.lit v' (d'.map DataType.asIri) w') := t3
      simp only [Option.some.injEq, RdfTerm.lit.injEq] at t3
      obtain ⟨rfl, h2, rfl⟩ := t3
      rcases hd with (rfl : d = _) | (rfl : d = _) <;> rcases hd' with (rfl : d' = _) | (rfl : d' = _) <;> first | rfl | cases h2
  rw [a1, a2, a3]

/-- C165, exactly: what is read from a document of RDF/XML is written again, if RDF/XML can say it, and, with IRIs printed without
brackets, the result says certain triples if and only if the statements read stand for them and no property of a known namespace has
two values at a subject. -/
theorem C165_iff (e : CliEnv) (s : Str) (hb : e.sty = .bare) (hd : XmlPlainDoc e s) (g : Graph) (hr : XmlReadAs e s g)
    (hx : ∀ st ∈ g.stmts, XmlStmt st) :
    ∃ es, XmlGivenFrom e .xml s es ∧ ∀ ts, XmlSays es ts ↔ StandFor g.stmts ts ∧ OnceEach ts := by
  obtain ⟨hsim, hf⟩ := xml_read_facts hd hr
  have hxs : ∀ st ∈ (g.simplify e.gen e.startWrite).1.stmts, XmlStmt st := by rw [hsim]; exact hx
  obtain ⟨es, hes⟩ := writeXml_ok (enc := str! "utf-8") (d := 0) hd.fair hxs
  refine ⟨es, ⟨g, hr, by rw [hb]; exact hes⟩, fun ts => ?_⟩
  rw [xml_says hd.fair hxs hes (by
    rw [hsim]
    intro st hst st' hst' heq
    obtain ⟨-, t, h, -⟩ := hf st hst
    exact xml_tells hr hst hst' h (by rw [← heq]; exact h)) ts, hsim]

/-- In the style of the code no document in which anything is read becomes well formed RDF/XML. -/
theorem C165_fails_bracketed (e : CliEnv) (s : Str) (hb : e.sty = .bracketed) (hd : XmlPlainDoc e s) (g : Graph) (hr : XmlReadAs e s g)
    (hne : g.stmts ≠ []) (es : List XmlOut) (h : XmlGivenFrom e .xml s es) : deliver es = none := by
  obtain ⟨g', hr', hw⟩ := h
  have : cliRead e s .xml = .ok g := hr
  rw [this] at hr'
  cases hr'
  rw [hb] at hw
  obtain ⟨st, hst⟩ := List.exists_mem_of_ne_nil _ hne
  refine C74_fails_brackets _ _ true _ _ hd.fair _ g es st ?_ (.inl rfl) hw
  rw [(xml_read_facts hd hr).1]
  exact hst

/-- C165, the full statement: a document of RDF/XML written again says what it said. -/
def C165_statement (sty : IriStyle) : Prop :=
  ∀ (e : CliEnv) (s : Str) (ts : List RdfTriple), e.sty = sty → XmlPlainDoc e s → AsciiPrintable e.read.pr →
    (∀ c, e.read.pr c = true → xmlPlain c = true) → XmlDocSays e s ts → (∀ t ∈ ts, XmlTriple t) →
    ∃ es, XmlGivenFrom e .xml s es ∧ XmlSays es ts

/-- C165, what holds: documents of two levels whose names and values are read as they are, in which no property of a known namespace
has two values at a subject. -/
theorem C165_partial (e : CliEnv) (s : Str) (ts : List RdfTriple) (hb : e.sty = .bare) (hd : XmlPlainDoc e s)
    (hpr : AsciiPrintable e.read.pr) (hx : ∀ c, e.read.pr c = true → xmlPlain c = true) (hs : XmlDocSays e s ts)
    (ht : ∀ t ∈ ts, XmlTriple t) (h2 : twoLevel 0 (e.tokens s) = true) (hr : ∀ ev ∈ e.tokens s, ReadIn e.read ev) (honce : OnceEach ts) :
    ∃ es, XmlGivenFrom e .xml s es ∧ XmlSays es ts := by
  obtain ⟨T, h1, h3⟩ := hs
  obtain ⟨g, k1, k2⟩ := C77_levels_partial e.read e.sty e.gen e.startRead e.emit _ T h1 h2 hr
  rw [← k2] at h3
  obtain ⟨es, h4, h5⟩ := C165_iff e s hb hd g k1 fun st hst => by
    obtain ⟨-, u, k3, hgot⟩ := (xml_read_facts hd k1).2 st hst
    obtain ⟨x, hxm, k4⟩ := h3.1 st hst
    rw [k3, Option.some.injEq] at k4
    have hxt := ht x hxm
    rw [← k4] at hxt
    refine json_xmlStmt hpr hx k3 hgot.2.2.2.1 ⟨hxt.1, hxt.2.1, ?_⟩
    obtain ⟨a, b, c⟩ := u
    cases c <;> exact hxt.2.2
  exact ⟨es, h4, (h5 ts).2 ⟨h3, honce⟩⟩

theorem one_property : XmlProperty ⟨str! "http://a/p"⟩ := ⟨by decide, str! "http://a/", str! "p",
  ⟨rfl, ⟨str! "http://a", '/', rfl, .inr rfl⟩, by simp [isSep]⟩, by decide +kernel, by decide +kernel⟩

theorem one_xml {l : Literal} (h1 : ∀ t, l.dataType = some t → XmlIri t.asIri)
    (h2 : ∀ g, l.language = some g → g ≠ [] ∧ g.all xmlPlain = true) : XmlTriple (oneTriple l) := by
  refine ⟨⟨by decide +kernel, by decide +kernel⟩, one_property, ?_, h2⟩
  intro i hi
  cases hd : l.dataType with
  | none => rw [hd] at hi; cases hi
  | some t => rw [hd] at hi; cases hi; exact h1 t hd

/-- The literal with a type is read without it. -/
theorem one_read (sty : IriStyle) (s : Str) (l : Literal) (hl : l = typedOne ∨ l = plainOne) :
    ∃ g, XmlReadAs (eventCli sty (flatIn (oneLit l))) s g ∧ g.stmts = flatStmts (oneLit plainOne) := by
  refine ⟨_, readXml_flat (env := docEnv) (sty := sty) (gen := blankGen) (emit := fun _ => none) (iri := nameText) (n := 0) (ds := oneLit l) fun d hd => ?_,
    (foldl_insert_default _).1.trans (by rcases hl with rfl | rfl <;> rfl)⟩
  rw [List.mem_singleton.1 hd]
  refine ⟨?_, fun q hq => ?_⟩
  · exact (⟨by decide +kernel, by decide +kernel⟩ : IriRead docEnv ⟨str! "http://a/s"⟩)
  · rw [List.mem_singleton.1 hq]
    refine ⟨⟨(⟨by decide +kernel, by decide +kernel⟩ : IriRead docEnv ⟨str! "http://a/p"⟩), _, rfl, rfl⟩, fun g h => ?_⟩
    rcases hl with rfl | rfl <;> cases h

theorem plainOne_stmts : ∀ st ∈ flatStmts (oneLit plainOne), XmlStmt st := by
  intro st hst
  rw [List.mem_singleton.1 (show st ∈ [_] from hst)]
  exact ⟨sampleIri_ok, one_property, plainOne_object⟩

/-- C165 fails in either style: a type is not read. -/
theorem C165_fails (sty : IriStyle) : ¬ C165_statement sty := fun h => by
  obtain ⟨es, h1, h2⟩ := h _ [] _ rfl (typedOne_plain sty []) easyEnv_ascii saneEnv_plain (oneLit_says sty [] typedOne typedOne_object)
    fun t ht => by
      rw [List.mem_singleton.1 ht]
      exact one_xml typedOne_object.2.2.1 typedOne_object.2.2.2
  obtain ⟨g, k1, k2⟩ := one_read sty [] typedOne (.inl rfl)
  cases sty with
  | bare =>
    obtain ⟨es', k3, k4⟩ := C165_iff _ [] rfl (typedOne_plain .bare []) g k1 (by rw [k2]; exact plainOne_stmts)
    obtain ⟨g1, a1, b1⟩ := h1
    obtain ⟨g2, a2, b2⟩ := k3
    rw [a1] at a2
    cases a2
    rw [b1] at b2
    cases b2
    obtain ⟨st, hst, k⟩ := ((k4 _).1 h2).1.2 _ (List.mem_singleton_self _)
    exact typedOne_unread k1 hst k
  | bracketed =>
    obtain ⟨ins, T, h3, -⟩ := h2
    rw [C165_fails_bracketed _ [] rfl (typedOne_plain .bracketed []) g k1 (by rw [k2]; exact List.cons_ne_nil _ _) es h1] at h3
    cases h3

/-! The literal without a type is written again. -/

example : ∃ es, XmlGivenFrom (eventCli .bare (flatIn (oneLit plainOne))) .xml [] es ∧ XmlSays es [oneTriple plainOne] := by
  obtain ⟨g, k1, k2⟩ := one_read .bare [] plainOne (.inr rfl)
  obtain ⟨es, h1, h2⟩ := C165_iff _ [] rfl (plainOne_plain .bare []) g k1 (by rw [k2]; exact plainOne_stmts)
  refine ⟨es, h1, (h2 _).2 ⟨?_, fun x hx y hy _ _ _ => by rw [List.mem_singleton.1 hx, List.mem_singleton.1 hy]⟩⟩
  rw [k2]
  refine ⟨fun st hst => ⟨_, List.mem_singleton_self _, ?_⟩, fun x hx => ⟨_, List.mem_singleton_self _, ?_⟩⟩
  · rw [List.mem_singleton.1 (show st ∈ [_] from hst)]
    rfl
  · rw [List.mem_singleton.1 hx]
    rfl

end Rdftk
