import Verif.Props.XmlNTriples

/-! RDF/XML converted to RDF/JSON: C164. -/

namespace Rdftk
open Spec

/-- What the reader makes of a document, with what can be said of it. -/
theorem xml_read_facts {e : CliEnv} {s : Str} (hd : XmlPlainDoc e s) {g : Graph} (hr : XmlReadAs e s g) :
    (g.simplify e.gen e.startWrite).1.stmts = g.stmts ∧ ∀ st ∈ g.stmts, simple st = true ∧
      ∃ t, stmtTriple st = some (escTriple e.read.pr t) ∧ TripleGot e.read t := by
  have hgot := readXml_got hd.strict hd.sane hd.knows hd.doc hr
  have h : ∀ st ∈ g.stmts, simple st = true ∧ ∃ t, stmtTriple st = some (escTriple e.read.pr t) ∧ TripleGot e.read t := fun st hst => by
    obtain ⟨t, h1, h2⟩ := (hgot st hst).triple hd.strict hd.knows
    exact ⟨triple_simple h1, t, h1, h2⟩
  exact ⟨(C34_unchanged _ _ g fun st hst => (h st hst).1).1, h⟩

/-- It is written. -/
theorem xml_json_written {e : CliEnv} {s : Str} (hd : XmlPlainDoc e s) {g : Graph} (hr : XmlReadAs e s g) :
    ∃ out, writeJson e.gen e.startWrite e.orders e.sty false g = some out ∧ cliMain e s (.convert .xml .json) = .success out := by
  have hf := (xml_read_facts hd hr).2
  cases hw : writeJson e.gen e.startWrite e.orders e.sty false g with
  | none =>
    obtain ⟨st, hs, h⟩ := (C64_refuses _ _ _ hd.fair _ _ _).1 hw
    exact absurd h (by rw [simple_shallow (hf st hs).1]; simp)
  | some out =>
    have : cliRead e s .xml = .ok g := hr
    exact ⟨out, rfl, by simp only [cliMain, this, Run.bind, cliWrite, hw, Run.ofOption, Run.exit]⟩

/-- C164, exactly: a document of RDF/XML converted to RDF/JSON, with IRIs without brackets, says certain triples, none with a blank
node as object, if and only if it is read, the statements stand for them, and no subject is an IRI. -/
theorem C164_iff (e : CliEnv) (s : Str) (hb : e.sty = .bare) (hd : XmlPlainDoc e s) (ts : List RdfTriple)
    (hts : ∀ t ∈ ts, ∀ b, t.2.2 ≠ .blank b) :
    (∃ out, cliMain e s (.convert .xml .json) = .success out ∧ JsonSays e.read out ts) ↔
    (∃ g, XmlReadAs e s g ∧ StandFor g.stmts ts) ∧ ∀ t ∈ ts, ∀ i, t.1 ≠ .iri i := by
  have key : ∀ g, XmlReadAs e s g → ∃ out, cliMain e s (.convert .xml .json) = .success out ∧
      (JsonSays e.read out ts ↔ StandFor g.stmts ts ∧ ∀ t ∈ ts, ∀ i, t.1 ≠ .iri i) := by
    intro g hr
    obtain ⟨out, hw, hc⟩ := xml_json_written hd hr
    obtain ⟨hsim, hf⟩ := xml_read_facts hd hr
    rw [hb] at hw
    refine ⟨out, hc, ?_⟩
    rw [json_says hd.sane hd.fair hw (by
      rw [hsim]
      intro st hst
      obtain ⟨-, t, h1, h2⟩ := hf st hst
      exact ⟨_, h1, esc_taken h2.1 h2.2.2.1 h2.2.2.2.1⟩) ts (by
      rintro b ⟨t, ht, htb⟩
      exact absurd htb (hts t ht b)), hsim]
    constructor
    · rintro ⟨h1, h2⟩
      refine ⟨⟨fun st hst => ?_, fun x hx => (h2 x).1 hx⟩, fun t ht i hi => ?_⟩
      · obtain ⟨-, t, h3, -⟩ := hf st hst
        exact ⟨_, (h2 _).2 ⟨st, hst, h3⟩, h3⟩
      · obtain ⟨⟨x, p, z⟩, hst, k⟩ := (h2 t).1 ht
        obtain ⟨t1, -, -⟩ := triple_terms k
        rw [hi] at t1
        cases x <;> simp [subjectTerm] at t1
        exact (h1 _ hst).1 _ rfl
    · rintro ⟨h1, h2⟩
      refine ⟨fun st hst => ⟨fun i hi => ?_, fun b hb => ?_⟩, fun x => ⟨h1.2 x, ?_⟩⟩
      · obtain ⟨x, hx, k⟩ := h1.1 st hst
        obtain ⟨y, p, z⟩ := st
        obtain ⟨t1, -, -⟩ := triple_terms k
        rw [show y = .res i from hi] at t1
        exact h2 x hx i (Option.some.inj t1).symm
      · obtain ⟨x, hx, k⟩ := h1.1 st hst
        obtain ⟨y, p, z⟩ := st
        obtain ⟨-, -, t3⟩ := triple_terms k
        rw [show z = .blank b from hb] at t3
        exact hts x hx b (Option.some.inj t3).symm
      · rintro ⟨st, hst, k⟩
        obtain ⟨y, hy, k'⟩ := h1.1 st hst
        rw [k] at k'
        rwa [Option.some.inj k']
  constructor
  · rintro ⟨out, h1, h2⟩
    obtain ⟨g, hg⟩ : ∃ g, cliRead e s .xml = .ok g := by
      cases h : cliRead e s .xml with
      | ok g => exact ⟨g, rfl⟩
      | err | panic | deep => simp [cliMain, h, Run.bind, Run.exit] at h1
    obtain ⟨out', k1, k2⟩ := key g hg
    rw [h1] at k1
    cases k1
    obtain ⟨h3, h4⟩ := k2.1 h2
    exact ⟨⟨g, hg, h3⟩, h4⟩
  · rintro ⟨⟨g, h1, h2⟩, h3⟩
    obtain ⟨out, k1, k2⟩ := key g h1
    exact ⟨out, k1, k2.2 ⟨h2, h3⟩⟩

/-- In the style of the code the result says nothing, if anything is read. -/
theorem C164_fails_bracketed (e : CliEnv) (s : Str) (hb : e.sty = .bracketed) (hd : XmlPlainDoc e s) (g : Graph) (hr : XmlReadAs e s g)
    (hne : g.stmts ≠ []) : ∃ out, cliMain e s (.convert .xml .json) = .success out ∧ ∀ ts, ¬ JsonSays e.read out ts := by
  obtain ⟨out, hw, hc⟩ := xml_json_written hd hr
  obtain ⟨hsim, hf⟩ := xml_read_facts hd hr
  rw [hb] at hw
  exact ⟨out, hc, json_bracketed hd.sane hd.fair hw (by rw [hsim]; exact hne) (by rw [hsim]; exact fun st hst => (hf st hst).1)⟩

/-- C164, the full statement: a document of RDF/XML, with printed characters, converted to RDF/JSON says what it said. -/
def C164_statement (sty : IriStyle) : Prop :=
  ∀ (e : CliEnv) (s : Str) (ts : List RdfTriple), e.sty = sty → XmlPlainDoc e s → XmlDocSays e s ts →
    ∃ out, cliMain e s (.convert .xml .json) = .success out ∧ JsonSays e.read out ts

/-- C164 fails in either style: an IRI as subject is enough. -/
theorem C164_fails (sty : IriStyle) : ¬ C164_statement sty := fun h => by
  obtain ⟨out, h1, h2⟩ := h _ [] _ rfl (plainOne_plain sty []) (oneLit_says sty [] plainOne plainOne_object)
  cases sty with
  | bare =>
    refine ((C164_iff _ _ rfl (plainOne_plain .bare []) _ fun t ht b => ?_).1 ⟨out, h1, h2⟩).2 _ (List.mem_singleton_self _) _ rfl
    rw [List.mem_singleton.1 ht]
    intro h
    cases h
  | bracketed =>
    obtain ⟨g, k1, k2⟩ := plainOne_read .bracketed []
    obtain ⟨out', k3, k4⟩ := C164_fails_bracketed _ [] rfl (plainOne_plain .bracketed []) g k1 (by rw [k2]; exact List.cons_ne_nil _ _)
    rw [k3] at h1
    cases h1
    exact k4 _ h2

/-- What was read has no blank node as object. -/
theorem standFor_objects {e : CliEnv} {s : Str} {g : Graph} (hr : XmlReadAs e s g) {ts : List RdfTriple} (h : StandFor g.stmts ts) :
    ∀ t ∈ ts, ∀ b, t.2.2 ≠ .blank b := by
  intro t ht b hb
  obtain ⟨⟨x, p, z⟩, hst, k⟩ := h.2 t ht
  obtain ⟨-, -, t3⟩ := triple_terms k
  rw [hb] at t3
  rcases C77_objects _ _ _ _ _ _ _ hr _ hst with ⟨i, hi⟩ | ⟨l, hl, -⟩
  · cases (show z = _ from hi)
    cases t3
  · cases (show z = _ from hl)
    cases t3

/-- C164, what holds: documents of two levels whose names and values are read as they are and whose subjects are blank nodes. -/
theorem C164_partial (e : CliEnv) (s : Str) (ts : List RdfTriple) (hb : e.sty = .bare) (hd : XmlPlainDoc e s) (hs : XmlDocSays e s ts)
    (h2 : twoLevel 0 (e.tokens s) = true) (hr : ∀ ev ∈ e.tokens s, ReadIn e.read ev) (hi : ∀ t ∈ ts, ∀ i, t.1 ≠ .iri i) :
    ∃ out, cliMain e s (.convert .xml .json) = .success out ∧ JsonSays e.read out ts := by
  obtain ⟨T, h1, h3⟩ := hs
  obtain ⟨g, k1, k2⟩ := C77_levels_partial e.read e.sty e.gen e.startRead e.emit _ T h1 h2 hr
  rw [← k2] at h3
  exact (C164_iff e s hb hd ts (standFor_objects k1 h3)).2 ⟨⟨g, k1, h3⟩, hi⟩

/-! A blank node with a value is converted. -/

example : ∃ out, cliMain (eventCli .bare (flatIn [(.blank ['b'], [(⟨some (str! "http://a/"), str! "p"⟩, .lit plainOne)])])) []
      (.convert .xml .json) = .success out ∧
    JsonSays docEnv out [(.blank ['b'], ⟨str! "http://a/p"⟩, .lit ['1'] none none)] := by
  refine (C164_iff _ _ rfl (eventCli_plain .bare (by decide +kernel) []) _ ?_).2 ⟨⟨_, readXml_flat (env := docEnv) (sty := .bare)
    (gen := blankGen) (emit := fun _ => none) (iri := nameText) (n := 0) fun d hd => ?_, ?_⟩, ?_⟩
  · intro t ht b
    rw [List.mem_singleton.1 ht]
    intro h
    cases h
  · rw [List.mem_singleton.1 hd]
    refine ⟨?_, fun q hq => ?_⟩
    · have hb : Label ['b'] := ⟨⟨'b', .inl ((isPnCharsU_iff _).1 (by decide)), .inl rfl⟩, fun a b e => by cases a with | nil => simp at e | cons x a => cases a <;> simp at e⟩
      exact (show blankValid docEnv.blankOk ['b'] = docEnv.blankOk ['b'] from rfl).trans (by simpa [docEnv] using hb)
    · rw [List.mem_singleton.1 hq]
      exact ⟨⟨⟨(by decide +kernel), (by decide +kernel)⟩, _, rfl, rfl⟩, fun g h => by cases h⟩
  · rw [(foldl_insert_default _).1]
    refine ⟨fun st hst => ⟨_, List.mem_singleton_self _, ?_⟩, fun x hx => ⟨_, List.mem_singleton_self _, ?_⟩⟩
    · rw [List.mem_singleton.1 (show st ∈ [_] from hst)]
      rfl
    · rw [List.mem_singleton.1 hx]
      rfl
  · intro t ht i
    rw [List.mem_singleton.1 ht]
    intro h
    cases h

end Rdftk
