import Verif.Lemmas.XmlBad
import Verif.Lemmas.XmlRead
import Verif.Props.Dot
import Verif.Props.NTriples

/-! Properties C51, C52 and C74-C81: RDF/XML. -/

namespace Rdftk

open Spec

/-- Whether a run ends with a value. -/
def Run.isOk {α : Type _} : Run α → Bool
  | .ok _ => true
  | _ => false

theorem Run.of_isOk {α : Type _} {x : Run α} (h : x.isOk = true) : ∃ a, x = .ok a := by
  cases x with
  | ok a => exact ⟨a, rfl⟩
  | _ => cases h

/-! ### C51 -/

/-- C51: a predicate is split after its last separator. -/
def C51_statement (sty : IriStyle) : Prop :=
  ∀ i : Iri, (∃ c ∈ i.text, isSep c) → ∃ ns name, splitUri sty i = .ok (ns, name) ∧ SplitAt i ns name

/-- C51 fails for every IRI printed in brackets. -/
theorem C51_fails_brackets : ∀ i ns name, splitUri .bracketed i = .ok (ns, name) → ¬SplitAt i ns name := by
  rintro i ns name h ⟨h1, _⟩
  have := congrArg List.length ((splitUri_append h).symm.trans h1)
  simp [Iri.fmt] at this
  omega

/-- C51 fails in the style the code prints IRIs in. -/
theorem C51_fails_bracketed : ¬C51_statement .bracketed := fun h => by
  obtain ⟨ns, name, h1, h2⟩ := h ⟨str! "http://a/x"⟩ ⟨'/', by decide, .inr rfl⟩
  exact C51_fails_brackets _ _ _ h1 h2

/-- C51 fails for bare IRIs, if a local name is not ASCII: it panics or is split elsewhere. -/
theorem C51_fails : ¬C51_statement .bare := fun h => by
  obtain ⟨ns, name, h1, _⟩ := h ⟨str! "http://a/é"⟩ ⟨'/', by decide, .inr rfl⟩
  have : splitUri .bare ⟨str! "http://a/é"⟩ = .panic := by decide +kernel
  rw [this] at h1
  cases h1

/-- C51 for bare IRIs: the split is right exactly if the local name is ASCII. -/
theorem C51_iff (i : Iri) (ns name : Str) (h : SplitAt i ns name) :
    splitUri .bare i = .ok (ns, name) ↔ ∀ c ∈ name, c.toNat < 0x80 := by
  obtain ⟨h1, ⟨a, c, rfl, hc⟩, h3⟩ := h
  exact splitUri_iff (by rw [← h1]; simp) hc h3

/-- C51 for bare IRIs in ASCII, which are those that `url` makes; without a separator it panics. -/
theorem C51_ascii_partial (i : Iri) (ha : ∀ c ∈ i.text, c.toNat < 0x80) :
    ((∃ c ∈ i.text, isSep c) → ∃ ns name, splitUri .bare i = .ok (ns, name) ∧ SplitAt i ns name) ∧
    ((∀ c ∈ i.text, ¬isSep c) → splitUri .bare i = .panic) := by
  refine ⟨fun h => ?_, fun h => splitUri_none h⟩
  obtain ⟨a, c, b, e, h1, h2⟩ := exists_last_sep h
  exact ⟨a ++ [c], b, splitUri_ascii e ha h1 h2, by simp [e], ⟨a, c, rfl, h1⟩, h2⟩

/-- The parts of an IRI are unique. -/
theorem C51_unique (i : Iri) (ns name ns' name' : Str) (h : SplitAt i ns name) (h' : SplitAt i ns' name') :
    ns = ns' ∧ name = name' := by
  obtain ⟨h1, ⟨a, c, rfl, hc⟩, h3⟩ := h
  obtain ⟨h1', ⟨a', c', rfl, hc'⟩, h3'⟩ := h'
  have e : (a ++ [c]) ++ name = (a' ++ [c']) ++ name' := h1.trans h1'.symm
  rcases List.append_eq_append_iff.1 e with ⟨m, e1, e2⟩ | ⟨m, e1, e2⟩
  · rcases List.eq_nil_or_concat m with rfl | ⟨m, x, rfl⟩
    · simp only [List.append_nil] at e1
      exact ⟨e1.symm, by simpa using e2⟩
    · rw [List.concat_eq_append, ← List.append_assoc] at e1
      have := (List.append_inj' e1 rfl).2
      simp only [List.cons.injEq, and_true] at this
      subst this
      exact absurd hc' (h3 _ (by rw [e2]; simp))
  · rcases List.eq_nil_or_concat m with rfl | ⟨m, x, rfl⟩
    · simp only [List.append_nil] at e1
      exact ⟨e1, by simpa using e2.symm⟩
    · rw [List.concat_eq_append, ← List.append_assoc] at e1
      have := (List.append_inj' e1 rfl).2
      simp only [List.cons.injEq, and_true] at this
      subst this
      exact absurd hc (h3' _ (by rw [e2]; simp))

example : SplitAt ⟨str! "http://a/b#c"⟩ (str! "http://a/b#") (str! "c") :=
  ⟨rfl, ⟨str! "http://a/b", '#', rfl, .inl rfl⟩, by
    intro c hc
    simp only [List.mem_cons, List.not_mem_nil, or_false] at hc
    subst hc
    simp [isSep]⟩

/-! ### C52 -/

/-- The element that a start opens inside a scope is named by a property. -/
def NamedBy (sc : Scope) (n : Str) (d : List (Str × Str)) (p : Iri) : Prop :=
  ∃ ns loc, elementName (d ++ sc) n = some ⟨some ns, loc⟩ ∧ ns ++ loc = p.text

/-- C52: the elements written for the objects of a property are named by it. -/
def C52_statement (sty : IriStyle) : Prop :=
  ∀ (nested : Subject → Run (List XmlOut)) (sc : Scope) (p : Iri) (ns name : Str) (os : List Object)
    (es : List XmlOut), XmlProperty p → splitUri sty p = .ok (ns, name) →
    xmlObjects sty true nested ns name os = .ok es →
    ∀ n d as, XmlOut.start n d as ∈ es → NamedBy sc n d p

/-- C52 fails whenever a property of a known namespace has two values. -/
theorem C52_fails_twice (flat : Bool) (nested : Subject → Run (List XmlOut)) (p : Iri) (ns name : Str)
    (os : List Object) (es : List XmlOut) (hk : ns ∈ knownNamespaces)
    (ho : 2 ≤ os.length) (he : xmlObjects .bare flat nested ns name os = .ok es) :
    ∃ n d as, XmlOut.start n d as ∈ es ∧ ∀ sc, ¬NamedBy sc n d p := by
  obtain ⟨n, d, as, h1, h2⟩ := xmlObjects_twice hk ho he
  refine ⟨n, d, as, h1, ?_⟩
  rintro sc ⟨ns, loc, h, _⟩
  simp [elementName, h2] at h

theorem foafName_ok : XmlProperty ⟨str! "http://xmlns.com/foaf/0.1/name"⟩ := by
  refine ⟨by decide +kernel, str! "http://xmlns.com/foaf/0.1/", str! "name",
    ⟨rfl, ⟨str! "http://xmlns.com/foaf/0.1", '/', rfl, .inr rfl⟩, ?_⟩, by decide +kernel, by decide +kernel⟩
  intro c hc h
  rcases h with rfl | rfl <;> revert hc <;> decide

/-- C52 fails: two names of one person. -/
theorem C52_fails : ¬C52_statement .bare := fun h => by
  let os : List Object := [.lit (Literal.plain easyEnv.pr (str! "A")), .lit (Literal.plain easyEnv.pr (str! "B"))]
  obtain ⟨es, he⟩ : ∃ es, xmlObjects .bare true (fun _ => .err) (str! "http://xmlns.com/foaf/0.1/")
    (str! "name") os = .ok es := ⟨_, rfl⟩
  obtain ⟨n, d, as, h1, h2⟩ := C52_fails_twice true (fun _ => .err) ⟨str! "http://xmlns.com/foaf/0.1/name"⟩
    _ _ os es (by decide) (by decide) he
  exact h2 [] (h _ [] _ _ _ os es foafName_ok (by decide +kernel) he n d as h1)

/-- C52 fails always when IRIs print in brackets. -/
theorem C52_fails_bracketed (flat : Bool) (nested : Subject → Run (List XmlOut)) (p : Iri) (ns name : Str)
    (os : List Object) (es : List XmlOut) (hp : splitUri .bracketed p = .ok (ns, name)) (ho : os ≠ [])
    (he : xmlObjects .bracketed flat nested ns name os = .ok es) :
    ∃ n d as, XmlOut.start n d as ∈ es ∧ ∀ sc, ¬NamedBy sc n d p := by
  obtain ⟨m, d, as, hm⟩ := xmlObjects_gt (splitUri_bracketed hp) ho he
  refine ⟨_, d, as, hm, ?_⟩
  rintro sc ⟨ns, loc, h, _⟩
  simp [elementName, qname_gt] at h

/-- C52 for bare IRIs, when the namespace has no prefix or there is one value. -/
theorem C52_partial (nested : Subject → Run (List XmlOut)) (sc : Scope) (p : Iri) (ns name : Str)
    (os : List Object) (es : List XmlOut) (hp : XmlProperty p) (hs : splitUri .bare p = .ok (ns, name))
    (hk : ns ∉ knownNamespaces ∨ os.length ≤ 1)
    (he : xmlObjects .bare true nested ns name os = .ok es) :
    ∀ n d as, XmlOut.start n d as ∈ es → NamedBy sc n d p := by
  obtain ⟨ns', name', h1, h2, h3, h4, h5, h6, h7⟩ := xmlProperty_names hp
  rw [hs] at h2
  simp only [Outcome.ok.injEq, Prod.mk.injEq] at h2
  obtain ⟨rfl, rfl⟩ := h2
  have hk' : xmlPrefix .bare ns = none ∨ os.length ≤ 1 := by
    rcases hk with hk | hk
    · left
      cases e : xmlPrefix .bare ns with
      | none => rfl
      | some q => exact absurd (mappings_ok _ (xmlPrefix_mem e)).2.2.1 hk
    · exact .inr hk
  have hel : NamedBy sc (xmlElement .bare ns name).1 (xmlElement .bare ns name).2 p :=
    ⟨ns, name, (xmlElement_name sc h3 h4 h5).1, h1.1⟩
  have one : ∀ {n : Str} {d : List (Str × Str)} {o : Object} {a : List XmlOut},
      xmlProperty .bare true nested n d o = .ok a → ∀ n' d' as, XmlOut.start n' d' as ∈ a → n' = n ∧ d' = d := by
    intro n d o a h n' d' as hm
    cases o with
    | coll _ => cases h
    | stmt _ => cases h
    | _ =>
      cases h
      simp at hm
      exact ⟨hm.1, hm.2.1⟩
  clear hs h6 h7
  induction os generalizing es with
  | nil => cases he; intro n d as h; simp at h
  | cons o os ih =>
    obtain ⟨a, ha, he⟩ := Run.ok_of_bind he
    obtain ⟨b, hb, he⟩ := Run.ok_of_bind he
    cases he
    intro n d as hm
    simp only [List.mem_append, List.mem_cons, reduceCtorEq, false_or] at hm
    rcases hm with hm | hm
    · obtain ⟨rfl, rfl⟩ := one ha n d as hm
      exact hel
    · rcases hk' with hk' | hk'
      · have e3 : (xmlElement .bare ns name).1 = name := by simp [xmlElement, hk']
        rw [e3] at hb
        refine ih b ?_ hb (.inl hk') n d as hm
        left
        intro h
        have := known_prefix h
        rw [hk'] at this
        cases this
      · have : os = [] := by
          cases os with
          | nil => rfl
          | cons _ _ => simp at hk'
        subst this
        cases hb
        simp at hm

/-! ### C74 -/

/-- C74: what is written is well formed and uses namespaces well. -/
def C74_statement (sty : IriStyle) (flat : Bool) : Prop :=
  ∀ (gen : Nat → Str) (n : Nat) (enc : Str) (o : Orders) (d : Nat) (g : Graph) (es : List XmlOut),
    o.Fair → (∀ st ∈ (g.simplify gen n).1.stmts, XmlStmt st) →
    writeXml gen n sty flat enc o d g = .ok es → (deliver es).isSome = true

/-- C74 fails for every graph when IRIs print in brackets. -/
theorem C74_fails_brackets (gen : Nat → Str) (n : Nat) (flat : Bool) (enc : Str) (o : Orders) (hf : o.Fair)
    (d : Nat) (g : Graph) (es : List XmlOut) (st : Stmt) (hst : st ∈ (g.simplify gen n).1.stmts)
    (hs : flat = true ∨ ∃ i, st.subject = .res i)
    (h : writeXml gen n .bracketed flat enc o d g = .ok es) : deliver es = none := by
  refine writeXml_bracketed hf hst ?_ h
  rcases hs with rfl | ⟨i, hi⟩
  · rfl
  · simp [hi, Subject.isResource]

/-- C74 fails for a property of a known namespace that has two values. -/
theorem C74_fails_twice (gen : Nat → Str) (n : Nat) (flat : Bool) (enc : Str) (o : Orders) (hf : o.Fair)
    (d : Nat) (g : Graph) (es : List XmlOut) (s : Subject) (p : Iri) (x y : Object) (hne : x ≠ y)
    (hx : Stmt.mk s p x ∈ (g.simplify gen n).1.stmts) (hy : Stmt.mk s p y ∈ (g.simplify gen n).1.stmts)
    (hs : flat = true ∨ ∃ i, s = .res i) (hp : ∀ c ∈ p.text, c.toNat < 0x80) (hk : Known p)
    (h : writeXml gen n .bare flat enc o d g = .ok es) : deliver es = none := by
  obtain ⟨ns', name', hsp, hk⟩ := hk
  refine writeXml_bad hf hx (by
    rcases hs with rfl | ⟨i, hi⟩
    · rfl
    · simp [Stmt.subject, hi, Subject.isResource]) (fun nested ns name es hs he => ?_) h
  rw [show (Stmt.mk s p x).predicate = p from rfl, splitAt_split hsp hp] at hs
  simp only [Outcome.ok.injEq, Prod.mk.injEq] at hs
  obtain ⟨rfl, rfl⟩ := hs
  refine xmlObjects_twice hk ?_ he
  have h1 := (hf.2.2 s p _).mem_iff.2 (xml_objectsFor.2 hx)
  have h2 := (hf.2.2 s p _).mem_iff.2 (xml_objectsFor.2 hy)
  simp only [Stmt.subject, Stmt.predicate]
  generalize o.obj s p _ = os at h1 h2
  match os with
  | [] => simp at h1
  | [z] =>
    simp at h1 h2
    exact absurd (h1.trans h2.symm) hne
  | _ :: _ :: _ => simp

theorem sampleIri_ok : XmlIri ⟨str! "http://a/s"⟩ := ⟨by decide +kernel, by decide +kernel⟩

theorem plain_ok {s : Str} (h : (Literal.plain easyEnv.pr s).lexicalForm.all xmlPlain = true) :
    XmlLiteralOk (Literal.plain easyEnv.pr s) :=
  ⟨h, .inl rfl, (fun t h => by cases h), fun g h => by cases h⟩

/-- Two names of one person. -/
def twoNames : Graph := graphOf
  [.mk (.res ⟨str! "http://a/s"⟩) ⟨str! "http://xmlns.com/foaf/0.1/name"⟩
      (.lit (Literal.plain easyEnv.pr (str! "A"))),
    .mk (.res ⟨str! "http://a/s"⟩) ⟨str! "http://xmlns.com/foaf/0.1/name"⟩
      (.lit (Literal.plain easyEnv.pr (str! "B")))]

theorem twoNames_ok : ∀ st ∈ (twoNames.simplify blankGen 0).1.stmts, XmlStmt st := by
  have e : (twoNames.simplify blankGen 0).1.stmts = twoNames.stmts := rfl
  rw [e]
  intro st hst
  have : st ∈ [_, _] := hst
  simp only [List.mem_cons, List.not_mem_nil, or_false] at this
  rcases this with rfl | rfl
  · exact ⟨sampleIri_ok, foafName_ok, plain_ok (by decide +kernel)⟩
  · exact ⟨sampleIri_ok, foafName_ok, plain_ok (by decide +kernel)⟩

theorem twoNames_fails (flat : Bool) : ∃ es, writeXml blankGen 0 .bare flat (str! "utf-8") sameOrder 1 twoNames = .ok es ∧
    deliver es = none := by
  obtain ⟨es, he⟩ : ∃ es, writeXml blankGen 0 .bare flat (str! "utf-8") sameOrder 1 twoNames = .ok es := by
    cases flat <;> exact Run.of_isOk (by decide +kernel)
  refine ⟨es, he, ?_⟩
  refine C74_fails_twice _ _ _ _ _ sameOrder_fair _ _ es (.res ⟨str! "http://a/s"⟩)
    ⟨str! "http://xmlns.com/foaf/0.1/name"⟩ (.lit (Literal.plain easyEnv.pr (str! "A")))
    (.lit (Literal.plain easyEnv.pr (str! "B"))) (by decide +kernel) (.head _) (.tail _ (.head _))
    (.inr ⟨_, rfl⟩) (by decide +kernel) ?_ he
  obtain ⟨_, ns, name, h, _⟩ := foafName_ok
  refine ⟨_, str! "name", ⟨rfl, ⟨str! "http://xmlns.com/foaf/0.1", '/', rfl, .inr rfl⟩, ?_⟩, by decide⟩
  intro c hc h
  rcases h with rfl | rfl <;> revert hc <;> decide

/-- C74 fails in both layouts: a subject with two names. -/
theorem C74_fails (flat : Bool) : ¬C74_statement .bare flat := fun h => by
  obtain ⟨es, he, hn⟩ := twoNames_fails flat
  have := h blankGen 0 _ sameOrder 1 twoNames es sameOrder_fair twoNames_ok he
  rw [hn] at this
  cases this

/-- Every end has the name of the start it closes, in either style. -/
theorem C74_balanced (gen : Nat → Str) (n : Nat) (sty : IriStyle) (flat : Bool) (enc : Str) (o : Orders)
    (d : Nat) (g : Graph) (es : List XmlOut) (h : writeXml gen n sty flat enc o d g = .ok es) :
    balanced [] es = true := writeXml_bal h

/-- C74 for flat documents with bare IRIs, if no property of a known namespace has two values. -/
theorem C74_partial (gen : Nat → Str) (n : Nat) (enc : Str) (o : Orders) (hf : o.Fair) (d : Nat) (g : Graph)
    (hg : XmlGraph o (g.simplify gen n).1) (es : List XmlOut)
    (h : writeXml gen n .bare true enc o d g = .ok es) : (deliver es).isSome = true := by
  rw [writeXml_delivers hf hg h]
  rfl

/-! ### C75 -/

/-- C75: a flat document says the statements of the graph. -/
def C75_statement (sty : IriStyle) : Prop :=
  ∀ (gen : Nat → Str) (n : Nat) (enc : Str) (o : Orders) (d : Nat) (g : Graph) (es : List XmlOut),
    o.Fair → (∀ st ∈ (g.simplify gen n).1.stmts, XmlStmt st) →
    writeXml gen n sty true enc o d g = .ok es →
    ∃ ins T, deliver es = some ins ∧ (∀ gen' n', RdfXml gen' n' ins T) ∧
      ∀ st, st ∈ T ↔ st ∈ (g.simplify gen n).1.stmts

/-- C75 fails with plain IRIs: a subject with two names. -/
theorem C75_fails : ¬C75_statement .bare := fun h => by
  obtain ⟨es, he, hn⟩ := twoNames_fails true
  obtain ⟨ins, T, h1, _⟩ := h blankGen 0 _ sameOrder 1 twoNames es sameOrder_fair twoNames_ok he
  rw [hn] at h1
  cases h1

/-- C75 fails in the style the code prints IRIs in. -/
theorem C75_fails_bracketed : ¬C75_statement .bracketed := fun h => by
  obtain ⟨es, he⟩ : ∃ es, writeXml blankGen 0 .bracketed true (str! "utf-8") sameOrder 1 twoNames = .ok es :=
    Run.of_isOk (by decide +kernel)
  obtain ⟨ins, T, h1, _⟩ := h blankGen 0 _ sameOrder 1 twoNames es sameOrder_fair twoNames_ok he
  rw [C74_fails_brackets _ _ _ _ _ sameOrder_fair _ _ es _ (.head _) (.inl rfl) he] at h1
  cases h1

/-- C75 with bare IRIs, if no property of a known namespace has two values: the graph is written,
and the document says its statements, each once. -/
theorem C75_partial (gen : Nat → Str) (n : Nat) (enc : Str) (o : Orders) (hf : o.Fair) (d : Nat) (g : Graph)
    (hg : XmlGraph o (g.simplify gen n).1) :
    ∃ es ins T, writeXml gen n .bare true enc o (d + 1) g = .ok es ∧ deliver es = some ins ∧
      (∀ gen' n', RdfXml gen' n' ins T) ∧ T.Nodup ∧ ∀ st, st ∈ T ↔ st ∈ (g.simplify gen n).1.stmts := by
  obtain ⟨es, he⟩ := writeXml_ok (enc := enc) (d := d) hf hg.stmts
  exact ⟨es, _, _, he, writeXml_delivers hf hg he, fun gen' n' => rdfXml_graphIn hf hg.stmts, visit_nodup hf _,
    visit_mem hf _⟩

/-! ### C76 -/

/-- The parts of a flat document for a graph. -/
def graphDescs (o : Orders) (g : Graph) : List (Subject × List (XName × Object)) :=
  (o.subj g.subjects).map fun s =>
    (s, (o.pred s (g.predicatesFor s)).flatMap fun p => (o.obj s p (g.objectsFor s p)).map fun x => (propName p, x))

theorem graphIn_flat (o : Orders) (g : Graph) : graphIn o g = flatIn (graphDescs o g) := by
  unfold graphIn flatIn graphDescs
  rw [List.flatMap_map]
  congr 4
  funext s
  unfold nodeIn descIn predsIn
  rw [List.flatMap_assoc]
  congr 3
  funext p
  rw [List.flatMap_map]

/-- The IRI of an expanded name. -/
def nameText (x : XName) : Iri := ⟨x.ns.getD [] ++ x.loc⟩

/-- A statement that is read with its object changed. -/
def xmlRereadStmt (pr : Char → Bool) (st : Stmt) : Stmt := .mk st.subject st.predicate (xmlReread pr st.object)

/-- A statement that is written and then read, in some form. -/
def XmlReadable (env : ReadEnv) (st : Stmt) : Prop :=
  ReadSubject env st.subject ∧ IriRead env st.predicate ∧ ReadObject env st.object

theorem rereadDescs_graph (pr : Char → Bool) (o : Orders) (hf : o.Fair) (g : Graph)
    (hg : ∀ st ∈ g.stmts, XmlStmt st) :
    rereadDescs pr nameText (graphDescs o g) = (g.visit o).map (xmlRereadStmt pr) := by
  unfold rereadDescs graphDescs Graph.visit rereadProps
  rw [List.flatMap_map, List.map_flatMap]
  apply List.flatMap_congr
  intro s _
  dsimp only
  rw [List.map_flatMap, List.map_flatMap]
  apply List.flatMap_congr
  intro p hp
  rw [List.map_map, List.map_map]
  apply List.map_congr_left
  intro x _
  obtain ⟨y, hy⟩ := xml_predicatesFor.1 ((hf.2.1 s _).mem_iff.1 hp)
  obtain ⟨ns, name, h1, _, _, _, _, h6, _⟩ := xmlProperty_names (hg _ hy).2.1
  have h6' : propName p = ⟨some ns, name⟩ := h6
  have h1' : ns ++ name = p.text := h1.1
  simp [xmlRereadStmt, nameText, h6', h1', Stmt.subject, Stmt.predicate, Stmt.object]

/-- C76: a flat document of literals and blank nodes is read with exactly these changes: objects
that are blank nodes become empty literals, types and white space alone are lost, and texts are
escaped again. -/
theorem C76_reads_partial (env : ReadEnv) (emit : Emit) (gen gen' : Nat → Str) (n m : Nat) (enc : Str) (o : Orders)
    (hf : o.Fair) (d : Nat) (g : Graph) (hg : XmlGraph o (g.simplify gen n).1)
    (hr : ∀ st ∈ (g.simplify gen n).1.stmts, XmlReadable env st) (es : List XmlOut)
    (he : writeXml gen n .bare true enc o d g = .ok es) :
    ∃ ins h, deliver es = some ins ∧ readXml env .bare gen' m emit ins = .ok h ∧
      h.stmts = ((g.simplify gen n).1.visit o).map (xmlRereadStmt env.pr) := by
  refine ⟨_, (rereadDescs env.pr nameText (graphDescs o (g.simplify gen n).1)).foldl Graph.insert Graph.default,
    writeXml_delivers hf hg he, ?_, ?_⟩
  · rw [graphIn_flat]
    refine readXml_flat (iri := nameText) ?_
    intro x hx
    obtain ⟨s, hs, rfl⟩ := List.mem_map.1 hx
    obtain ⟨st, hst, rfl⟩ := xml_subjects.1 ((hf.1 _).mem_iff.1 hs)
    refine ⟨(hr st hst).1, fun q hq => ?_⟩
    obtain ⟨p, hp, hq⟩ := List.mem_flatMap.1 hq
    obtain ⟨x, hx, rfl⟩ := List.mem_map.1 hq
    have hst' := xml_objectsFor.1 ((hf.2.2 _ _ _).mem_iff.1 hx)
    obtain ⟨ns, name, h1, _, _, _, _, h6, _⟩ := xmlProperty_names (hg.stmts _ hst').2.1
    have h6' : propName p = ⟨some ns, name⟩ := h6
    have h1' : ns ++ name = p.text := h1.1
    have hr' := hr _ hst'
    refine ⟨⟨?_, ns, by simp [h6'], by simp [h6', nameText, h1']⟩, hr'.2.2⟩
    simp only [nameText, h6', Option.getD_some, h1']
    exact hr'.2.1
  · rw [(foldl_insert_default _).1, rereadDescs_graph _ _ hf _ hg.stmts]

/-- C76: what is written is read again. -/
def C76_statement (sty : IriStyle) : Prop :=
  ∀ (env : ReadEnv) (emit : Emit) (gen gen' : Nat → Str) (n m : Nat) (enc : Str) (o : Orders) (d : Nat)
    (g : Graph) (es : List XmlOut), AsciiPrintable env.pr → (∀ s, env.url s = some ⟨s⟩) → (∀ s, env.lang s = some s) →
    (∀ s, env.blankOk s = true) → o.Fair → XmlGraph o (g.simplify gen n).1 →
    writeXml gen n sty true enc o d g = .ok es →
    ∃ ins h, deliver es = some ins ∧ readXml env sty gen' m emit ins = .ok h ∧
      ∀ st, st ∈ h.stmts ↔ st ∈ (g.simplify gen n).1.stmts

/-- A literal that is read as it was. -/
def XmlSteady (pr : Char → Bool) : Object → Prop
  | .lit l => l.dataType = none ∧ escapeString pr l.lexicalForm = l.lexicalForm ∧
      (l.lexicalForm = [] ∨ ∃ c ∈ l.lexicalForm, c ≠ ' ')
  | _ => False

theorem xmlReread_steady {pr : Char → Bool} {x : Object} (h : XmlSteady pr x) : xmlReread pr x = x := by
  cases x with
  | lit l =>
    obtain ⟨h1, h2, h3⟩ := h
    have ht : (if l.lexicalForm.all xmlBlank then [] else l.lexicalForm) = l.lexicalForm := by
      split
      · rename_i hb
        rcases h3 with h3 | ⟨c, hc, hne⟩
        · rw [h3]
        · have := List.all_eq_true.1 hb c hc
          simp [xmlBlank] at this
          exact absurd this hne
      · rfl
    obtain ⟨t, dt, lang⟩ := l
    simp only at h1 h2 ht
    subst h1
    cases lang with
    | none => simp only [xmlReread, ht, Literal.plain, h2]
    | some g => simp only [xmlReread, ht, Literal.withLanguage, h2]
  | _ => exact h.elim

/-- C76 for graphs of literals without types, of texts that are neither escaped nor blank. -/
theorem C76_partial (env : ReadEnv) (emit : Emit) (gen gen' : Nat → Str) (n m : Nat) (enc : Str) (o : Orders)
    (hf : o.Fair) (d : Nat) (g : Graph) (hg : XmlGraph o (g.simplify gen n).1)
    (hr : ∀ st ∈ (g.simplify gen n).1.stmts, XmlReadable env st ∧ XmlSteady env.pr st.object) (es : List XmlOut)
    (he : writeXml gen n .bare true enc o d g = .ok es) :
    ∃ ins h, deliver es = some ins ∧ readXml env .bare gen' m emit ins = .ok h ∧
      ∀ st, st ∈ h.stmts ↔ st ∈ (g.simplify gen n).1.stmts := by
  obtain ⟨ins, h, h1, h2, h3⟩ := C76_reads_partial env emit gen gen' n m enc o hf d g hg
    (fun st hst => (hr st hst).1) es he
  refine ⟨ins, h, h1, h2, fun st => ?_⟩
  have : ((g.simplify gen n).1.visit o).map (xmlRereadStmt env.pr) = (g.simplify gen n).1.visit o := by
    conv => rhs; rw [← List.map_id ((g.simplify gen n).1.visit o)]
    apply List.map_congr_left
    intro st hst
    have := (hr st ((visit_mem hf _ _).1 hst)).2
    cases st with
    | mk s p x => simp only [xmlRereadStmt, Stmt.subject, Stmt.predicate, Stmt.object, id] at this ⊢; rw [xmlReread_steady this]
  rw [h3, this]
  exact visit_mem hf _ _

theorem sampleProperty_ok : XmlProperty ⟨str! "http://a/p"⟩ := by
  refine ⟨by decide +kernel, str! "http://a/", str! "p",
    ⟨rfl, ⟨str! "http://a", '/', rfl, .inr rfl⟩, ?_⟩, by decide +kernel, by decide +kernel⟩
  intro c hc h
  rcases h with rfl | rfl <;> revert hc <;> decide

theorem sampleProperty_unknown : ¬Known ⟨str! "http://a/p"⟩ := by
  rintro ⟨ns, name, h, hk⟩
  have := splitAt_split h (by decide +kernel)
  have e : splitUri .bare ⟨str! "http://a/p"⟩ = .ok (str! "http://a/", str! "p") := by decide +kernel
  rw [e] at this
  simp only [Outcome.ok.injEq, Prod.mk.injEq] at this
  rw [← this.1] at hk
  revert hk
  decide +kernel

/-- A number. -/
def xmlNumber : Graph := graphOf
  [.mk (.res ⟨str! "http://a/s"⟩) ⟨str! "http://a/p"⟩
    (.lit (Literal.withDataType easyEnv.pr (str! "1") .int))]

theorem xmlNumber_ok (o : Orders) (hf : o.Fair) : XmlGraph o (xmlNumber.simplify blankGen 0).1 := by
  have e : (xmlNumber.simplify blankGen 0).1.stmts = xmlNumber.stmts := rfl
  constructor
  · rw [e]
    intro st hst
    have : st ∈ [_] := hst
    simp only [List.mem_cons, List.not_mem_nil, or_false] at this
    subst this
    refine ⟨sampleIri_ok, sampleProperty_ok, by decide +kernel, .inr rfl, ?_, fun g h => by cases h⟩
    intro t ht
    cases ht
    exact ⟨by decide +kernel, by decide +kernel⟩
  · intro s p hk
    have := (hf.2.2 s p ((xmlNumber.simplify blankGen 0).1.objectsFor s p)).length_eq
    rw [this]
    generalize hl : (xmlNumber.simplify blankGen 0).1.objectsFor s p = l
    cases l with
    | nil => simp
    | cons x l =>
      have hm : x ∈ (xmlNumber.simplify blankGen 0).1.objectsFor s p := by rw [hl]; simp
      have hm := xml_objectsFor.1 hm
      rw [e] at hm
      have : Stmt.mk s p x ∈ [_] := hm
      simp only [List.mem_cons, List.not_mem_nil, or_false, Stmt.mk.injEq] at this
      rw [this.2.1] at hk
      exact absurd hk sampleProperty_unknown

theorem easyEnv_reads (i : Iri) (h : i.text.head? ≠ some '<') : IriRead easyEnv i := ⟨rfl, h⟩

/-- C76 fails: the type of a literal is lost. -/
theorem C76_fails : ¬C76_statement .bare := fun h => by
  obtain ⟨es, he⟩ := writeXml_ok (gen := blankGen) (n := 0) (enc := str! "utf-8") (d := 0) sameOrder_fair
    (xmlNumber_ok sameOrder sameOrder_fair).stmts
  obtain ⟨ins, k, h1, h2, h3⟩ := h easyEnv (fun _ => none) blankGen blankGen 0 0 _ sameOrder _ xmlNumber es
    easyEnv_ascii (fun _ => rfl) (fun _ => rfl) (fun _ => rfl) sameOrder_fair (xmlNumber_ok _ sameOrder_fair) he
  obtain ⟨ins', k', h1', h2', h3'⟩ := C76_reads_partial easyEnv (fun _ => none) blankGen blankGen 0 0 _ sameOrder
    sameOrder_fair _ xmlNumber (xmlNumber_ok _ sameOrder_fair) (by
      intro st hst
      have : st ∈ [_] := hst
      simp only [List.mem_cons, List.not_mem_nil, or_false] at this
      subst this
      exact ⟨easyEnv_reads _ (by decide), easyEnv_reads _ (by decide), fun g h => by cases h⟩) es he
  rw [h1'] at h1
  cases h1
  rw [h2'] at h2
  cases h2
  have := (h3 (.mk (.res ⟨str! "http://a/s"⟩) ⟨str! "http://a/p"⟩
    (.lit (Literal.withDataType easyEnv.pr (str! "1") .int)))).2 (.head _)
  rw [h3'] at this
  revert this
  decide +kernel

/-- C76 fails for every graph when IRIs print in brackets. -/
theorem C76_fails_bracketed : ¬C76_statement .bracketed := fun h => by
  obtain ⟨es, he⟩ : ∃ es, writeXml blankGen 0 .bracketed true (str! "utf-8") sameOrder 1 xmlNumber = .ok es :=
    Run.of_isOk (by decide +kernel)
  obtain ⟨ins, k, h1, _⟩ := h easyEnv (fun _ => none) blankGen blankGen 0 0 _ sameOrder _ xmlNumber es
    easyEnv_ascii (fun _ => rfl) (fun _ => rfl) (fun _ => rfl) sameOrder_fair (xmlNumber_ok _ sameOrder_fair) he
  rw [C74_fails_brackets _ _ _ _ _ sameOrder_fair _ _ es _ (.head _) (.inl rfl) he] at h1
  cases h1

/-- C76 fails whenever the last property of a description is an IRI and another description
follows: the document is refused. -/
theorem C76_fails_resource (env : ReadEnv) (sty : IriStyle) (gen : Nat → Str) (n : Nat) (emit : Emit)
    (iri : XName → Iri) (ds : List (Subject × List (XName × Object))) (s t : Subject)
    (qs rs : List (XName × Object)) (x : XName) (p i : Iri) (more : List (Subject × List (XName × Object)))
    (h : ∀ d ∈ ds, ReadSubject env d.1 ∧ ∀ q ∈ d.2, NameRead env q.1 (iri q.1) ∧ ReadObject env q.2)
    (hs : ReadSubject env s) (ht : ReadSubject env t)
    (hq : ∀ q ∈ qs, NameRead env q.1 (iri q.1) ∧ ReadObject env q.2)
    (hx : NameRead env x p) (hi : IriRead env i) :
    readXml env sty gen n emit (flatIn (ds ++ (s, qs ++ [(x, .res i)]) :: (t, rs) :: more)) = .err := by
  have ha : ∃ a, xmlAttributes env (nodeAttr t) = .ok a := by
    cases t with
    | res j => exact ⟨_, xmlAttributes_about ht⟩
    | blank b => exact ⟨_, xmlAttributes_nodeId env b⟩
    | stmt _ => exact ht.elim
  have := readXml_resource (sty := sty) (gen := gen) (n := n) (emit := emit)
    (evs := rs.flatMap (fun q => propIn q.1 q.2) ++ .stop (rdfX (str! "Description")) ::
      (more.flatMap descIn ++ [.stop (rdfX (str! "RDF"))])) h hs hq hx hi ha
  rw [← this]
  refine congrArg _ ?_
  simp [flatIn, descIn, List.append_assoc]

/-! ### C77 -/

/-- C77: what is read is what the document says. -/
def C77_statement (sty : IriStyle) : Prop :=
  ∀ (env : ReadEnv) (gen : Nat → Str) (n : Nat) (emit : Emit) (evs : List XmlIn) (T : List Stmt),
    AsciiPrintable env.pr → (∀ s, env.url s = some ⟨s⟩) → (∀ s, env.lang s = some s) →
    (∀ s, env.blankOk s = true) → RdfXml gen n evs T →
    ∃ h, readXml env sty gen n emit evs = .ok h ∧ ∀ st, st ∈ h.stmts ↔ st ∈ T

/-- The statements of a flat document. -/
def flatStmts (ds : List (Subject × List (XName × Object))) : List Stmt :=
  ds.flatMap fun d => d.2.map fun q => .mk d.1 (nameText q.1) q.2

/-- A subject that a node element names. -/
def XmlSubjectOk : Subject → Prop
  | .res i => XmlIri i
  | .blank b => isNcName b = true
  | .stmt _ => False

/-- A flat document means its statements. -/
theorem rdfXml_flat (gen : Nat → Str) (n : Nat) (ds : List (Subject × List (XName × Object)))
    (h : ∀ d ∈ ds, XmlSubjectOk d.1 ∧ ∀ q ∈ d.2, propertyIri q.1 = some (nameText q.1) ∧ XmlObject q.2) :
    RdfXml gen n (flatIn ds) (flatStmts ds) := by
  refine ⟨[.other], [], [], ds.flatMap descIn, n, by simp [flatIn], rfl, rfl, rfl, ?_⟩
  rw [enter_nil]
  have props : ∀ (c : XmlScope) (s : Subject) (qs : List (XName × Object)), c.lang = none →
      (∀ q ∈ qs, propertyIri q.1 = some (nameText q.1) ∧ XmlObject q.2) →
      PropList gen c s n (qs.flatMap fun q => propIn q.1 q.2) n (qs.map fun q => .mk s (nameText q.1) q.2) := by
    intro c s qs hc
    induction qs with
    | nil => exact fun _ => .nil
    | cons q qs ih =>
      intro hq
      obtain ⟨h1, h2⟩ := hq q (List.mem_cons_self ..)
      exact .cons (T := [_]) (propElt_propIn hc h1 h2) (ih fun q hm => hq q (List.mem_cons_of_mem _ hm))
  have hname : (nameIri (rdfX (str! "Description"))).isSome = true := by decide +kernel
  have ht : ∀ s, typeStmts (rdfX (str! "Description")) s = [] := fun s => by simp [typeStmts]
  induction ds with
  | nil => exact .nil
  | cons d ds ih =>
    obtain ⟨hsub, hq⟩ := h d (List.mem_cons_self ..)
    unfold flatStmts
    rw [List.flatMap_cons, List.flatMap_cons]
    refine .cons (s := d.1) (n' := n) ?_ (ih fun d hm => h d (List.mem_cons_of_mem _ hm))
    obtain ⟨s, qs⟩ := d
    cases s with
    | res i =>
      have := NodeElt.mk (c := ⟨none, none⟩) (as := nodeAttr (.res i)) (ps := []) (ts := []) hname
        (n' := n) (s := .res i) (n := n) (gen := gen) ?_ .nil (props _ _ qs ?_ hq)
      · rw [ht, List.nil_append, List.nil_append] at this
        exact this
      · have h : [] = (nodeAttr (.res i)).filter fun a => !isXmlAttr a && a.name != rdfX (str! "about") := by
          simp [nodeAttr]
        rw [h]
        exact SubjectOf.about (v := i.text) (i := i.text) (by simp [attr, nodeAttr]) (xml_iriValue hsub.2)
      · have : (rdfX (str! "about") == xmlX (str! "lang")) = false := by decide +kernel
        simp [XmlScope.enter, attr, nodeAttr, List.find?, this]
    | blank b =>
      have := NodeElt.mk (c := ⟨none, none⟩) (as := nodeAttr (.blank b)) (ps := []) (ts := []) hname
        (n' := n) (s := .blank b) (n := n) (gen := gen) ?_ .nil (props _ _ qs ?_ hq)
      · rw [ht, List.nil_append, List.nil_append] at this
        exact this
      · have h : [] = (nodeAttr (.blank b)).filter fun a => !isXmlAttr a && a.name != rdfX (str! "nodeID") := by
          simp [nodeAttr]
        rw [h]
        exact SubjectOf.nodeId (by simp [attr, nodeAttr]) hsub
      · have : (rdfX (str! "nodeID") == xmlX (str! "lang")) = false := by decide +kernel
        simp [XmlScope.enter, attr, nodeAttr, List.find?, this]
    | stmt t => exact hsub.elim

/-- C77 for flat documents of literals without types, of texts that are neither escaped nor blank. -/
theorem C77_flat_partial (env : ReadEnv) (sty : IriStyle) (gen : Nat → Str) (n : Nat) (emit : Emit)
    (ds : List (Subject × List (XName × Object)))
    (h : ∀ d ∈ ds, XmlSubjectOk d.1 ∧ ReadSubject env d.1 ∧
      ∀ q ∈ d.2, propertyIri q.1 = some (nameText q.1) ∧ IriRead env (nameText q.1) ∧ XmlObject q.2 ∧
        ReadObject env q.2 ∧ XmlSteady env.pr q.2) :
    ∃ T k, RdfXml gen n (flatIn ds) T ∧ readXml env sty gen n emit (flatIn ds) = .ok k ∧ k.stmts = T := by
  refine ⟨_, (rereadDescs env.pr nameText ds).foldl Graph.insert Graph.default, rdfXml_flat gen n ds fun d hd => ?_,
    readXml_flat (iri := nameText) fun d hd => ?_, ?_⟩
  · obtain ⟨h1, _, h3⟩ := h d hd
    exact ⟨h1, fun q hq => ⟨(h3 q hq).1, (h3 q hq).2.2.1⟩⟩
  · obtain ⟨_, h2, h3⟩ := h d hd
    refine ⟨h2, fun q hq => ?_⟩
    obtain ⟨h4, h5, _, h6, _⟩ := h3 q hq
    refine ⟨⟨h5, ?_⟩, h6⟩
    cases e : q.1.ns with
    | none =>
      unfold propertyIri nameIri at h4
      rw [e] at h4
      split at h4 <;> cases h4
    | some ns => exact ⟨ns, rfl, by simp [nameText, e]⟩
  · rw [(foldl_insert_default _).1]
    unfold rereadDescs flatStmts
    apply List.flatMap_congr
    intro d hd
    unfold rereadProps
    apply List.map_congr_left
    intro q hq
    rw [xmlReread_steady ((h d hd).2.2 q hq).2.2.2.2]

/-- Whatever is read, no object is a blank node and no literal has a type but that of XML
literals. -/
theorem C77_objects (env : ReadEnv) (sty : IriStyle) (gen : Nat → Str) (n : Nat) (emit : Emit)
    (evs : List XmlIn) (h : Graph) (hr : readXml env sty gen n emit evs = .ok h) :
    ∀ t ∈ h.stmts, (∃ i, t.object = .res i) ∨
      ∃ l, t.object = .lit l ∧ (l.dataType = none ∨ l.dataType = some .xmlLiteral) := by
  intro t ht
  have := xmlRun_readable (st := ⟨Graph.default, n⟩) (stack := []) (fun t ht => by
    have : t ∈ ([] : List Stmt) := ht
    simp at this) (fun f hf => by simp at hf) hr t ht
  cases e : t.object with
  | res i => exact .inl ⟨i, rfl⟩
  | lit l =>
    rw [e] at this
    simp only [readable, Bool.or_eq_true, beq_iff_eq] at this
    exact .inr ⟨l, rfl, this⟩
  | _ => rw [e] at this; cases this

/-- C77 fails: a type is not read. -/
theorem C77_fails (sty : IriStyle) : ¬C77_statement sty := fun h => by
  let l := Literal.withDataType easyEnv.pr (str! "1") .int
  obtain ⟨k, h1, h2⟩ := h easyEnv blankGen 0 (fun _ => none) _ _ easyEnv_ascii (fun _ => rfl) (fun _ => rfl)
    (fun _ => rfl) (rdfXml_flat blankGen 0
      [(.res ⟨str! "http://a/s"⟩, [(⟨some (str! "http://a/"), str! "p"⟩, .lit l)])] (by
        intro d hd
        simp only [List.mem_cons, List.not_mem_nil, or_false] at hd
        subst hd
        refine ⟨sampleIri_ok, fun q hq => ?_⟩
        simp only [List.mem_cons, List.not_mem_nil, or_false] at hq
        subst hq
        refine ⟨by decide +kernel, by decide +kernel, .inr rfl, ?_, fun g h => by cases h⟩
        intro t ht
        cases ht
        exact ⟨by decide +kernel, by decide +kernel⟩))
  have hm := (h2 (.mk (.res ⟨str! "http://a/s"⟩) ⟨str! "http://a/p"⟩ (.lit l))).2 (.head _)
  rcases C77_objects _ _ _ _ _ _ _ h1 _ hm with ⟨i, hi⟩ | ⟨l', hl, hd⟩
  · cases hi
  · cases hl
    rcases hd with hd | hd <;> cases hd

/-- C77 fails: a blank node is not read as an object. -/
theorem C77_fails_blank (sty : IriStyle) : ¬C77_statement sty := fun h => by
  obtain ⟨k, h1, h2⟩ := h easyEnv blankGen 0 (fun _ => none) _ _ easyEnv_ascii (fun _ => rfl) (fun _ => rfl)
    (fun _ => rfl) (rdfXml_flat blankGen 0
      [(.res ⟨str! "http://a/s"⟩, [(⟨some (str! "http://a/"), str! "p"⟩, .blank (str! "b"))])] (by
        intro d hd
        simp only [List.mem_cons, List.not_mem_nil, or_false] at hd
        subst hd
        refine ⟨sampleIri_ok, fun q hq => ?_⟩
        simp only [List.mem_cons, List.not_mem_nil, or_false] at hq
        subst hq
        exact ⟨by decide +kernel, show isNcName _ = true by decide +kernel⟩))
  have hm := (h2 (.mk (.res ⟨str! "http://a/s"⟩) ⟨str! "http://a/p"⟩ (.blank (str! "b")))).2 (.head _)
  rcases C77_objects _ _ _ _ _ _ _ h1 _ hm with ⟨i, hi⟩ | ⟨l', hl, hd⟩
  · cases hi
  · cases hl

/-- A document with one element inside `rdf:RDF`. -/
def xmlDocument (as : List XAttr) (body : List XmlIn) : List XmlIn :=
  .other :: .start (rdfX (str! "RDF")) as :: body ++ [.stop (rdfX (str! "RDF"))]

theorem xmlDocument_of {gen : Nat → Str} {n n' : Nat} {as : List XAttr} {body : List XmlIn} {T : List Stmt}
    (ha : as.all isXmlAttr = true)
    (h : NodeList gen (XmlScope.enter ⟨none, none⟩ as) n body n' T) : RdfXml gen n (xmlDocument as body) T :=
  ⟨[.other], [], as, body, n', by simp [xmlDocument], rfl, rfl, ha, h⟩

theorem NodeList.one {gen : Nat → Str} {n n' : Nat} {c : XmlScope} {s : Subject} {body : List XmlIn}
    {T : List Stmt} (h : NodeElt gen c n body s n' T) : NodeList gen c n body n' T := by
  have := NodeList.cons h .nil
  simpa using this

/-- Whether the statements read have a property. -/
def readsAs (f : List Stmt → Bool) : Run Graph → Bool
  | .ok g => f g.stmts
  | _ => true

/-- C77 fails: `rdf:ID` is not joined with `#`. -/
theorem C77_fails_id : ¬C77_statement .bare := fun h => by
  let as := [(⟨xmlX (str! "base"), str! "http://a/b"⟩ : XAttr)]
  let x : XName := ⟨some (str! "http://a/"), str! "p"⟩
  let l := Literal.plain easyEnv.pr (str! "x")
  let body := [XmlIn.start (rdfX (str! "Description")) [⟨rdfX (str! "ID"), str! "c"⟩], .start x [],
    .chars (str! "x"), .stop x, .stop (rdfX (str! "Description"))]
  let st := Stmt.mk (.res ⟨str! "http://a/b#c"⟩) ⟨str! "http://a/p"⟩ (.lit l)
  have hd : RdfXml blankGen 0 (xmlDocument as body) [st] := by
    refine xmlDocument_of (n' := 0) (by decide +kernel) (NodeList.one (s := .res ⟨str! "http://a/b#c"⟩) ?_)
    refine NodeElt.mk (name := rdfX (str! "Description")) (as := [⟨rdfX (str! "ID"), str! "c"⟩])
      (body := [.start x [], .chars (str! "x"), .stop x]) (ps := []) (ts := []) (T := [st]) (n' := 0)
      (by decide +kernel) ?_ .nil ?_
    · have := SubjectOf.id (gen := blankGen) (c := XmlScope.enter (XmlScope.enter ⟨none, none⟩ as) [⟨rdfX (str! "ID"), str! "c"⟩])
        (n := 0) (as := [⟨rdfX (str! "ID"), str! "c"⟩]) (v := str! "c") (i := str! "http://a/b#c")
        (by decide +kernel) (by decide +kernel) (by decide +kernel)
      exact this
    · refine PropList.cons (a := [.start x [], .chars (str! "x"), .stop x]) (b := []) (T := [st]) (n' := 0) ?_ .nil
      exact PropElt.literal (body := [.chars (str! "x")]) (t := str! "x") (type := none) (by decide +kernel) rfl rfl rfl
        (fun _ => rfl) ⟨by decide +kernel, rfl, by decide +kernel⟩
  obtain ⟨k, h1, h2⟩ := h easyEnv blankGen 0 (fun _ => none) _ _ easyEnv_ascii (fun _ => rfl) (fun _ => rfl)
    (fun _ => rfl) hd
  have hm := (h2 st).2 (.head _)
  have : readsAs (fun l => !l.contains st) (readXml easyEnv .bare blankGen 0 (fun _ => none) (xmlDocument as body)) = true := by
    decide +kernel
  rw [h1] at this
  simp [readsAs, hm] at this

/-- C77 fails: an element inside a property is read, but not as its value. -/
theorem C77_fails_nested (sty : IriStyle) : ¬C77_statement sty := fun h => by
  let x : XName := ⟨some (str! "http://a/"), str! "p"⟩
  let at1 := [(⟨rdfX (str! "about"), str! "http://a/s"⟩ : XAttr)]
  let at2 := [(⟨rdfX (str! "about"), str! "http://a/t"⟩ : XAttr)]
  let inner := [XmlIn.start (rdfX (str! "Description")) at2, .stop (rdfX (str! "Description"))]
  let body := [XmlIn.start (rdfX (str! "Description")) at1, .start x []] ++ inner ++ [.stop x, .stop (rdfX (str! "Description"))]
  let st := Stmt.mk (.res ⟨str! "http://a/s"⟩) ⟨str! "http://a/p"⟩ (.res ⟨str! "http://a/t"⟩)
  have sub : ∀ (c : XmlScope) (v : Str), hasScheme v = true →
      SubjectOf blankGen c 0 [(⟨rdfX (str! "about"), v⟩ : XAttr)] (.res ⟨v⟩) 0 [] := by
    intro c v hv
    have := SubjectOf.about (gen := blankGen) (c := c) (n := 0) (as := [(⟨rdfX (str! "about"), v⟩ : XAttr)]) (v := v)
      (i := v) (by simp [attr]) (xml_iriValue hv)
    simpa using this
  have hd : RdfXml blankGen 0 (xmlDocument [] body) [st] := by
    refine xmlDocument_of (n' := 0) rfl (NodeList.one (s := .res ⟨str! "http://a/s"⟩) ?_)
    refine NodeElt.mk (name := rdfX (str! "Description")) (as := at1)
      (body := .start x [] :: inner ++ [.stop x]) (ps := []) (ts := []) (T := [st]) (n' := 0)
      (by decide +kernel) (sub _ _ (by decide +kernel)) .nil ?_
    refine PropList.cons (a := .start x [] :: inner ++ [.stop x]) (b := []) (T := [st]) (n' := 0) ?_ .nil
    refine PropElt.node (o := .res ⟨str! "http://a/t"⟩) (a := []) (b := []) (body := inner) (T := [])
      (by decide +kernel) rfl rfl rfl ?_
    exact NodeElt.mk (name := rdfX (str! "Description")) (as := at2) (body := []) (ps := []) (ts := []) (T := [])
      (n' := 0) (by decide +kernel) (sub _ _ (by decide +kernel)) .nil .nil
  obtain ⟨k, h1, h2⟩ := h easyEnv blankGen 0 (fun _ => none) _ _ easyEnv_ascii (fun _ => rfl) (fun _ => rfl)
    (fun _ => rfl) hd
  have hm := (h2 st).2 (.head _)
  have : readsAs (fun l => !l.contains st) (readXml easyEnv sty blankGen 0 (fun _ => none) (xmlDocument [] body)) = true := by
    cases sty <;> decide +kernel
  rw [h1] at this
  simp [readsAs, hm] at this

/-- C77 fails: a language is not handed down to the properties. -/
theorem C77_fails_language (sty : IriStyle) : ¬C77_statement sty := fun h => by
  let as := [(⟨xmlX (str! "lang"), str! "en"⟩ : XAttr)]
  let at1 := [(⟨rdfX (str! "about"), str! "http://a/s"⟩ : XAttr)]
  let x : XName := ⟨some (str! "http://a/"), str! "p"⟩
  let l := Literal.withLanguage easyEnv.pr (str! "x") (str! "en")
  let body := [XmlIn.start (rdfX (str! "Description")) at1, .start x [],
    .chars (str! "x"), .stop x, .stop (rdfX (str! "Description"))]
  let st := Stmt.mk (.res ⟨str! "http://a/s"⟩) ⟨str! "http://a/p"⟩ (.lit l)
  have hd : RdfXml blankGen 0 (xmlDocument as body) [st] := by
    refine xmlDocument_of (n' := 0) (by decide +kernel) (NodeList.one (s := .res ⟨str! "http://a/s"⟩) ?_)
    refine NodeElt.mk (name := rdfX (str! "Description")) (as := at1)
      (body := [.start x [], .chars (str! "x"), .stop x]) (ps := []) (ts := []) (T := [st]) (n' := 0)
      (by decide +kernel) ?_ .nil ?_
    · have := SubjectOf.about (gen := blankGen) (c := XmlScope.enter (XmlScope.enter ⟨none, none⟩ as) at1)
        (n := 0) (as := at1) (v := str! "http://a/s") (i := str! "http://a/s")
        (by decide +kernel) (by decide +kernel)
      exact this
    · refine PropList.cons (a := [.start x [], .chars (str! "x"), .stop x]) (b := []) (T := [st]) (n' := 0) ?_ .nil
      exact PropElt.literal (body := [.chars (str! "x")]) (t := str! "x") (type := none) (by decide +kernel) rfl rfl rfl
        (fun _ => rfl) ⟨by decide +kernel, rfl, by decide +kernel⟩
  obtain ⟨k, h1, h2⟩ := h easyEnv blankGen 0 (fun _ => none) _ _ easyEnv_ascii (fun _ => rfl) (fun _ => rfl)
    (fun _ => rfl) hd
  have hm := (h2 st).2 (.head _)
  have : readsAs (fun l => !l.contains st) (readXml easyEnv sty blankGen 0 (fun _ => none) (xmlDocument as body)) = true := by
    cases sty <;> decide +kernel
  rw [h1] at this
  simp [readsAs, hm] at this

/-! ### C78 -/

theorem contentIn_nested {es : List XmlOut} {stack : List Open} {ins : List XmlIn}
    (h : contentIn stack es = some ins) : wellNested stack.length ins = true := by
  have text : ∀ (s : Str) (k : Nat) (r : List XmlIn), wellNested k (textIn s ++ r) = wellNested k r := by
    intro s k r
    unfold textIn
    split
    · rfl
    · split <;> cases k <;> rfl
  induction es generalizing stack ins with
  | nil =>
    cases stack with
    | nil => cases h; rfl
    | cons _ _ => cases h
  | cons e es ih =>
    cases e with
    | document d => cases stack <;> cases h
    | start n d as =>
      have h' : (match elementName (d ++ scopeOf stack) n, attributesIn (d ++ scopeOf stack) as with
        | some name, some attrs =>
          if d.all declOk && decide ((attrs.map (·.name)).Nodup) then
            (contentIn ((n, name, d ++ scopeOf stack) :: stack) es).map (.start name attrs :: ·)
          else none
        | _, _ => none) = some ins := by cases stack <;> exact h
      split at h'
      · split at h'
        · obtain ⟨r, hr, rfl⟩ := Option.map_eq_some_iff.1 h'
          have := ih hr
          cases stack <;> exact this
        · cases h'
      · cases h'
    | chars s =>
      cases stack with
      | nil => cases h
      | cons x stack =>
        simp only [contentIn] at h
        split at h
        · obtain ⟨r, hr, rfl⟩ := Option.map_eq_some_iff.1 h
          rw [text]
          exact ih hr
        · cases h
    | stop m =>
      cases stack with
      | nil => cases h
      | cons x stack =>
        simp only [contentIn] at h
        split at h
        · obtain ⟨r, hr, rfl⟩ := Option.map_eq_some_iff.1 h
          exact ih (stack := stack) hr
        · cases h

/-- C78: the reader comes to an end on every document in which the elements are closed. -/
theorem C78_ends (env : ReadEnv) (sty : IriStyle) (gen : Nat → Str) (n : Nat) (emit : Emit) (evs : List XmlIn)
    (h : wellNested 0 evs = true) : readXml env sty gen n emit evs ≠ .deep :=
  xmlRun_ends (k := 0) (by simp [weights]) h

/-- C78 for what is found in any written document. -/
theorem C78_written (env : ReadEnv) (sty : IriStyle) (gen : Nat → Str) (n : Nat) (emit : Emit)
    (es : List XmlOut) (ins : List XmlIn) (h : deliver es = some ins) :
    readXml env sty gen n emit ins ≠ .deep := by
  refine C78_ends _ _ _ _ _ _ ?_
  unfold deliver at h
  split at h
  · obtain ⟨r, hr, rfl⟩ := Option.map_eq_some_iff.1 h
    exact contentIn_nested hr
  · cases h

example : wellNested 0 (xmlDocument [] []) = true := rfl

/-! ### C79 -/

/-- C79: the reader does not panic on a document in which the elements are closed. -/
def C79_statement (sty : IriStyle) : Prop :=
  ∀ (env : ReadEnv) (gen : Nat → Str) (n : Nat) (emit : Emit) (evs : List XmlIn), wellNested 0 evs = true →
    readXml env sty gen n emit evs ≠ .panic

/-- Whether a run panics. -/
def Run.isPanic {α : Type _} : Run α → Bool
  | .panic => true
  | _ => false

theorem Run.of_isPanic {α : Type _} {x : Run α} (h : x.isPanic = true) : x = .panic := by
  cases x with
  | panic => rfl
  | _ => cases h

/-- An empty node element with one attribute. -/
def xmlNodeWith (a : XAttr) : List XmlIn :=
  xmlDocument [] [.start (rdfX (str! "Description")) [a], .stop (rdfX (str! "Description"))]

/-- C79 fails: `rdf:ID` without a base. -/
theorem C79_fails (sty : IriStyle) : ¬C79_statement sty := fun h =>
  h easyEnv blankGen 0 (fun _ => none) (xmlNodeWith ⟨rdfX (str! "ID"), str! "x"⟩) (by decide +kernel)
    (Run.of_isPanic (by cases sty <;> decide +kernel))

/-- C79 fails: an attribute without a namespace. -/
theorem C79_fails_attribute (sty : IriStyle) : ¬C79_statement sty := fun h =>
  h easyEnv blankGen 0 (fun _ => none) (xmlNodeWith ⟨⟨none, str! "x"⟩, str! "y"⟩) (by decide +kernel)
    (Run.of_isPanic (by cases sty <;> decide +kernel))

/-- C79 fails: an element without a namespace. -/
theorem C79_fails_element (sty : IriStyle) : ¬C79_statement sty := fun h =>
  h easyEnv blankGen 0 (fun _ => none) (xmlDocument [] [.start ⟨none, str! "x"⟩ [], .stop ⟨none, str! "x"⟩])
    (by decide +kernel) (Run.of_isPanic (by cases sty <;> decide +kernel))

/-- C79 fails: collections, other parse types, and XML literals without an element. -/
theorem C79_fails_parseType (sty : IriStyle) (v : Str)
    (hv : v = str! "Collection" ∨ v = str! "daml:collection" ∨ v = str! "Literal") : ¬C79_statement sty := fun h =>
  h easyEnv blankGen 0 (fun _ => none) (xmlDocument [] [.start (rdfX (str! "Description")) [],
    .start ⟨some (str! "http://a/"), str! "p"⟩ [⟨rdfX (str! "parseType"), v⟩], .chars (str! "x"),
    .stop ⟨some (str! "http://a/"), str! "p"⟩, .stop (rdfX (str! "Description"))])
    (by rcases hv with rfl | rfl | rfl <;> decide +kernel)
    (Run.of_isPanic (by rcases hv with rfl | rfl | rfl <;> cases sty <;> decide +kernel))

/-- C79 for documents whose names have namespaces, without `rdf:ID` and parse types but for
resources. -/
theorem C79_partial (env : ReadEnv) (sty : IriStyle) (gen : Nat → Str) (n : Nat) (emit : Emit) (evs : List XmlIn)
    (h : ∀ ev ∈ evs, calm ev = true) : readXml env sty gen n emit evs ≠ .panic :=
  xmlRun_calm h fun f hf => by simp at hf

/-! ### C80 -/

/-- A node with another label. -/
def relabelSubject (f : Str → Str) : Subject → Subject
  | .blank b => .blank (f b)
  | s => s

/-- A node with another label. -/
def relabelObject (f : Str → Str) : Object → Object
  | .blank b => .blank (f b)
  | o => o

/-- A label of a blank node in some statements. -/
def LabelIn (L : List Stmt) (b : Str) : Prop := ∃ st ∈ L, st.subject = .blank b ∨ st.object = .blank b

/-- The statements that a document says are those of a list, with blank nodes of other labels. -/
def SaysRenamed (gen : Nat → Str) (n : Nat) (es : List XmlOut) (L : List Stmt) : Prop :=
  ∃ ins T f, deliver es = some ins ∧ RdfXml gen n ins T ∧
    (∀ b c, LabelIn L b → LabelIn L c → f b = f c → b = c) ∧
    ∀ st, st ∈ T ↔ ∃ x ∈ L, .mk (relabelSubject f x.subject) x.predicate (relabelObject f x.object) = st

/-- C80: a nested document says the statements of the graph, with blank nodes of other labels. -/
def C80_statement : Prop :=
  ∀ (gen : Nat → Str) (n : Nat) (enc : Str) (o : Orders) (d : Nat) (g : Graph) (es : List XmlOut),
    o.Fair → XmlGraph o (g.simplify gen n).1 → writeXml gen n .bare false enc o d g = .ok es →
    ∀ gen' : Nat → Str, (∀ i j, gen' i = gen' j → i = j) → ∀ m, SaysRenamed gen' m es (g.simplify gen n).1.stmts

/-- Statements about blank nodes that no statement about an IRI leads to are never written. -/
theorem C80_fails_lost (gen : Nat → Str) (n : Nat) (sty : IriStyle) (enc : Str) (o : Orders) (hf : o.Fair) (d : Nat)
    (g : Graph) (h : ∀ st ∈ (g.simplify gen n).1.stmts, ∃ b, st.subject = .blank b) :
    writeXml gen n sty false enc o d g =
      .ok [.document enc, .start (rdfName (str! "RDF")) [(rdfTable.pfx, rdfTable.ns)] [],
        .stop (rdfName (str! "RDF"))] := by
  have : (o.subj (g.simplify gen n).1.subjects).filter (fun s => false || s.isResource) = [] := by
    rw [List.filter_eq_nil_iff]
    intro s hs
    obtain ⟨st, hst, rfl⟩ := xml_subjects.1 ((hf.1 _).mem_iff.1 hs)
    obtain ⟨b, hb⟩ := h st hst
    simp [hb, Subject.isResource]
  simp only [writeXml, this, xmlSubjects, Run.bind]
  rfl

/-- A statement about a blank node. -/
def aboutBlank : Graph := graphOf
  [.mk (.blank (str! "b")) ⟨str! "http://a/p"⟩ (.lit (Literal.plain easyEnv.pr (str! "x")))]

theorem aboutBlank_ok (o : Orders) (hf : o.Fair) : XmlGraph o (aboutBlank.simplify blankGen 0).1 := by
  have e : (aboutBlank.simplify blankGen 0).1.stmts = aboutBlank.stmts := rfl
  constructor
  · rw [e]
    intro st hst
    have : st ∈ [_] := hst
    simp only [List.mem_cons, List.not_mem_nil, or_false] at this
    subst this
    exact ⟨show isNcName _ = true by decide +kernel, sampleProperty_ok, plain_ok (by decide +kernel)⟩
  · intro s p hk
    have := (hf.2.2 s p ((aboutBlank.simplify blankGen 0).1.objectsFor s p)).length_eq
    rw [this]
    generalize hl : (aboutBlank.simplify blankGen 0).1.objectsFor s p = l
    cases l with
    | nil => simp
    | cons x l =>
      have hm : x ∈ (aboutBlank.simplify blankGen 0).1.objectsFor s p := by rw [hl]; simp
      have hm := xml_objectsFor.1 hm
      rw [e] at hm
      have : Stmt.mk s p x ∈ [_] := hm
      simp only [List.mem_cons, List.not_mem_nil, or_false, Stmt.mk.injEq] at this
      rw [this.2.1] at hk
      exact absurd hk sampleProperty_unknown

theorem nodeList_nil {gen : Nat → Str} {c : XmlScope} {n n' : Nat} {T : List Stmt} {evs : List XmlIn}
    (h : NodeList gen c n evs n' T) (he : evs = []) : T = [] := by
  cases h with
  | nil => rfl
  | fill _ _ => cases he
  | cons h _ => cases h; simp at he

/-- C80 fails: a statement about a blank node that nothing refers to is lost. -/
theorem C80_fails : ¬C80_statement := fun h => by
  have hb : ∀ st ∈ (aboutBlank.simplify blankGen 0).1.stmts, ∃ b, st.subject = .blank b := by
    intro st hst
    have : st ∈ [_] := hst
    simp only [List.mem_cons, List.not_mem_nil, or_false] at this
    subst this
    exact ⟨_, rfl⟩
  obtain ⟨ins, T, f, h1, h2, -, h3⟩ := h blankGen 0 (str! "utf-8") sameOrder 1 aboutBlank _ sameOrder_fair
    (aboutBlank_ok _ sameOrder_fair) (C80_fails_lost _ _ _ _ _ sameOrder_fair _ _ hb)
    (fun k => List.replicate k 'a') (fun i j e => by simpa using congrArg List.length e) 0
  have e : deliver [.document (str! "utf-8"), .start (rdfName (str! "RDF")) [(rdfTable.pfx, rdfTable.ns)] [],
        .stop (rdfName (str! "RDF"))] = some (xmlDocument [] []) := by decide +kernel
  rw [e] at h1
  cases h1
  have hT : T = [] := by
    obtain ⟨pre, post, as, body, n', e, hp, hq, _, hn⟩ := h2
    have hbody : body = [] := by
      match pre, hp, e with
      | [], _, e => cases e
      | [x], _, e =>
        simp only [xmlDocument, List.cons_append, List.nil_append, List.cons.injEq] at e
        obtain ⟨_, _, e⟩ := e
        cases body with
        | nil => rfl
        | cons y body =>
          have := congrArg List.length e
          simp at this
      | x :: y :: pre, hp, e =>
        simp only [xmlDocument, List.cons_append, List.nil_append, List.cons.injEq] at e
        obtain ⟨_, rfl, _⟩ := e
        simp [isFill] at hp
    exact nodeList_nil hn hbody
  rw [hT] at h3
  have := (h3 _).2 ⟨_, .head _, rfl⟩
  simp at this

/-- Two values that are one node. -/
def sharedBlank : Graph := graphOf
  [.mk (.res ⟨str! "http://a/s"⟩) ⟨str! "http://a/p"⟩ (.blank (str! "b")),
    .mk (.res ⟨str! "http://a/s"⟩) ⟨str! "http://a/q"⟩ (.blank (str! "b")),
    .mk (.blank (str! "b")) ⟨str! "http://a/p"⟩ (.lit (Literal.plain easyEnv.pr (str! "x")))]

/-- Whether a run gives a list that holds something so many times. -/
def holds (k : Nat) (e : XmlOut) : Run (List XmlOut) → Bool
  | .ok es => es.count e == k
  | _ => false

/-- A node that is the value of two properties is written twice, as two nodes without labels. -/
theorem C80_fails_shared :
    holds 2 (.chars (str! "x")) (writeXml blankGen 0 .bare false (str! "utf-8") sameOrder 2 sharedBlank) = true := by
  decide +kernel

/-- A node that leads to itself, reached from an IRI. -/
def blankLoop : Graph := graphOf
  [.mk (.res ⟨str! "http://a/s"⟩) ⟨str! "http://a/p"⟩ (.blank (str! "b")),
    .mk (.blank (str! "b")) ⟨str! "http://a/p"⟩ (.blank (str! "b"))]

/-- A node that leads to itself is written for ever. -/
theorem C80_fails_endless (d : Nat) :
    writeXml blankGen 0 .bare false (str! "utf-8") sameOrder d blankLoop = .deep := by
  have hb : ∀ d, xmlSubject .bare false sameOrder (blankLoop.simplify blankGen 0).1 d (.blank (str! "b")) = .deep := by
    intro d
    induction d with
    | zero => rfl
    | succ d ih =>
      have hp : sameOrder.pred (.blank (str! "b")) ((blankLoop.simplify blankGen 0).1.predicatesFor (.blank (str! "b"))) =
        [⟨str! "http://a/p"⟩] := by decide +kernel
      have ho : sameOrder.obj (.blank (str! "b")) ⟨str! "http://a/p"⟩
        ((blankLoop.simplify blankGen 0).1.objectsFor (.blank (str! "b")) ⟨str! "http://a/p"⟩) =
        [.blank (str! "b")] := by decide +kernel
      have hs : splitUri .bare ⟨str! "http://a/p"⟩ = .ok (str! "http://a/", str! "p") := by decide +kernel
      simp only [xmlSubject, xmlHead, Run.bind, hp, xmlPredicates, hs, ho, xmlObjects, xmlProperty, ih]
      rfl
  have hsub : (sameOrder.subj (blankLoop.simplify blankGen 0).1.subjects).filter (fun s => false || s.isResource) =
      [.res ⟨str! "http://a/s"⟩] := by decide +kernel
  simp only [writeXml, hsub, xmlSubjects]
  have : xmlSubject .bare false sameOrder (blankLoop.simplify blankGen 0).1 d (.res ⟨str! "http://a/s"⟩) = .deep := by
    cases d with
    | zero => rfl
    | succ d =>
      have hp : sameOrder.pred (.res ⟨str! "http://a/s"⟩)
        ((blankLoop.simplify blankGen 0).1.predicatesFor (.res ⟨str! "http://a/s"⟩)) =
        [⟨str! "http://a/p"⟩] := by decide +kernel
      have ho : sameOrder.obj (.res ⟨str! "http://a/s"⟩) ⟨str! "http://a/p"⟩
        ((blankLoop.simplify blankGen 0).1.objectsFor (.res ⟨str! "http://a/s"⟩) ⟨str! "http://a/p"⟩) =
        [.blank (str! "b")] := by decide +kernel
      have hs : splitUri .bare ⟨str! "http://a/p"⟩ = .ok (str! "http://a/", str! "p") := by decide +kernel
      simp only [xmlSubject, xmlHead, Run.bind, hp, xmlPredicates, hs, ho, xmlObjects, xmlProperty, hb]
      rfl
  rw [this]
  rfl

/-- C80 for graphs without blank nodes, which are written alike in the two styles. -/
theorem C80_partial (gen : Nat → Str) (n : Nat) (sty : IriStyle) (enc : Str) (o : Orders) (hf : o.Fair) (d : Nat)
    (g : Graph) (hb : ∀ st ∈ (g.simplify gen n).1.stmts, (∃ i, st.subject = .res i) ∧ ∀ b, st.object ≠ .blank b) :
    writeXml gen n sty false enc o d g = writeXml gen n sty true enc o d g := by
  refine writeXml_styles hf fun st hst => ?_
  obtain ⟨⟨i, hi⟩, h2⟩ := hb st hst
  exact ⟨by simp [hi, Subject.isResource], h2⟩

/-! ### C81 -/

/-- C81: the writer does not panic. -/
def C81_statement (sty : IriStyle) : Prop :=
  ∀ (gen : Nat → Str) (n : Nat) (flat : Bool) (enc : Str) (o : Orders) (d : Nat) (g : Graph), o.Fair →
    writeXml gen n sty flat enc o d g ≠ .panic

/-- C81 fails for a predicate without a separator. -/
theorem C81_fails (sty : IriStyle) : ¬C81_statement sty := fun h =>
  h blankGen 0 true (str! "utf-8") sameOrder 1
    (graphOf [.mk (.res ⟨str! "http://a/s"⟩) ⟨str! "urn:x"⟩ (.res ⟨str! "http://a/s"⟩)]) sameOrder_fair
    (Run.of_isPanic (by cases sty <;> decide +kernel))

/-- No graph with such a predicate is written. -/
theorem C81_unwritten (gen : Nat → Str) (n : Nat) (sty : IriStyle) (enc : Str) (o : Orders) (hf : o.Fair) (d : Nat)
    (g : Graph) (st : Stmt) (hst : st ∈ (g.simplify gen n).1.stmts) (hs : ∀ c ∈ st.predicate.text, ¬isSep c)
    (es : List XmlOut) : writeXml gen n sty true enc o d g ≠ .ok es := writeXml_panics hf hst hs es

/-- C81 for graphs whose predicates are ASCII and have a separator. -/
theorem C81_partial (gen : Nat → Str) (n : Nat) (sty : IriStyle) (flat : Bool) (enc : Str) (o : Orders) (hf : o.Fair)
    (d : Nat) (g : Graph) (hp : ∀ st ∈ (g.simplify gen n).1.stmts,
      (∀ c ∈ st.predicate.text, c.toNat < 0x80) ∧ ∃ c ∈ st.predicate.text, isSep c) :
    writeXml gen n sty flat enc o d g ≠ .panic := writeXml_calm hf hp

end Rdftk
