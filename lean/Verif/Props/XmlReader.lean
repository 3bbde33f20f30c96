import Verif.Lemmas.XmlReader
import Verif.Props.XmlPanic
import Verif.Spec.XmlRead

/-! What the reader of RDF/XML makes of any document: C180. -/

namespace Rdftk

open Spec

theorem xmlRun_document (len : Nat) (env : ReadEnv) (sty : IriStyle) (gen : Nat → Str) (emit : Emit) :
    ∀ (evs : List XmlIn) (st : XmlState) (g : Graph), evs.length ≤ len → xmlRun env sty gen emit [] st evs = .ok g →
      ∃ ts, XmlDocument env sty gen emit st.count evs ts ∧ g = ts.foldl Graph.insert st.graph := by
  induction len with
  | zero =>
    intro evs st g hl h
    cases evs with
    | nil => cases h; exact ⟨[], .nil _, rfl⟩
    | cons _ _ => simp at hl
  | succ len ih =>
    intro evs st g hl0 h0
    cases evs with
    | nil => cases h0; exact ⟨[], .nil _, rfl⟩
    | cons ev evs =>
      have hl : evs.length ≤ len := by simpa using hl0
      obtain ⟨f', st', hs, h⟩ := xmlRun_cons h0
      clear hl0 h0
      have pass (hp : Passed ev ∨ ∃ x, ev = .stop x) (h : xmlRun env sty gen emit [] st evs = .ok g) :
          ∃ ts, XmlDocument env sty gen emit st.count (ev :: evs) ts ∧ g = ts.foldl Graph.insert st.graph := by
        obtain ⟨ts, h1, h2⟩ := ih _ _ _ hl h
        exact ⟨ts, .pass _ _ _ _ hp h1, h2⟩
      cases ev with
      | start name as =>
        obtain ⟨a, h1, h2⟩ := Res.bind_isOk.1 hs
        by_cases hn : name = ⟨some rdfTable.ns, str! "RDF"⟩
        · subst hn
          rw [if_pos rfl] at h2
          cases h2
          have k := (xmlAttributes_says h1).1 none
          have k : a.base = baseInside env as none := by
            rw [← k]
            unfold xmlBase
            cases a.base <;> rfl
          rw [k] at h
          obtain ⟨e1, e2, t₁, m, rfl, hb, hr⟩ := xmlRun_body evs.length _ _ _ _ _ (Nat.le_refl _) h trivial
          obtain ⟨t₂, h3, h4⟩ := ih _ _ _ (by simp at hl; omega) hr
          refine ⟨t₁ ++ t₂, .root _ _ _ _ _ _ _ (xmlAttributes_known h1).1 hb h3, ?_⟩
          rw [h4, List.foldl_append]
        · rw [if_neg hn] at h2
          cases h2
      | stop x => cases hs; exact pass (.inr ⟨x, rfl⟩) h
      | bad => cases hs
      | chars _ => cases hs; exact pass (.inl trivial) h
      | cdata _ => cases hs; exact pass (.inl trivial) h
      | space _ => cases hs; exact pass (.inl trivial) h
      | other => cases hs; exact pass (.inl trivial) h

theorem document_run {env : ReadEnv} {sty : IriStyle} {gen : Nat → Str} {emit : Emit} {n : Nat} {evs : List XmlIn} {ts : List Stmt}
    (h : XmlDocument env sty gen emit n evs ts) (g : Graph) : xmlRun env sty gen emit [] ⟨g, n⟩ evs = .ok (ts.foldl Graph.insert g) := by
  induction h generalizing g with
  | nil => rfl
  | pass n ev evs ts hp _ ih =>
    rcases hp with hp | ⟨x, rfl⟩
    · cases ev <;> first | exact hp.elim | exact ih g
    · exact ih g
  | root n m as evs₁ evs₂ t₁ t₂ ha hc _ ih =>
    obtain ⟨a, h1⟩ := xmlAttributes_taken ha
    have k := (xmlAttributes_says h1).1 none
    have k : a.base = baseInside env as none := by
      rw [← k]
      unfold xmlBase
      cases a.base <;> rfl
    simp only [xmlRun, xmlStep, h1, Res.bind, if_pos, k]
    rw [nodes_run hc, ih, List.foldl_append]

/-- C180: the reader of RDF/XML takes just the documents of the grammar, and reads just the statements that the grammar gives, in this
order. -/
theorem C180_iff (env : ReadEnv) (sty : IriStyle) (gen : Nat → Str) (n : Nat) (emit : Emit) (evs : List XmlIn) (ts : List Stmt) :
    (∃ g, readXml env sty gen n emit evs = .ok g ∧ g.stmts = ts) ↔ XmlDocument env sty gen emit n evs ts := by
  constructor
  · rintro ⟨g, h, rfl⟩
    obtain ⟨ts, h1, rfl⟩ := xmlRun_document evs.length env sty gen emit evs ⟨Graph.default, n⟩ g (Nat.le_refl _) h
    rw [(foldl_insert_default ts).1]
    exact h1
  · intro h
    exact ⟨_, document_run h Graph.default, (foldl_insert_default ts).1⟩

/-- C180: nothing but statements is read: the graph has no name, and the mappings of a new graph. -/
theorem C180_graph (env : ReadEnv) (sty : IriStyle) (gen : Nat → Str) (n : Nat) (emit : Emit) (evs : List XmlIn) (g : Graph)
    (h : readXml env sty gen n emit evs = .ok g) : g = g.stmts.foldl Graph.insert Graph.default := by
  obtain ⟨ts, h1, rfl⟩ := xmlRun_document evs.length env sty gen emit evs ⟨Graph.default, n⟩ g (Nat.le_refl _) h
  simp only [(foldl_insert_default ts).1]

/-- C180: a document has at most one reading in the grammar. -/
theorem C180_one (env : ReadEnv) (sty : IriStyle) (gen : Nat → Str) (n : Nat) (emit : Emit) (evs : List XmlIn) (ts ts' : List Stmt)
    (h : XmlDocument env sty gen emit n evs ts) (h' : XmlDocument env sty gen emit n evs ts') : ts = ts' := by
  obtain ⟨g, h1, rfl⟩ := (C180_iff ..).2 h
  obtain ⟨g', h2, rfl⟩ := (C180_iff ..).2 h'
  rw [h1] at h2
  cases h2
  rfl

/-- C180: a well nested document that is neither in the grammar nor has a fault of those that cause a panic is an error, and no other
is. -/
theorem C180_error (env : ReadEnv) (sty : IriStyle) (gen : Nat → Str) (n : Nat) (emit : Emit) (evs : List XmlIn)
    (hw : wellNested 0 evs = true) :
    readXml env sty gen n emit evs = .err ↔
      (∀ ts, ¬XmlDocument env sty gen emit n evs ts) ∧
      ¬∃ l ev r stack st, evs = l ++ ev :: r ∧ XmlTaken env sty gen emit n l stack st ∧ EventPanics env sty emit stack ev := by
  rw [← C79_iff]
  constructor
  · intro h
    refine ⟨fun ts ht => ?_, by rw [h]; exact fun e => by cases e⟩
    obtain ⟨g, h1, -⟩ := (C180_iff ..).2 ht
    rw [h1] at h
    cases h
  · rintro ⟨h1, h2⟩
    cases e : readXml env sty gen n emit evs with
    | ok g => exact (h1 g.stmts ((C180_iff ..).1 ⟨g, e, rfl⟩)).elim
    | err => rfl
    | panic => exact (h2 e).elim
    | deep => exact (C78_ends env sty gen n emit evs hw e).elim

theorem document_of_run {env : ReadEnv} {sty : IriStyle} {gen : Nat → Str} {n : Nat} {emit : Emit} {evs : List XmlIn} {ts : List Stmt}
    (h : (match readXml env sty gen n emit evs with
      | .ok g => some g.stmts
      | _ => none) = some ts) : XmlDocument env sty gen emit n evs ts := by
  refine (C180_iff ..).1 ?_
  split at h
  · rename_i g e; exact ⟨g, e, Option.some.inj h⟩
  · cases h

/-- A document with a part for every rule for elements but that for XML literals. -/
def everyRule : List XmlIn :=
  let q : XName := ⟨some (str! "http://a/"), str! "q"⟩
  let c : XName := ⟨some (str! "http://a/"), str! "C"⟩
  [.other, .start (rdfX (str! "RDF")) [⟨xmlX (str! "base"), str! "http://a/"⟩], .space (str! " "),
    .start c [⟨rdfX (str! "ID"), str! "x"⟩, ⟨q, str! "v"⟩],
    .start q [⟨xmlX (str! "lang"), str! "en"⟩], .chars (str! "t"), .other, .cdata (str! "u"), .stop q,
    .start q [⟨rdfX (str! "parseType"), str! "Resource"⟩],
    .start (rdfX (str! "Description")) [⟨rdfX (str! "nodeID"), str! "n"⟩, ⟨q, str! "w"⟩], .stop (rdfX (str! "Description")), .stop q,
    .start q [], .start c [], .start c [], .stop c, .stop c, .stop q,
    .start q [⟨rdfX (str! "resource"), str! "http://a/o"⟩], .stop q, .stop c, .stop (rdfX (str! "RDF"))]

/-- It is in the grammar, and these are its statements. -/
example : XmlDocument easyEnv .bare blankGen (fun _ => none) 0 everyRule
    [.mk (.res ⟨str! "http://a/x"⟩) rdfType (.res ⟨str! "http://a/C"⟩),
      .mk (.res ⟨str! "http://a/x"⟩) ⟨str! "http://a/q"⟩ (.lit ⟨str! "v", none, none⟩),
      .mk (.res ⟨str! "http://a/x"⟩) ⟨str! "http://a/q"⟩ (.lit ⟨str! "tu", none, some (str! "en")⟩),
      .mk (.blank (str! "n")) ⟨str! "http://a/q"⟩ (.lit ⟨str! "w", none, none⟩),
      .mk (.blank (blankGen 2)) rdfType (.res ⟨str! "http://a/C"⟩),
      .mk (.res ⟨str! "http://a/x"⟩) ⟨str! "http://a/q"⟩ (.lit ⟨[], none, none⟩),
      .mk (.res ⟨str! "http://a/x"⟩) ⟨str! "http://a/q"⟩ (.res ⟨str! "http://a/o"⟩)] :=
  document_of_run (by decide +kernel)

/-- The rule for XML literals; the end of the property element is taken for that of the node element. -/
example : XmlDocument easyEnv .bare blankGen simpleXml 0
    [.start (rdfX (str! "RDF")) [], .start (rdfX (str! "Description")) [],
      .start ⟨some (str! "http://a/"), str! "q"⟩ [⟨rdfX (str! "parseType"), str! "Literal"⟩],
      .start ⟨none, str! "b"⟩ [], .chars (str! "x"), .stop ⟨none, str! "b"⟩, .stop ⟨some (str! "http://a/"), str! "q"⟩,
      .stop (rdfX (str! "Description")), .stop (rdfX (str! "RDF"))]
    [.mk (.blank (blankGen 0)) ⟨str! "http://a/q"⟩ (.lit ⟨str! "&lt;b&gt;x&lt;/b&gt;", some .xmlLiteral, none⟩)] :=
  document_of_run (by decide +kernel)

/-- Text and an element in one property element: not in the grammar, whatever the text is. -/
example (t : Str) (ts : List Stmt) : ¬XmlDocument easyEnv .bare blankGen (fun _ => none) 0
    [.start (rdfX (str! "RDF")) [], .start (rdfX (str! "Description")) [], .start ⟨some (str! "http://a/"), str! "q"⟩ [], .chars t,
      .start (rdfX (str! "Description")) []] ts := fun h => by
  obtain ⟨g, h, -⟩ := (C180_iff ..).2 h
  cases h

end Rdftk
