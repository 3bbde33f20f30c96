import Verif.Props.DotRead
import Verif.Props.JsonTurtle

/-! Diagrams that the command `draw` makes of RDF/JSON documents (C208). -/

namespace Rdftk
open Spec

/-- A statement whose IRIs are as said and whose literals can stand in a diagram, whatever their types. -/
def SafeStmt (Q : Iri → Prop) (st : Stmt) : Prop :=
  Q st.predicate ∧
  ∀ o ∈ [st.subject.toObject, st.object], Drawable o ∧ (∀ i, o = .res i → Q i) ∧
    ∀ l, o = .lit l → dotSafe l.lexicalForm

theorem fromStr_free {env : ReadEnv} {Q : Iri → Prop} (he : ∀ t i, env.url t = some i → Q i) {s : Str} {i : Iri}
    (h : Iri.fromStr env.url s = some i) : Q i := by
  unfold Iri.fromStr at h
  split at h
  · exact he _ _ h
  · exact he _ _ h

theorem jsonKey_safe {env : ReadEnv} {Q : Iri → Prop} (he : ∀ t i, env.url t = some i → Q i) {k : Str} {s : Subject}
    (h : jsonReadKey env k = .ok s) : (∃ b, s = .blank b) ∨ ∃ i, s = .res i ∧ Q i := by
  unfold jsonReadKey at h
  split at h
  · obtain ⟨b, -, h⟩ := Res.bind_ok h
    cases h
    exact .inl ⟨b, rfl⟩
  · obtain ⟨i, h1, h⟩ := Res.bind_ok h
    cases h
    exact .inr ⟨i, rfl, fromStr_free he (ofOption_ok h1)⟩

theorem jsonLiteral_safe {env : ReadEnv} {m : List (Str × Json)} {l : Literal} (h : jsonLiteral env m = .ok l) :
    dotSafe l.lexicalForm := by
  unfold jsonLiteral at h
  split at h
  · cases h; exact noBareQuote_escapeString _ _
  · obtain ⟨_, _, h⟩ := Res.bind_ok h
    cases h; exact noBareQuote_escapeString _ _
  · obtain ⟨_, _, h⟩ := Res.bind_ok h
    cases h; exact noBareQuote_escapeString _ _
  · cases h

theorem jsonObject_safe {env : ReadEnv} {Q : Iri → Prop} (he : ∀ t i, env.url t = some i → Q i) {v : Json} {x : Object}
    (h : jsonReadObject env v = .ok x) : Drawable x ∧ (∀ i, x = .res i → Q i) ∧
      ∀ l, x = .lit l → dotSafe l.lexicalForm := by
  unfold jsonReadObject at h
  split at h
  · split at h
    · split at h
      · obtain ⟨l, h1, h⟩ := Res.bind_ok h
        cases h
        exact ⟨trivial, fun i e => (by cases e), fun l e => (by cases e; exact jsonLiteral_safe h1)⟩
      split at h
      · obtain ⟨b, -, h⟩ := Res.bind_ok h
        cases h
        exact ⟨trivial, fun i e => (by cases e), fun l e => (by cases e)⟩
      split at h
      · obtain ⟨i, h1, h⟩ := Res.bind_ok h
        cases h
        unfold jsonUri at h1
        split at h1
        · exact ⟨trivial, fun i e => (by cases e; exact fromStr_free he (ofOption_ok h1)), fun l e => (by cases e)⟩
        · cases h1
      · cases h
    · cases h
  · cases h

theorem jsonObjects_safe {env : ReadEnv} {Q : Iri → Prop} (he : ∀ t i, env.url t = some i → Q i) {s : Subject} {p : Iri}
    (hs : (∃ b, s = .blank b) ∨ ∃ i, s = .res i ∧ Q i) (hp : Q p) (l : List Json) (g g' : Graph)
    (hg : ∀ st ∈ g.stmts, SafeStmt Q st) (h : jsonReadObjects env s p g l = .ok g') : ∀ st ∈ g'.stmts, SafeStmt Q st := by
  induction l generalizing g with
  | nil => cases h; exact hg
  | cons v l ih =>
    obtain ⟨x, h1, h⟩ := Res.bind_ok h
    refine ih _ (fun st hst => ?_) h
    rcases (insert_mem _ _ _).1 hst with h2 | rfl
    · exact hg st h2
    · refine ⟨hp, fun o ho => ?_⟩
      simp only [List.mem_cons, List.not_mem_nil, or_false] at ho
      rcases ho with rfl | rfl
      · rcases hs with ⟨b, rfl⟩ | ⟨i, rfl, hi⟩
        · exact ⟨trivial, fun i e => (by cases e), fun i e => (by cases e)⟩
        · exact ⟨trivial, fun j e => (by cases e; exact hi), fun i e => (by cases e)⟩
      · exact jsonObject_safe he h1

theorem jsonPredicates_safe {env : ReadEnv} {Q : Iri → Prop} (he : ∀ t i, env.url t = some i → Q i) {s : Subject}
    (hs : (∃ b, s = .blank b) ∨ ∃ i, s = .res i ∧ Q i) (m : List (Str × Json)) (g g' : Graph)
    (hg : ∀ st ∈ g.stmts, SafeStmt Q st) (h : jsonReadPredicates env s g m = .ok g') : ∀ st ∈ g'.stmts, SafeStmt Q st := by
  induction m generalizing g with
  | nil => cases h; exact hg
  | cons f m ih =>
    obtain ⟨p, v⟩ := f
    obtain ⟨k, h1, h⟩ := Res.bind_ok h
    refine ih k ?_ h
    unfold jsonReadPredicate at h1
    split at h1
    · obtain ⟨i, h2, h1⟩ := Res.bind_ok h1
      exact jsonObjects_safe he hs (fromStr_free he (ofOption_ok h2)) _ _ _ hg h1
    · cases h1

theorem jsonSubjects_safe {env : ReadEnv} {Q : Iri → Prop} (he : ∀ t i, env.url t = some i → Q i) (m : List (Str × Json))
    (g g' : Graph) (hg : ∀ st ∈ g.stmts, SafeStmt Q st) (h : jsonReadSubjects env g m = .ok g') :
    ∀ st ∈ g'.stmts, SafeStmt Q st := by
  induction m generalizing g with
  | nil => cases h; exact hg
  | cons f m ih =>
    obtain ⟨p, v⟩ := f
    obtain ⟨k, h1, h⟩ := Res.bind_ok h
    refine ih k ?_ h
    unfold jsonReadSubject at h1
    split at h1
    · obtain ⟨i, h2, h1⟩ := Res.bind_ok h1
      exact jsonPredicates_safe he (jsonKey_safe he h2) _ _ _ hg h1
    · cases h1

theorem readJson_nodes {env : ReadEnv} {Q : Iri → Prop} (he : ∀ t i, env.url t = some i → Q i) {s : Str} {g : Graph}
    (h : readJson env s = .ok g) : (∀ st ∈ g.stmts, Q st.predicate) ∧ ∀ o ∈ nodesOf g.stmts, Drawable o ∧
      (∀ i, o = .res i → Q i) ∧ ∀ l, o = .lit l → dotSafe l.lexicalForm := by
  have key : ∀ st ∈ g.stmts, SafeStmt Q st := by
    unfold readJson at h
    split at h
    · cases h
    · unfold jsonReadGraph at h
      split at h
      · exact jsonSubjects_safe he _ _ _ (by intro st hst; cases hst) h
      · cases h
  refine ⟨fun st hst => (key st hst).1, fun o ho => ?_⟩
  rw [nodesOf, mem_setOf, List.mem_flatMap] at ho
  obtain ⟨st, hst, ho⟩ := ho
  exact (key st hst).2 o ho

/-- What is read from RDF/JSON can be drawn. -/
theorem readJson_safe {env : ReadEnv} (he : ∀ t i, env.url t = some i → quoteFree i.text) {s : Str} {g : Graph}
    (h : readJson env s = .ok g) : GraphSafe g ∧ ∀ o ∈ nodesOf g.stmts, Drawable o := by
  obtain ⟨key, nodes⟩ := readJson_nodes (Q := fun i => quoteFree i.text) he h
  refine ⟨⟨key, fun i hi => (nodes _ hi).2.1 i rfl, fun l hl => (nodes _ hl).2.2 l rfl, ?_⟩,
    fun o ho => (nodes o ho).1⟩
  rw [(readJson_fresh h).nameless.2]
  unfold quoteFree
  decide

/-! ### C208 -/

/-- What a successful `draw` of RDF/JSON did. -/
theorem draw_json {e : CliEnv} {s out : Str} (h : cliMain e s (.draw .json) = .success out) :
    ∃ g m', readJson e.read s = .ok g ∧ writeDot e.sty e.nodeOrder DotOptions.default [] g = .ok (out, m') := by
  simp only [cliMain, cliRead] at h
  cases hr : readJson e.read s with
  | err => rw [hr] at h; simp [Representation.isDataSet, Res.toRun, Run.bind, Run.exit] at h
  | panic => rw [hr] at h; simp [Representation.isDataSet, Res.toRun, Run.bind, Run.exit] at h
  | ok g =>
    rw [hr] at h
    cases hw : writeDot e.sty e.nodeOrder DotOptions.default [] g with
    | panic => simp [Representation.isDataSet, Res.toRun, Run.bind, Run.exit, hw] at h
    | ok r =>
      obtain ⟨text, m'⟩ := r
      simp only [Representation.isDataSet, Res.toRun, Run.bind, Run.exit, hw, Bool.false_eq_true, if_false,
        Exit.success.injEq] at h
      subst h
      exact ⟨g, m', rfl, hw⟩

/-- C208, the full statement: in a strict environment, what `draw` writes for an RDF/JSON document draws the graph
that the document is read as. -/
def C208_statement (sty : IriStyle) : Prop :=
  ∀ (e : CliEnv) (s out : Str) (g : Graph), e.sty = sty → (∀ m, (e.nodeOrder m).Perm m) → StrictEnv e.read →
    cliMain e s (.draw .json) = .success out → readJson e.read s = .ok g →
    ∃ items, readDot out = some items ∧ Draws sty DotOptions.default g items

/-- C208: when no IRI keeps a quote or a backslash it is a DOT text, with an edge for each statement and at most one
node for each subject and object. -/
theorem C208_dot (e : CliEnv) (s out : Str) (hord : ∀ m, (e.nodeOrder m).Perm m)
    (he : ∀ t i, e.read.url t = some i → quoteFree i.text) (h : cliMain e s (.draw .json) = .success out) :
    ∃ g m' items, readJson e.read s = .ok g ∧ MapOf e.sty (nodesOf g.stmts) m' ∧ readDot out = some items ∧
      items.length = g.stmts.length + m'.length := by
  obtain ⟨g, m', hr, hw⟩ := draw_json h
  obtain ⟨hg, -⟩ := readJson_safe he hr
  obtain ⟨hm, items, h1, h2⟩ := writeDot_count default_safe (hg.labels e.sty) hord hw
  exact ⟨g, m', items, hr, hm, h1, h2⟩

/-- C208, exactly: it draws the graph if and only if no two nodes are displayed alike and every label can stand in
quotes. -/
theorem C208_iff (e : CliEnv) (s out : Str) (g : Graph) (hord : ∀ m, (e.nodeOrder m).Perm m)
    (h : cliMain e s (.draw .json) = .success out) (hr : readJson e.read s = .ok g) :
    (∃ items, readDot out = some items ∧ Draws e.sty DotOptions.default g items) ↔
      KeysDiffer e.sty (nodesOf g.stmts) ∧
      (∀ st ∈ g.stmts, dotSafe (edgeLabel e.sty g.mappings st.predicate)) ∧
      ∀ i, Object.res i ∈ nodesOf g.stmts → dotSafe (i.fmt e.sty) := by
  obtain ⟨g', m', hr', hw⟩ := draw_json h
  rw [hr] at hr'
  cases hr'
  have nodes := (readJson_nodes (Q := fun _ => True) (fun _ _ _ => trivial) hr).2
  rw [C50_all_iff e.sty DotOptions.default e.nodeOrder g out m' default_safe hord hw]
  constructor
  · rintro ⟨-, hk, -, h1, h2⟩
    exact ⟨hk, h1, fun i hi => (h2 _ hi).1 i rfl⟩
  · rintro ⟨hk, h1, h2⟩
    refine ⟨fun o ho => (nodes o ho).1, hk, .inr rfl, h1, fun o ho => ⟨fun i e => ?_, fun l e => ?_⟩⟩
    · subst e; exact h2 i ho
    · exact (nodes o ho).2.2 l e

/-- C208, what holds: it draws the graph when every literal is displayed in quotes. -/
theorem C208_partial (e : CliEnv) (s out : Str) (g : Graph) (hord : ∀ m, (e.nodeOrder m).Perm m)
    (he : StrictEnv e.read) (h : cliMain e s (.draw .json) = .success out) (hr : readJson e.read s = .ok g)
    (hq : ∀ x p l, Stmt.mk x p (.lit l) ∈ g.stmts → l.dataType ≠ some .iri ∧ (l.dataType.map DataType.isBare).getD false = false) :
    ∃ items, readDot out = some items ∧ Draws e.sty DotOptions.default g items := by
  have hf : ∀ t i, e.read.url t = some i → quoteFree i.text := by
    intro t i hi c hc
    have := ((he.url t i hi).1 c hc).2
    constructor <;> intro hq <;> rw [hq] at this <;> simp at this
  obtain ⟨hg, hd⟩ := readJson_safe hf hr
  have hl := hg.labels e.sty
  refine (C208_iff e s out g hord h hr).2 ⟨C50_keys_differ e.sty _ hd fun l hl => ?_, hl.1, fun i hi => (hl.2 _ hi).1 i rfl⟩
  have hs := hg.2.2.1 l hl
  rw [nodesOf, mem_setOf, List.mem_flatMap] at hl
  obtain ⟨⟨x, p, o⟩, hst, ho⟩ := hl
  simp only [List.mem_cons, List.not_mem_nil, or_false, Stmt.subject, Stmt.object] at ho
  rcases ho with ho | rfl
  · cases x <;> cases ho
  · obtain ⟨a, b⟩ := hq x p l hst
    have got := readJson_got he hr _ hst
    exact ⟨a, b, hs, got.1.2.2.1, fun t ht => got.2 l rfl t ht⟩

/-- An object with a type, in RDF/JSON. -/
def jsonOne (d : DataType) : Json :=
  .obj [(str! "datatype", .str d.asIri.text), (str! "type", .str (str! "literal")), (str! "value", .str ['1'])]

/-- A subject with two literals that have the same text. -/
def twoOnes : Json :=
  .obj [(str! "http://a/s", .obj [(str! "http://a/p", .arr [jsonOne .int, jsonOne .long])])]

/-- The graph of `twoOnes`. -/
def twoOnesGraph : Graph :=
  (Graph.default.insert (.mk (.res ⟨str! "http://a/s"⟩) ⟨str! "http://a/p"⟩ (.lit ⟨['1'], some .int, none⟩))).insert
    (.mk (.res ⟨str! "http://a/s"⟩) ⟨str! "http://a/p"⟩ (.lit ⟨['1'], some .long, none⟩))

theorem twoOnes_read : readJson webEnv (Json.text false 0 twoOnes) = .ok twoOnesGraph := by
  rw [readJson, jParse_text _ _ (by
    simp [twoOnes, jsonOne, Json.Fits, Json.FitsAll, Json.FitsMembers, SortedKeys]; decide)]
  rfl

theorem twoOnes_out (sty : IriStyle) : ∃ out, cliMain (webCli sty) (Json.text false 0 twoOnes) (.draw .json) = .success out := by
  have hr : readJson (webCli sty).read (Json.text false 0 twoOnes) = .ok twoOnesGraph := twoOnes_read
  have : ∀ sty, (match writeDot sty id DotOptions.default [] twoOnesGraph with | .ok _ => true | _ => false) = true := by
    intro sty; cases sty <;> decide +kernel
  have := this sty
  split at this
  · rename_i r h
    refine ⟨r.1, ?_⟩
    simp only [cliMain, cliRead, hr, Representation.isDataSet, Res.toRun, Run.bind, Run.exit, Bool.false_eq_true, if_false]
    rw [show (webCli sty).nodeOrder = id from rfl, show (webCli sty).sty = sty from rfl, h]
  · cases this

/-- C208 fails: the numbers `1` of two types share a node. -/
theorem C208_fails (sty : IriStyle) : ¬ C208_statement sty := by
  intro h
  obtain ⟨out, ho⟩ := twoOnes_out sty
  have hd := h (webCli sty) _ out twoOnesGraph rfl (fun m => .refl _) webEnv_strict ho twoOnes_read
  have hk := ((C208_iff (webCli sty) _ out twoOnesGraph (fun m => .refl _) ho twoOnes_read).1 hd).1
  have := hk (.lit ⟨['1'], some .int, none⟩) (by decide +kernel) (.lit ⟨['1'], some .long, none⟩) (by decide +kernel) (by
    rw [show (webCli sty).sty = sty from rfl]; cases sty <;> decide +kernel)
  cases this

/-- C50 for the command `draw` and every format it reads: what it writes draws the graph that was read if and only if
every node is a blank node, a resource or a literal, no two are displayed alike, and every label can stand in quotes. -/
theorem C50_command_iff (e : CliEnv) (s out : Str) (source : Representation) (hord : ∀ m, (e.nodeOrder m).Perm m)
    (h : cliMain e s (.draw source) = .success out) :
    ∃ g, cliRead e s source = .ok g ∧
      ((∃ items, readDot out = some items ∧ Draws e.sty DotOptions.default g items) ↔
        (∀ o ∈ nodesOf g.stmts, Drawable o) ∧ KeysDiffer e.sty (nodesOf g.stmts) ∧ LabelsSafe e.sty g) := by
  simp only [cliMain] at h
  split at h
  · cases h
  · cases hr : cliRead e s source with
    | ok g =>
      rw [hr] at h
      cases hw : writeDot e.sty e.nodeOrder DotOptions.default [] g with
      | panic => simp [Run.bind, Run.exit, hw] at h
      | ok r =>
        obtain ⟨text, m'⟩ := r
        simp only [Run.bind, Run.exit, hw, Exit.success.injEq] at h
        subst h
        refine ⟨g, rfl, ?_⟩
        rw [C50_all_iff e.sty DotOptions.default e.nodeOrder g text m' default_safe hord hw]
        exact ⟨fun x => ⟨x.1, x.2.1, x.2.2.2⟩, fun x => ⟨x.1, x.2.1, .inr rfl, x.2.2⟩⟩
    | _ => rw [hr] at h; simp [Run.bind, Run.exit] at h

end Rdftk
