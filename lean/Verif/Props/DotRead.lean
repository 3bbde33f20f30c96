import Verif.Props.DotExact
import Verif.Props.ConvertTurtle

/-! Diagrams that the command `draw` makes of N-Triples documents (C207). -/

namespace Rdftk
open Spec

/-- A literal as the reader of N-Triples makes it. -/
def DrawnLiteral (l : Literal) : Prop :=
  (l.dataType = none ∨ ∃ i, l.dataType = some (.other i)) ∧ dotSafe l.lexicalForm ∧
  (l.dataType = none ∨ l.language = none)

theorem DrawnLiteral.display {l : Literal} (h : DrawnLiteral l) (sty : IriStyle) :
    l.display sty false = l.display sty true ∧ ∃ r, l.display sty true = '"' :: r := by
  unfold Literal.display
  rcases h.1 with h | ⟨i, h⟩ <;> simp [h, DataType.isBare]

/-- No two nodes are displayed alike when the literals are as N-Triples give them. -/
theorem keysDiffer_read {sty : IriStyle} {L : List Object} (hd : ∀ o ∈ L, Drawable o)
    (hq : ∀ l, Object.lit l ∈ L → DrawnLiteral l) : KeysDiffer sty L := by
  intro a ha b hb h
  have da := hd a ha
  have db := hd b hb
  cases a with
  | coll c => cases da
  | stmt c => cases da
  | blank x =>
    cases b with
    | coll c => cases db
    | stmt c => cases db
    | blank y => simpa [Object.display] using h
    | res j => simp [Object.display] at h
    | lit l =>
      obtain ⟨e, r, hr⟩ := (hq l hb).display sty
      rw [Object.display, Object.display, e, hr] at h
      simp at h
  | res i =>
    cases b with
    | coll c => cases db
    | stmt c => cases db
    | blank y => simp [Object.display] at h
    | res j =>
      simp only [Object.display, List.cons_append, List.cons.injEq, true_and,
        List.append_cancel_right_eq] at h
      rw [fmt_inj h]
    | lit l =>
      obtain ⟨e, r, hr⟩ := (hq l hb).display sty
      rw [Object.display, Object.display, e, hr] at h
      simp at h
  | lit l =>
    obtain ⟨e, r, hr⟩ := (hq l ha).display sty
    cases b with
    | coll c => cases db
    | stmt c => cases db
    | blank y =>
      rw [Object.display, Object.display, e, hr] at h
      simp at h
    | res j =>
      rw [Object.display, Object.display, e, hr] at h
      simp at h
    | lit l' =>
      obtain ⟨e', _, _⟩ := (hq l' hb).display sty
      rw [Object.display, Object.display, e, e'] at h
      have ha := hq l ha
      have hb := hq l' hb
      obtain ⟨x, y, z⟩ := C23_injective sty l l' ha.2.1 hb.2.1 ha.2.2 hb.2.2 h
      have t : l.dataType = l'.dataType := by
        rcases ha.1 with h1 | ⟨i, h1⟩ <;> rcases hb.1 with h2 | ⟨j, h2⟩ <;> rw [h1, h2] at y ⊢
        · cases y
        · cases y
        · simp only [Option.map_some, Option.some.injEq, DataType.asIri] at y
          rw [y]
      cases l; cases l'
      simp_all

/-! ### What is read -/

/-- A statement whose IRIs are as said and whose literals can stand in a diagram. -/
def DrawnStmt (Q : Iri → Prop) (st : Stmt) : Prop :=
  Q st.predicate ∧
  ∀ o ∈ [st.subject.toObject, st.object], Drawable o ∧ (∀ i, o = .res i → Q i) ∧
    ∀ l, o = .lit l → DrawnLiteral l

theorem evalIri_free {env : ReadEnv} {Q : Iri → Prop} (he : ∀ t i, env.url t = some i → Q i) {s : Str} {i : Iri}
    (h : evalIri env s = .ok i) : Q i := by
  unfold evalIri at h
  split at h
  · cases h
  · rename_i t _
    cases e : Iri.fromStr env.url t with
    | none => rw [e] at h; cases h
    | some j =>
      rw [e] at h
      cases h
      unfold Iri.fromStr at e
      split at e
      · exact he _ _ e
      · exact he _ _ e

theorem evalNode_free {env : ReadEnv} {Q : Iri → Prop} (he : ∀ t i, env.url t = some i → Q i) {n : RNode} {s : Subject}
    (h : evalNode env n = .ok s) : (∃ b, s = .blank b) ∨ ∃ i, s = .res i ∧ Q i := by
  cases n with
  | iri i =>
    simp only [evalNode] at h
    cases e : evalIri env i with
    | ok j => rw [e] at h; cases h; exact .inr ⟨j, rfl, evalIri_free he e⟩
    | err => rw [e] at h; cases h
    | panic => rw [e] at h; cases h
  | blank t =>
    simp only [evalNode] at h
    cases e : blankParse env.blankOk (t.drop 2) with
    | none => rw [e] at h; cases h
    | some b => rw [e] at h; cases h; exact .inl ⟨b, rfl⟩

theorem evalLiteral_read {env : ReadEnv} {a : Str} {x : RSuffix} {l : Literal} (h : evalLiteral env a x = .ok l) :
    DrawnLiteral l := by
  cases x with
  | none =>
    cases h
    exact ⟨.inl rfl, noBareQuote_escapeString _ _, .inl rfl⟩
  | lang t =>
    simp only [evalLiteral] at h
    cases e : env.lang t with
    | none => rw [e] at h; cases h
    | some b => rw [e] at h; cases h; exact ⟨.inl rfl, noBareQuote_escapeString _ _, .inl rfl⟩
  | type i =>
    simp only [evalLiteral] at h
    cases e : evalIri env i with
    | ok j => rw [e] at h; cases h; exact ⟨.inr ⟨j, rfl⟩, noBareQuote_escapeString _ _, .inr rfl⟩
    | err => rw [e] at h; cases h
    | panic => rw [e] at h; cases h

theorem evalTriple_read {env : ReadEnv} {Q : Iri → Prop} (he : ∀ t i, env.url t = some i → Q i) {l : RLine} {st : Stmt}
    (h : evalTriple env l = .ok st) : DrawnStmt Q st := by
  unfold evalTriple at h
  cases hs : evalNode env l.subject with
  | err => rw [hs] at h; cases h
  | panic => rw [hs] at h; cases h
  | ok s =>
    cases hp : evalIri env l.predicate with
    | err => rw [hs, hp] at h; cases h
    | panic => rw [hs, hp] at h; cases h
    | ok p =>
      cases ho : evalObject env l.object with
      | err => rw [hs, hp, ho] at h; cases h
      | panic => rw [hs, hp, ho] at h; cases h
      | ok o =>
        rw [hs, hp, ho] at h
        cases h
        have node : ∀ {n : RNode} {s : Subject}, evalNode env n = .ok s → Drawable s.toObject ∧
            (∀ i, s.toObject = .res i → Q i) ∧ ∀ l, s.toObject = .lit l → DrawnLiteral l := by
          intro n s h
          rcases evalNode_free he h with ⟨b, rfl⟩ | ⟨i, rfl, hi⟩
          · exact ⟨trivial, fun i e => (by cases e), fun i e => (by cases e)⟩
          · exact ⟨trivial, fun j e => (by cases e; exact hi), fun i e => (by cases e)⟩
        refine ⟨evalIri_free he hp, fun x hx => ?_⟩
        simp only [List.mem_cons, List.not_mem_nil, or_false] at hx
        rcases hx with rfl | rfl
        · exact node hs
        · cases hl : l.object with
          | node n =>
            rw [hl] at ho
            simp only [evalObject] at ho
            cases hn : evalNode env n with
            | err => rw [hn] at ho; cases ho
            | panic => rw [hn] at ho; cases ho
            | ok s' => rw [hn] at ho; cases ho; exact node hn
          | lit a x =>
            rw [hl] at ho
            simp only [evalObject] at ho
            cases hn : evalLiteral env a x with
            | err => rw [hn] at ho; cases ho
            | panic => rw [hn] at ho; cases ho
            | ok l' =>
              rw [hn] at ho
              cases ho
              exact ⟨trivial, fun i e => (by cases e), fun l e => (by cases e; exact evalLiteral_read hn)⟩

theorem evalTriples_read {env : ReadEnv} {Q : Iri → Prop} (he : ∀ t i, env.url t = some i → Q i) {ls : List RLine}
    {g g' : Graph} (hg : ∀ st ∈ g.stmts, DrawnStmt Q st) (h : evalTriples env g ls = .ok g') :
    (∀ st ∈ g'.stmts, DrawnStmt Q st) ∧ g'.mappings = g.mappings := by
  induction ls generalizing g with
  | nil => cases h; exact ⟨hg, rfl⟩
  | cons l ls ih =>
    simp only [evalTriples] at h
    cases hs : evalTriple env l with
    | err => rw [hs] at h; cases h
    | panic => rw [hs] at h; cases h
    | ok st =>
      rw [hs] at h
      obtain ⟨a, b⟩ := ih (g := g.insert st) (fun x hx => by
        rcases (insert_mem g st x).1 hx with hx | rfl
        · exact hg x hx
        · exact evalTriple_read he hs) h
      exact ⟨a, b⟩

/-- The nodes of statements that were read. -/
theorem read_nodes {Q : Iri → Prop} {sts : List Stmt} (h : ∀ st ∈ sts, DrawnStmt Q st) {o : Object} (ho : o ∈ nodesOf sts) :
    Drawable o ∧ (∀ i, o = .res i → Q i) ∧ ∀ l, o = .lit l → DrawnLiteral l := by
  rw [nodesOf, mem_setOf, List.mem_flatMap] at ho
  obtain ⟨st, hst, ho⟩ := ho
  exact (h st hst).2 o ho

/-! ### C207 -/

/-- C207, the full statement: what `draw` writes for an N-Triples document is a DOT text that draws the graph the
document is read as, whatever the URL crate leaves in IRIs. -/
def C207_statement (sty : IriStyle) : Prop :=
  ∀ (e : CliEnv) (s out : Str), e.sty = sty → (∀ m, (e.nodeOrder m).Perm m) →
    (∀ t i, e.read.url t = some i → i.wf = true) → cliMain e s (.draw .nTriples) = .success out →
    ∃ g items, readNt e.read s = .ok g ∧ readDot out = some items ∧ Draws sty DotOptions.default g items

/-- C207, exactly: what `draw` writes for an N-Triples document draws the graph the document is read as if and only if
every label can stand in quotes. -/
theorem C207_iff (e : CliEnv) (s out : Str) (g : Graph) (hord : ∀ m, (e.nodeOrder m).Perm m)
    (h : cliMain e s (.draw .nTriples) = .success out) (hr : readNt e.read s = .ok g) :
    (∃ items, readDot out = some items ∧ Draws e.sty DotOptions.default g items) ↔
      (∀ st ∈ g.stmts, dotSafe (edgeLabel e.sty g.mappings st.predicate)) ∧
      ∀ i, Object.res i ∈ nodesOf g.stmts → dotSafe (i.fmt e.sty) := by
  simp only [cliMain, cliRead, hr] at h
  cases hw : writeDot e.sty e.nodeOrder DotOptions.default [] g with
  | panic => simp [Representation.isDataSet, Res.toRun, Run.bind, Run.exit, hw] at h
  | ok r =>
    obtain ⟨text, m'⟩ := r
    simp only [Representation.isDataSet, Res.toRun, Run.bind, Run.exit, hw, Bool.false_eq_true, if_false,
      Exit.success.injEq] at h
    subst h
    have key : ∀ st ∈ g.stmts, DrawnStmt (fun _ => True) st := by
      unfold readNt at hr
      split at hr
      · cases hr
      · exact (evalTriples_read (fun _ _ _ => trivial) (by intro st hst; cases hst) hr).1
    have nodes := fun {o} => read_nodes key (o := o)
    rw [C50_all_iff e.sty DotOptions.default e.nodeOrder g text m' default_safe hord hw]
    constructor
    · rintro ⟨-, -, -, h1, h2⟩
      exact ⟨h1, fun i hi => (h2 _ hi).1 i rfl⟩
    · rintro ⟨h1, h2⟩
      refine ⟨fun o ho => (nodes ho).1, keysDiffer_read (fun o ho => (nodes ho).1) fun l hl => (nodes hl).2.2 l rfl,
        .inr rfl, h1, fun o ho => ⟨fun i e => ?_, fun l e => ?_⟩⟩
      · subst e; exact h2 i ho
      · subst e; exact ((nodes ho).2.2 l rfl).2.1

/-- C207, what holds: it does when the IRIs that were read are without quotes and backslashes. -/
theorem C207_partial (e : CliEnv) (s out : Str) (g : Graph) (hord : ∀ m, (e.nodeOrder m).Perm m)
    (h : cliMain e s (.draw .nTriples) = .success out) (hr : readNt e.read s = .ok g)
    (hp : ∀ st ∈ g.stmts, quoteFree st.predicate.text) (hn : ∀ i, Object.res i ∈ nodesOf g.stmts → quoteFree i.text) :
    ∃ items, readDot out = some items ∧ Draws e.sty DotOptions.default g items := by
  refine (C207_iff e s out g hord h hr).2 ⟨fun st hst => edgeLabel_safe (hp st hst) ?_,
    fun i hi => quoteFree.safe (quoteFree.fmt (hn i hi) e.sty)⟩
  rw [(readNt_fresh hr).nameless.2]
  unfold quoteFree
  decide

/-- C207: it does for every document when the URL crate keeps no quote and no backslash. -/
theorem C207_urls (e : CliEnv) (s out : Str) (hord : ∀ m, (e.nodeOrder m).Perm m)
    (he : ∀ t i, e.read.url t = some i → quoteFree i.text) (h : cliMain e s (.draw .nTriples) = .success out) :
    ∃ g items, readNt e.read s = .ok g ∧ readDot out = some items ∧ Draws e.sty DotOptions.default g items := by
  cases hr : readNt e.read s with
  | err => simp only [cliMain, cliRead, hr] at h; simp [Representation.isDataSet, Res.toRun, Run.bind, Run.exit] at h
  | panic => simp only [cliMain, cliRead, hr] at h; simp [Representation.isDataSet, Res.toRun, Run.bind, Run.exit] at h
  | ok g =>
    have key : ∀ st ∈ g.stmts, DrawnStmt (fun i => quoteFree i.text) st := by
      unfold readNt at hr
      split at hr
      · cases hr
      · exact (evalTriples_read (Q := fun i => quoteFree i.text) he (by intro st hst; cases hst) hr).1
    obtain ⟨items, h1, h2⟩ := C207_partial e s out g hord h hr (fun st hst => (key st hst).1)
      fun i hi => (read_nodes key hi).2.1 i rfl
    exact ⟨g, items, rfl, h1, h2⟩

/-- C207: it does in every strict environment. -/
theorem C207_strict (e : CliEnv) (s out : Str) (hord : ∀ m, (e.nodeOrder m).Perm m)
    (he : StrictEnv e.read) (h : cliMain e s (.draw .nTriples) = .success out) :
    ∃ g items, readNt e.read s = .ok g ∧ readDot out = some items ∧ Draws e.sty DotOptions.default g items := by
  refine C207_urls e s out hord (fun t i hi c hc => ?_) h
  have := ((he.url t i hi).1 c hc).2
  constructor <;> intro hq <;> rw [hq] at this <;> simp at this

/-- An environment whose URLs are those the crate may leave as they are. -/
def wfCli (sty : IriStyle) : CliEnv :=
  { webCli sty with read := { webEnv with url := fun t => if Iri.wf ⟨t⟩ then some ⟨t⟩ else none } }

/-- A subject with a quote in an opaque path. -/
def quoteDoc : Str := str! "<urn:a\\u0022b> <http://a/p> \"x\" .\n"

/-- C207 fails: the quote of `urn:a"b` ends the label early, and what is written is no DOT text. -/
theorem C207_fails (sty : IriStyle) : ¬ C207_statement sty := by
  intro h
  have key : ∃ out, cliMain (wfCli sty) quoteDoc (.draw .nTriples) = .success out ∧ readDot out = none := by
    cases sty
    all_goals
      refine ⟨_, rfl, ?_⟩
      decide +kernel
  obtain ⟨out, h1, h2⟩ := key
  obtain ⟨g, items, -, h3, -⟩ := h (wfCli sty) quoteDoc out rfl (fun m => .refl _) (by
    intro t i hi
    simp only [wfCli] at hi
    split at hi
    · cases hi; assumption
    · cases hi) h1
  rw [h2] at h3
  cases h3

/-! A document that is drawn. -/

example (sty : IriStyle) : ∃ out, cliMain (webCli sty) sharedDoc (.draw .nTriples) = .success out := by
  cases sty <;> exact ⟨_, rfl⟩

end Rdftk
