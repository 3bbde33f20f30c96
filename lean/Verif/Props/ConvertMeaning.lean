import Verif.Props.ConvertTurtle

/-! What N-Triples documents say and what they say as Turtle: C155. -/

namespace Rdftk
open Spec

/-- The term as a node of the Turtle reader. -/
def termNode : RdfTerm → Node
  | .iri i => .iri i.text
  | .blank b => .blank b
  | .lit t (some d) _ => .lit t d.text none
  | .lit t none (some g) => .lit t (rdfText (str! "langString")) (some g)
  | .lit t none none => .lit t (xsdText (str! "string")) none

/-- The triple for the Turtle reader. -/
def tripleNode (x : RdfTriple) : Triple := ⟨termNode x.1, x.2.1.text, termNode x.2.2⟩

theorem tripleOf_term {st : Stmt} {x : RdfTriple} (h : stmtTriple st = some x) : tripleOf st = tripleNode x := by
  obtain ⟨s, p, o⟩ := st
  cases s <;> cases o <;> simp [stmtTriple, Stmt.subject, Stmt.object, Stmt.predicate, subjectTerm, objectTerm] at h <;> subst h <;>
    simp [tripleOf, tripleNode, subjectNode, objectNode, termNode, Stmt.subject, Stmt.object, Stmt.predicate]
  all_goals
    rename_i l
    obtain ⟨t, d, g⟩ := l
    cases d <;> cases g <;> rfl

/-- What graphs are isomorphic to depends on the triples only. -/
theorem isomorphic_same {L M N : List Triple} (h : ∀ t, t ∈ M ↔ t ∈ N) : Isomorphic L M ↔ Isomorphic L N := by
  unfold Isomorphic
  simp only [h]

/-- If what is read of each text is what another says, nothing is escaped. -/
theorem nothing_escaped {pr : Char → Bool} {A : List Str} (h : ∀ a ∈ A, ∃ b ∈ A, DecodesString b (escapeString pr a)) :
    ∀ a ∈ A, escapeString pr a = a := by
  intro a ha
  refine Classical.byContradiction fun hbad => ?_
  have hm : ∀ x ∈ A, (escapeString pr x).length ≤ (A.map fun x => (escapeString pr x).length).sum := fun x hx =>
    le_sum_of_mem (List.mem_map_of_mem (f := fun x => (escapeString pr x).length) hx)
  have chain : ∀ k, ∃ z ∈ A, escapeString pr z ≠ z ∧ k ≤ (escapeString pr z).length := by
    intro k
    induction k with
    | zero => exact ⟨a, ha, hbad, Nat.zero_le _⟩
    | succ k ih =>
      obtain ⟨z, hz, hb, hk⟩ := ih
      obtain ⟨b, hbA, hd⟩ := h z hz
      have hbb : escapeString pr b ≠ b := by
        intro e
        have e' := decodes_no_escape (escape_no_backslash e) hd
        rw [← e'] at e
        exact hb (escape_fixed e)
      refine ⟨b, hbA, hbb, ?_⟩
      have l1 := (decodes_length hd).1
      have l2 := (escape_grows pr b).resolve_left hbb
      omega
  obtain ⟨z, hz, -, hk⟩ := chain ((A.map fun x => (escapeString pr x).length).sum + 1)
  have := hm z hz
  omega

/-- The IRIs of a triple. -/
def irisOfTriple (x : RdfTriple) : List Iri :=
  (match x.1 with | .iri i => [i] | _ => []) ++ x.2.1 ::
    (match x.2.2 with | .iri i => [i] | .lit _ d _ => d.toList | _ => [])

theorem irisOf_triple {st : Stmt} {x : RdfTriple} (h : stmtTriple st = some x) : irisOf st = irisOfTriple x := by
  obtain ⟨s, p, o⟩ := st
  cases s <;> cases o <;> simp [stmtTriple, Stmt.subject, Stmt.object, Stmt.predicate, subjectTerm, objectTerm] at h <;> subst h <;>
    simp [irisOf, irisOfTriple, Stmt.subject, Stmt.object, Stmt.predicate]

theorem irisOf_read (pr : Char → Bool) {env : ReadEnv} {l : Line} {x : RdfTriple} (h : l.Means env x) :
    irisOfTriple (readTriple pr l x) = irisOfTriple x := by
  obtain ⟨s, p, o, g⟩ := l
  obtain ⟨xs, xp, xo⟩ := x
  obtain ⟨-, -, h⟩ := h
  match o, h with
  | .term t, h => rfl
  | .lit a .none, h => obtain ⟨t, h1, h2⟩ := h; simp only at h2; subst h2; rfl
  | .lit a (.lang g), h => obtain ⟨t, l, h1, -, h2⟩ := h; simp only at h2; subst h2; rfl
  | .lit a (.type s), h => obtain ⟨t, u, i, h1, -, -, h2⟩ := h; simp only at h2; subst h2; rfl

/-- The texts of literals. -/
theorem literal_means {pr : Char → Bool} {env : ReadEnv} {l : Line} {x : RdfTriple} (h : l.Means env x) :
    (∀ a, l.o.inner = some a → ∃ t d g, x.2.2 = .lit t d g ∧ DecodesString a t ∧
      (readTriple pr l x).2.2 = .lit (escapeString pr a) d g) ∧
    ∀ t d g, x.2.2 = .lit t d g → ∃ a, l.o.inner = some a ∧ DecodesString a t := by
  obtain ⟨s, p, o, g⟩ := l
  obtain ⟨xs, xp, xo⟩ := x
  obtain ⟨-, -, h⟩ := h
  match o, h with
  | .term (.iri _), h =>
    obtain ⟨_, _, _, _, h⟩ := h
    simp only at h
    subst h
    exact ⟨fun a e => (by cases e), fun _ _ _ e => (by cases e)⟩
  | .term (.blank _), h =>
    simp only [Obj.Means, Term.Means] at h
    subst h
    exact ⟨fun a e => (by cases e), fun _ _ _ e => (by cases e)⟩
  | .lit a .none, h =>
    obtain ⟨t, h1, h2⟩ := h; simp only at h2; subst h2
    exact ⟨fun a e => by cases e; exact ⟨t, none, none, rfl, h1, rfl⟩, fun _ _ _ e => by cases e; exact ⟨a, rfl, h1⟩⟩
  | .lit a (.lang g), h =>
    obtain ⟨t, l, h1, -, h2⟩ := h; simp only at h2; subst h2
    exact ⟨fun a e => by cases e; exact ⟨t, none, some l, rfl, h1, rfl⟩, fun _ _ _ e => by cases e; exact ⟨a, rfl, h1⟩⟩
  | .lit a (.type s), h =>
    obtain ⟨t, u, i, h1, -, -, h2⟩ := h; simp only at h2; subst h2
    exact ⟨fun a e => by cases e; exact ⟨t, some i, none, rfl, h1, rfl⟩, fun _ _ _ e => by cases e; exact ⟨a, rfl, h1⟩⟩

theorem termNode_lit {x : RdfTerm} {t d : Str} {g : Option Str} (h : termNode x = .lit t d g) : ∃ d g, x = .lit t d g := by
  match x, h with
  | .lit _ (some d) g, h => cases h; exact ⟨_, _, rfl⟩
  | .lit _ none (some g), h => cases h; exact ⟨_, _, rfl⟩
  | .lit _ none none, h => cases h; exact ⟨_, _, rfl⟩

theorem termNode_of_lit (t : Str) (d : Option Iri) (g : Option Str) : ∃ d' g', termNode (.lit t d g) = .lit t d' g' := by
  match d, g with
  | some d, g => exact ⟨_, _, rfl⟩
  | none, some g => exact ⟨_, _, rfl⟩
  | none, none => exact ⟨_, _, rfl⟩

theorem stmtTriple_parts {st : Stmt} {x : RdfTriple} (h : stmtTriple st = some x) :
    st.predicate = x.2.1 ∧ (∀ b, st.subject = .blank b ↔ x.1 = .blank b) ∧ ∀ b, st.object = .blank b ↔ x.2.2 = .blank b := by
  obtain ⟨s, p, o⟩ := st
  cases s <;> cases o <;> simp [stmtTriple, Stmt.subject, Stmt.object, Stmt.predicate, subjectTerm, objectTerm] at h <;> subst h <;>
    simp [Stmt.subject, Stmt.object, Stmt.predicate]

theorem stmtTriple_blank {st st' : Stmt} {x : RdfTriple} {b : Str} (h : stmtTriple st = some x) (h' : stmtTriple st' = some x)
    (hb : x.2.2 = .blank b) : st = st' := by
  have k := ((stmtTriple_parts h).2.2 b).2 hb
  have k' := ((stmtTriple_parts h').2.2 b).2 hb
  have p := (stmtTriple_parts h).1
  have p' := (stmtTriple_parts h').1
  have subj : ∀ st, stmtTriple st = some x → subjectTerm st.subject = some x.1 := by
    intro st h
    obtain ⟨s, p, o⟩ := st
    cases s <;> cases o <;> simp [stmtTriple, Stmt.subject, Stmt.object, Stmt.predicate, subjectTerm, objectTerm] at h ⊢ <;> subst h <;> rfl
  have s := subj st h
  have s' := subj st' h'
  obtain ⟨a, q, o⟩ := st
  obtain ⟨a', q', o'⟩ := st'
  simp only [Stmt.subject, Stmt.object, Stmt.predicate] at k k' p p' s s'
  subst k k' p p'
  have : a = a' := by
    cases a <;> cases a' <;> simp [subjectTerm] at s s' <;> (rw [← s'] at s; simp at s; try rw [s])
  rw [this]

/-- C155, exactly: the Turtle text that a document of N-Triples is converted to, with IRIs once in brackets, says what the
document says if and only if no literal has anything to escape, no predicate is one of the three written as `rdf:type`,
and a blank node that is an object is no subject and the object of one triple only. -/
theorem C155_iff (e : CliEnv) (first last out : Str) (ls : List (Gaps × Line × RdfTriple)) (hb : e.sty = .bare)
    (he : StrictEnv e.read) (hsane : SaneEnv e.read) (hw : WebUrl e.read.url) (hpr : AsciiPrintable e.read.pr)
    (ho : e.orders.Fair) (hf : Gap first) (hl : LastGap last)
    (hv : ∀ x ∈ ls, x.2.1.g = none ∧ x.2.1.Valid ∧ x.1.Valid x.2.1 ∧ x.2.1.Means e.read x.2.2)
    (hp : Printed e.read.pr (docText first last (ls.map fun x => (x.1, x.2.1))))
    (hout : cliMain e (docText first last (ls.map fun x => (x.1, x.2.1))) (.convert .nTriples .turtle) = .success out) :
    (∃ L, readTurtle out = some L ∧ Isomorphic L (ls.map fun x => tripleNode x.2.2)) ↔
      (∀ x ∈ ls, ∀ a, x.2.1.o.inner = some a → escapeString e.read.pr a = a) ∧
      (∀ x ∈ ls, x.2.2.2.1 ∉ mistyped) ∧
      ∀ x ∈ ls, ∀ b, x.2.2.2.2 = .blank b →
        (∀ y ∈ ls, y.2.2.1 ≠ .blank b) ∧ ∀ y ∈ ls, y.2.2.2.2 = .blank b → y.2.2 = x.2.2 := by
  obtain ⟨g, hr, hg⟩ := C83_reads e.read first last ls hsane hf hl hv
  -- every statement that was read is a triple
  have hst : ∀ st ∈ g.stmts, ∃ x ∈ ls, stmtTriple st = some (readTriple e.read.pr x.2.1 x.2.2) := by
    intro st hs
    obtain ⟨t, ht⟩ : ∃ t, stmtTriple st = some t := by
      obtain ⟨h1, -, -, h2⟩ := readNt_strict he hr st hs
      have h2 := h2 hp
      obtain ⟨s, p, o⟩ := st
      cases s with
      | stmt y => exact h1.elim
      | _ =>
        cases o with
        | coll c => exact h2.elim
        | stmt y => exact h2.elim
        | _ => exact ⟨_, rfl⟩
    obtain ⟨x, hx, e⟩ := (hg t).1 ⟨st, hs, ht⟩
    exact ⟨x, hx, by rw [e]; exact ht⟩
  have key := C153_iff e _ out g hb he hw hpr ho hp hr hout
  -- once nothing is escaped, the graph says the document
  have back : (∀ x ∈ ls, ∀ a, x.2.1.o.inner = some a → escapeString e.read.pr a = a) →
      ((∃ L, readTurtle out = some L ∧ Isomorphic L (ls.map fun x => tripleNode x.2.2)) ↔
      (∀ x ∈ ls, x.2.2.2.1 ∉ mistyped) ∧
      ∀ x ∈ ls, ∀ b, x.2.2.2.2 = .blank b →
        (∀ y ∈ ls, y.2.2.1 ≠ .blank b) ∧ ∀ y ∈ ls, y.2.2.2.2 = .blank b → y.2.2 = x.2.2) := by
    intro hesc
    have hid : ∀ x ∈ ls, readTriple e.read.pr x.2.1 x.2.2 = x.2.2 := fun x hx => (readTriple_id (hv x hx).2.2.2).2 (hesc x hx)
    have fwd : ∀ st ∈ g.stmts, ∃ x ∈ ls, stmtTriple st = some x.2.2 := fun st hs => by
      obtain ⟨x, hx, e⟩ := hst st hs
      exact ⟨x, hx, by rw [e, hid x hx]⟩
    have bwd : ∀ x ∈ ls, ∃ st ∈ g.stmts, stmtTriple st = some x.2.2 := fun x hx => (hg _).2 ⟨x, hx, hid x hx⟩
    have same : ∀ t, t ∈ g.stmts.map tripleOf ↔ t ∈ ls.map fun x => tripleNode x.2.2 := by
      intro t
      rw [List.mem_map, List.mem_map]
      constructor
      · rintro ⟨st, hs, rfl⟩
        obtain ⟨x, hx, e⟩ := fwd st hs
        exact ⟨x, hx, (tripleOf_term e).symm⟩
      · rintro ⟨x, hx, rfl⟩
        obtain ⟨st, hs, e⟩ := bwd x hx
        exact ⟨st, hs, tripleOf_term e⟩
    simp only [← isomorphic_same same]; rw [key]
    constructor
    · rintro ⟨h1, h2⟩
      refine ⟨fun x hx => ?_, fun x hx b hxb => ?_⟩
      · obtain ⟨st, hs, e⟩ := bwd x hx
        rw [← (stmtTriple_parts e).1]
        exact h1 st hs
      · obtain ⟨st, hs, e⟩ := bwd x hx
        obtain ⟨h3, h4⟩ := h2 st hs b (((stmtTriple_parts e).2.2 b).2 hxb)
        refine ⟨fun y hy hyb => ?_, fun y hy hyb => ?_⟩
        · obtain ⟨st', hs', e'⟩ := bwd y hy
          exact h3 st' hs' (((stmtTriple_parts e').2.1 b).2 hyb)
        · obtain ⟨st', hs', e'⟩ := bwd y hy
          have := h4 st' hs' (((stmtTriple_parts e').2.2 b).2 hyb)
          rw [this, e] at e'
          exact (Option.some.inj e').symm
    · rintro ⟨h1, h2⟩
      refine ⟨fun st hs => ?_, fun st hs b hsb => ?_⟩
      · obtain ⟨x, hx, e⟩ := fwd st hs
        rw [(stmtTriple_parts e).1]
        exact h1 x hx
      · obtain ⟨x, hx, e⟩ := fwd st hs
        have hxb := ((stmtTriple_parts e).2.2 b).1 hsb
        obtain ⟨h3, h4⟩ := h2 x hx b hxb
        refine ⟨fun st' hs' hb' => ?_, fun st' hs' hb' => ?_⟩
        · obtain ⟨y, hy, e'⟩ := fwd st' hs'
          exact h3 y hy (((stmtTriple_parts e').2.1 b).1 hb')
        · obtain ⟨y, hy, e'⟩ := fwd st' hs'
          have := h4 y hy (((stmtTriple_parts e').2.2 b).1 hb')
          rw [this] at e'
          exact stmtTriple_blank e' e hxb
  constructor
  · intro h
    suffices hesc : ∀ x ∈ ls, ∀ a, x.2.1.o.inner = some a → escapeString e.read.pr a = a from ⟨hesc, (back hesc).1 h⟩
    obtain ⟨L, hL, ρ, hρ1, -, hρ2⟩ := h
    have hw' := convert_turtle (source := .nTriples) (g := g) (by simp [cliRead, hr, Res.toRun]) hout
    rw [hb] at hw'
    have hrd := readNt_readable he hw hpr e.orders hp hr (readNt_split hb he hpr ho hp hr hout)
    have hgm : g.mappings = Graph.default.mappings := (readNt_fresh hr).nameless.2
    obtain ⟨L', σ, hL', hσ⟩ := C129_says e.read.pr e.read.url TurtleOptions.default e.orders e.gen e.startWrite e.deep g out ho
      (by decide) rfl (by rw [hgm]; exact defaultMappings_reachable) (by rw [hgm]; exact defaultMappings_faithful)
      (fun t ht => (hrd t ht).1) hw'
    rw [hL] at hL'
    cases hL'
    suffices ∀ a ∈ ls.filterMap (fun x => x.2.1.o.inner), escapeString e.read.pr a = a from
      fun x hx a ha => this a (List.mem_filterMap.2 ⟨x, hx, ha⟩)
    refine nothing_escaped fun a ha => ?_
    obtain ⟨x, hx, ha⟩ := List.mem_filterMap.1 ha
    obtain ⟨t, d, gg, -, -, h3⟩ := (literal_means (pr := e.read.pr) (hv x hx).2.2.2).1 a ha
    obtain ⟨st, hs, hst'⟩ := (hg _).2 ⟨x, hx, rfl⟩
    obtain ⟨z, hz, hze⟩ := (hσ (tripleWritten st)).2 ⟨st, hs, rfl⟩
    have ho1 : renameNode σ z.o = termNode (.lit (escapeString e.read.pr a) d gg) := by
      have h4 := congrArg Triple.o hze
      have h5 := congrArg Triple.o (hrd st hs).2
      have h6 := congrArg Triple.o (tripleOf_term hst')
      simp only [renameTriple, tripleWritten] at h4
      simp only [tripleSays] at h5
      rw [h4, h5, h6]
      simp only [tripleNode, h3]
    obtain ⟨d', g', hn⟩ := termNode_of_lit (escapeString e.read.pr a) d gg
    rw [hn] at ho1
    have hzo : z.o = .lit (escapeString e.read.pr a) d' g' := by
      cases hzo : z.o with
      | fresh n => rw [hzo] at ho1; cases ho1
      | _ => rw [hzo] at ho1; exact ho1
    have hkeep : ρ z.o = z.o := (hρ1 z.o ⟨z, hz, .inr rfl⟩).2 (by rw [hzo]; simp [Node.IsBlank])
    obtain ⟨y, hy, hye⟩ := List.mem_map.1 ((hρ2 ⟨ρ z.s, z.p, ρ z.o⟩).2 ⟨z, hz, rfl⟩)
    have := congrArg Triple.o hye
    simp only [tripleNode] at this
    rw [hkeep, hzo] at this
    obtain ⟨d2, g2, h7⟩ := termNode_lit this
    obtain ⟨b, h8, h9⟩ := (literal_means (pr := e.read.pr) (hv y hy).2.2.2).2 _ _ _ h7
    exact ⟨b, List.mem_filterMap.2 ⟨y, hy, h8⟩, h9⟩
  · rintro ⟨h1, h2⟩
    exact (back h1).2 h2

/-- C155, the full statement: a document of N-Triples converted to Turtle says what it said. -/
def C155_statement (sty : IriStyle) : Prop :=
  ∀ (e : CliEnv) (first last out : Str) (ls : List (Gaps × Line × RdfTriple)), e.sty = sty → StrictEnv e.read →
    SaneEnv e.read → WebUrl e.read.url → AsciiPrintable e.read.pr → e.orders.Fair → Gap first → LastGap last →
    (∀ x ∈ ls, x.2.1.g = none ∧ x.2.1.Valid ∧ x.1.Valid x.2.1 ∧ x.2.1.Means e.read x.2.2) →
    Printed e.read.pr (docText first last (ls.map fun x => (x.1, x.2.1))) →
    cliMain e (docText first last (ls.map fun x => (x.1, x.2.1))) (.convert .nTriples .turtle) = .success out →
    ∃ L, readTurtle out = some L ∧ Isomorphic L (ls.map fun x => tripleNode x.2.2)

open Classical in
/-- An environment that accepts exactly the labels of the grammar. -/
noncomputable def docEnv : ReadEnv := { webEnv with blankOk := fun l => decide (Label l) }

/-- The commands in that environment. -/
noncomputable def docCli (sty : IriStyle) : CliEnv := { webCli sty with read := docEnv }

theorem docEnv_strict : StrictEnv docEnv where
  url := webEnv_strict.url
  label := fun l h => by simpa [docEnv] using h
  lang := webEnv_strict.lang

theorem docEnv_sane : SaneEnv docEnv := by
  refine ⟨fun t => ?_, fun l h => by simpa [docEnv] using h⟩
  have : (decide (0x20 < '<'.toNat) && decide ('<' ∉ (str! "<>\"{}|^`\\"))) = false := by decide
  simp [docEnv, webEnv]

/-- A line with a literal of one character. -/
def literalLine (a : Str) : Line := ⟨.iri (str! "http://a/s"), str! "http://a/p", .lit a .none, none⟩

theorem literalLine_means {a t : Str} (h : DecodesString a t) :
    (literalLine a).Means docEnv (.iri ⟨str! "http://a/s"⟩, ⟨str! "http://a/p"⟩, .lit t none none) := by
  have hs : docEnv.url (str! "http://a/s") = some ⟨str! "http://a/s"⟩ := by decide +kernel
  have hp : docEnv.url (str! "http://a/p") = some ⟨str! "http://a/p"⟩ := by decide +kernel
  exact ⟨⟨_, _, decodesIri_plain (by decide), hs, rfl⟩, ⟨str! "http://a/p", decodesIri_plain (s := str! "http://a/p") (by decide), hp⟩, _,
    h, rfl⟩

theorem literalLine_valid {a : Str} (h : QuoteText a) : (literalLine a).Valid :=
  ⟨iriText_chars (s := str! "http://a/s") (by decide), iriText_chars (s := str! "http://a/p") (by decide), ⟨h, trivial⟩, by simp [literalLine]⟩

/-- A document of one such line. -/
def literalDoc (a t : Str) : List (Gaps × Line × RdfTriple) :=
  [(blankGaps, literalLine a, ((.iri ⟨str! "http://a/s"⟩, ⟨str! "http://a/p"⟩, .lit t none none) : RdfTriple))]

theorem literalDoc_valid {a t : Str} (h : DecodesString a t) (hq : QuoteText a) :
    ∀ x ∈ literalDoc a t, x.2.1.g = none ∧ x.2.1.Valid ∧ x.1.Valid x.2.1 ∧ x.2.1.Means docEnv x.2.2 := by
  intro x hx
  rw [literalDoc, List.mem_singleton] at hx
  subst hx
  exact ⟨rfl, literalLine_valid hq, blankGaps_valid _, literalLine_means h⟩

/-- C155 fails in either style. -/
theorem C155_fails (sty : IriStyle) : ¬ C155_statement sty := by
  intro h
  have hv := literalDoc_valid (a := str! "\\n") (t := ['\n']) (.echar (e := 'n') (by decide) .nil)
    ⟨[str! "\\n"], by simp [Echar, Uchar], by simp⟩
  have hl : LastGap [] := ⟨[], [], .nil, rfl, .inl rfl⟩
  have hp : Printed docEnv.pr (docText [] [] ((literalDoc (str! "\\n") ['\n']).map fun x => (x.1, x.2.1))) :=
    webCli_printed _ (by decide +kernel)
  obtain ⟨out, ho⟩ : ∃ out, cliMain (docCli sty) (docText [] [] ((literalDoc (str! "\\n") ['\n']).map fun x => (x.1, x.2.1)))
      (.convert .nTriples .turtle) = .success out := by
    have : ∀ sty, (match cliMain (docCli sty) (docText [] [] ((literalDoc (str! "\\n") ['\n']).map fun x => (x.1, x.2.1)))
      (.convert .nTriples .turtle) with | .success _ => true | _ => false) = true := by
      intro sty; cases sty <;> decide +kernel
    have := this sty
    split at this
    · rename_i out h; exact ⟨out, h⟩
    · cases this
  have hr := h (docCli sty) [] [] out _ rfl docEnv_strict docEnv_sane webEnv_web easyEnv_ascii sameOrder_fair .nil hl hv hp ho
  cases sty with
  | bracketed =>
    obtain ⟨L, hL, -⟩ := hr
    rw [C153_fails_bracketed (docCli .bracketed) _ out .nTriples rfl ho] at hL
    cases hL
  | bare =>
    have := ((C155_iff (docCli .bare) [] [] out _ rfl docEnv_strict docEnv_sane webEnv_web easyEnv_ascii sameOrder_fair .nil hl hv
      hp ho).1 hr).1 _ (List.mem_singleton.2 rfl) _ rfl
    exact absurd this (by decide +kernel)

/-- C155, what holds. -/
theorem C155_partial (e : CliEnv) (first last out : Str) (ls : List (Gaps × Line × RdfTriple)) (hb : e.sty = .bare)
    (he : StrictEnv e.read) (hsane : SaneEnv e.read) (hw : WebUrl e.read.url) (hpr : AsciiPrintable e.read.pr)
    (ho : e.orders.Fair) (hf : Gap first) (hl : LastGap last)
    (hv : ∀ x ∈ ls, x.2.1.g = none ∧ x.2.1.Valid ∧ x.1.Valid x.2.1 ∧ x.2.1.Means e.read x.2.2)
    (hp : Printed e.read.pr (docText first last (ls.map fun x => (x.1, x.2.1))))
    (hesc : ∀ x ∈ ls, ∀ a, x.2.1.o.inner = some a → escapeString e.read.pr a = a) (hm : ∀ x ∈ ls, x.2.2.2.1 ∉ mistyped)
    (hn : ∀ x ∈ ls, ∀ b, x.2.2.2.2 ≠ .blank b)
    (hout : cliMain e (docText first last (ls.map fun x => (x.1, x.2.1))) (.convert .nTriples .turtle) = .success out) :
    ∃ L, readTurtle out = some L ∧ Isomorphic L (ls.map fun x => tripleNode x.2.2) :=
  (C155_iff e first last out ls hb he hsane hw hpr ho hf hl hv hp hout).2
    ⟨hesc, hm, fun x hx b hxb => absurd hxb (hn x hx b)⟩

/-! A document that says the same as Turtle. -/

example : ∃ out L, cliMain (docCli .bare) (docText [] [] ((literalDoc ['x'] ['x']).map fun x => (x.1, x.2.1)))
    (.convert .nTriples .turtle) = .success out ∧ readTurtle out = some L ∧
    Isomorphic L ((literalDoc ['x'] ['x']).map fun x => tripleNode x.2.2) := by
  have hv := literalDoc_valid (a := ['x']) (t := ['x']) (.plain (by decide) .nil) (tokens_of_chars fun c hc => .inl ⟨c, by rw [List.mem_singleton.1 hc]; decide, rfl⟩)
  have hl : LastGap [] := ⟨[], [], .nil, rfl, .inl rfl⟩
  obtain ⟨out, ho⟩ : ∃ out, cliMain (docCli .bare) (docText [] [] ((literalDoc ['x'] ['x']).map fun x => (x.1, x.2.1)))
      (.convert .nTriples .turtle) = .success out := by
    have : (match cliMain (docCli .bare) (docText [] [] ((literalDoc ['x'] ['x']).map fun x => (x.1, x.2.1)))
      (.convert .nTriples .turtle) with | .success _ => true | _ => false) = true := by decide +kernel
    split at this
    · rename_i out h; exact ⟨out, h⟩
    · cases this
  obtain ⟨L, h1, h2⟩ := C155_partial (docCli .bare) [] [] out _ rfl docEnv_strict docEnv_sane webEnv_web easyEnv_ascii sameOrder_fair
    .nil hl hv (webCli_printed _ (by decide +kernel)) (by
      intro x hx a ha
      rw [literalDoc, List.mem_singleton] at hx
      subst hx
      cases ha
      decide +kernel) (by decide +kernel) (by
      intro x hx b
      rw [literalDoc, List.mem_singleton] at hx
      subst hx
      simp) ho
  exact ⟨out, L, ho, h1, h2⟩

end Rdftk
