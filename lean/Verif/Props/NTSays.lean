import Verif.Props.ConvertXml

/-! What N-Triples documents say and what they say after conversion to N-Triples: C157. -/

namespace Rdftk
open Spec

/-- A document of N-Triples that says a set of triples. -/
def NtSays (env : ReadEnv) (s : Str) (ts : List RdfTriple) : Prop :=
  ∃ (first last : Str) (ls : List (Gaps × Line × RdfTriple)), Gap first ∧ LastGap last ∧
    (∀ x ∈ ls, x.2.1.g = none ∧ x.2.1.Valid ∧ x.1.Valid x.2.1 ∧ x.2.1.Means env x.2.2) ∧
    s = docText first last (ls.map fun x => (x.1, x.2.1)) ∧ ∀ t, t ∈ ls.map (fun x => x.2.2) ↔ t ∈ ts

/-! ### A document says one set of triples -/

theorem not_echar_u {c : Char} (h : (c, d) ∈ echarTable) : c ≠ 'u' ∧ c ≠ 'U' := by
  constructor <;> rintro rfl <;> simp [echarTable] at h

theorem char_eq {c d : Char} (h : c.toNat = d.toNat) : c = d := by
  have : Char.ofNat c.toNat = Char.ofNat d.toNat := by rw [h]
  simpa using this

theorem append_same {a b s s' : Str} (h : a.length = b.length) (e : a ++ s = b ++ s') : a = b ∧ s = s' :=
  List.append_inj e h

theorem uchar_same {ds es u v s s' : Str} (h : UcharOf ds u) (h' : UcharOf es v) (e : u ++ s = v ++ s') : ds = es ∧ s = s' := by
  rcases h.2 with ⟨h1, rfl⟩ | ⟨h1, rfl⟩ <;> rcases h'.2 with ⟨h2, rfl⟩ | ⟨h2, rfl⟩
  · simp only [List.cons_append, List.cons.injEq, true_and] at e
    exact append_same (by rw [h1, h2]) e
  · simp at e
  · simp at e
  · simp only [List.cons_append, List.cons.injEq, true_and] at e
    exact append_same (by rw [h1, h2]) e

theorem echar_uchar {ds u s s' : Str} {c : Char} {n : Nat} (h : UcharOf ds u) (hc : (c, n) ∈ echarTable) :
    '\\' :: c :: s' ≠ u ++ s := by
  intro e
  rcases h.2 with ⟨-, rfl⟩ | ⟨-, rfl⟩
  · simp only [List.cons_append, List.cons.injEq, true_and] at e
    exact (not_echar_u hc).1 e.1
  · simp only [List.cons_append, List.cons.injEq, true_and] at e
    exact (not_echar_u hc).2 e.1

theorem uchar_first {ds u s s' : Str} {c : Char} (h : UcharOf ds u) (hc : c ≠ '\\') : c :: s' ≠ u ++ s := by
  intro e
  rcases h.2 with ⟨-, rfl⟩ | ⟨-, rfl⟩ <;> (simp only [List.cons_append, List.cons.injEq] at e; exact hc e.1)

/-- The inside of quotes stands for one string. -/
theorem decodes_unique {s t t' : Str} (h : DecodesString s t) (h' : DecodesString s t') : t = t' := by
  induction h generalizing t' with
  | nil =>
    generalize e : ([] : Str) = s at h'
    cases h' with
    | nil => rfl
    | plain => cases e
    | echar => cases e
    | uchar hu => rcases hu.2 with ⟨-, rfl⟩ | ⟨-, rfl⟩ <;> cases e
  | @plain c s t hc h ih =>
    generalize e : c :: s = w at h'
    cases h' with
    | nil => cases e
    | plain _ h' => cases e; rw [ih h']
    | echar => cases e; exact absurd rfl hc
    | uchar hu => exact absurd e (uchar_first hu hc)
  | @echar d c s t hc h ih =>
    generalize e : '\\' :: d :: s = w at h'
    cases h' with
    | nil => cases e
    | plain h1 => cases e; exact absurd rfl h1
    | @echar d' c' s' t' hc' h' =>
      cases e
      have : c = c' := by
        refine char_eq ?_
        have tab : ∀ x ∈ echarTable, ∀ y ∈ echarTable, x.1 = y.1 → x.2 = y.2 := by decide
        exact tab _ hc _ hc' rfl
      rw [ih h', this]
    | uchar hu => exact absurd e (echar_uchar hu hc)
  | @uchar ds u s t c hu hc h ih =>
    generalize e : u ++ s = w at h'
    cases h' with
    | nil => rcases hu.2 with ⟨-, rfl⟩ | ⟨-, rfl⟩ <;> cases e
    | plain h1 => exact absurd e.symm (uchar_first hu h1)
    | echar h1 => exact absurd e.symm (echar_uchar hu h1)
    | @uchar ds' u' s' t' c' hu' hc' h' =>
      obtain ⟨rfl, rfl⟩ := uchar_same hu hu' e
      rw [ih h', char_eq (hc.trans hc'.symm)]

/-- What is read tells what was said. -/
theorem readTriple_tells {env : ReadEnv} {pr : Char → Bool} {l m : Line} {x y : RdfTriple} (h : l.Means env x) (h' : m.Means env y)
    (e : readTriple pr l x = readTriple pr m y) : x = y := by
  have e1 : x.1 = y.1 := congrArg (·.1) e
  have e2 : x.2.1 = y.2.1 := congrArg (·.2.1) e
  refine Prod.ext e1 (Prod.ext e2 ?_)
  have e3 : (readTriple pr l x).2.2 = (readTriple pr m y).2.2 := congrArg (·.2.2) e
  have plain : ∀ {l : Line} {x : RdfTriple}, l.Means env x → l.o.inner = none → (readTriple pr l x).2.2 = x.2.2 ∧ ∀ t d g, x.2.2 ≠ .lit t d g := by
    intro l x h hn
    obtain ⟨s, p, o, g⟩ := l
    cases o with
    | lit a v => cases hn
    | term t =>
      refine ⟨rfl, fun t d g e => ?_⟩
      obtain ⟨a, ha, -⟩ := (literal_means (pr := pr) h).2 t d g e
      cases ha
  cases hl : l.o.inner with
  | none =>
    obtain ⟨k1, k2⟩ := plain h hl
    cases hm : m.o.inner with
    | none => rw [k1, (plain h' hm).1] at e3; exact e3
    | some b =>
      obtain ⟨t, d, g, -, -, k⟩ := (literal_means (pr := pr) h').1 b hm
      rw [k1, k] at e3
      exact absurd e3 (k2 _ _ _)
  | some a =>
    obtain ⟨t, d, g, j1, j2, j3⟩ := (literal_means (pr := pr) h).1 a hl
    cases hm : m.o.inner with
    | none =>
      obtain ⟨k1, k2⟩ := plain h' hm
      rw [k1, j3] at e3
      exact absurd e3.symm (k2 _ _ _)
    | some b =>
      obtain ⟨t', d', g', k1, k2, k3⟩ := (literal_means (pr := pr) h').1 b hm
      rw [j3, k3] at e3
      injection e3 with i1 i2 i3
      have := C17_injective pr a b i1
      subst this i2 i3
      rw [j1, k1, decodes_unique j2 k2]

/-- A document of N-Triples says one set of triples. -/
theorem C157_unique (env : ReadEnv) (he : SaneEnv env) (s : Str) (ts ts' : List RdfTriple) (h : NtSays env s ts)
    (h' : NtSays env s ts') : ∀ t, t ∈ ts ↔ t ∈ ts' := by
  have half : ∀ ts ts', NtSays env s ts → NtSays env s ts' → ∀ t ∈ ts, t ∈ ts' := by
    rintro ts ts' ⟨f, l, ls, h1, h2, h3, h4, h5⟩ ⟨f', l', ls', h1', h2', h3', h4', h5'⟩ t ht
    obtain ⟨g, k1, k2⟩ := C83_reads env f l ls he h1 h2 h3
    obtain ⟨g', k1', k2'⟩ := C83_reads env f' l' ls' he h1' h2' h3'
    rw [← h4] at k1
    rw [← h4', k1] at k1'
    cases k1'
    obtain ⟨x, hx, rfl⟩ := List.mem_map.1 ((h5 t).2 ht)
    obtain ⟨y, hy, e⟩ := (k2' _).1 ((k2 _).2 ⟨x, hx, rfl⟩)
    have := readTriple_tells (h3' y hy).2.2.2 (h3 x hx).2.2.2 e
    rw [← this]
    exact (h5' _).1 (List.mem_map_of_mem (f := fun x : Gaps × Line × RdfTriple => x.2.2) hy)
  exact fun t => ⟨half ts ts' h h' t, half ts' ts h' h t⟩

/-! ### What is written -/

/-- What was escaped is decoded again. -/
theorem decodes_escaped {pr : Char → Bool} {a : Str} (h : Printed pr a) : DecodesString (escapeString pr a) a := by
  induction a with
  | nil => exact .nil
  | cons c a ih =>
    have ih := ih fun x hx => h x (List.mem_cons_of_mem _ hx)
    have hc := h c List.mem_cons_self
    show DecodesString (escapeChar pr c ++ escapeString pr a) (c :: a)
    unfold escapeChar
    split
    · rename_i e
      rcases hc with ⟨-, hc⟩ | hc
      · exact absurd e hc
      · rw [e] at hc; exact absurd hc (by decide)
    split
    · rename_i e; exact .echar (e := 't') (by rw [e]; decide) ih
    split
    · rename_i e; exact .echar (e := 'r') (by rw [e]; decide) ih
    split
    · rename_i e; exact .echar (e := 'n') (by rw [e]; decide) ih
    split
    · rename_i e; exact .echar (e := '"') (by rw [e]; decide) ih
    split
    · rename_i e; exact .echar (e := '\\') (by rw [e]; decide) ih
    split
    · rename_i e _; exact .plain e ih
    · rename_i h1 h2 h3 _ _ hpr
      exfalso
      rcases hc with ⟨hc, -⟩ | hc
      · exact hpr hc
      · simp only [List.mem_cons, List.not_mem_nil, or_false] at hc
        rcases hc with hc | hc | hc
        · exact h1 hc
        · exact h2 hc
        · exact h3 hc

/-- The line of a statement says the statement, with the texts of literals decoded. -/
theorem stmtLine_means {env : ReadEnv} {alt : Bool} {st : Stmt} (h : StmtGood env alt st) {x : RdfTriple}
    (hl : ∀ l, st.object = .lit l → l.dataType = none ∨ l.language = none) (e : stmtTriple st = some x) {o : RdfTerm}
    (ho : (∀ w d g, x.2.2 ≠ .lit w d g) ∧ o = x.2.2 ∨ ∃ w a d g, x.2.2 = .lit w d g ∧ o = .lit a d g ∧ DecodesString w a) :
    (stmtLine none st).Means env (x.1, x.2.1, o) := by
  obtain ⟨s, p, y⟩ := st
  obtain ⟨h1, h2, h3⟩ := h
  obtain ⟨e1, e2, e3⟩ := triple_terms e
  have iri : ∀ {i : Iri}, IriGood env i → ∃ t j, DecodesIri i.text t ∧ env.url t = some j ∧ RdfTerm.iri i = .iri j := fun {i} hi =>
    ⟨i.text, i, decodesIri_plain fun hm => by
      have := hi.1 _ hm
      revert this; simp [IriPlain], hi.2, rfl⟩
  refine ⟨?_, ?_, ?_⟩
  · cases s with
    | blank b => cases e1' : x.1 <;> rw [e1'] at e1 <;> simp [subjectTerm] at e1; rw [e1]; exact rfl
    | res i =>
      cases e1' : x.1 <;> rw [e1'] at e1 <;> simp [subjectTerm] at e1
      rw [← e1]; exact iri h1
    | stmt u => exact h1.elim
  · obtain ⟨t, j, k1, k2, k3⟩ := iri h2
    cases k3
    exact ⟨t, k1, by rw [← e2]; exact k2⟩
  · cases y with
    | blank b =>
      simp only [objectTerm, Option.some.injEq] at e3
      rcases ho with ⟨-, rfl⟩ | ⟨w, a, d, g, k, -⟩
      · exact e3.symm
      · rw [k] at e3; cases e3
    | res i =>
      simp only [objectTerm, Option.some.injEq] at e3
      rcases ho with ⟨-, rfl⟩ | ⟨w, a, d, g, k, -⟩
      · show ∃ t j, _ ∧ _ ∧ x.2.2 = _
        rw [← e3]; exact iri h3
      · rw [k] at e3; cases e3
    | coll c => exact h3.elim
    | stmt u => exact h3.elim
    | lit l =>
      simp only [objectTerm, Option.some.injEq] at e3
      rcases ho with ⟨k, -⟩ | ⟨w, a, d, g, k, rfl, hd⟩
      · exact absurd e3.symm (k _ _ _)
      · rw [k] at e3
        injection e3 with i1 i2 i3
        subst i1 i2 i3
        obtain ⟨w, t, g⟩ := l
        obtain ⟨-, g1, g2, -⟩ := h3
        have hl := hl _ rfl
        cases t with
        | none =>
          cases g with
          | none => exact ⟨a, hd, rfl⟩
          | some g => exact ⟨a, g, hd, (g2 g rfl).2, rfl⟩
        | some t =>
          cases g with
          | some g => simp at hl
          | none =>
            obtain ⟨u, j, k1, k2, k3⟩ := iri (g1 t rfl)
            cases k3
            exact ⟨a, u, _, hd, k1, k2, rfl⟩

/-- What the converted document says: what the document says, with the insides of the quotes as they stand. -/
def rawTriple (l : Line) (x : RdfTriple) : RdfTriple :=
  (x.1, x.2.1, match l.o, x.2.2 with
    | .lit a _, .lit _ d g => .lit a d g
    | _, y => y)

theorem raw_literal {env : ReadEnv} {l : Line} {x : RdfTriple} (h : l.Means env x) :
    (l.o.inner = none ∧ rawTriple l x = x ∧ ∀ t d g, x.2.2 ≠ .lit t d g) ∨
    ∃ a t d g, l.o.inner = some a ∧ x.2.2 = .lit t d g ∧ DecodesString a t ∧ rawTriple l x = (x.1, x.2.1, .lit a d g) := by
  obtain ⟨s, p, o, g⟩ := l
  obtain ⟨xs, xp, xo⟩ := x
  cases o with
  | term t =>
    refine .inl ⟨rfl, rfl, fun t d g e => ?_⟩
    obtain ⟨a, ha, -⟩ := (literal_means (pr := fun _ => true) h).2 t d g e
    cases ha
  | lit a v =>
    obtain ⟨t, d, g, h1, h2, -⟩ := (literal_means (pr := fun _ => true) h).1 a rfl
    refine .inr ⟨a, t, d, g, rfl, h1, h2, ?_⟩
    simp only at h1
    subst h1
    rfl

theorem readTriple_raw {env : ReadEnv} (pr : Char → Bool) {l : Line} {x : RdfTriple} (h : l.Means env x) :
    readTriple pr l x = match (rawTriple l x).2.2 with
      | .lit a d g => (x.1, x.2.1, .lit (escapeString pr a) d g)
      | _ => x := by
  rcases raw_literal h with ⟨h1, h2, h3⟩ | ⟨a, t, d, g, h1, h2, -, h4⟩
  · rw [h2]
    split
    · rename_i e; exact absurd e (h3 _ _ _)
    · exact (readTriple_id h).2 fun a ha => by rw [h1] at ha; cases ha
  · rw [h4]
    obtain ⟨t', d', g', k1, -, k3⟩ := (literal_means (pr := pr) h).1 a h1
    rw [h2] at k1
    cases k1
    exact Prod.ext rfl (Prod.ext rfl k3)

/-- What is read tells what stands between the quotes. -/
theorem raw_tells {env : ReadEnv} {pr : Char → Bool} {l m : Line} {x y : RdfTriple} (h : l.Means env x) (h' : m.Means env y)
    (e : readTriple pr l x = readTriple pr m y) : rawTriple l x = rawTriple m y := by
  have e1 : x.1 = y.1 := congrArg (·.1) e
  have e2 : x.2.1 = y.2.1 := congrArg (·.2.1) e
  have hxy := readTriple_tells h h' e
  subst hxy
  rcases raw_literal h with ⟨h1, h2, h3⟩ | ⟨a, t, d, g, h1, h2, -, h4⟩
  · rcases raw_literal h' with ⟨k1, k2, k3⟩ | ⟨b, t', d', g', k1, k2, -, k4⟩
    · rw [h2, k2]
    · exact absurd k2 (h3 _ _ _)
  · rcases raw_literal h' with ⟨k1, k2, k3⟩ | ⟨b, t', d', g', k1, k2, -, k4⟩
    · exact absurd h2 (k3 _ _ _)
    · rw [h2] at k2
      cases k2
      rw [readTriple_raw pr h, readTriple_raw pr h', h4, k4] at e
      simp only [Prod.mk.injEq, true_and, RdfTerm.lit.injEq, and_true] at e
      rw [h4, k4, C17_injective pr a b e]

/-- What stands between quotes stands in the document. -/
theorem inner_in_doc {first last : Str} {ls : List (Gaps × Line × RdfTriple)} {x : Gaps × Line × RdfTriple} (hx : x ∈ ls)
    {a : Str} (h : x.2.1.o.inner = some a) : ∀ c ∈ a, c ∈ docText first last (ls.map fun x => (x.1, x.2.1)) := by
  intro c hc
  have : c ∈ linesText (ls.map fun x => (x.1, x.2.1)) := by
    induction ls with
    | nil => cases hx
    | cons y ls ih =>
      simp only [List.map_cons, linesText, List.mem_append]
      rcases List.mem_cons.1 hx with rfl | hx
      · left
        obtain ⟨gaps, ⟨s, p, o, g⟩, t⟩ := x
        cases o with
        | term t => cases h
        | lit b v =>
          cases h
          have : c ∈ Obj.text gaps (.lit a v) := by cases v <;> simp [Obj.text, hc]
          simp only [Line.text, List.mem_append, this, true_or, or_true]
      · exact .inr (ih hx)
  simp [docText, this]

/-- C157, what is said in general, with IRIs once in brackets: what the document says, but for literals, which have the insides
of the quotes as they stand. -/
theorem C157_says (e : CliEnv) (first last : Str) (ls : List (Gaps × Line × RdfTriple)) (hb : e.sty = .bare)
    (he : StrictEnv e.read) (hsane : SaneEnv e.read) (hpr : AsciiPrintable e.read.pr) (ho : e.orders.Fair) (hf : Gap first)
    (hl : LastGap last) (hv : ∀ x ∈ ls, x.2.1.g = none ∧ x.2.1.Valid ∧ x.1.Valid x.2.1 ∧ x.2.1.Means e.read x.2.2)
    (hp : Printed e.read.pr (docText first last (ls.map fun x => (x.1, x.2.1)))) :
    ∃ out, cliMain e (docText first last (ls.map fun x => (x.1, x.2.1))) (.convert .nTriples .nTriples) = .success out ∧
      NtSays e.read out (ls.map fun x => rawTriple x.2.1 x.2.2) := by
  obtain ⟨g, hr, hg⟩ := C83_reads e.read first last ls hsane hf hl hv
  refine ⟨writeNt e.gen e.startWrite e.orders .bare false g, by
    simp only [cliMain, cliRead, hr, Res.toRun, Run.bind, cliWrite, Run.exit, hb], ?_⟩
  have hgood : ∀ st ∈ g.stmts, StmtGood e.read false st := fun st hst => by
    obtain ⟨a, b, -, c⟩ := readNt_strict he hr st hst
    obtain ⟨x, y, z⟩ := st
    exact ⟨a, b, c hp⟩
  have hs := (C34_unchanged e.gen e.startWrite g (readNt_simple hr)).1
  have hvis : ∀ st, st ∈ (g.simplify e.gen e.startWrite).1.visit e.orders ↔ st ∈ g.stmts := fun st => by
    rw [visit_mem ho, hs]
  obtain ⟨f, hf'⟩ : ∃ f : Stmt → RdfTriple, ∀ st, st ∈ g.stmts → (stmtLine none st).Means e.read (f st) ∧
      ∃ x ∈ ls, stmtTriple st = some (readTriple e.read.pr x.2.1 x.2.2) ∧ f st = rawTriple x.2.1 x.2.2 := by
    refine (Classical.skolem (p := fun st t => st ∈ g.stmts → (stmtLine none st).Means e.read t ∧
      ∃ x ∈ ls, stmtTriple st = some (readTriple e.read.pr x.2.1 x.2.2) ∧ t = rawTriple x.2.1 x.2.2)).1 fun st => ?_
    by_cases hst : st ∈ g.stmts
    · obtain ⟨t, ht⟩ := simple_triple (readNt_simple hr st hst)
      obtain ⟨x, hx, k⟩ := (hg t).1 ⟨st, hst, ht⟩
      rw [← k] at ht
      refine ⟨rawTriple x.2.1 x.2.2, fun _ => ⟨?_, x, hx, ht, rfl⟩⟩
      have hm := (hv x hx).2.2.2
      have := stmtLine_means (hgood st hst) (x := readTriple e.read.pr x.2.1 x.2.2) (o := (rawTriple x.2.1 x.2.2).2.2)
        (fun l h => by
          obtain ⟨a, b, c⟩ := st
          simp only [Stmt.object] at h
          subst h
          exact (readNt_literal hpr hr hst).2.2) ht (by
          rcases raw_literal hm with ⟨h1, h2, h3⟩ | ⟨a, t, d, g, h1, h2, -, h4⟩
          · have h5 : readTriple e.read.pr x.2.1 x.2.2 = x.2.2 :=
              (readTriple_id hm).2 fun a ha => by rw [h1] at ha; cases ha
            rw [h5, h2]
            exact .inl ⟨h3, rfl⟩
          · refine .inr ⟨escapeString e.read.pr a, a, d, g, ?_, by rw [h4], decodes_escaped fun c hc => hp c (inner_in_doc hx h1 c hc)⟩
            rw [readTriple_raw _ hm, h4])
      exact this
    · exact ⟨(.blank [], ⟨[]⟩, .blank []), fun h => absurd h hst⟩
  refine ⟨[], [], ((g.simplify e.gen e.startWrite).1.visit e.orders).map fun st => (ntGaps, stmtLine none st, f st), .nil,
    lastGap_nil, ?_, ?_, fun t => ?_⟩
  · intro y hy
    obtain ⟨st, hst, rfl⟩ := List.mem_map.1 hy
    have hst := (hvis st).1 hst
    exact ⟨rfl, stmtLine_valid (by simp) (hgood st hst), ntGaps_valid _, (hf' st hst).1⟩
  · unfold writeNt
    rw [flatMap_lines _ (stmtLine none) _ fun st h => ntLine_text (hgood st ((hvis st).1 h))]
    simp [docText, Function.comp_def]
  · rw [List.map_map, List.mem_map, List.mem_map]
    constructor
    · rintro ⟨st, hst, rfl⟩
      obtain ⟨-, x, hx, -, k⟩ := hf' st ((hvis st).1 hst)
      exact ⟨x, hx, k.symm⟩
    · rintro ⟨x, hx, rfl⟩
      obtain ⟨st, hst, k⟩ := (hg _).2 ⟨x, hx, rfl⟩
      obtain ⟨-, y, hy, k1, k2⟩ := hf' st hst
      refine ⟨st, (hvis st).2 hst, ?_⟩
      rw [k1, Option.some.injEq] at k
      exact k2.trans (raw_tells (hv y hy).2.2.2 (hv x hx).2.2.2 k)

theorem decodes_shorter {s t : Str} (h : DecodesString s t) (hb : '\\' ∈ s) : t.length < s.length := by
  refine Nat.lt_of_le_of_ne (decodes_length h).1 fun e => ?_
  have := (decodes_length h).2 e
  subst this
  clear e
  generalize e : t = u at h hb
  have key : ∀ {s t : Str}, DecodesString s t → '\\' ∈ s → t.length < s.length := by
    intro s t h hb
    induction h with
    | nil => cases hb
    | plain hc h ih =>
      rcases List.mem_cons.1 hb with hb | hb
      · exact absurd hb.symm hc
      · simpa using ih hb
    | echar _ h ih =>
      have := (decodes_length h).1
      simp only [List.length_cons]
      omega
    | @uchar ds u s t c hu _ h ih =>
      have h1 := (decodes_length h).1
      have h2 : 2 ≤ u.length := by rcases hu.2 with ⟨-, rfl⟩ | ⟨-, rfl⟩ <;> simp
      simp only [List.length_cons, List.length_append]
      omega
  subst e
  exact absurd (key h hb) (by omega)

/-- If each text is what another stands for, none has an escape. -/
theorem no_escapes {A : List Str} (h : ∀ a ∈ A, ∃ b ∈ A, DecodesString b a) : ∀ a ∈ A, '\\' ∉ a := by
  intro a ha hbad
  have hm : ∀ x ∈ A, x.length ≤ (A.map List.length).sum := fun x hx => le_sum_of_mem (List.mem_map_of_mem hx)
  have chain : ∀ k, ∃ z ∈ A, '\\' ∈ z ∧ k ≤ z.length := by
    intro k
    induction k with
    | zero => exact ⟨a, ha, hbad, Nat.zero_le _⟩
    | succ k ih =>
      obtain ⟨z, hz, hb, hk⟩ := ih
      obtain ⟨b, hbA, hd⟩ := h z hz
      have hbb : '\\' ∈ b := Classical.byContradiction fun hn => hn (by rw [← decodes_no_escape hn hd]; exact hb)
      have := decodes_shorter hd hbb
      exact ⟨b, hbA, hbb, by omega⟩
  obtain ⟨z, hz, -, hk⟩ := chain ((A.map List.length).sum + 1)
  have := hm z hz
  omega

/-- C157, exactly: a document of N-Triples converted to N-Triples, with IRIs once in brackets, says what it said if and only if
no literal has an escape. -/
theorem C157_iff (e : CliEnv) (first last : Str) (ls : List (Gaps × Line × RdfTriple)) (hb : e.sty = .bare)
    (he : StrictEnv e.read) (hsane : SaneEnv e.read) (hpr : AsciiPrintable e.read.pr) (ho : e.orders.Fair) (hf : Gap first)
    (hl : LastGap last) (hv : ∀ x ∈ ls, x.2.1.g = none ∧ x.2.1.Valid ∧ x.1.Valid x.2.1 ∧ x.2.1.Means e.read x.2.2)
    (hp : Printed e.read.pr (docText first last (ls.map fun x => (x.1, x.2.1)))) :
    (∃ out, cliMain e (docText first last (ls.map fun x => (x.1, x.2.1))) (.convert .nTriples .nTriples) = .success out ∧
      NtSays e.read out (ls.map fun x => x.2.2)) ↔
    ∀ x ∈ ls, ∀ a, x.2.1.o.inner = some a → '\\' ∉ a := by
  obtain ⟨out, h1, h2⟩ := C157_says e first last ls hb he hsane hpr ho hf hl hv hp
  constructor
  · rintro ⟨out', h1', h2'⟩
    rw [h1] at h1'
    cases h1'
    have same := C157_unique e.read hsane out _ _ h2 h2'
    suffices ∀ a ∈ ls.filterMap (fun x => x.2.1.o.inner), '\\' ∉ a from
      fun x hx a ha => this a (List.mem_filterMap.2 ⟨x, hx, ha⟩)
    refine no_escapes fun a ha => ?_
    obtain ⟨x, hx, ha⟩ := List.mem_filterMap.1 ha
    rcases raw_literal (hv x hx).2.2.2 with ⟨k1, -⟩ | ⟨a', t, d, g, k1, -, -, k4⟩
    · rw [ha] at k1; cases k1
    · rw [ha] at k1
      cases k1
      obtain ⟨y, hy, ky⟩ := List.mem_map.1 ((same _).1 (List.mem_map_of_mem (f := fun x : Gaps × Line × RdfTriple => rawTriple x.2.1 x.2.2) hx))
      have : y.2.2.2.2 = .lit a d g := by
        have := congrArg (·.2.2) ky
        simp only [k4] at this
        exact this
      obtain ⟨b, j1, j2⟩ := (literal_means (pr := e.read.pr) (hv y hy).2.2.2).2 _ _ _ this
      exact ⟨b, List.mem_filterMap.2 ⟨y, hy, j1⟩, j2⟩
  · intro h
    refine ⟨out, h1, ?_⟩
    have : (ls.map fun x => rawTriple x.2.1 x.2.2) = ls.map fun x => x.2.2 := by
      refine List.map_congr_left fun x hx => ?_
      rcases raw_literal (hv x hx).2.2.2 with ⟨-, k, -⟩ | ⟨a, t, d, g, k1, k2, k3, k4⟩
      · exact k
      · rw [k4, ← decodes_no_escape (h x hx a k1) k3, ← k2]
    rwa [this] at h2

/-- In the style of the code the result is no document of N-Triples, if there is a triple. -/
theorem C157_fails_bracketed (e : CliEnv) (first last : Str) (ls : List (Gaps × Line × RdfTriple)) (hb : e.sty = .bracketed)
    (he : StrictEnv e.read) (hsane : SaneEnv e.read) (ho : e.orders.Fair) (hf : Gap first)
    (hl : LastGap last) (hv : ∀ x ∈ ls, x.2.1.g = none ∧ x.2.1.Valid ∧ x.1.Valid x.2.1 ∧ x.2.1.Means e.read x.2.2)
    (hne : ls ≠ []) :
    ∃ out, cliMain e (docText first last (ls.map fun x => (x.1, x.2.1))) (.convert .nTriples .nTriples) = .success out ∧
      ∀ ts, ¬ NtSays e.read out ts := by
  obtain ⟨g, hr, hg⟩ := C83_reads e.read first last ls hsane hf hl hv
  obtain ⟨x, hx⟩ := List.exists_mem_of_ne_nil _ hne
  obtain ⟨st, hst, -⟩ := (hg _).2 ⟨x, hx, rfl⟩
  obtain ⟨out, h1, h2⟩ := C86_fails_bracketed e _ g hb he ho hr (List.ne_nil_of_mem hst)
  refine ⟨out, h1, ?_⟩
  rintro ts ⟨f, l, ms, k1, k2, k3, rfl, -⟩
  obtain ⟨g', k, -⟩ := C83_reads e.read f l ms hsane k1 k2 k3
  rw [h2] at k
  cases k

/-- C157, the full statement: a document of N-Triples converted to N-Triples says what it said. -/
def C157_statement (sty : IriStyle) : Prop :=
  ∀ (e : CliEnv) (s : Str) (ts : List RdfTriple), e.sty = sty → StrictEnv e.read → SaneEnv e.read → AsciiPrintable e.read.pr →
    e.orders.Fair → Printed e.read.pr s → NtSays e.read s ts →
    ∃ out, cliMain e s (.convert .nTriples .nTriples) = .success out ∧ NtSays e.read out ts

/-- C157 fails in either style. -/
theorem C157_fails (sty : IriStyle) : ¬ C157_statement sty := by
  intro h
  have hv := literalDoc_valid (a := str! "\\n") (t := ['\n']) (.echar (e := 'n') (by decide) .nil)
    ⟨[str! "\\n"], by simp [Echar, Uchar], by simp⟩
  have hl : LastGap [] := ⟨[], [], .nil, rfl, .inl rfl⟩
  have hp : Printed docEnv.pr (docText [] [] ((literalDoc (str! "\\n") ['\n']).map fun x => (x.1, x.2.1))) :=
    webCli_printed _ (by decide +kernel)
  obtain ⟨out, h1, h2⟩ := h (docCli sty) _ _ rfl docEnv_strict docEnv_sane easyEnv_ascii sameOrder_fair hp
    ⟨[], [], _, .nil, hl, hv, rfl, fun _ => Iff.rfl⟩
  cases sty with
  | bare =>
    have := (C157_iff (docCli .bare) [] [] _ rfl docEnv_strict docEnv_sane easyEnv_ascii sameOrder_fair .nil hl hv hp).1
      ⟨out, h1, h2⟩ _ (List.mem_singleton.2 rfl) _ rfl
    exact this (by decide)
  | bracketed =>
    obtain ⟨out', h1', h2'⟩ := C157_fails_bracketed (docCli .bracketed) [] [] _ rfl docEnv_strict docEnv_sane sameOrder_fair .nil
      hl hv (by simp [literalDoc])
    rw [h1] at h1'
    cases h1'
    exact h2' _ h2

/-- C157, what holds. -/
theorem C157_partial (e : CliEnv) (first last : Str) (ls : List (Gaps × Line × RdfTriple)) (hb : e.sty = .bare)
    (he : StrictEnv e.read) (hsane : SaneEnv e.read) (hpr : AsciiPrintable e.read.pr) (ho : e.orders.Fair) (hf : Gap first)
    (hl : LastGap last) (hv : ∀ x ∈ ls, x.2.1.g = none ∧ x.2.1.Valid ∧ x.1.Valid x.2.1 ∧ x.2.1.Means e.read x.2.2)
    (hp : Printed e.read.pr (docText first last (ls.map fun x => (x.1, x.2.1))))
    (hn : ∀ x ∈ ls, ∀ a, x.2.1.o.inner = some a → '\\' ∉ a) :
    ∃ out, cliMain e (docText first last (ls.map fun x => (x.1, x.2.1))) (.convert .nTriples .nTriples) = .success out ∧
      NtSays e.read out (ls.map fun x => x.2.2) :=
  (C157_iff e first last ls hb he hsane hpr ho hf hl hv hp).2 hn

/-! A tab is read as an escape, and yet the converted document says the tab. -/

example : ∃ out, cliMain (docCli .bare) (docText [] [] ((literalDoc ['\t'] ['\t']).map fun x => (x.1, x.2.1)))
      (.convert .nTriples .nTriples) = .success out ∧
    NtSays docEnv out ((literalDoc ['\t'] ['\t']).map fun x => x.2.2) := by
  have hv := literalDoc_valid (a := ['\t']) (t := ['\t']) (.plain (by decide) .nil)
    (tokens_of_chars fun c hc => .inl ⟨c, by rw [List.mem_singleton.1 hc]; decide, rfl⟩)
  have hl : LastGap [] := ⟨[], [], .nil, rfl, .inl rfl⟩
  refine C157_partial (docCli .bare) [] [] _ rfl docEnv_strict docEnv_sane easyEnv_ascii sameOrder_fair .nil hl hv
    (webCli_printed _ (by decide +kernel)) ?_
  intro x hx a ha
  rw [literalDoc, List.mem_singleton] at hx
  subst hx
  cases ha
  decide

end Rdftk
