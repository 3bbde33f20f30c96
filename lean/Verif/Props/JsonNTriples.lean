import Verif.Props.ConvertJson
import Verif.Props.Convert

/-! What RDF/JSON documents say and what they say as N-Triples: C159. -/

namespace Rdftk
open Spec

/-- Written lines say what their statements say. -/
theorem nt_says {env : ReadEnv} (L : List (Stmt × RdfTriple)) (hg : ∀ x ∈ L, StmtGood env false x.1)
    (hm : ∀ x ∈ L, (stmtLine none x.1).Means env x.2) :
    NtSays env ((L.map (·.1)).flatMap (ntLine .bare false)) (L.map (·.2)) := by
  refine ⟨[], [], L.map fun x => (ntGaps, stmtLine none x.1, x.2), .nil, lastGap_nil, ?_, ?_, fun t => ?_⟩
  · intro y hy
    obtain ⟨x, hx, rfl⟩ := List.mem_map.1 hy
    exact ⟨rfl, stmtLine_valid (by simp) (hg x hx), ntGaps_valid _, hm x hx⟩
  · rw [flatMap_lines _ (stmtLine none) _ fun st h => by
      obtain ⟨x, hx, rfl⟩ := List.mem_map.1 h
      exact ntLine_text (hg x hx)]
    simp [docText, Function.comp_def]
  · simp [Function.comp_def]

/-- After lines that are read, a line that is not. -/
theorem pLines_stop {env : ReadEnv} (L : List Stmt) (hg : ∀ st ∈ L, StmtGood env false st) {b : Str} (hb : pTriple b = none)
    (hs : Solid b) (n : Nat) : (pLines pTriple n (L.flatMap (ntLine .bare false) ++ b)).2 ≠ [] := by
  have hne : b ≠ [] := by
    obtain ⟨c, r, rfl, -⟩ := hs
    simp
  induction L generalizing n with
  | nil => cases n <;> simp [pLines, hb, hne]
  | cons st L ih =>
    cases n with
    | zero => simp [pLines, hne]
    | succ n =>
      have e : (st :: L).flatMap (ntLine .bare false) ++ b =
          (stmtLine none st).text ntGaps ++ (L.flatMap (ntLine .bare false) ++ b) := by
        rw [List.flatMap_cons, List.append_assoc, ntLine_text (hg st List.mem_cons_self)]
      have hsolid : Solid (L.flatMap (ntLine .bare false) ++ b) := by
        cases L with
        | nil => exact hs
        | cons st' L =>
          have := hg st' (List.mem_cons_of_mem _ List.mem_cons_self)
          obtain ⟨s, p, o⟩ := st'
          have := subject_solid .bare this.1 (str! " <" ++ p.fmt .bare ++ str! "> " ++ o.display .bare false ++ str! " .\n" ++
            (L.flatMap (ntLine .bare false) ++ b))
          simpa [ntLine, Stmt.subject, Stmt.predicate, Stmt.object] using this
      have hskip : skip false (ntGaps.afterEnd ++ (L.flatMap (ntLine .bare false) ++ b)) = L.flatMap (ntLine .bare false) ++ b :=
        skip_gap_solid (.ws (by simp) .nil) hsolid
      rw [e, pLines, pTriple_text (stmtLine_valid (by simp) (hg st List.mem_cons_self)) (ntGaps_valid _) rfl]
      simp only [hskip]
      exact ih (fun st h => hg st (List.mem_cons_of_mem _ h)) n

/-- A number is not read. -/
theorem pTriple_bare {env : ReadEnv} {s : Subject} {p : Iri} {l : Literal} {t : DataType}
    (hs : SubjectGood env s) (hp : IriGood env p) (ht : l.dataType = some t) (hb : t ∈ bareTypes)
    {c : Char} {x : Str} (hl : l.lexicalForm = c :: x) (hc : c ∉ (str! "<_[\"# \t\r\n")) (rest : Str) :
    pTriple (ntLine .bare false (.mk s p (.lit l)) ++ rest) = none := by
  have hd : (Object.lit l).display .bare false = c :: x := by
    have h1 : ¬ (l.dataType = some .iri) := by
      rw [ht]; rintro e; injection e with e; subst e; revert hb; decide
    have h2 : t.isBare = true := (mem_bareTypes t).2 hb
    simp only [Object.display, Literal.display, if_neg h1]
    simp [ht, h2, hl]
  have e : ntLine .bare false (.mk s p (.lit l)) ++ rest =
      s.display .bare ++ ' ' :: '<' :: (p.text ++ '>' :: ' ' :: (c :: (x ++ (str! " .\n") ++ rest))) := by
    simp only [ntLine, Stmt.subject, Stmt.predicate, Stmt.object, hd]
    simp [Iri.fmt]
  unfold pTriple
  rw [e, pTerms_object hs hp]
  rw [skip_solid (solid_cons ?_), pObject_other]
  · simp only [List.mem_cons, List.not_mem_nil, or_false, not_or] at hc ⊢
    grind
  · simp only [List.mem_cons, List.not_mem_nil, or_false, not_or] at hc
    simp [isWs, isNewline, hc]

theorem line_solid {env : ReadEnv} {st : Stmt} (h : SubjectGood env st.subject) (r : Str) : Solid (ntLine .bare false st ++ r) := by
  have := subject_solid .bare h (str! " <" ++ st.predicate.fmt .bare ++ str! "> " ++ st.object.display .bare false ++ str! " .\n" ++ r)
  simpa [ntLine] using this

theorem first_of {α : Type _} {P : α → Prop} {l : List α} (h : ∃ x ∈ l, P x) :
    ∃ a x b, l = a ++ x :: b ∧ P x ∧ ∀ y ∈ a, ¬ P y := by
  induction l with
  | nil => obtain ⟨x, hx, -⟩ := h; cases hx
  | cons y l ih =>
    by_cases hy : P y
    · exact ⟨[], y, l, rfl, hy, by simp⟩
    · obtain ⟨x, hx, hp⟩ := h
      rcases List.mem_cons.1 hx with rfl | hx
      · exact absurd hp hy
      · obtain ⟨a, x, b, rfl, h1, h2⟩ := ih ⟨x, hx, hp⟩
        refine ⟨y :: a, x, b, rfl, h1, fun z hz => ?_⟩
        rcases List.mem_cons.1 hz with rfl | hz
        · exact hy
        · exact h2 z hz

/-- What can be written of a term. -/
def TermGood (env : ReadEnv) : RdfTerm → Prop
  | .iri i => IriGood env i
  | .blank b => LabelGood env b
  | .lit _ d g => (∀ i, d = some i → IriGood env i) ∧ (∀ h, g = some h → LangTag h ∧ env.lang h = some h) ∧ (d = none ∨ g = none)

theorem entry_good {env : ReadEnv} (he : StrictEnv env) (hs : SaneEnv env) {e : Str × Str × Json} {t : RdfTriple}
    (h : EntryMeans env e t) : TermGood env t.1 ∧ (∀ v d g, t.1 ≠ .lit v d g) ∧ IriGood env t.2.1 ∧ TermGood env t.2.2 := by
  obtain ⟨a, b, c⟩ := t
  obtain ⟨h1, h2, h3⟩ := h
  refine ⟨?_, ?_, he.url _ _ h2, ?_⟩
  · rcases h1 with ⟨l, -, hl, h1⟩ | ⟨-, i, hi, h1⟩ <;> simp only at h1 <;> subst h1
    · exact ⟨hl, hs.2 _ hl⟩
    · exact he.url _ _ hi
  · rcases h1 with ⟨l, -, hl, h1⟩ | ⟨-, i, hi, h1⟩ <;> simp only at h1 <;> subst h1 <;> simp
  · obtain ⟨m, t, v, -, -, -, h3⟩ := h3
    rcases h3 with ⟨-, i, hi, h3⟩ | ⟨-, l, -, hl, h3⟩ | ⟨-, ⟨-, -, h3⟩ | ⟨l, g, -, -, hg, h3⟩ | ⟨d, i, -, -, hi, h3⟩⟩ <;>
      simp only at h3 <;> subst h3
    · exact he.url _ _ hi
    · exact ⟨hl, hs.2 _ hl⟩
    · exact ⟨fun i e => by (cases e), fun i e => by (cases e), .inl rfl⟩
    · exact ⟨fun i e => by (cases e), fun i e => by (cases e; exact he.lang _ _ hg), .inl rfl⟩
    · exact ⟨fun i e => by (cases e; exact he.url _ _ hi), fun i e => by (cases e), .inr rfl⟩

/-- The statement that prints as this one does: a literal of type `xsd:anyURI` prints as an IRI. -/
def asPrinted : Stmt → Stmt
  | .mk s p (.lit l) => if l.dataType = some .iri then .mk s p (.res ⟨l.lexicalForm⟩) else .mk s p (.lit l)
  | st => st

theorem asPrinted_line (st : Stmt) : ntLine .bare false (asPrinted st) = ntLine .bare false st := by
  obtain ⟨s, p, o⟩ := st
  cases o with
  | lit l =>
    unfold asPrinted
    simp only
    split
    · rename_i h
      simp [ntLine, Stmt.subject, Stmt.predicate, Stmt.object, Object.display, Literal.display, h, Iri.fmt]
    · rfl
  | _ => rfl

/-- What is said instead of a triple. -/
def printedTriple (pr : Char → Bool) : RdfTriple → RdfTriple
  | (s, p, .lit v d g) => if d = some DataType.iri.asIri then (s, p, .iri ⟨escapeString pr v⟩) else (s, p, .lit v d g)
  | t => t

theorem printed_good {env : ReadEnv} {st : Stmt} {t : RdfTriple} (h : stmtTriple st = some (escTriple env.pr t))
    (ht : TermGood env t.1 ∧ (∀ v d g, t.1 ≠ .lit v d g) ∧ IriGood env t.2.1 ∧ TermGood env t.2.2)
    (hd : ∀ l, st.object = .lit l → ∀ d, l.dataType = some d → DataType.fromIri d.asIri = d)
    (hp : ∀ v, t.2.2.text = some v → Printed env.pr v)
    (hi : ∀ v g, t.2.2 = .lit v (some DataType.iri.asIri) g → IriGood env ⟨escapeString env.pr v⟩)
    (hn : ∀ l d, st.object = .lit l → l.dataType = some d → d ∉ bareTypes) :
    StmtGood env false (asPrinted st) ∧ (stmtLine none (asPrinted st)).Means env (printedTriple env.pr t) := by
  obtain ⟨s, p, o⟩ := st
  obtain ⟨x, i, y⟩ := t
  obtain ⟨e1, e2, e3⟩ := triple_terms h
  obtain ⟨t1, t2, t3, t4⟩ := ht
  simp only [escTriple] at e1 e2 e3 t1 t2 t3 t4
  subst e2
  have hs : SubjectGood env s := by
    cases s with
    | blank b => cases e1; exact t1
    | res j => cases e1; exact t1
    | stmt u => cases e1
  cases o with
  | blank b =>
    cases y <;> simp only [objectTerm, escTerm, Option.some.injEq, reduceCtorEq, RdfTerm.blank.injEq] at e3
    subst e3
    have hg : StmtGood env false (.mk s p (.blank b)) := ⟨hs, t3, t4⟩
    exact ⟨hg, stmtLine_means hg (by simp [Stmt.object]) h (.inl ⟨by simp [escTriple, escTerm], rfl⟩)⟩
  | res j =>
    cases y <;> simp only [objectTerm, escTerm, Option.some.injEq, reduceCtorEq, RdfTerm.iri.injEq] at e3
    subst e3
    have hg : StmtGood env false (.mk s p (.res j)) := ⟨hs, t3, t4⟩
    exact ⟨hg, stmtLine_means hg (by simp [Stmt.object]) h (.inl ⟨by simp [escTriple, escTerm], rfl⟩)⟩
  | coll _ => cases e3
  | stmt _ => cases e3
  | lit l =>
    cases y with
    | iri _ => cases e3
    | blank _ => cases e3
    | lit v d g =>
      simp only [objectTerm, escTerm, Option.some.injEq, RdfTerm.lit.injEq] at e3
      obtain ⟨w1, w2, w3⟩ := e3
      have hdt : l.dataType = some .iri ↔ d = some DataType.iri.asIri := by
        constructor
        · intro e; rw [← w2, e]; rfl
        · intro e
          rw [e] at w2
          cases hl : l.dataType with
          | none => rw [hl] at w2; cases w2
          | some k =>
            rw [hl] at w2
            simp only [Option.map_some, Option.some.injEq] at w2
            have := hd l rfl k hl
            rw [w2] at this
            rw [← this]
            rfl
      by_cases hdi : d = some DataType.iri.asIri
      · have a1 : asPrinted (.mk s p (.lit l)) = .mk s p (.res ⟨l.lexicalForm⟩) := by simp [asPrinted, hdt.2 hdi]
        have a2 : printedTriple env.pr (x, p, .lit v d g) = (x, p, .iri ⟨escapeString env.pr v⟩) := by simp [printedTriple, hdi]
        rw [a1, a2, w1]
        have hg : StmtGood env false (.mk s p (.res ⟨escapeString env.pr v⟩)) := ⟨hs, t3, hi v g (by rw [hdi])⟩
        exact ⟨hg, stmtLine_means hg (x := (x, p, .iri ⟨escapeString env.pr v⟩)) (by simp [Stmt.object])
          (by simp [stmtTriple, Stmt.subject, Stmt.object, Stmt.predicate, e1, objectTerm]) (.inl ⟨by simp, rfl⟩)⟩
      · have a1 : asPrinted (.mk s p (.lit l)) = .mk s p (.lit l) := by
          simp only [asPrinted]
          rw [if_neg (fun e => hdi (hdt.1 e))]
        have a2 : printedTriple env.pr (x, p, .lit v d g) = (x, p, .lit v d g) := by simp [printedTriple, hdi]
        rw [a1, a2]
        have hdl : l.dataType = none ∨ l.language = none := by
          rcases t4.2.2 with e | e
          · rw [e] at w2
            exact .inl (Option.map_eq_none_iff.1 w2)
          · exact .inr (w3.trans e)
        have hg : StmtGood env false (.mk s p (.lit l)) := by
          refine ⟨hs, t3, ?_, fun k hk => t4.1 _ (by rw [← w2, hk]; rfl), fun k hk => t4.2.1 _ (by rw [← w3, hk]), fun k hk => ⟨?_, fun _ => hn l k rfl hk⟩⟩
          · rw [w1]; exact quote_escape (hp v rfl)
          · rintro rfl; exact hdi (hdt.1 hk)
        refine ⟨hg, stmtLine_means hg (fun l' e => by cases e; exact hdl) h (.inr ⟨escapeString env.pr v, v, d, g, rfl, rfl, decodes_escaped (hp v rfl)⟩)⟩

theorem escTriple_tells {pr : Char → Bool} {t t' : RdfTriple} (h : escTriple pr t = escTriple pr t') : t = t' := by
  obtain ⟨x, i, y⟩ := t
  obtain ⟨x', i', y'⟩ := t'
  simp only [escTriple, Prod.mk.injEq] at h
  obtain ⟨rfl, rfl, h⟩ := h
  cases y <;> cases y' <;> simp [escTerm] at h ⊢ <;> first | exact h | exact ⟨C17_injective pr _ _ h.1, h.2⟩

theorem forall₂_left {α β : Type _} {R : α → β → Prop} {l : List α} {m : List β} (h : List.Forall₂ R l m) :
    ∀ x ∈ l, ∃ y ∈ m, R x y := by
  induction h with
  | nil => simp
  | cons h _ ih =>
    intro x hx
    rcases List.mem_cons.1 hx with rfl | hx
    · exact ⟨_, List.mem_cons_self, h⟩
    · obtain ⟨y, hy, k⟩ := ih x hx
      exact ⟨y, List.mem_cons_of_mem _ hy, k⟩

theorem forall₂_right {α β : Type _} {R : α → β → Prop} {l : List α} {m : List β} (h : List.Forall₂ R l m) :
    ∀ y ∈ m, ∃ x ∈ l, R x y := by
  induction h with
  | nil => simp
  | cons h _ ih =>
    intro x hx
    rcases List.mem_cons.1 hx with rfl | hx
    · exact ⟨_, List.mem_cons_self, h⟩
    · obtain ⟨y, hy, k⟩ := ih x hx
      exact ⟨y, List.mem_cons_of_mem _ hy, k⟩

/-- The types, as RDF/JSON is read, of literals that are written without quotes. -/
def unquotedTypes : List DataType :=
  [.boolean, .long, .int, .short, .byte, .unsignedLong, .unsignedInt, .unsignedShort, .unsignedByte, .float, .double]

theorem unquoted_iff (d : DataType) : d ∈ unquotedTypes ↔ d ∈ bareTypes ∧ DataType.fromIri d.asIri = d := by
  constructor
  · intro hd
    simp only [unquotedTypes, List.mem_cons, List.not_mem_nil, or_false] at hd
    rcases hd with rfl | rfl | rfl | rfl | rfl | rfl | rfl | rfl | rfl | rfl | rfl <;> decide +kernel
  · rintro ⟨hd, h⟩
    simp only [bareTypes, List.mem_cons, List.not_mem_nil, or_false] at hd
    rcases hd with rfl | rfl | rfl | rfl | rfl | rfl | rfl | rfl | rfl | rfl | rfl | rfl
    all_goals first | decide | exact absurd h (by decide +kernel)

/-- C159, exactly: a document of RDF/JSON converted to N-Triples, with IRIs once in brackets, says what it said if and only if
it has no booleans, no numbers of the types that are written without quotes, and no `xsd:anyURI`.  The texts of such numbers do
not start like other terms, and those of such IRIs are IRIs. -/
theorem C159_iff (e : CliEnv) (s : Str) (ts : List RdfTriple) (hb : e.sty = .bare) (he : StrictEnv e.read) (hsane : SaneEnv e.read)
    (ho : e.orders.Fair) (hs : JsonSays e.read s ts)
    (hp : ∀ t ∈ ts, ∀ v, t.2.2.text = some v → Printed e.read.pr v)
    (hn : ∀ t ∈ ts, ∀ v d g, d ∈ unquotedTypes → t.2.2 = .lit v (some d.asIri) g →
      ∃ c x, escapeString e.read.pr v = c :: x ∧ c ∉ (str! "<_[\"# \t\r\n"))
    (hi : ∀ t ∈ ts, ∀ v g, t.2.2 = .lit v (some DataType.iri.asIri) g → IriGood e.read ⟨escapeString e.read.pr v⟩) :
    (∃ out, cliMain e s (.convert .json .nTriples) = .success out ∧ NtSays e.read out ts) ↔
    ∀ t ∈ ts, ∀ v d g, d ∈ DataType.iri :: unquotedTypes → t.2.2 ≠ .lit v (some d.asIri) g := by
  obtain ⟨m, hm, hform, hts⟩ := hs
  obtain ⟨g, hr, hg⟩ := C127_reads e.read s m hsane hm hform
  have hgot := readJson_got he hr
  -- the statements and what they say
  have fwd : ∀ st ∈ g.stmts, ∃ t ∈ ts, stmtTriple st = some (escTriple e.read.pr t) ∧
      (TermGood e.read t.1 ∧ (∀ v d g, t.1 ≠ .lit v d g) ∧ IriGood e.read t.2.1 ∧ TermGood e.read t.2.2) := by
    intro st hst
    obtain ⟨x, hx, t, h1, h2⟩ := forall₂_right hg st hst
    exact ⟨t, (hts t).2 ⟨x, hx, h1⟩, h2, entry_good he hsane h1⟩
  have bwd : ∀ t ∈ ts, ∃ st ∈ g.stmts, stmtTriple st = some (escTriple e.read.pr t) := by
    intro t ht
    obtain ⟨x, hx, h⟩ := (hts t).1 ht
    obtain ⟨st, hst, t', h1, h2⟩ := forall₂_left hg x hx
    rw [C127_unique e.read x t t' h h1]
    exact ⟨st, hst, h2⟩
  have hsimple : ∀ st ∈ g.stmts, simple st = true := by
    rintro ⟨a, b, c⟩ hst
    obtain ⟨t, -, h, -⟩ := fwd _ hst
    obtain ⟨h1, -, h3⟩ := triple_terms h
    cases a <;> cases c <;> first | rfl | cases h1 | cases h3
  have hsim : (g.simplify e.gen e.startWrite).1.stmts = g.stmts := (C34_unchanged _ _ g hsimple).1
  have hvis : ∀ st, st ∈ (g.simplify e.gen e.startWrite).1.visit e.orders ↔ st ∈ g.stmts := fun st => by
    rw [visit_mem ho, hsim]
  have hc : cliMain e s (.convert .json .nTriples) = .success (((g.simplify e.gen e.startWrite).1.visit e.orders).flatMap (ntLine .bare false)) := by
    simp only [cliMain, cliRead, hr, Res.toRun, Run.bind, cliWrite, Run.exit, hb]
    rfl
  generalize (g.simplify e.gen e.startWrite).1.visit e.orders = V at hvis hc
  -- types
  have htype : ∀ st ∈ g.stmts, ∀ l d, st.object = .lit l → l.dataType = some d → ∀ t, stmtTriple st = some (escTriple e.read.pr t) →
      ∃ v k, t.2.2 = .lit v (some d.asIri) k ∧ l.lexicalForm = escapeString e.read.pr v := by
    rintro ⟨a, b, c⟩ hst l d (rfl : c = _) hd t h
    obtain ⟨x, i, y⟩ := t
    obtain ⟨-, -, h3⟩ := triple_terms h
    cases y with
    | lit v d' k =>
      simp only [objectTerm, escTriple, escTerm, Option.some.injEq, RdfTerm.lit.injEq] at h3
      rw [hd] at h3
      exact ⟨v, k, by rw [← h3.2.1]; rfl, h3.1⟩
    | _ => cases h3
  have hbare : ∀ t ∈ ts, ∀ v d k, d ∈ unquotedTypes → t.2.2 = .lit v (some d.asIri) k →
      ∃ st ∈ g.stmts, ∃ l, st.object = .lit l ∧ l.dataType = some d := by
    rintro ⟨x, i, y⟩ ht v d k hd (rfl : y = _)
    obtain ⟨⟨a, b, c⟩, hst, h⟩ := bwd _ ht
    obtain ⟨-, -, h3⟩ := triple_terms h
    cases c with
    | lit l =>
      refine ⟨_, hst, l, rfl, ?_⟩
      simp only [objectTerm, escTriple, escTerm, Option.some.injEq, RdfTerm.lit.injEq] at h3
      cases hl : l.dataType with
      | none => rw [hl] at h3; cases h3.2.1
      | some d' =>
        have h4 : d'.asIri = d.asIri := by rw [hl] at h3; simpa using h3.2.1
        have h5 := (hgot _ hst).2 l rfl d' hl
        rw [h4] at h5
        rw [← h5]
        rw [((unquoted_iff d).1 hd).2]
    | _ => cases h3
  have said : (∀ st ∈ g.stmts, ∀ l d, st.object = .lit l → l.dataType = some d → d ∉ bareTypes) →
      NtSays e.read (V.flatMap (ntLine .bare false)) (ts.map (printedTriple e.read.pr)) := by
    intro hnb
    obtain ⟨f, hf⟩ := (Classical.skolem (p := fun st t => st ∈ g.stmts → t ∈ ts ∧ stmtTriple st = some (escTriple e.read.pr t) ∧
      (TermGood e.read t.1 ∧ (∀ v d g, t.1 ≠ .lit v d g) ∧ IriGood e.read t.2.1 ∧ TermGood e.read t.2.2))).1 fun st => by
        by_cases hst : st ∈ g.stmts
        · obtain ⟨t, h1, h2⟩ := fwd st hst
          exact ⟨t, fun _ => ⟨h1, h2⟩⟩
        · exact ⟨(.blank [], ⟨[]⟩, .blank []), fun h => absurd h hst⟩
    have good : ∀ st ∈ V, StmtGood e.read false (asPrinted st) ∧ (stmtLine none (asPrinted st)).Means e.read (printedTriple e.read.pr (f st)) := by
      intro st hst
      have hst := (hvis st).1 hst
      obtain ⟨h1, h2, h3⟩ := hf st hst
      exact printed_good h2 h3 (hgot st hst).2 (hp _ h1) (hi _ h1) (fun l d => hnb st hst l d)
    obtain ⟨a, b, c, d1, d2, d3, d4, d5⟩ := nt_says (V.map fun st => (asPrinted st, printedTriple e.read.pr (f st))) (by
        intro x hx
        obtain ⟨st, hst, rfl⟩ := List.mem_map.1 hx
        exact (good st hst).1) (by
        intro x hx
        obtain ⟨st, hst, rfl⟩ := List.mem_map.1 hx
        exact (good st hst).2)
    refine ⟨a, b, c, d1, d2, d3, ?_, fun t => ?_⟩
    · rw [← d4]
      simp only [List.map_map, List.flatMap_map, Function.comp_def, asPrinted_line]
    · rw [d5, List.map_map, List.mem_map, List.mem_map]
      constructor
      · rintro ⟨st, hst, rfl⟩
        exact ⟨f st, (hf st ((hvis st).1 hst)).1, rfl⟩
      · rintro ⟨t', ht', rfl⟩
        obtain ⟨st, hst, h⟩ := bwd t' ht'
        refine ⟨st, (hvis st).2 hst, ?_⟩
        have h2 := (hf st hst).2.1
        rw [h] at h2
        have := escTriple_tells (Option.some.inj h2)
        simp only [Function.comp_apply]
        rw [this]
  constructor
  · rintro ⟨out, hc', hsay⟩ t ht v d k hd hty
    rw [hc] at hc'
    cases hc'
    have hnb : ∀ st ∈ g.stmts, ∀ l d, st.object = .lit l → l.dataType = some d → d ∉ bareTypes := by
      intro st hst l d hl hd hbd
      obtain ⟨A, x, B, hV, ⟨l', d', hl', hd', hb'⟩, hA⟩ := first_of (P := fun st : Stmt => ∃ l d, st.object = .lit l ∧ l.dataType = some d ∧ d ∈ bareTypes)
        ⟨st, (hvis st).2 hst, l, d, hl, hd, hbd⟩
      have hxg : x ∈ g.stmts := (hvis x).1 (by rw [hV]; simp)
      obtain ⟨t, ht, h2, h3⟩ := fwd x hxg
      obtain ⟨v, k, h4, h5⟩ := htype x hxg l' d' hl' hd' t h2
      obtain ⟨c, r, h6, h7⟩ := hn t ht v d' k ((unquoted_iff d').2 ⟨hb', (hgot _ hxg).2 l' hl' d' hd'⟩) h4
      rw [← h5] at h6
      obtain ⟨xs, xp, xo⟩ := x
      cases (hl' : xo = _)
      obtain ⟨k1, k2, -⟩ := triple_terms h2
      have hsub : SubjectGood e.read xs := by
        cases xs with
        | blank b => have : t.1 = .blank b := (Option.some.inj k1).symm; rw [this] at h3; exact h3.1
        | res j => have : t.1 = .iri j := (Option.some.inj k1).symm; rw [this] at h3; exact h3.1
        | stmt u => cases k1
      have hpred : IriGood e.read xp := by rw [k2]; exact h3.2.2.1
      have hbad := pTriple_bare hsub hpred hd' hb' h6 h7 (B.flatMap (ntLine .bare false))
      have hsolid := line_solid (st := .mk xs xp (.lit l')) hsub (B.flatMap (ntLine .bare false))
      have hgoodA : ∀ y ∈ A.map asPrinted, StmtGood e.read false y := by
        intro y hy
        obtain ⟨z, hz, rfl⟩ := List.mem_map.1 hy
        have hzg : z ∈ g.stmts := (hvis z).1 (by rw [hV]; simp [hz])
        obtain ⟨t, ht, h2, h3⟩ := fwd z hzg
        exact (printed_good h2 h3 (hgot z hzg).2 (hp t ht) (hi t ht) (fun l d h1 h2 h3 => hA z hz ⟨l, d, h1, h2, h3⟩)).1
      have hout : V.flatMap (ntLine .bare false) = (A.map asPrinted).flatMap (ntLine .bare false) ++
          (ntLine .bare false (.mk xs xp (.lit l')) ++ B.flatMap (ntLine .bare false)) := by
        rw [hV]
        simp only [List.flatMap_append, List.flatMap_cons, List.flatMap_map, asPrinted_line]
      have herr : readNt e.read (V.flatMap (ntLine .bare false)) = .err := by
        have hsol : Solid (V.flatMap (ntLine .bare false)) := by
          rw [hout]
          cases hAA : A.map asPrinted with
          | nil => exact hsolid
          | cons y Y =>
            have hy := hgoodA y (by rw [hAA]; simp)
            obtain ⟨ys, yp, yo⟩ := y
            have := line_solid (st := .mk ys yp yo) hy.1 (Y.flatMap (ntLine .bare false) ++ (ntLine .bare false (.mk xs xp (.lit l')) ++ B.flatMap (ntLine .bare false)))
            simpa using this
        unfold readNt
        have : pDoc pTriple (V.flatMap (ntLine .bare false)) = none := by
          unfold pDoc
          rw [skip_solid hsol]
          have := pLines_stop (A.map asPrinted) hgoodA hbad hsolid (V.flatMap (ntLine .bare false)).length
          rw [← hout] at this
          split
          · rename_i h; rw [h] at this; exact absurd rfl this
          · rfl
        rw [this]
      obtain ⟨a, b, c', d1, d2, d3, d4, d5⟩ := hsay
      obtain ⟨g', hg', -⟩ := C83_reads e.read a b c' hsane d1 d2 d3
      rw [← d4, herr] at hg'
      cases hg'
    rcases List.mem_cons.1 hd with rfl | hd
    · have same := C157_unique e.read hsane _ _ _ (said hnb) hsay
      obtain ⟨t', -, ht'⟩ := List.mem_map.1 ((same t).2 ht)
      obtain ⟨x, i, y⟩ := t'
      cases y with
      | lit v' d' k' =>
        simp only [printedTriple] at ht'
        split at ht'
        · rw [← ht'] at hty; cases hty
        · rename_i hne
          rw [← ht'] at hty
          simp only [RdfTerm.lit.injEq] at hty
          exact hne hty.2.1
      | _ => simp only [printedTriple] at ht'; rw [← ht'] at hty; cases hty
    · obtain ⟨st, hst, l, h1, h2⟩ := hbare t ht v d k hd hty
      exact hnb st hst l d h1 h2 ((unquoted_iff d).1 hd).1
  · intro h
    refine ⟨_, hc, ?_⟩
    have := said fun st hst l d hl hd hbd => by
      obtain ⟨t, ht, h2, -⟩ := fwd st hst
      obtain ⟨v, k, h4, -⟩ := htype st hst l d hl hd t h2
      exact h t ht v d k (List.mem_cons_of_mem _ ((unquoted_iff d).2 ⟨hbd, (hgot st hst).2 l hl d hd⟩)) h4
    have hid : ts.map (printedTriple e.read.pr) = ts := by
      refine (List.map_congr_left (g := id) fun t ht => ?_).trans (List.map_id _)
      obtain ⟨x, i, y⟩ := t
      cases y with
      | lit v d k =>
        simp only [printedTriple]
        rw [if_neg]
        · rfl
        · rintro rfl
          exact h _ ht v .iri k List.mem_cons_self rfl
      | _ => rfl
    rwa [hid] at this

/-- In the style of the code the result is no document of N-Triples, if there is a triple. -/
theorem C159_fails_bracketed (e : CliEnv) (s : Str) (ts : List RdfTriple) (hb : e.sty = .bracketed) (he : StrictEnv e.read)
    (hsane : SaneEnv e.read) (ho : e.orders.Fair) (hs : JsonSays e.read s ts) (hne : ts ≠ []) :
    ∃ out, cliMain e s (.convert .json .nTriples) = .success out ∧ ∀ ts', ¬ NtSays e.read out ts' := by
  obtain ⟨m, hm, hform, hts⟩ := hs
  obtain ⟨g, hr, hg⟩ := C127_reads e.read s m hsane hm hform
  have hgood : ∀ st ∈ g.stmts, simple st = true ∧ SubjectGood e.read st.subject ∧ IriGood e.read st.predicate := by
    rintro ⟨a, b, c⟩ hst
    obtain ⟨x, hx, t, h1, h2⟩ := forall₂_right hg _ hst
    obtain ⟨k1, k2, k3⟩ := triple_terms h2
    obtain ⟨g1, -, g3, -⟩ := entry_good he hsane h1
    refine ⟨?_, ?_, by show IriGood e.read b; rw [k2]; exact g3⟩
    · cases a <;> cases c <;> first | rfl | cases k1 | cases k3
    · cases a with
      | blank b => have : t.1 = .blank b := (Option.some.inj k1).symm; rw [this] at g1; exact g1
      | res j => have : t.1 = .iri j := (Option.some.inj k1).symm; rw [this] at g1; exact g1
      | stmt u => cases k1
  have hng : g.stmts ≠ [] := by
    obtain ⟨t, ht⟩ := List.exists_mem_of_ne_nil _ hne
    obtain ⟨x, hx, -⟩ := (hts t).1 ht
    obtain ⟨st, hst, -⟩ := forall₂_left hg x hx
    exact List.ne_nil_of_mem hst
  refine ⟨writeNt e.gen e.startWrite e.orders .bracketed false g, by
    simp only [cliMain, cliRead, hr, Res.toRun, Run.bind, cliWrite, Run.exit, hb], ?_⟩
  rintro ts' ⟨a, b, c, d1, d2, d3, d4, -⟩
  obtain ⟨g', hg', -⟩ := C83_reads e.read a b c hsane d1 d2 d3
  rw [← d4, C38_fails_bracketed e.read e.gen e.startWrite e.orders ho false g hgood hng] at hg'
  cases hg'

/-- C159, the full statement: a document of RDF/JSON, with printed characters, converted to N-Triples says what it said. -/
def C159_statement (sty : IriStyle) : Prop :=
  ∀ (e : CliEnv) (s : Str) (ts : List RdfTriple), e.sty = sty → StrictEnv e.read → SaneEnv e.read → e.orders.Fair →
    JsonSays e.read s ts → (∀ t ∈ ts, ∀ v, t.2.2.text = some v → Printed e.read.pr v) →
    ∃ out, cliMain e s (.convert .json .nTriples) = .success out ∧ NtSays e.read out ts

/-- C159, what holds: literals may have anything in them that is printed or written by one letter. -/
theorem C159_partial (e : CliEnv) (s : Str) (ts : List RdfTriple) (hb : e.sty = .bare) (he : StrictEnv e.read) (hsane : SaneEnv e.read)
    (ho : e.orders.Fair) (hs : JsonSays e.read s ts)
    (hp : ∀ t ∈ ts, ∀ v, t.2.2.text = some v → Printed e.read.pr v)
    (h : ∀ t ∈ ts, ∀ v d g, d ∈ DataType.iri :: unquotedTypes → t.2.2 ≠ .lit v (some d.asIri) g) :
    ∃ out, cliMain e s (.convert .json .nTriples) = .success out ∧ NtSays e.read out ts :=
  (C159_iff e s ts hb he hsane ho hs hp (fun t ht v d g hd e => absurd e (h t ht v d g (List.mem_cons_of_mem _ hd)))
    (fun t ht v g e => absurd e (h t ht v .iri g List.mem_cons_self))).2 h

/-- A document with one literal of a type. -/
def typedDoc (k v d : Str) : List (Str × Json) :=
  [(k, .obj [(str! "http://a/p", .arr [.obj [(str! "datatype", .str d), (str! "type", .str (str! "literal")),
    (str! "value", .str v)]])])]

theorem keyMeans_web : KeyMeans docEnv (str! "http://a/s") (.iri ⟨str! "http://a/s"⟩) := .inr ⟨fun b h => by simp at h, _, rfl, rfl⟩

theorem typedDoc_says {k v d : Str} {x : RdfTerm} (h1 : KeyMeans docEnv k x) (hd : docEnv.url d = some ⟨d⟩) :
    JsonSays docEnv (Json.text false 0 (.obj (typedDoc k v d))) [(x, ⟨str! "http://a/p"⟩, .lit v (some ⟨d⟩) none)] := by
  have hs : jParse (Json.text false 0 (.obj (typedDoc k v d))) = some (.obj (typedDoc k v d)) :=
    jParse_text _ _ (by simp [typedDoc, Json.Fits, Json.FitsAll, Json.FitsMembers, SortedKeys]; decide)
  have h2 : docEnv.url (str! "http://a/p") = some ⟨str! "http://a/p"⟩ := rfl
  have h3 : ValueMeans docEnv (.obj [(str! "datatype", .str d), (str! "type", .str (str! "literal")), (str! "value", .str v)])
      (.lit v (some ⟨d⟩) none) := ⟨_, str! "literal", v, rfl, rfl, rfl, .inr (.inr ⟨rfl, .inr (.inr ⟨d, _, rfl, rfl, hd, rfl⟩)⟩)⟩
  refine ⟨_, hs, ?_, fun t => ?_⟩
  · intro e he
    rw [typedDoc, List.mem_singleton] at he
    subst he
    refine ⟨⟨_, h1⟩, _, rfl, fun f hf => ?_⟩
    rw [List.mem_singleton] at hf
    subst hf
    refine ⟨⟨_, h2⟩, _, rfl, fun o ho => ?_⟩
    rw [List.mem_singleton] at ho
    subst ho
    exact ⟨_, h3⟩
  · rw [List.mem_singleton]
    constructor
    · rintro rfl
      exact ⟨_, List.mem_singleton.2 rfl, h1, h2, h3⟩
    · rintro ⟨e, he, h⟩
      cases List.mem_singleton.1 he
      exact C127_unique docEnv _ _ _ h ⟨h1, h2, h3⟩

/-- C159 fails in either style: an integer is written without quotes. -/
theorem C159_fails (sty : IriStyle) : ¬ C159_statement sty := by
  intro h
  have hd : docEnv.url DataType.int.asIri.text = some DataType.int.asIri := rfl
  have hs := typedDoc_says (v := ['1']) keyMeans_web hd
  have hp : ∀ t ∈ [((.iri ⟨str! "http://a/s"⟩, ⟨str! "http://a/p"⟩, .lit ['1'] (some ⟨DataType.int.asIri.text⟩) none) : RdfTriple)],
      ∀ v, t.2.2.text = some v → Printed docEnv.pr v := by
    intro t ht v hv
    cases List.mem_singleton.1 ht
    cases hv
    exact webCli_printed _ (by decide +kernel)
  obtain ⟨out, h1, h2⟩ := h (docCli sty) _ _ rfl docEnv_strict docEnv_sane sameOrder_fair hs hp
  cases sty with
  | bare =>
    refine (C159_iff (docCli .bare) _ _ rfl docEnv_strict docEnv_sane sameOrder_fair hs hp ?_ ?_).1 ⟨out, h1, h2⟩ _
      (List.mem_singleton.2 rfl) ['1'] .int none (by decide) rfl
    · intro t ht v d g _ e
      cases List.mem_singleton.1 ht
      have := (RdfTerm.lit.inj e).1
      subst this
      exact ⟨'1', [], (by decide +kernel : escapeString easyEnv.pr ['1'] = ['1']), by decide⟩
    · intro t ht v g e
      cases List.mem_singleton.1 ht
      simp only [RdfTerm.lit.injEq, Option.some.injEq] at e
      exact absurd e.2.1 (by decide +kernel)
  | bracketed =>
    obtain ⟨out', h1', h2'⟩ := C159_fails_bracketed (docCli .bracketed) _ _ rfl docEnv_strict docEnv_sane sameOrder_fair hs (by simp)
    rw [h1] at h1'
    cases h1'
    exact h2' _ h2

/-! A line break and a quote keep their meaning. -/

example : ∃ out, cliMain (docCli .bare) (Json.text false 0 (.obj (typedDoc (str! "http://a/s") (str! "a\n\"b") (str! "http://a/d")))) (.convert .json .nTriples) =
      .success out ∧
    NtSays docEnv out [(.iri ⟨str! "http://a/s"⟩, ⟨str! "http://a/p"⟩, .lit (str! "a\n\"b") (some ⟨str! "http://a/d"⟩) none)] := by
  refine C159_partial (docCli .bare) _ _ rfl docEnv_strict docEnv_sane sameOrder_fair (typedDoc_says keyMeans_web rfl) ?_ ?_
  · intro t ht v hv
    cases List.mem_singleton.1 ht
    cases hv
    exact webCli_printed _ (by decide +kernel)
  · intro t ht v d g hd e
    cases List.mem_singleton.1 ht
    simp only [RdfTerm.lit.injEq, Option.some.injEq] at e
    have := e.2.1
    clear e
    revert d
    decide +kernel

end Rdftk
