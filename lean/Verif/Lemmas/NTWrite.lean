import Verif.Lemmas.NTEval
import Verif.Spec.NTSafe
import Verif.Props.Expand
import Verif.Props.Graph
import Verif.Props.Literal

/-! Lemmas about the N-Triples writer. -/

namespace Rdftk

open Spec

/-- The gaps of a written line. -/
def ntGaps : Gaps := ⟨[' '], [' '], [' '], [' '], [], [], ['\n']⟩

def subjTerm : Subject → Term
  | .blank b => .blank b
  | .res i => .iri i.text
  | .stmt _ => .iri []

def litSuffix (l : Literal) : Suffix :=
  match l.dataType, l.language with
  | some t, none => .type t.asIri.text
  | none, some g => .lang g
  | _, _ => .none

def objObj : Object → Obj
  | .blank b => .term (.blank b)
  | .res i => .term (.iri i.text)
  | .lit l => .lit l.lexicalForm (litSuffix l)
  | _ => .term (.iri [])

def nameTerm : GraphName → Term
  | .bnode b => .blank b
  | .iri i => .iri i.text

/-- The line of a statement. -/
def stmtLine (n : Option GraphName) (st : Stmt) : Line :=
  ⟨subjTerm st.subject, st.predicate.text, objObj st.object, n.map nameTerm⟩

theorem tokens_of_chars {P : Str → Prop} {s : Str} (h : ∀ c ∈ s, P [c]) : Tokens P s := by
  refine ⟨s.map fun c => [c], ?_, ?_⟩
  · intro t ht
    obtain ⟨c, hc, rfl⟩ := List.mem_map.1 ht
    exact h c hc
  · induction s with
    | nil => rfl
    | cons c s ih =>
      simp only [List.map_cons, List.flatten_cons, List.cons_append, List.nil_append]
      rw [← ih fun x hx => h x (List.mem_cons_of_mem _ hx)]

theorem iriGood_text {env : ReadEnv} {i : Iri} (h : IriGood env i) : IriText i.text :=
  tokens_of_chars fun c hc => .inl ⟨c, h.1 c hc, rfl⟩

theorem subjTerm_valid {env : ReadEnv} {s : Subject} (h : SubjectGood env s) : (subjTerm s).Valid := by
  cases s with
  | blank b => exact h.1
  | res i => exact iriGood_text h
  | stmt t => exact h.elim

theorem nameTerm_valid {env : ReadEnv} {n : GraphName} (h : NameGood env n) : (nameTerm n).Valid := by
  cases n with
  | bnode b => exact h.1
  | iri i => exact iriGood_text h

theorem objObj_valid {env : ReadEnv} {alt : Bool} {o : Object} (h : ObjectGood env alt o) :
    (objObj o).Valid := by
  cases o with
  | blank b => exact h.1
  | res i => exact iriGood_text h
  | coll c => exact h.elim
  | stmt t => exact h.elim
  | lit l =>
    obtain ⟨h1, h2, h3, _⟩ := h
    refine ⟨h1, ?_⟩
    unfold litSuffix
    split
    · rename_i t e _; exact iriGood_text (h2 t e)
    · rename_i g _ e; exact (h3 g e).1
    · trivial

theorem stmtLine_valid {env : ReadEnv} {alt : Bool} {n : Option GraphName} {st : Stmt}
    (hn : ∀ x ∈ n, NameGood env x) (h : StmtGood env alt st) : (stmtLine n st).Valid := by
  cases st with
  | mk s p o =>
    refine ⟨subjTerm_valid h.1, iriGood_text h.2.1, objObj_valid h.2.2, ?_⟩
    intro t ht
    simp only [stmtLine, Option.mem_def, Option.map_eq_some_iff] at ht
    obtain ⟨x, hx, rfl⟩ := ht
    exact nameTerm_valid (hn x hx)

theorem ntGaps_valid (l : Line) : ntGaps.Valid l := by
  have sp : Gap [' '] := .ws (by simp) .nil
  have nl : Gap ['\n'] := .ws (by simp) .nil
  exact ⟨sp, sp, sp, sp, .nil, .nil, nl, fun _ => by simp [ntGaps], fun _ => by simp [ntGaps],
    fun _ _ _ => by simp [ntGaps]⟩

theorem mem_bareTypes (t : DataType) : t.isBare = true ↔ t ∈ bareTypes := by
  cases t <;> simp [DataType.isBare, bareTypes]

theorem subjTerm_text {env : ReadEnv} {s : Subject} (h : SubjectGood env s) :
    s.display .bare = (subjTerm s).text := by
  cases s with
  | blank b => rfl
  | res i => rfl
  | stmt t => exact h.elim

theorem objObj_text {env : ReadEnv} {alt : Bool} {o : Object} (h : ObjectGood env alt o) :
    o.display .bare alt = (objObj o).text ntGaps := by
  cases o with
  | blank b => simp [Object.display, objObj, Obj.text, Term.text]
  | res i => simp [Object.display, objObj, Obj.text, Term.text, Iri.fmt]
  | coll c => exact h.elim
  | stmt t => exact h.elim
  | lit l =>
    obtain ⟨_, _, _, h4⟩ := h
    have c1 : l.dataType ≠ some .iri := fun e => (h4 _ e).1 rfl
    have c2 : (!alt && (l.dataType.map DataType.isBare).getD false) = false := by
      cases alt with
      | true => rfl
      | false =>
        cases e : l.dataType with
        | none => rfl
        | some t =>
          simp only [Option.map_some, Option.getD_some, Bool.not_false, Bool.true_and]
          rw [Bool.eq_false_iff, ne_eq, mem_bareTypes]
          exact (h4 t e).2 rfl
    simp only [Object.display, Literal.display, if_neg c1, c2, Bool.false_eq_true, if_false]
    have e : objObj (.lit l) = .lit l.lexicalForm (litSuffix l) := rfl
    rw [e]
    unfold litSuffix Literal.suffix
    cases l.dataType <;> cases l.language <;> simp [Obj.text, Suffix.text, ntGaps, Iri.fmt]

theorem ntLine_text {env : ReadEnv} {alt : Bool} {st : Stmt} (h : StmtGood env alt st) :
    ntLine .bare alt st = (stmtLine none st).text ntGaps := by
  cases st with
  | mk s p o =>
    simp only [ntLine, Stmt.subject, Stmt.predicate, Stmt.object, subjTerm_text h.1,
      objObj_text h.2.2]
    simp [Line.text, stmtLine, ntGaps, graphText, Iri.fmt, Stmt.subject, Stmt.predicate, Stmt.object]

theorem nqLine_text {env : ReadEnv} {n : Option GraphName} {st : Stmt} (h : StmtGood env false st) :
    nqLine .bare n st = (stmtLine n st).text ntGaps := by
  cases n with
  | none => exact ntLine_text h
  | some n =>
    cases st with
    | mk s p o =>
      have hn : n.display .bare = (nameTerm n).text := by
        cases n with
        | bnode b => simp [GraphName.display, nameTerm, Term.text]
        | iri i => simp [GraphName.display, nameTerm, Term.text, Iri.fmt]
      simp only [nqLine, Stmt.subject, Stmt.predicate, Stmt.object, subjTerm_text h.1,
        objObj_text h.2.2, hn]
      simp [Line.text, stmtLine, ntGaps, graphText, Iri.fmt, Stmt.subject, Stmt.predicate, Stmt.object]

theorem flatMap_lines {α : Type _} (f : α → Str) (line : α → Line) (ls : List α)
    (h : ∀ x ∈ ls, f x = (line x).text ntGaps) :
    ls.flatMap f = linesText (ls.map fun x => (ntGaps, line x)) := by
  induction ls with
  | nil => rfl
  | cons x ls ih =>
    simp only [List.flatMap_cons, List.map_cons, linesText, h x List.mem_cons_self]
    rw [ih fun y hy => h y (List.mem_cons_of_mem _ hy)]

theorem lastGap_nil : LastGap [] := ⟨[], [], .nil, rfl, .inl rfl⟩

/-! ### Evaluation of written terms -/

theorem evalIri_good {env : ReadEnv} {i : Iri} (h : IriGood env i) : evalIri env i.text = .ok i := by
  have hb : ∀ c ∈ i.text, c ≠ '\\' := fun c hc e => by
    have := (h.1 c hc).2
    rw [e] at this; simp at this
  have hs : startsWith i.text '<' = false := by
    unfold startsWith
    cases e : i.text with
    | nil => rfl
    | cons c r =>
      have := (h.1 c (by simp [e])).2
      have hc : c ≠ '<' := fun e' => by rw [e'] at this; simp at this
      simpa using hc
  simp only [evalIri, (unescape_iff _ _).2 (decodes_no_backslash hb), Iri.fromStr, hs,
    Bool.false_and, Bool.false_eq_true, if_false, h.2]
  rfl

theorem label_not_prefixed {l : Str} (h : Label l) : stripPrefix (str! "_:") l = none := by
  obtain ⟨c, a, rfl, _, ha⟩ := label_cases h
  simp only [stripPrefix]
  split
  · cases a with
    | nil => rfl
    | cons d a =>
      simp only [stripPrefix]
      rw [if_neg]
      intro e
      subst e
      cases a with
      | nil => simp only [tailOk] at ha; revert ha; decide
      | cons x a =>
        simp only [tailOk, Bool.and_eq_true] at ha
        have := ha.1
        have e1 : isPnChars ':' = false := by decide
        have e2 : (':' == '.') = false := by decide
        simp [e1, e2] at this
  · rfl

theorem evalLabel_good {env : ReadEnv} {b : Str} (h : LabelGood env b) :
    evalNode env (.blank ('_' :: ':' :: b)) = .ok (.blank b) := by
  simp [evalNode, blankParse, blankValid, label_not_prefixed h.1, h.2, Res.ofOption, Res.bind]

theorem evalNode_good {env : ReadEnv} {s : Subject} (h : SubjectGood env s) :
    evalNode env (subjTerm s).raw = .ok s := by
  cases s with
  | blank b => exact evalLabel_good h
  | res i => simp [subjTerm, Term.raw, evalNode, evalIri_good h, Res.bind]
  | stmt t => exact h.elim

theorem evalName_good {env : ReadEnv} {n : GraphName} (h : NameGood env n) :
    ∃ s, evalNode env (nameTerm n).raw = .ok s ∧ GraphName.ofSubject s = .ok n := by
  cases n with
  | bnode b => exact ⟨_, evalLabel_good h, rfl⟩
  | iri i => exact ⟨.res i, by simp [nameTerm, Term.raw, evalNode, evalIri_good h, Res.bind], rfl⟩

theorem evalObject_good {env : ReadEnv} {alt : Bool} {o : Object} (h : ObjectGood env alt o) :
    evalObject env (objObj o).raw = .ok (rereadObject env.pr o) := by
  cases o with
  | blank b =>
    simp only [objObj, Obj.raw, Term.raw, evalObject, evalLabel_good h]
    rfl
  | res i => simp [objObj, Obj.raw, Term.raw, evalObject, evalNode, evalIri_good h, Res.bind,
      Subject.toObject, rereadObject]
  | coll c => exact h.elim
  | stmt t => exact h.elim
  | lit l =>
    obtain ⟨_, h2, h3, _⟩ := h
    simp only [objObj, Obj.raw, evalObject, rereadObject]
    unfold litSuffix reread
    cases e1 : l.dataType with
    | none =>
      cases e2 : l.language with
      | none => rfl
      | some g => simp [Suffix.raw, evalLiteral, (h3 g e2).2, Res.ofOption, Res.bind, Literal.withLanguage]
    | some t =>
      cases e2 : l.language with
      | none =>
        simp [Suffix.raw, evalLiteral, evalIri_good (h2 t e1), Res.bind, Literal.withDataType]
      | some g => rfl

theorem evalTriple_good {env : ReadEnv} {alt : Bool} {n : Option GraphName} {st : Stmt}
    (h : StmtGood env alt st) :
    evalTriple env (stmtLine n st).raw = .ok (rereadStmt env.pr st) := by
  cases st with
  | mk s p o =>
    simp [evalTriple, stmtLine, Line.raw, Stmt.subject, Stmt.predicate, Stmt.object,
      evalNode_good h.1, evalIri_good h.2.1, evalObject_good h.2.2, Res.bind, rereadStmt]

theorem evalTriples_good {env : ReadEnv} {alt : Bool} (ls : List Stmt)
    (h : ∀ st ∈ ls, StmtGood env alt st) (g : Graph) :
    evalTriples env g (ls.map fun st => (stmtLine none st).raw) =
      .ok ((ls.map (rereadStmt env.pr)).foldl Graph.insert g) := by
  induction ls generalizing g with
  | nil => rfl
  | cons st ls ih =>
    simp only [List.map_cons, evalTriples, evalTriple_good (h st List.mem_cons_self), Res.bind]
    exact ih (fun x hx => h x (List.mem_cons_of_mem _ hx)) _

theorem foldl_insert_default (ls : List Stmt) :
    (ls.foldl Graph.insert Graph.default).stmts = ls ∧
    (ls.foldl Graph.insert Graph.default).name = none := by
  have : ∀ (g : Graph) (l : List Stmt), g.statements = .nonUnique l → g.name = none →
      (ls.foldl Graph.insert g).stmts = l ++ ls ∧ (ls.foldl Graph.insert g).name = none := by
    induction ls with
    | nil => intro g l e hn; simp [Graph.stmts, e, Statements.iter, hn]
    | cons st ls ih =>
      intro g l e hn
      have := ih (g.insert st) (l ++ [st]) (by simp [Graph.insert, e, Statements.insert]) hn
      simpa using this
  simpa using this Graph.default [] rfl rfl

/-! ### The order of the loops -/

theorem visit_mem {o : Orders} (ho : o.Fair) (g : Graph) (st : Stmt) :
    st ∈ g.visit o ↔ st ∈ g.stmts := by
  obtain ⟨h1, h2, h3⟩ := ho
  have hp := C29_projections g
  simp only [Graph.visit, List.mem_flatMap, List.mem_map, (h1 _).mem_iff, (h2 _ _).mem_iff,
    (h3 _ _ _).mem_iff]
  constructor
  · rintro ⟨s, _, p, _, x, hx, rfl⟩
    exact (hp.2.2.2.2.2.2.2.2.2.2.2.2.1 s p x).1 hx
  · intro h
    cases st with
    | mk s p x =>
      exact ⟨s, (hp.1 s).2 ⟨_, h, rfl⟩, p, (hp.2.2.2.2.2.2.2.2.2.2.1 s p).2 ⟨x, h⟩, x,
        (hp.2.2.2.2.2.2.2.2.2.2.2.2.1 s p x).2 h, rfl⟩

theorem visit_nodup {o : Orders} (ho : o.Fair) (g : Graph) : (g.visit o).Nodup := by
  obtain ⟨h1, h2, h3⟩ := ho
  unfold Graph.visit List.Nodup
  rw [List.pairwise_flatMap]
  constructor
  · intro s _
    rw [List.pairwise_flatMap]
    constructor
    · intro p _
      rw [List.pairwise_map]
      have : (o.obj s p (g.objectsFor s p)).Nodup := (h3 s p _).nodup_iff.2 (setOf_nodup _)
      exact List.Pairwise.imp (fun hne e => hne (by injection e)) this
    · have : (o.pred s (g.predicatesFor s)).Nodup := (h2 s _).nodup_iff.2 (setOf_nodup _)
      refine List.Pairwise.imp ?_ this
      intro p q hpq x hx y hy e
      obtain ⟨a, _, rfl⟩ := List.mem_map.1 hx
      obtain ⟨b, _, rfl⟩ := List.mem_map.1 hy
      injection e with _ e _
      exact hpq e
  · have : (o.subj g.subjects).Nodup := (h1 _).nodup_iff.2 (setOf_nodup _)
    refine List.Pairwise.imp ?_ this
    intro p q hpq x hx y hy e
    obtain ⟨a, _, hx⟩ := List.mem_flatMap.1 hx
    obtain ⟨b, _, hy⟩ := List.mem_flatMap.1 hy
    obtain ⟨a, _, rfl⟩ := List.mem_map.1 hx
    obtain ⟨b, _, rfl⟩ := List.mem_map.1 hy
    injection e with e _ _
    exact hpq e

end Rdftk
