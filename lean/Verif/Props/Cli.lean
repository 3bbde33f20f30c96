import Verif.Model.Cli
import Verif.Props.NTMeaning
import Verif.Props.NTAccept
import Verif.Props.Json
import Verif.Props.Xml

/-! The commands: C85 to C87. -/

namespace Rdftk
open Spec

/-! ### What the N-Triples reader gives -/

/-- The crates used by the readers give IRIs, labels and language tags that follow the grammars
and are taken again as they are. -/
structure StrictEnv (env : ReadEnv) : Prop where
  url : ∀ t i, env.url t = some i → IriGood env i
  label : ∀ l, env.blankOk l = true → Label l
  lang : ∀ t g, env.lang t = some g → LangTag g ∧ env.lang g = some g

theorem label_no_bracket {l : Str} (h : Label l) : ']' ∉ l := by
  obtain ⟨⟨c, hc, e⟩, -⟩ := h
  have h0 : c ≠ ']' := by
    rintro rfl
    rcases hc with hc | hc
    · rw [← isPnCharsU_iff] at hc; revert hc; decide
    · revert hc; simp [Digit, InRanges]
  have hp : ¬ PN_CHARS ']' := by rw [← isPnChars_iff]; decide
  rcases e with rfl | ⟨m, d, rfl, h1, h2⟩
  · simpa using Ne.symm h0
  · simp only [List.mem_cons, List.mem_append, List.not_mem_nil, or_false, not_or]
    refine ⟨⟨Ne.symm h0, fun hm => ?_⟩, fun hd => hp (hd ▸ h2)⟩
    rcases h1 _ hm with h | h
    · exact hp h
    · exact absurd h (by decide)

theorem evalIri_strict {env : ReadEnv} (he : StrictEnv env) {s : Str} {i : Iri} (h : evalIri env s = .ok i) :
    IriGood env i := by
  unfold evalIri at h
  split at h
  · cases h
  · rename_i t _
    cases e : Iri.fromStr env.url t with
    | none => rw [e] at h; cases h
    | some j =>
      rw [e] at h
      cases h
      unfold Iri.fromStr at e
      split at e
      · exact he.url _ _ e
      · exact he.url _ _ e

theorem evalNode_strict {env : ReadEnv} (he : StrictEnv env) {n : RNode} {t : Str} {s : Subject}
    (ht : NodeText n t) (h : evalNode env n = .ok s) : SubjectGood env s := by
  cases n with
  | iri i =>
    simp only [evalNode] at h
    cases e : evalIri env i with
    | ok j => rw [e] at h; cases h; exact evalIri_strict he e
    | err => rw [e] at h; cases h
    | panic => rw [e] at h; cases h
  | blank b =>
    obtain ⟨rfl, ht⟩ := ht
    simp only [evalNode, blankParse] at h
    split at h
    · rename_i hv
      cases h
      unfold blankValid at hv
      split at hv
      · rename_i r e
        exfalso
        rcases ht with ⟨l, hl, rfl⟩ | ⟨g, -, rfl⟩
        · simp only [List.drop_succ_cons, List.drop_zero] at e
          rw [label_not_prefixed hl] at e
          cases e
        · refine label_no_bracket (he.label r hv) ?_
          have e := stripPrefix_join e
          cases g with
          | nil => cases e
          | cons c g =>
            have : ']' ∈ (str! "_:") ++ r := by rw [← e]; simp
            simpa using this
      · exact ⟨he.label _ hv, hv⟩
    · cases h

theorem quote_escape {pr : Char → Bool} {a : Str} (h : ∀ c ∈ a, pr c = true ∧ c ≠ '\x00' ∨ c ∈ (str! "\t\r\n")) :
    QuoteText (escapeString pr a) := by
  refine ⟨a.map (escapeChar pr), fun t ht => ?_, by simp [escapeString, List.flatMap_def]⟩
  obtain ⟨c, hc, rfl⟩ := List.mem_map.1 ht
  have h := h c hc
  unfold escapeChar
  split
  · rename_i e; subst e; simp at h
  split
  · exact .inr (.inr ⟨'t', by decide, rfl⟩)
  split
  · exact .inr (.inr ⟨'r', by decide, rfl⟩)
  split
  · exact .inr (.inr ⟨'n', by decide, rfl⟩)
  split
  · exact .inr (.inr ⟨'"', by decide, rfl⟩)
  split
  · exact .inr (.inr ⟨'\\', by decide, rfl⟩)
  split
  · exact .inl ⟨c, by simp [*], rfl⟩
  · rename_i h1 h2 h3 h4 h5 h6 h7
    rcases h with h | h
    · exact absurd h.1 h7
    · simp [h2, h3, h4] at h

/-- The characters are printed as they are or escaped by a letter. -/
def Printed (pr : Char → Bool) (s : Str) : Prop := ∀ c ∈ s, pr c = true ∧ c ≠ '\x00' ∨ c ∈ (str! "\t\r\n")

theorem evalObject_strict {env : ReadEnv} (he : StrictEnv env) {o : RObject} {t : Str} {y : Object}
    (ht : ObjectText o t) (hp : Printed env.pr t) (h : evalObject env o = .ok y) : ObjectGood env false y := by
  cases o with
  | node n =>
    simp only [evalObject] at h
    cases e : evalNode env n with
    | ok s =>
      rw [e] at h
      cases h
      have := evalNode_strict he ht e
      cases s with
      | blank b => exact this
      | res i => exact this
      | stmt => exact this
    | err => rw [e] at h; cases h
    | panic => rw [e] at h; cases h
  | lit a x =>
    obtain ⟨-, u, -, rfl⟩ := ht
    have hq : QuoteText (escapeString env.pr a) := quote_escape fun c hc => hp c (by simp [hc])
    cases x with
    | none =>
      cases h
      exact ⟨hq, by simp [Literal.plain], by simp [Literal.plain], by simp [Literal.plain]⟩
    | lang g =>
      simp only [evalObject, evalLiteral] at h
      cases e : env.lang g with
      | none => rw [e] at h; cases h
      | some k =>
        rw [e] at h
        cases h
        refine ⟨hq, by simp [Literal.withLanguage], fun t ht => ?_, by simp [Literal.withLanguage]⟩
        simp only [Literal.withLanguage, Option.some.injEq] at ht
        subst ht
        exact he.lang _ _ e
    | type i =>
      simp only [evalObject, evalLiteral] at h
      cases e : evalIri env i with
      | ok j =>
        rw [e] at h
        cases h
        refine ⟨hq, fun t ht => ?_, by simp [Literal.withDataType], fun t ht => ?_⟩
        · simp only [Literal.withDataType, Option.some.injEq] at ht
          subst ht
          exact evalIri_strict he e
        · simp only [Literal.withDataType, Option.some.injEq] at ht
          subst ht
          exact ⟨by simp, fun _ => by simp [bareTypes]⟩
      | err => rw [e] at h; cases h
      | panic => rw [e] at h; cases h

theorem evalNode_simple {env : ReadEnv} {n : RNode} {s : Subject} (h : evalNode env n = .ok s) :
    simpleSubject s = true ∧ simpleObject s.toObject = true := by
  cases n with
  | iri i =>
    simp only [evalNode] at h
    cases e : evalIri env i with
    | ok j => rw [e] at h; cases h; exact ⟨rfl, rfl⟩
    | err => rw [e] at h; cases h
    | panic => rw [e] at h; cases h
  | blank b =>
    simp only [evalNode] at h
    cases e : blankParse env.blankOk (b.drop 2) with
    | none => rw [e] at h; cases h
    | some c => rw [e] at h; cases h; exact ⟨rfl, rfl⟩

theorem evalObject_simple {env : ReadEnv} {o : RObject} {y : Object} (h : evalObject env o = .ok y) :
    simpleObject y = true := by
  cases o with
  | node n =>
    simp only [evalObject] at h
    cases e : evalNode env n with
    | ok s => rw [e] at h; cases h; exact (evalNode_simple e).2
    | err => rw [e] at h; cases h
    | panic => rw [e] at h; cases h
  | lit a x =>
    simp only [evalObject] at h
    cases e : evalLiteral env a x with
    | ok s => rw [e] at h; cases h; rfl
    | err => rw [e] at h; cases h
    | panic => rw [e] at h; cases h

theorem evalTriple_strict {env : ReadEnv} (he : StrictEnv env) {l : RLine} {t : Str} {st : Stmt}
    (ht : TripleText l t) (h : evalTriple env l = .ok st) :
    SubjectGood env st.subject ∧ IriGood env st.predicate ∧ simple st = true ∧
      (Printed env.pr t → ObjectGood env false st.object) := by
  obtain ⟨-, u, g, ⟨-, s, g1, g2, o, h1, -, -, h2, rfl⟩, -, rfl⟩ := ht
  unfold evalTriple at h
  cases e1 : evalNode env l.subject with
  | ok x =>
    cases e2 : evalIri env l.predicate with
    | ok p =>
      cases e3 : evalObject env l.object with
      | ok y =>
        simp only [e1, e2, e3, Res.bind] at h
        cases h
        refine ⟨evalNode_strict he h1 e1, evalIri_strict he e2, ?_, fun hp =>
          evalObject_strict he h2 (fun c hc => hp c (by simp [hc])) e3⟩
        simp [simple, Stmt.subject, Stmt.object, (evalNode_simple e1).1, evalObject_simple e3]
      | err => simp [e1, e2, e3, Res.bind] at h
      | panic => simp [e1, e2, e3, Res.bind] at h
    | err => simp [e1, e2, Res.bind] at h
    | panic => simp [e1, e2, Res.bind] at h
  | err => simp [e1, Res.bind] at h
  | panic => simp [e1, Res.bind] at h

theorem evalTriple_literal {env : ReadEnv} {l : RLine} {s : Subject} {p : Iri} {x : Literal}
    (h : evalTriple env l = .ok (.mk s p (.lit x))) :
    (∀ t, x.dataType = some t → ∃ i, t = .other i) ∧ (x.dataType = none ∨ x.language = none) := by
  obtain ⟨a, -, h⟩ := Res.bind_ok h
  obtain ⟨b, -, h⟩ := Res.bind_ok h
  obtain ⟨c, h1, h⟩ := Res.bind_ok h
  cases h
  cases e : l.object with
  | node n =>
    rw [e] at h1
    obtain ⟨y, -, h1⟩ := Res.bind_ok h1
    cases y <;> cases h1
  | lit t u =>
    rw [e] at h1
    obtain ⟨y, h2, h1⟩ := Res.bind_ok h1
    cases h1
    cases u with
    | none => cases h2; exact ⟨by simp [Literal.plain], .inl rfl⟩
    | lang g =>
      obtain ⟨z, -, h2⟩ := Res.bind_ok h2
      cases h2
      exact ⟨by simp [Literal.withLanguage], .inl rfl⟩
    | type i =>
      obtain ⟨z, -, h2⟩ := Res.bind_ok h2
      cases h2
      exact ⟨by simp [Literal.withDataType], .inr rfl⟩

theorem evalTriples_mem {env : ReadEnv} (ls : List RLine) (g g' : Graph) (h : evalTriples env g ls = .ok g')
    (st : Stmt) (hst : st ∈ g'.stmts) : st ∈ g.stmts ∨ ∃ l ∈ ls, evalTriple env l = .ok st := by
  induction ls generalizing g with
  | nil => cases h; exact .inl hst
  | cons l ls ih =>
    simp only [evalTriples] at h
    cases e : evalTriple env l with
    | ok x =>
      rw [e] at h
      rcases ih (g.insert x) h with h1 | ⟨m, hm, h1⟩
      · rw [insert_mem] at h1
        rcases h1 with h1 | rfl
        · exact .inl h1
        · exact .inr ⟨l, List.mem_cons_self, e⟩
      · exact .inr ⟨m, List.mem_cons_of_mem _ hm, h1⟩
    | err => rw [e] at h; cases h
    | panic => rw [e] at h; cases h

theorem linesText_mem {one : RLine → Str → Prop} {ls : List RLine} {s : Str} (h : LinesText one ls s) (l : RLine)
    (hl : l ∈ ls) : ∃ t, one l t ∧ ∀ c ∈ t, c ∈ s := by
  induction h with
  | last => cases hl
  | line _ h1 _ ih =>
    rcases List.mem_cons.1 hl with rfl | hl
    · exact ⟨_, h1, fun c hc => by simp [hc]⟩
    · obtain ⟨t, h2, h3⟩ := ih hl
      exact ⟨t, h2, fun c hc => by simp [h3 c hc]⟩

/-- What is read can be written. -/
theorem readNt_strict {env : ReadEnv} (he : StrictEnv env) {s : Str} {g : Graph} (h : readNt env s = .ok g)
    (st : Stmt) (hst : st ∈ g.stmts) :
    SubjectGood env st.subject ∧ IriGood env st.predicate ∧ simple st = true ∧
      (Printed env.pr s → ObjectGood env false st.object) := by
  unfold readNt at h
  split at h
  · cases h
  · rename_i ls e
    rcases evalTriples_mem ls _ _ h st hst with h1 | ⟨l, hl, h1⟩
    · cases h1
    · obtain ⟨t, ht, hs⟩ := linesText_mem (C71_accepted_partial s ls e) l hl
      obtain ⟨a, b, c, d⟩ := evalTriple_strict he ht h1
      exact ⟨a, b, c, fun hp => d fun c hc => hp c (hs c hc)⟩

/-! ### C87 -/

/-- A graph made by inserting statements into a new one. -/
def FromNew (g : Graph) : Prop := ∃ sts : List Stmt, g = sts.foldl Graph.insert Graph.default

theorem FromNew.default : FromNew Graph.default := ⟨[], rfl⟩

theorem FromNew.insert {g : Graph} (h : FromNew g) (st : Stmt) : FromNew (g.insert st) := by
  obtain ⟨sts, rfl⟩ := h
  exact ⟨sts ++ [st], by simp⟩

theorem FromNew.nameless {g : Graph} (h : FromNew g) : g.name = none ∧ g.mappings = Graph.default.mappings := by
  obtain ⟨sts, rfl⟩ := h
  have : ∀ g : Graph, (sts.foldl Graph.insert g).name = g.name ∧ (sts.foldl Graph.insert g).mappings = g.mappings := by
    induction sts with
    | nil => exact fun g => ⟨rfl, rfl⟩
    | cons x l ih => exact fun g => ih (g.insert x)
  exact this _

theorem evalTriples_fresh {env : ReadEnv} (ls : List RLine) (g g' : Graph) (hg : FromNew g)
    (h : evalTriples env g ls = .ok g') : FromNew g' := by
  induction ls generalizing g with
  | nil => cases h; exact hg
  | cons l ls ih =>
    obtain ⟨x, -, h⟩ := Res.bind_ok h
    exact ih _ (hg.insert x) h

theorem readNt_fresh {env : ReadEnv} {s : Str} {g : Graph} (h : readNt env s = .ok g) : FromNew g := by
  unfold readNt at h
  split at h
  · cases h
  · exact evalTriples_fresh _ _ _ .default h

theorem jsonReadObjects_fresh {env : ReadEnv} {s : Subject} {p : Iri} (l : List Json) (g g' : Graph)
    (hg : FromNew g) (h : jsonReadObjects env s p g l = .ok g') : FromNew g' := by
  induction l generalizing g with
  | nil => cases h; exact hg
  | cons v l ih =>
    obtain ⟨x, -, h⟩ := Res.bind_ok h
    exact ih _ (hg.insert _) h

theorem jsonReadPredicates_fresh {env : ReadEnv} {s : Subject} (m : List (Str × Json)) (g g' : Graph)
    (hg : FromNew g) (h : jsonReadPredicates env s g m = .ok g') : FromNew g' := by
  induction m generalizing g with
  | nil => cases h; exact hg
  | cons e m ih =>
    obtain ⟨p, v⟩ := e
    obtain ⟨g1, h1, h⟩ := Res.bind_ok h
    refine ih g1 ?_ h
    cases v with
    | arr l =>
      obtain ⟨q, -, h1⟩ := Res.bind_ok h1
      exact jsonReadObjects_fresh _ _ _ hg h1
    | _ => cases h1

theorem jsonReadSubjects_fresh {env : ReadEnv} (m : List (Str × Json)) (g g' : Graph)
    (hg : FromNew g) (h : jsonReadSubjects env g m = .ok g') : FromNew g' := by
  induction m generalizing g with
  | nil => cases h; exact hg
  | cons e m ih =>
    obtain ⟨s, v⟩ := e
    obtain ⟨g1, h1, h⟩ := Res.bind_ok h
    refine ih g1 ?_ h
    cases v with
    | obj l =>
      obtain ⟨q, -, h1⟩ := Res.bind_ok h1
      exact jsonReadPredicates_fresh _ _ _ hg h1
    | _ => cases h1

theorem readJson_fresh {env : ReadEnv} {s : Str} {g : Graph} (h : readJson env s = .ok g) : FromNew g := by
  unfold readJson at h
  split at h
  · cases h
  · rename_i v _
    cases v with
    | obj m => exact jsonReadSubjects_fresh m _ _ .default h
    | _ => cases h

theorem xmlPropertyAttributes_fresh {env : ReadEnv} {s : Subject} (as : List XAttr) (st st' : XmlState)
    (hg : FromNew st.graph) (h : xmlPropertyAttributes env s st as = .ok st') : FromNew st'.graph := by
  induction as generalizing st with
  | nil => cases h; exact hg
  | cons a as ih =>
    obtain ⟨p, -, h⟩ := Res.bind_ok h
    exact ih _ (hg.insert _) h

theorem xmlStep_fresh {env : ReadEnv} {sty : IriStyle} {gen : Nat → Str} {emit : Emit} {stack : List XmlFrame}
    {st : XmlState} {ev : XmlIn} {r : List XmlFrame × XmlState} (hg : FromNew st.graph)
    (h : xmlStep env sty gen emit stack st ev = .ok r) : FromNew r.2.graph := by
  cases stack with
  | nil =>
    cases ev with
    | start name attrs =>
      obtain ⟨a, -, h⟩ := Res.bind_ok h
      split at h
      · cases h; exact hg
      · cases h
    | bad => cases h
    | _ => cases h; exact hg
  | cons f rest =>
    cases f with
    | subject base =>
      cases ev with
      | start name attrs =>
        obtain ⟨a, h1, h⟩ := Res.bind_ok h
        cases h
        obtain ⟨b, -, h1⟩ := Res.bind_ok h1
        obtain ⟨sn, -, h1⟩ := Res.bind_ok h1
        obtain ⟨st', h2, h1⟩ := Res.bind_ok h1
        obtain ⟨st'', h3, h1⟩ := Res.bind_ok h1
        cases h1
        refine xmlPropertyAttributes_fresh _ _ _ ?_ h3
        split at h2
        · cases h2; exact hg
        · obtain ⟨t, -, h2⟩ := Res.bind_ok h2
          cases h2
          exact hg.insert _
      | bad => cases h
      | _ => cases h; exact hg
    | predicate base s noChild =>
      cases ev with
      | start name attrs =>
        simp only [xmlStep] at h
        split at h
        · cases h
        · obtain ⟨a, h1, h⟩ := Res.bind_ok h
          cases h
          obtain ⟨b, -, h1⟩ := Res.bind_ok h1
          split at h1
          · obtain ⟨p, -, h1⟩ := Res.bind_ok h1
            cases h1
            exact hg.insert _
          · split at h1 <;> first | (cases h1; exact hg) | cases h1
      | bad => cases h
      | _ => cases h; exact hg
    | object base s name a content e1 e2 =>
      cases ev with
      | start n attrs =>
        simp only [xmlStep] at h
        split at h
        · cases h
        · obtain ⟨b, -, h⟩ := Res.bind_ok h
          cases h
          exact hg
      | stop n =>
        obtain ⟨p, -, h⟩ := Res.bind_ok h
        cases h
        exact hg.insert _
      | chars t => simp only [xmlStep] at h; split at h <;> cases h; exact hg
      | cdata t => simp only [xmlStep] at h; split at h <;> cases h; exact hg
      | bad => cases h
      | _ => cases h; exact hg
    | literal s name opened content =>
      cases ev with
      | stop n =>
        simp only [xmlStep] at h
        split at h
        · cases h
        · split at h
          · cases h
          · obtain ⟨p, -, h⟩ := Res.bind_ok h
            cases h
            exact hg.insert _
        · cases h; exact hg
      | bad => cases h
      | _ => cases h; exact hg

theorem xmlRun_fresh {env : ReadEnv} {sty : IriStyle} {gen : Nat → Str} {emit : Emit} (evs : List XmlIn)
    (stack : List XmlFrame) (st : XmlState) (g : Graph) (hg : FromNew st.graph)
    (h : xmlRun env sty gen emit stack st evs = .ok g) : FromNew g := by
  induction evs generalizing stack st with
  | nil =>
    cases stack with
    | nil => cases h; exact hg
    | cons => cases h
  | cons ev evs ih =>
    have h' : (match xmlStep env sty gen emit stack st ev with
        | .ok (stack', st') => xmlRun env sty gen emit stack' st' evs
        | .err => .err
        | .panic => .panic) = Run.ok g := by
      cases stack <;> exact h
    clear h
    split at h'
    · rename_i e
      exact ih _ _ (xmlStep_fresh hg e) h'
    · cases h'
    · cases h'

theorem Res.toRun_ok {α : Type} {r : Res α} {a : α} (h : r.toRun = .ok a) : r = .ok a := by
  cases r <;> cases h; rfl

/-- C87: a graph read by any command has no name and only the prefixes of a new graph. -/
theorem C87_fresh (e : CliEnv) (s : Str) (r : Representation) (g : Graph) (h : cliRead e s r = .ok g) :
    g.name = none ∧ g.mappings = Graph.default.mappings := by
  apply FromNew.nameless
  cases r with
  | json => exact readJson_fresh (Res.toRun_ok h)
  | nTriples => exact readNt_fresh (Res.toRun_ok h)
  | xml => exact xmlRun_fresh _ _ _ _ .default h
  | _ => cases h

/-! ### C86 -/

/-- C86: conversion to TriG loses every statement, whatever was read. -/
theorem C86_fails_trig (e : CliEnv) (s : Str) (r : Representation) (g : Graph) (h : cliRead e s r = .ok g) :
    cliMain e s (.convert r .trig) = .success (str! "{\n}\n") := by
  simp [cliMain, h, Run.bind, cliWrite, Run.exit, writeTrigGraph, (C87_fresh e s r g h).1]

/-- C86, the full statement: what was written by a conversion is read as the same graph. -/
def C86_statement (sty : IriStyle) (target : Representation) : Prop :=
  ∀ (e : CliEnv) (s : Str) (source : Representation) (g : Graph), e.sty = sty → StrictEnv e.read →
    AsciiPrintable e.read.pr → e.orders.Fair → cliRead e s source = .ok g →
    ∃ out g', cliMain e s (.convert source target) = .success out ∧ cliRead e out target = .ok g' ∧
      ∀ st, st ∈ g'.stmts ↔ st ∈ g.stmts

/-- C86: N-Triples converted from N-Triples, in the style the code has: no document with a
statement is read again. -/
theorem C86_fails_bracketed (e : CliEnv) (s : Str) (g : Graph) (hb : e.sty = .bracketed) (he : StrictEnv e.read)
    (ho : e.orders.Fair) (h : readNt e.read s = .ok g) (hne : g.stmts ≠ []) :
    ∃ out, cliMain e s (.convert .nTriples .nTriples) = .success out ∧ readNt e.read out = .err := by
  refine ⟨_, by simp only [cliMain, cliRead, h, Res.toRun, Run.bind, cliWrite, Run.exit, hb]; rfl, ?_⟩
  exact C38_fails_bracketed e.read e.gen e.startWrite e.orders ho false g (fun st hst => by
    obtain ⟨a, b, c, -⟩ := readNt_strict he h st hst
    exact ⟨c, a, b⟩) hne

/-- C86: N-Quads converted from N-Triples: no document with a statement is read, in any style. -/
theorem C86_fails_quads (e : CliEnv) (s : Str) (g : Graph) (he : StrictEnv e.read) (ho : e.orders.Fair)
    (hp : Printed e.read.pr s) (h : readNt e.read s = .ok g) (hne : g.stmts ≠ []) :
    ∃ out, cliMain e s (.convert .nTriples .nQuads) = .success out ∧ readNq e.read out = .err := by
  have hname := (readNt_fresh h).nameless.1
  refine ⟨(writeNqGraph e.gen e.startWrite e.orders e.sty g).1,
    by simp only [cliMain, cliRead, h, Res.toRun, Run.bind, cliWrite, Run.exit], ?_⟩
  let d : DataSet := ⟨[(none, g)]⟩
  have hd : d.ok := ⟨by intro x hx; rw [List.mem_singleton.1 hx]; exact hname.symm, by simp [d]⟩
  have hall : ∀ x ∈ d.allGraphs, x = g := fun x hx => List.mem_singleton.1 hx
  have hw : (writeNqGraph e.gen e.startWrite e.orders e.sty g).1 =
      writeNq e.gen e.startWrite (fun _ => e.orders) e.sty d := by
    simp [writeNq, d, DataSet.allGraphs, writeNqGraphs]
  rw [hw]
  cases hs : e.sty with
  | bare =>
    refine C41_fails_default e.read e.gen e.startWrite _ (fun _ => ho) d hd (fun x hx => ?_) hne
    rw [hall x hx]
    refine ⟨fun n hn => (by rw [hname] at hn; cases hn), fun st hst => ?_⟩
    obtain ⟨a, b, c, o⟩ := readNt_strict he h st hst
    obtain ⟨x, y, z⟩ := st
    exact ⟨a, b, o hp⟩
  | bracketed =>
    refine C41_fails_bracketed e.read e.gen e.startWrite _ (fun _ => ho) d (fun x hx st hst => ?_)
      ⟨g, List.mem_singleton.2 rfl, hne⟩
    rw [hall x hx] at hst
    obtain ⟨a, b, c, -⟩ := readNt_strict he h st hst
    exact ⟨c, a, b⟩

/-- C86: RDF/JSON converted from anything, in the style the code has: no graph with an IRI as
subject is read again. -/
theorem C86_fails_json (e : CliEnv) (s out : Str) (source : Representation) (g g' : Graph) (st : Stmt) (i : Iri)
    (hb : e.sty = .bracketed) (hu : ∀ t, e.read.url ('<' :: t) = none) (ho : e.orders.Fair)
    (h : cliRead e s source = .ok g) (hst : st ∈ g.stmts) (hi : st.subject = .res i)
    (hout : cliMain e s (.convert source .json) = .success out) : readJson e.read out ≠ .ok g' := by
  simp only [cliMain, h, Run.bind, cliWrite, hb] at hout
  cases hw : writeJson e.gen e.startWrite e.orders .bracketed false g with
  | none => rw [hw] at hout; cases hout
  | some t =>
    rw [hw] at hout
    cases hout
    exact C43_fails_bracketed e.read hu e.gen e.startWrite e.orders ho false g g' out st i hst hi hw

/-- C86 for N-Triples and IRIs printed without brackets: the graph is kept if and only if no
literal has anything to escape. -/
theorem C86_iff (e : CliEnv) (s : Str) (g : Graph) (hb : e.sty = .bare) (he : StrictEnv e.read)
    (ho : e.orders.Fair) (hp : Printed e.read.pr s) (h : readNt e.read s = .ok g) :
    (∃ out g', cliMain e s (.convert .nTriples .nTriples) = .success out ∧ readNt e.read out = .ok g' ∧
      ∀ st, st ∈ g'.stmts ↔ st ∈ g.stmts) ↔
    ∀ x p l, Stmt.mk x p (.lit l) ∈ g.stmts → escapeString e.read.pr l.lexicalForm = l.lexicalForm := by
  have hg : ∀ st ∈ g.stmts, StmtGood e.read false st := fun st hst => by
    obtain ⟨a, b, c, o⟩ := readNt_strict he h st hst
    obtain ⟨x, y, z⟩ := st
    exact ⟨a, b, o hp⟩
  have hl : ∀ x p l, Stmt.mk x p (.lit l) ∈ g.stmts →
      (∀ t, l.dataType = some t → ∃ i, t = .other i) ∧ (l.dataType = none ∨ l.language = none) := by
    intro x p l hx
    unfold readNt at h
    split at h
    · cases h
    · rcases evalTriples_mem _ _ _ h _ hx with h1 | ⟨m, -, h1⟩
      · cases h1
      · exact evalTriple_literal h1
  have hm : cliMain e s (.convert .nTriples .nTriples) =
      .success (writeNt e.gen e.startWrite e.orders .bare false g) := by
    simp only [cliMain, cliRead, h, Res.toRun, Run.bind, cliWrite, Run.exit, hb]
  have := C38_iff e.read e.gen e.startWrite e.orders ho false g hg
  constructor
  · rintro ⟨out, g', h1, h2, h3⟩ x p l hx
    rw [hm] at h1
    cases h1
    exact (this.1 ⟨g', h2, h3⟩ x p l hx).1
  · intro h1
    obtain ⟨g', h2, h3⟩ := this.2 fun x p l hx => ⟨h1 x p l hx, hl x p l hx⟩
    exact ⟨_, g', hm, h2, h3⟩

/-- C86, what holds: with IRIs printed without brackets, the graph of an N-Triples document is
kept if no literal has anything to escape. -/
theorem C86_keeps_partial (e : CliEnv) (s : Str) (g : Graph) (hb : e.sty = .bare) (he : StrictEnv e.read)
    (ho : e.orders.Fair) (hp : Printed e.read.pr s) (h : readNt e.read s = .ok g)
    (hl : ∀ x p l, Stmt.mk x p (.lit l) ∈ g.stmts → escapeString e.read.pr l.lexicalForm = l.lexicalForm) :
    ∃ out g', cliMain e s (.convert .nTriples .nTriples) = .success out ∧ readNt e.read out = .ok g' ∧
      ∀ st, st ∈ g'.stmts ↔ st ∈ g.stmts :=
  (C86_iff e s g hb he ho hp h).2 hl

/-- An environment that is strict. -/
def strictEnv : ReadEnv :=
  ⟨easyEnv.pr,
   fun s => if s.all (fun c => decide (0x20 < c.toNat) && decide (c ∉ (str! "<>\"{}|^`\\"))) then some ⟨s⟩ else none,
   fun t => if t = str! "en" then some t else none,
   fun l => l == str! "b"⟩

theorem strictEnv_strict : StrictEnv strictEnv where
  url := by
    intro t i h
    simp only [strictEnv] at h
    split at h
    · rename_i ht
      cases h
      exact ⟨(plain_chars ht).1, if_pos ht⟩
    · cases h
  label := by
    intro l h
    have h : l = str! "b" := by simpa [strictEnv] using h
    subst h
    refine ⟨⟨'b', .inl ((isPnCharsU_iff _).1 (by decide)), .inl rfl⟩, ?_⟩
    intro a b e
    rcases a with _ | ⟨x, a⟩
    · simp at e
    · simp at e
  lang := by
    intro t g h
    simp only [strictEnv] at h
    split at h
    · rename_i ht
      cases h
      subst ht
      refine ⟨⟨str! "en", [], by simp, by simp, ?_, by simp⟩, rfl⟩
      intro c hc
      rw [← isAsciiAlpha_iff]
      revert c
      decide
    · cases h

/-- An environment of the commands. -/
def easyCli (sty : IriStyle) : CliEnv :=
  ⟨strictEnv, sty, blankGen, 0, 0, sameOrder, id, fun _ => [], fun _ => none, fun _ => [], 0⟩

/-- A document of one statement, with an escape in a literal. -/
def escapedDoc : Str := str! "<a:s> <a:p> \"\\n\" .\n"

theorem escapedDoc_read (sty : IriStyle) : readNt (easyCli sty).read escapedDoc =
    .ok (Graph.default.insert (.mk (.res ⟨str! "a:s"⟩) ⟨str! "a:p"⟩ (.lit ⟨str! "\\\\n", none, none⟩))) := rfl

theorem escapedDoc_printed (sty : IriStyle) : Printed (easyCli sty).read.pr escapedDoc := by
  have : ∀ c ∈ escapedDoc, strictEnv.pr c = true ∧ c ≠ '\x00' ∨ c ∈ (str! "\t\r\n") := by decide +kernel
  exact this

/-- C86 fails for N-Triples in either style. -/
theorem C86_fails (sty : IriStyle) : ¬ C86_statement sty .nTriples := by
  intro h
  have hr := escapedDoc_read sty
  obtain ⟨out, g', h1, h2, h3⟩ := h (easyCli sty) escapedDoc .nTriples _ rfl strictEnv_strict easyEnv_ascii
    sameOrder_fair (by simp only [cliRead, hr]; rfl)
  have h2 := Res.toRun_ok h2
  cases sty with
  | bare =>
    have := (C86_iff (easyCli .bare) escapedDoc _ rfl strictEnv_strict sameOrder_fair (escapedDoc_printed _) hr).1
      ⟨out, g', h1, h2, h3⟩ _ _ _ (List.mem_singleton.2 rfl)
    exact absurd this (by decide)
  | bracketed =>
    obtain ⟨out', h4, h5⟩ := C86_fails_bracketed (easyCli .bracketed) escapedDoc _ rfl strictEnv_strict
      sameOrder_fair hr (by simp [Graph.default, Graph.insert, Graph.stmts, Statements.insert, Statements.iter])
    rw [h1] at h4
    cases h4
    rw [h2] at h5
    cases h5

/-! ### C85 -/

/-- C85, the full statement: every command returns with an exit code. -/
def C85_statement : Prop := ∀ (e : CliEnv) (s : Str) (c : CliCommand), cliMain e s c ≠ .panic ∧ cliMain e s c ≠ .deep

/-- C85 fails: the command for namespaces is not written. -/
theorem C85_fails : ¬ C85_statement := fun h => (h (easyCli .bare) [] .namespaces).1 rfl

/-- The representations that are not read at all. -/
def unreadable : List Representation := [.jsonLd, .n3, .nQuads, .trig, .turtle]

/-- C85: conversion from five of the eight representations panics on every input. -/
theorem C85_fails_source (e : CliEnv) (s : Str) (source target : Representation) (h : source ∈ unreadable) :
    cliMain e s (.convert source target) = .panic := by
  revert h
  cases source <;> simp [unreadable, cliMain, cliRead, Run.bind, Run.exit]

/-- C85: when the reader of N-Triples or RDF/JSON panics, so does the conversion, and when it refuses the input, so does the
conversion. -/
theorem C85_reader (e : CliEnv) (s : Str) (target : Representation) :
    (readNt e.read s = .panic → cliMain e s (.convert .nTriples target) = .panic) ∧
    (readNt e.read s = .err → cliMain e s (.convert .nTriples target) = .failure) ∧
    (readJson e.read s = .panic → cliMain e s (.convert .json target) = .panic) ∧
    (readJson e.read s = .err → cliMain e s (.convert .json target) = .failure) := by
  refine ⟨fun h => ?_, fun h => ?_, fun h => ?_, fun h => ?_⟩ <;> simp [cliMain, cliRead, h, Res.toRun, Run.bind, Run.exit]

/-- C85: conversion to two of the eight representations never succeeds; it fails exactly when the
input cannot be read and panics when it can. -/
theorem C85_fails_target (e : CliEnv) (s : Str) (source target : Representation)
    (h : target = .jsonLd ∨ target = .n3) :
    (∀ out, cliMain e s (.convert source target) ≠ .success out) ∧
    (cliMain e s (.convert source target) = .panic ↔ cliRead e s source = .panic ∨ ∃ g, cliRead e s source = .ok g) := by
  cases hr : cliRead e s source <;> rcases h with rfl | rfl <;>
    simp [cliMain, hr, Run.bind, Run.exit, cliWrite]

/-- C85: conversion to N-Triples, N-Quads, TriG or RDF/JSON panics exactly when reading does. -/
theorem C85_convert_iff (e : CliEnv) (s : Str) (source target : Representation)
    (h : target ∈ [Representation.nTriples, .nQuads, .trig, .json]) :
    (cliMain e s (.convert source target) = .panic ↔ cliRead e s source = .panic) ∧
    (cliMain e s (.convert source target) = .deep ↔ cliRead e s source = .deep) := by
  cases hr : cliRead e s source with
  | ok g =>
    have : ∃ x : Option Str, cliWrite e g target = Run.ofOption x := by
      simp only [List.mem_cons, List.not_mem_nil, or_false] at h
      rcases h with rfl | rfl | rfl | rfl
      · exact ⟨some _, rfl⟩
      · exact ⟨some _, rfl⟩
      · exact ⟨some _, rfl⟩
      · exact ⟨_, rfl⟩
    obtain ⟨x, hx⟩ := this
    simp only [cliMain, hr, Run.bind, hx]
    cases x <;> simp [Run.ofOption, Run.exit]
  | _ => simp [cliMain, hr, Run.bind, Run.exit]

/-- C85, what holds: N-Triples without impossible escapes are converted to these, or refused. -/
theorem C85_nt_partial (e : CliEnv) (s : Str) (target : Representation) (hs : GoodEscapes s)
    (h : target ∈ [Representation.nTriples, .nQuads, .trig, .json]) :
    cliMain e s (.convert .nTriples target) ≠ .panic ∧ cliMain e s (.convert .nTriples target) ≠ .deep := by
  obtain ⟨h1, h2⟩ := C85_convert_iff e s .nTriples target h
  rw [Ne, h1, Ne, h2]
  have := (C39_good_escapes_partial e.read s hs).1
  constructor
  · intro hr
    cases e' : readNt e.read s with
    | panic => exact this e'
    | ok => rw [cliRead, e'] at hr; cases hr
    | err => rw [cliRead, e'] at hr; cases hr
  · intro hr
    cases e' : readNt e.read s with
    | panic => exact this e'
    | ok => rw [cliRead, e'] at hr; cases hr
    | err => rw [cliRead, e'] at hr; cases hr

/-- C85: a diagram of a data set is refused without any output; three other representations
panic on every input. -/
theorem C85_draw (e : CliEnv) (s : Str) (source : Representation) :
    (source ∈ [Representation.nQuads, .trig] → cliMain e s (.draw source) = .failure) ∧
    (source ∈ [Representation.jsonLd, .n3, .turtle] → cliMain e s (.draw source) = .panic) := by
  cases source <;> simp [cliMain, Representation.isDataSet, cliRead, Run.bind, Run.exit]

/-- C85: an input that is no document of the representation is a failure of the command. -/
theorem C85_refused (e : CliEnv) (s : Str) (source target : Representation) (h : cliRead e s source = .err) :
    cliMain e s (.convert source target) = .failure ∧ cliMain e s (.draw source) = .failure := by
  cases hd : source.isDataSet <;> simp [cliMain, h, hd, Run.bind, Run.exit]

/-- C85: a command succeeds exactly with the text that the writer makes of the graph that was read. -/
theorem C85_success (e : CliEnv) (s out : Str) (source target : Representation) :
    (cliMain e s (.convert source target) = .success out ↔
      ∃ g, cliRead e s source = .ok g ∧ cliWrite e g target = .ok out) ∧
    (cliMain e s (.draw source) = .success out ↔
      ∃ g m, cliRead e s source = .ok g ∧ writeDot e.sty e.nodeOrder DotOptions.default [] g = .ok (out, m)) := by
  constructor
  · simp only [cliMain]
    cases hr : cliRead e s source with
    | ok g => cases hw : cliWrite e g target <;> simp [Run.bind, Run.exit, hw]
    | _ => simp [Run.bind, Run.exit]
  · simp only [cliMain]
    split
    · rename_i hd
      have : cliRead e s source = .panic := by cases source <;> first | rfl | cases hd
      simp [this]
    · cases hr : cliRead e s source with
      | ok g =>
        simp only [Run.bind]
        cases hw : writeDot e.sty e.nodeOrder DotOptions.default [] g with
        | ok r => obtain ⟨a, b⟩ := r; simp [Run.exit, hw]
        | panic => simp [Run.exit, hw]
      | _ => simp [Run.bind, Run.exit]

/-! ### Cases -/

example : cliMain (easyCli .bare) (str! "<a:s> <a:p> _:b .") (.convert .nTriples .nTriples) =
    .success (str! "<a:s> <a:p> _:b .\n") := by decide +kernel

example : cliMain (easyCli .bracketed) (str! "<a:s> <a:p> _:b .") (.convert .nTriples .nQuads) =
    .success (str! "<<a:s>> <<a:p>> _:b .\n") := by decide +kernel

example : cliMain (easyCli .bare) (str! "<a:s> <a:p>") (.convert .nTriples .json) = .failure := by decide +kernel

end Rdftk
