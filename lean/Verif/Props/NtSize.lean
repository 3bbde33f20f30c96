import Verif.Spec.TextSize
import Verif.Lemmas.NTEval
import Verif.Lemmas.NTWrite
import Verif.Lemmas.PegNtDoc
import Verif.Props.Expand
import Verif.Props.Cli
import Verif.Props.Again
import Mathlib.Data.Nat.Digits.Defs

/-! How long the N-Triples text of a document of N-Triples is. -/

namespace Rdftk

open Spec

/-! ### What is matched is no longer than the text -/

/-- The length of a node in a document. -/
def RNode.size : RNode → Nat
  | .iri i => i.length + 2
  | .blank t => max 2 t.length

/-- The length of what follows a string. -/
def RSuffix.size : RSuffix → Nat
  | .none => 0
  | .lang t => t.length + 1
  | .type i => i.length + 4

/-- The length of an object in a document. -/
def RObject.size : RObject → Nat
  | .node n => n.size
  | .lit a x => a.length + 2 + x.size

/-- The length of a line without white space. -/
def RLine.size (l : RLine) : Nat := l.subject.size + (l.predicate.length + 2) + l.object.size + 1

theorem rep_length (step : Str → Option Nat) (k : Nat) (s : Str) : (rep step k s).1.length + (rep step k s).2.length = s.length := by
  induction s generalizing k with
  | nil => cases k <;> rfl
  | cons c s ih =>
    cases k with
    | succ k => have := ih k; simp only [rep, List.length_cons]; omega
    | zero =>
      simp only [rep]
      split
      · simp
      · rename_i n _
        have := ih (n - 1); simp only [List.length_cons]; omega

theorem skip_length (b : Bool) (s : Str) : (skip b s).length ≤ s.length := (skip_suffix b s).length_le

theorem pIriRef_size {s a r : Str} (h : pIriRef s = some (a, r)) : a.length + 2 + r.length ≤ s.length := by
  rw [pIriRef_join h]; simp; omega

theorem pLabel_size {s a r : Str} (h : pLabel s = some (a, r)) : max 2 a.length + r.length ≤ s.length := by
  unfold pLabel at h
  split at h
  · rename_i c t
    split at h
    · simp only [Option.some.injEq, Prod.mk.injEq] at h
      have := rep_length labelTailLen 0 t
      rw [h.2] at this
      rw [← h.1]
      simp only [List.length_cons]
      omega
    · cases h
  · cases h

theorem pAnon_size {s a r : Str} (h : pAnon s = some (a, r)) : max 2 a.length + r.length ≤ s.length := by
  unfold pAnon at h
  split at h
  · rename_i t
    split at h
    · rename_i x e
      simp only [Option.some.injEq, Prod.mk.injEq] at h
      obtain ⟨rfl, rfl⟩ := h
      have := skip_length false t
      rw [e] at this
      simp only [List.length_cons, List.length_take] at *
      omega
    · cases h
  · cases h

theorem pSubject_size {s r : Str} {n : RNode} (h : pSubject s = some (n, r)) : n.size + r.length ≤ s.length := by
  unfold pSubject at h
  split at h
  · rename_i e
    simp only [Option.some.injEq, Prod.mk.injEq] at h
    obtain ⟨rfl, rfl⟩ := h
    exact pIriRef_size e
  · simp only [Option.map_eq_some_iff, pBlank, Option.or_eq_some_iff] at h
    obtain ⟨⟨b, x⟩, h1, h2⟩ := h
    simp only [Prod.mk.injEq] at h2
    obtain ⟨rfl, rfl⟩ := h2
    rcases h1 with h1 | ⟨_, h1⟩
    · exact pLabel_size h1
    · exact pAnon_size h1

theorem pSuffix_size (s : Str) : (pSuffix s).1.size + (pSuffix s).2.length ≤ s.length := by
  unfold pSuffix
  split
  · rename_i t r e
    unfold pLangTag at e
    split at e
    · rename_i x
      simp only at e
      split at e
      · cases e
      · simp only [Option.some.injEq, Prod.mk.injEq] at e
        have h1 := rep_length subTagLen 0 (x.dropWhile isAsciiAlpha)
        have h2 := congrArg List.length (List.takeWhile_append_dropWhile (p := isAsciiAlpha) (l := x))
        rw [e.2] at h1
        rw [← e.1]
        simp only [RSuffix.size, List.length_cons, List.length_append] at *
        omega
    · cases e
  · split
    · rename_i r e
      have hs : s = str! "^^" ++ r := stripPrefix_join e
      split
      · rename_i i r' e'
        have h1 := pIriRef_size e'
        have h2 := skip_length false r
        rw [hs]
        simp [RSuffix.size]
        omega
      · simp [RSuffix.size]
    · simp [RSuffix.size]

theorem pObject_size {s r : Str} {o : RObject} (h : pObject s = some (o, r)) : o.size + r.length ≤ s.length := by
  unfold pObject at h
  split at h
  · rename_i e
    simp only [Option.some.injEq, Prod.mk.injEq] at h
    obtain ⟨rfl, rfl⟩ := h
    exact pSubject_size e
  · split at h
    · rename_i a x e
      simp only [Option.some.injEq, Prod.mk.injEq] at h
      obtain ⟨rfl, rfl⟩ := h
      have h1 := congrArg List.length (pString_join e)
      have h2 := pSuffix_size (skip false x)
      have h3 := skip_length false x
      simp only [RObject.size, List.length_cons, List.length_append, List.length_nil] at *
      omega
    · cases h

theorem pEnd_size {s r : Str} (h : pEnd s = some r) : r.length + 1 ≤ s.length := by
  unfold pEnd at h
  split at h
  · rename_i z e
    simp only [Option.some.injEq] at h
    have := skip_length false s
    rw [e, h] at this
    simpa using this
  · cases h

theorem pTerms_size {s r : Str} {a : RNode} {b : Str} {c : RObject} (h : pTerms s = some ((a, b, c), r)) :
    a.size + (b.length + 2) + c.size + r.length ≤ s.length := by
  unfold pTerms at h
  split at h
  · cases h
  · rename_i e1
    split at h
    · cases h
    · rename_i e2
      split at h
      · cases h
      · rename_i e3
        simp only [Option.some.injEq, Prod.mk.injEq] at h
        obtain ⟨⟨rfl, rfl, rfl⟩, rfl⟩ := h
        have g1 := pSubject_size e1
        have g2 := (skip_length false _).trans' (pIriRef_size e2)
        have g3 := (skip_length false _).trans' (pObject_size e3)
        omega

theorem pTriple_size {s r : Str} {l : RLine} (h : pTriple s = some (l, r)) : l.size + r.length ≤ s.length := by
  unfold pTriple at h
  split at h
  · cases h
  · rename_i e
    simp only [Option.map_eq_some_iff] at h
    obtain ⟨y, h1, h2⟩ := h
    simp only [Prod.mk.injEq] at h2
    obtain ⟨rfl, rfl⟩ := h2
    have g1 := pTerms_size e
    have g2 := pEnd_size h1
    simp only [RLine.size]
    omega

/-- The length of a line with its graph. -/
def RLine.quadSize (l : RLine) : Nat := l.size + (l.graph.map RNode.size).getD 0

theorem pQuad_size {s r : Str} {l : RLine} (h : pQuad s = some (l, r)) : l.quadSize + r.length ≤ s.length := by
  unfold pQuad at h
  split at h
  · cases h
  · rename_i e
    have g1 := pTerms_size e
    split at h
    · rename_i e2
      have g3 := (skip_length false _).trans' (pSubject_size e2)
      simp only [Option.map_eq_some_iff] at h
      obtain ⟨y, h1, h2⟩ := h
      simp only [Prod.mk.injEq] at h2
      obtain ⟨rfl, rfl⟩ := h2
      have g2 := pEnd_size h1
      simp only [RLine.quadSize, RLine.size, Option.map_some, Option.getD_some]
      omega
    · simp only [Option.map_eq_some_iff] at h
      obtain ⟨y, h1, h2⟩ := h
      simp only [Prod.mk.injEq] at h2
      obtain ⟨rfl, rfl⟩ := h2
      have g2 := pEnd_size h1
      simp only [RLine.quadSize, RLine.size, Option.map_none, Option.getD_none]
      omega

theorem pLines_size {p : Str → Option (RLine × Str)} {m : RLine → Nat} (hp : ∀ s l r, p s = some (l, r) → m l + r.length ≤ s.length)
    (n : Nat) (s : Str) : ((pLines p n s).1.map m).sum ≤ s.length := by
  induction n generalizing s with
  | zero => simp [pLines]
  | succ n ih =>
    simp only [pLines]
    split
    · simp
    · rename_i l r e
      have h1 := hp _ _ _ e
      have h2 := ih (skip false r)
      have h3 := skip_length false r
      simp only [List.map_cons, List.sum_cons]
      omega

theorem pDoc_size {p : Str → Option (RLine × Str)} {m : RLine → Nat} (hp : ∀ s l r, p s = some (l, r) → m l + r.length ≤ s.length)
    {s : Str} {ls : List RLine} (h : pDoc p s = some ls) : (ls.map m).sum ≤ s.length := by
  unfold pDoc at h
  split at h
  · rename_i x e
    simp only [Option.some.injEq] at h
    have h1 := pLines_size hp s.length (skip false s)
    have h2 := skip_length false s
    rw [e, h] at h1
    exact h1.trans h2
  · cases h

/-! ### What is made of it -/

theorem escapeChar_ten (pr : Char → Bool) (c : Char) : (escapeChar pr c).length ≤ 10 := by
  have h : (hexLower c.toNat).length ≤ 6 := Nat.toDigits_length 16 _ 6 (by decide) (by
    have := c.valid
    have : c.toNat < 0x110000 := by
      rcases this with h | h
      · have : c.toNat < 0xd800 := h
        omega
      · exact h.2
    omega)
  unfold escapeChar
  repeat' split
  all_goals first | simp; done | (simp; omega)

theorem escapeString_length (pr : Char → Bool) (s : Str) : (escapeString pr s).length ≤ 10 * s.length := by
  unfold escapeString
  induction s with
  | nil => simp
  | cons c s ih =>
    have := escapeChar_ten pr c
    simp only [List.flatMap_cons, List.length_append, List.length_cons]
    omega

theorem unescapeIri_length {k : Nat} {s t : Str} (h : unescapeIri k s = .ok t) : t.length ≤ s.length := by
  induction s generalizing k t with
  | nil => cases k <;> (simp only [unescapeIri, Outcome.ok.injEq] at h; simp [← h])
  | cons c s ih =>
    cases k with
    | succ k => exact (ih h).trans (by simp)
    | zero =>
      simp only [unescapeIri] at h
      split at h
      · split at h
        · rename_i r e
          simp only [Outcome.ok.injEq] at h
          have := ih e
          rw [← h]; simpa using this
        · cases h
      · split at h
        · split at h
          · rename_i r e
            simp only [Outcome.ok.injEq] at h
            have := ih e
            rw [← h]; simpa using this
          · cases h
        · cases h

theorem evalIri_size {c : Nat} {env : ReadEnv} (hc : GrowsBy c env) {a : Str} {i : Iri} (h : evalIri env a = .ok i) :
    i.text.length ≤ c * a.length := by
  unfold evalIri at h
  split at h
  · cases h
  · rename_i t e
    have h1 := unescapeIri_length e
    unfold Iri.fromStr at h
    generalize hx : (if startsWith t '<' && endsWith t '>' then (t.drop 1).dropLast else t) = x at h
    have h2 : x.length ≤ t.length := by
      rw [← hx]; split <;> simp; omega
    cases hu : env.url x with
    | none => rw [hu] at h; cases h
    | some j =>
      rw [hu] at h
      simp only [Res.ofOption, Res.ok.injEq] at h
      rw [← h]
      exact (hc.url x j hu).trans (Nat.mul_le_mul_left c (h2.trans h1))

theorem fmt_length (sty : IriStyle) (i : Iri) : (i.fmt sty).length ≤ i.text.length + 2 := by
  cases sty <;> simp [Iri.fmt]

theorem evalNode_size {c : Nat} {env : ReadEnv} (hc : GrowsBy c env) (h10 : 10 ≤ c) (sty : IriStyle) {n : RNode} {x : Subject}
    (h : evalNode env n = .ok x) : (x.display sty).length ≤ c * n.size := by
  cases n with
  | iri a =>
    simp only [evalNode] at h
    cases e : evalIri env a with
    | ok i =>
      rw [e] at h
      simp only [Res.bind, Res.ok.injEq] at h
      have h1 := evalIri_size hc e
      have h2 := fmt_length sty i
      rw [← h]
      simp only [Subject.display, RNode.size, Nat.mul_add, List.length_cons, List.length_append, List.length_nil]
      omega
    | err => rw [e] at h; cases h
    | panic => rw [e] at h; cases h
  | blank t =>
    simp only [evalNode, blankParse] at h
    split at h
    · simp only [Res.ofOption, Res.bind, Res.ok.injEq] at h
      rw [← h]
      have : max 2 t.length ≤ c * max 2 t.length := Nat.le_mul_of_pos_left _ (by omega)
      simp only [Subject.display, RNode.size, List.length_cons, List.length_append, List.length_nil, List.length_drop]
      omega
    · cases h

theorem display_toObject (sty : IriStyle) (alt : Bool) (x : Subject) : (x.toObject.display sty alt).length = (x.display sty).length := by
  cases x <;> rfl

theorem evalObject_size {c : Nat} {env : ReadEnv} (hc : GrowsBy c env) (h10 : 10 ≤ c) (sty : IriStyle) (alt : Bool) {o : RObject} {x : Object}
    (h : evalObject env o = .ok x) : (x.display sty alt).length ≤ c * o.size := by
  cases o with
  | node n =>
    simp only [evalObject] at h
    cases e : evalNode env n with
    | ok s =>
      rw [e] at h
      simp only [Res.bind, Res.ok.injEq] at h
      rw [← h, display_toObject]
      exact evalNode_size hc h10 sty e
    | err => rw [e] at h; cases h
    | panic => rw [e] at h; cases h
  | lit a y =>
    have h1 : (escapeString env.pr a).length ≤ c * a.length :=
      (escapeString_length env.pr a).trans (Nat.mul_le_mul_right _ h10)
    cases y with
    | none =>
      simp only [evalObject, evalLiteral, Res.bind, Res.ok.injEq] at h
      rw [← h]
      simp [Object.display, Literal.display, Literal.plain, Literal.suffix, RObject.size, RSuffix.size, Nat.mul_add]
      omega
    | lang t =>
      simp only [evalObject, evalLiteral] at h
      cases e : env.lang t with
      | none => rw [e] at h; cases h
      | some g =>
        rw [e] at h
        simp only [Res.ofOption, Res.bind, Res.ok.injEq] at h
        have h2 := hc.lang t g e
        rw [← h]
        simp [Object.display, Literal.display, Literal.withLanguage, Literal.suffix, RObject.size, RSuffix.size, Nat.mul_add]
        omega
    | type b =>
      simp only [evalObject, evalLiteral] at h
      cases e : evalIri env b with
      | ok i =>
        rw [e] at h
        simp only [Res.bind, Res.ok.injEq] at h
        have h2 := evalIri_size hc e
        have h3 := fmt_length sty i
        rw [← h]
        simp [Object.display, Literal.display, Literal.withDataType, Literal.suffix, RObject.size, RSuffix.size, Nat.mul_add, DataType.isBare,
          DataType.asIri]
        omega
      | err => rw [e] at h; cases h
      | panic => rw [e] at h; cases h

theorem evalTriple_size {c : Nat} {env : ReadEnv} (hc : GrowsBy c env) (h10 : 10 ≤ c) (sty : IriStyle) (alt : Bool) {l : RLine} {st : Stmt}
    (h : evalTriple env l = .ok st) : (ntLine sty alt st).length + 1 ≤ c * l.size ∧ simple st = true := by
  unfold evalTriple at h
  cases e1 : evalNode env l.subject with
  | ok s =>
    cases e2 : evalIri env l.predicate with
    | ok p =>
      cases e3 : evalObject env l.object with
      | ok o =>
        simp only [e1, e2, e3, Res.bind, Res.ok.injEq] at h
        have h1 := evalNode_size hc h10 sty e1
        have h2 := evalIri_size hc e2
        have h3 := evalObject_size hc h10 sty alt e3
        have h4 := fmt_length sty p
        rw [← h]
        constructor
        · simp only [ntLine, Stmt.subject, Stmt.predicate, Stmt.object, RLine.size, Nat.mul_add, List.length_append, List.length_cons,
            List.length_nil]
          omega
        · have hs : ∀ {n : RNode} {s : Subject}, evalNode env n = .ok s → simpleSubject s = true := by
            intro n s e
            cases n with
            | iri a =>
              simp only [evalNode] at e
              cases e' : evalIri env a <;> rw [e'] at e <;> simp only [Res.bind, Res.ok.injEq, reduceCtorEq] at e
              rw [← e]; rfl
            | blank t =>
              simp only [evalNode] at e
              cases e' : Res.ofOption (blankParse env.blankOk (t.drop 2)) <;> rw [e'] at e <;> simp only [Res.bind, Res.ok.injEq, reduceCtorEq] at e
              rw [← e]; rfl
          have ho : simpleObject o = true := by
            cases hl : l.object with
            | node n =>
              rw [hl] at e3
              simp only [evalObject] at e3
              cases e' : evalNode env n <;> rw [e'] at e3 <;> simp only [Res.bind, Res.ok.injEq, reduceCtorEq] at e3
              have := hs e'
              rw [← e3]
              rename_i s'
              cases s' <;> first | rfl | cases this
            | lit a y =>
              rw [hl] at e3
              simp only [evalObject] at e3
              cases e' : evalLiteral env a y <;> rw [e'] at e3 <;> simp only [Res.bind, Res.ok.injEq, reduceCtorEq] at e3
              rw [← e3]; rfl
          simp [simple, Stmt.subject, Stmt.object, hs e1, ho]
      | err => simp [e1, e2, e3, Res.bind] at h
      | panic => simp [e1, e2, e3, Res.bind] at h
    | err => simp [e1, e2, Res.bind] at h
    | panic => simp [e1, e2, Res.bind] at h
  | err => simp [e1, Res.bind] at h
  | panic => simp [e1, Res.bind] at h

theorem evalTriples_size {c : Nat} {env : ReadEnv} (hc : GrowsBy c env) (h10 : 10 ≤ c) (sty : IriStyle) (alt : Bool) (ls : List RLine)
    (l : List Stmt) (g : Graph) (hg : g.statements = .nonUnique l) (hl : ∀ t ∈ l, simple t = true) (hn : g.name = none) (g' : Graph)
    (h : evalTriples env g ls = .ok g') :
    (g'.stmts.map fun t => (ntLine sty alt t).length).sum ≤ (l.map fun t => (ntLine sty alt t).length).sum + c * (ls.map RLine.size).sum ∧
      (∀ t ∈ g'.stmts, simple t = true) ∧ g'.name = none := by
  induction ls generalizing l g with
  | nil =>
    simp only [evalTriples, Res.ok.injEq] at h
    rw [← h]
    have : g.stmts = l := by simp [Graph.stmts, hg, Statements.iter]
    rw [this]
    exact ⟨by simp, hl, hn⟩
  | cons x ls ih =>
    simp only [evalTriples] at h
    cases e : evalTriple env x with
    | ok st =>
      rw [e] at h
      obtain ⟨h1, h2⟩ := evalTriple_size hc h10 sty alt e
      obtain ⟨h3, h4⟩ := ih (l ++ [st]) (g.insert st) (by simp [Graph.insert, hg, Statements.insert])
        (by simpa [or_imp, forall_and] using ⟨hl, h2⟩) (by simpa [Graph.insert] using hn) h
      refine ⟨?_, h4⟩
      simp only [List.map_append, List.sum_append, List.map_cons, List.sum_cons, List.map_nil, List.sum_nil, Nat.mul_add] at *
      omega
    | err => rw [e] at h; cases h
    | panic => rw [e] at h; cases h

theorem sum_nodup {α : Type} [DecidableEq α] (f : α → Nat) (l m : List α) (hl : l.Nodup) (h : ∀ a ∈ l, a ∈ m) :
    (l.map f).sum ≤ (m.map f).sum := by
  induction l generalizing m with
  | nil => simp
  | cons a l ih =>
    have ha := h a (by simp)
    have hp := ((List.perm_cons_erase ha).map f).sum_nat
    rw [hp]
    simp only [List.map_cons, List.sum_cons]
    have := ih (m.erase a) (List.nodup_cons.1 hl).2 fun b hb =>
      (List.mem_erase_of_ne (show b ≠ a from fun e => (List.nodup_cons.1 hl).1 (e ▸ hb))).2 (h b (by simp [hb]))
    omega

/-! ### C205 -/

/-- C205: the N-Triples of any graph of simple statements is no longer than a line for each of its statements. -/
theorem C205_lines (gen : Nat → Str) (n : Nat) (o : Orders) (ho : o.Fair) (sty : IriStyle) (alt : Bool) (g : Graph)
    (hs : ∀ t ∈ g.stmts, simple t = true) :
    (writeNt gen n o sty alt g).length ≤ (g.stmts.map fun t => (ntLine sty alt t).length).sum := by
  unfold writeNt
  rw [List.length_flatMap]
  have h1 := (C34_unchanged gen n g hs).1
  refine sum_nodup _ _ _ (visit_nodup ho _) fun a ha => ?_
  rw [visit_mem ho] at ha
  rwa [h1] at ha

/-- C205: the N-Triples of what was read from N-Triples is at most `c` times as long as the document, if IRIs and language tags do not
grow by more and `c` is at least ten. -/
theorem C205_linear (c : Nat) (env : ReadEnv) (hc : GrowsBy c env) (h10 : 10 ≤ c) (gen : Nat → Str) (n : Nat) (o : Orders) (ho : o.Fair)
    (sty : IriStyle) (alt : Bool) (s : Str) (g : Graph) (h : readNt env s = .ok g) :
    (writeNt gen n o sty alt g).length ≤ c * s.length := by
  unfold readNt at h
  split at h
  · cases h
  · rename_i ls e
    obtain ⟨h1, h2, -⟩ := evalTriples_size hc h10 sty alt ls [] Graph.default rfl (by simp) rfl g h
    refine (C205_lines gen n o ho sty alt g h2).trans (h1.trans ?_)
    simpa using Nat.mul_le_mul_left c (pDoc_size (fun _ _ _ => pTriple_size) e)

/-- C205: so is what the program writes as N-Triples. -/
theorem C205_cli (c : Nat) (e : CliEnv) (hc : GrowsBy c e.read) (h10 : 10 ≤ c) (ho : e.orders.Fair) (s out : Str)
    (h : cliMain e s (.convert .nTriples .nTriples) = .success out) : out.length ≤ c * s.length := by
  simp only [cliMain, cliRead, cliWrite] at h
  cases hr : readNt e.read s with
  | ok g =>
    rw [hr] at h
    simp only [Res.toRun, Run.bind, Run.exit, Exit.success.injEq] at h
    rw [← h]
    exact C205_linear c e.read hc h10 e.gen e.startWrite e.orders ho e.sty false s g hr
  | err => rw [hr] at h; cases h
  | panic => rw [hr] at h; cases h

/-- C150, the length from above: each conversion makes the text at most `c` times as long. -/
theorem C150_at_most (c : Nat) (e : CliEnv) (hc : GrowsBy c e.read) (h10 : 10 ≤ c) (ho : e.orders.Fair) (k : Nat) (s out : Str)
    (h : convertAgain e k s = some out) : out.length ≤ c ^ k * s.length := by
  induction k generalizing s with
  | zero =>
    simp only [convertAgain, Option.some.injEq] at h
    rw [h]; simp
  | succ k ih =>
    simp only [convertAgain] at h
    split at h
    · rename_i x hx
      have h1 := C205_cli c e hc h10 ho s x hx
      have h2 := ih x h
      refine h2.trans ?_
      rw [Nat.pow_succ, Nat.mul_assoc]
      exact Nat.mul_le_mul_left _ h1
    · cases h

/-- C205: the same for N-Quads. -/
theorem C205_quads (c : Nat) (e : CliEnv) (hc : GrowsBy c e.read) (h10 : 10 ≤ c) (ho : e.orders.Fair) (s out : Str)
    (h : cliMain e s (.convert .nTriples .nQuads) = .success out) : out.length ≤ c * s.length := by
  simp only [cliMain, cliRead, cliWrite] at h
  cases hr : readNt e.read s with
  | ok g =>
    rw [hr] at h
    simp only [Res.toRun, Run.bind, Run.exit, Exit.success.injEq] at h
    rw [← h]
    have hn : g.name = none := by
      unfold readNt at hr
      split at hr
      · cases hr
      · rename_i ls _
        exact (evalTriples_size hc h10 e.sty false ls [] Graph.default rfl (by simp) rfl g hr).2.2
    have := C205_linear c e.read hc h10 e.gen e.startWrite e.orders ho e.sty false s g hr
    unfold writeNqGraph
    simp only [C34_name, hn]
    exact this
  | err => rw [hr] at h; cases h
  | panic => rw [hr] at h; cases h

/-! ### Data sets -/

/-- The length of all lines of a data set. -/
def quadsSize (sty : IriStyle) (l : List Graph) : Nat := (l.map fun g => (g.stmts.map fun t => (nqLine sty g.name t).length).sum).sum

theorem writeNqGraphs_length (gen : Nat → Str) (n : Nat) (o : Graph → Orders) (ho : ∀ g, (o g).Fair) (sty : IriStyle) (gs : List Graph)
    (hs : ∀ g ∈ gs, ∀ t ∈ g.stmts, simple t = true) : (writeNqGraphs gen n o sty gs).length ≤ quadsSize sty gs := by
  induction gs generalizing n with
  | nil => exact Nat.le_refl 0
  | cons g gs ih =>
    have h1 := (C34_unchanged gen n g (hs g (by simp))).1
    have h2 := ih (writeNqGraph gen n (o g) sty g).2 fun x hx => hs x (by simp [hx])
    have h3 : (writeNqGraph gen n (o g) sty g).1.length ≤ (g.stmts.map fun t => (nqLine sty g.name t).length).sum := by
      unfold writeNqGraph
      simp only [C34_name, List.length_flatMap]
      refine sum_nodup _ _ _ (visit_nodup (ho g) _) fun a ha => ?_
      rw [visit_mem (ho g)] at ha
      rwa [h1] at ha
    simp only [writeNqGraphs, quadsSize, List.length_append, List.map_cons, List.sum_cons] at *
    omega

theorem insert_sum (f : Stmt → Nat) (g : Graph) (st : Stmt) : ((g.insert st).stmts.map f).sum ≤ (g.stmts.map f).sum + f st := by
  cases h : g.statements with
  | nonUnique l => simp [Graph.insert, Graph.stmts, h, Statements.insert, Statements.iter]
  | unique l =>
    simp only [Graph.insert, Graph.stmts, h, Statements.insert, Statements.iter, setInsert]
    split <;> simp

theorem graphMut_size (sty : IriStyle) (d : DataSet) (hd : d.ok) (n : GraphName) (st : Stmt) :
    quadsSize sty (d.graphMut (some n) fun g => g.insert st).allGraphs ≤ quadsSize sty d.allGraphs + (nqLine sty (some n) st).length := by
  obtain ⟨l⟩ := d
  obtain ⟨h1, h2⟩ := hd
  simp only [DataSet.graphMut, DataSet.allGraphs] at *
  induction l with
  | nil => exact Nat.zero_le _
  | cons e l ih =>
    rw [List.map_cons, List.nodup_cons] at h2
    have hi := ih (fun x hx => h1 x (by simp [hx])) h2.2
    by_cases he : e.1 = some n
    · have hn : e.2.name = some n := by rw [← h1 e (by simp), he]
      have hl : (l.map fun e => if e.1 = some n then (e.1, e.2.insert st) else e) = l := by
        conv => rhs; rw [← List.map_id l]
        refine List.map_congr_left fun x hx => ?_
        rw [if_neg fun (h : x.1 = some n) => h2.1 (by rw [he, ← h]; exact List.mem_map_of_mem hx)]
        rfl
      have := insert_sum (fun t => (nqLine sty (some n) t).length) e.2 st
      have hn' : (e.2.insert st).name = some n := hn
      simp only [List.map_cons, if_pos he, hl, quadsSize, List.sum_cons, hn, hn'] at *
      omega
    · simp only [List.map_cons, if_neg he, quadsSize, List.sum_cons] at *
      omega

theorem mapInsert_new (k : Option GraphName) (g : Graph) (l : List (Option GraphName × Graph)) (h : ∀ e ∈ l, e.1 ≠ k) :
    DataSet.mapInsert k g l = l ++ [(k, g)] := by
  induction l with
  | nil => rfl
  | cons e l ih =>
    rw [DataSet.mapInsert, if_neg (h e (by simp)), ih fun x hx => h x (by simp [hx])]
    rfl

theorem insertInto_size (sty : IriStyle) (d : DataSet) (hd : d.ok) (n : GraphName) (st : Stmt) :
    quadsSize sty (d.insertInto n st).allGraphs ≤ quadsSize sty d.allGraphs + (nqLine sty (some n) st).length := by
  unfold DataSet.insertInto
  split
  · exact graphMut_size sty d hd n st
  · rename_i hc
    have h1 := graphMut_size sty (d.insert (Graph.named n)) (DataSet.insert_step hd (Graph.named n)).1 n st
    have h2 : (d.insert (Graph.named n)).allGraphs = d.allGraphs ++ [Graph.named n] := by
      unfold DataSet.insert DataSet.allGraphs
      rw [mapInsert_new _ _ _ fun e he h => hc (by
        simp only [DataSet.containsGraph, List.any_eq_true, beq_iff_eq]
        exact ⟨e, he, h⟩)]
      simp
    rw [h2] at h1
    have h3 : quadsSize sty (d.allGraphs ++ [Graph.named n]) = quadsSize sty d.allGraphs := by
      simp [quadsSize, Graph.named, Graph.default, Graph.stmts, Statements.iter]
    omega

theorem insertInto_simple (d : DataSet) (n : GraphName) (st : Stmt) (hs : simple st = true)
    (h : ∀ g ∈ d.allGraphs, ∀ t ∈ g.stmts, simple t = true) : ∀ g ∈ (d.insertInto n st).allGraphs, ∀ t ∈ g.stmts, simple t = true := by
  have key : ∀ d : DataSet, (∀ g ∈ d.allGraphs, ∀ t ∈ g.stmts, simple t = true) →
      ∀ g ∈ (d.graphMut (some n) fun g => g.insert st).allGraphs, ∀ t ∈ g.stmts, simple t = true := by
    intro d h g hg t ht
    simp only [DataSet.allGraphs, DataSet.graphMut, List.map_map, List.mem_map, Function.comp] at hg
    obtain ⟨e, he, rfl⟩ := hg
    have := h e.2 (List.mem_map_of_mem he)
    split at ht
    · rcases (insert_mem _ _ _).1 ht with h1 | rfl
      · exact this t h1
      · exact hs
    · exact this t ht
  unfold DataSet.insertInto
  split
  · exact key d h
  · rename_i hc
    refine key _ ?_
    unfold DataSet.insert DataSet.allGraphs
    rw [mapInsert_new _ _ _ fun e he h => hc (by
      simp only [DataSet.containsGraph, List.any_eq_true, beq_iff_eq]
      exact ⟨e, he, h⟩)]
    intro g hg t ht
    simp only [List.map_append, List.mem_append, List.map_cons, List.map_nil, List.mem_singleton] at hg
    rcases hg with hg | rfl
    · exact h g hg t ht
    · cases ht

theorem evalQuad_size {c : Nat} {env : ReadEnv} (hc : GrowsBy c env) (h10 : 10 ≤ c) (sty : IriStyle) (d : DataSet) (hd : d.ok)
    (h : ∀ g ∈ d.allGraphs, ∀ t ∈ g.stmts, simple t = true) (l : RLine) (d' : DataSet) (e : evalQuad env d l = .ok d') :
    d'.ok ∧ (∀ g ∈ d'.allGraphs, ∀ t ∈ g.stmts, simple t = true) ∧
      quadsSize sty d'.allGraphs ≤ quadsSize sty d.allGraphs + c * l.quadSize := by
  unfold evalQuad at e
  cases e1 : evalTriple env l with
  | ok st =>
    rw [e1] at e
    obtain ⟨h1, h2⟩ := evalTriple_size hc h10 sty false e1
    cases hg : l.graph with
    | none => rw [hg] at e; cases e
    | some n =>
      rw [hg] at e
      cases e2 : evalNode env n with
      | ok s =>
        have h3 := evalNode_size hc h10 sty e2
        cases e3 : GraphName.ofSubject s with
        | ok m =>
          simp only [Res.bind, e2, e3, Res.ok.injEq] at e
          have h4 : m.display sty = s.display sty := by
            cases s <;> simp only [GraphName.ofSubject, Outcome.ok.injEq, reduceCtorEq] at e3 <;> (rw [← e3]; rfl)
          have h5 : (nqLine sty (some m) st).length = (ntLine sty false st).length + 1 + (s.display sty).length := by
            simp only [nqLine, ntLine, h4, List.length_append, List.length_cons, List.length_nil]
            omega
          have h6 := insertInto_size sty d hd m st
          rw [← e]
          refine ⟨(insertInto_step hd m st).1, insertInto_simple d m st h2 h, ?_⟩
          simp only [RLine.quadSize, hg, Option.map_some, Option.getD_some, Nat.mul_add]
          omega
        | panic => simp [Res.bind, e2, e3] at e
      | err => simp [Res.bind, e2] at e
      | panic => simp [Res.bind, e2] at e
  | err => rw [e1] at e; cases e
  | panic => rw [e1] at e; cases e

theorem evalQuads_size {c : Nat} {env : ReadEnv} (hc : GrowsBy c env) (h10 : 10 ≤ c) (sty : IriStyle) (ls : List RLine) (d : DataSet) (hd : d.ok)
    (h : ∀ g ∈ d.allGraphs, ∀ t ∈ g.stmts, simple t = true) (d' : DataSet) (e : evalQuads env d ls = .ok d') :
    (∀ g ∈ d'.allGraphs, ∀ t ∈ g.stmts, simple t = true) ∧
      quadsSize sty d'.allGraphs ≤ quadsSize sty d.allGraphs + c * (ls.map RLine.quadSize).sum := by
  induction ls generalizing d with
  | nil =>
    simp only [evalQuads, Res.ok.injEq] at e
    rw [← e]
    exact ⟨h, Nat.le_add_right _ _⟩
  | cons l ls ih =>
    simp only [evalQuads] at e
    cases e1 : evalQuad env d l with
    | ok d1 =>
      rw [e1] at e
      obtain ⟨h1, h2, h3⟩ := evalQuad_size hc h10 sty d hd h l d1 e1
      obtain ⟨h4, h5⟩ := ih d1 h1 h2 e
      refine ⟨h4, ?_⟩
      simp only [List.map_cons, List.sum_cons, Nat.mul_add]
      omega
    | err => rw [e1] at e; cases e
    | panic => rw [e1] at e; cases e

/-- C205, for data sets: the N-Quads of what was read from N-Quads is at most `c` times as long as the document. -/
theorem C205_dataset (c : Nat) (env : ReadEnv) (hc : GrowsBy c env) (h10 : 10 ≤ c) (gen : Nat → Str) (n : Nat) (o : Graph → Orders)
    (ho : ∀ g, (o g).Fair) (sty : IriStyle) (s : Str) (d : DataSet) (h : readNq env s = .ok d) :
    (writeNq gen n o sty d).length ≤ c * s.length := by
  unfold readNq at h
  split at h
  · cases h
  · rename_i ls e
    obtain ⟨h1, h2⟩ := evalQuads_size hc h10 sty ls .empty ⟨by simp [DataSet.empty], by simp [DataSet.empty]⟩ (by simp [DataSet.empty, DataSet.allGraphs]) d h
    refine (writeNqGraphs_length gen n o ho sty _ h1).trans (h2.trans ?_)
    simpa [quadsSize, DataSet.empty, DataSet.allGraphs] using Nat.mul_le_mul_left c (pDoc_size (fun _ _ _ => pQuad_size) e)

/-- C205: ten is reached: the last of all characters, if not printed as it is, becomes ten characters in a literal. -/
theorem C205_sharp (pr : Char → Bool) (h : pr (Char.ofNat 0x10ffff) = false) (k : Nat) :
    (Literal.plain pr (List.replicate k (Char.ofNat 0x10ffff))).lexicalForm.length = 10 * k := by
  have h1 : (escapeChar pr (Char.ofNat 0x10ffff)).length = 10 := by
    have : escapeChar pr (Char.ofNat 0x10ffff) = if pr (Char.ofNat 0x10ffff) then [Char.ofNat 0x10ffff] else str! "\\u{10ffff}" := by
      unfold escapeChar
      rw [if_neg (by decide), if_neg (by decide), if_neg (by decide), if_neg (by decide), if_neg (by decide), if_neg (by decide)]
      congr 1
    rw [this, h]; rfl
  show (escapeString pr (List.replicate k (Char.ofNat 0x10ffff))).length = 10 * k
  unfold escapeString
  induction k with
  | zero => rfl
  | succ k ih =>
    rw [List.replicate_succ, List.flatMap_cons, List.length_append, ih, h1]
    omega

example : GrowsBy 10 ⟨fun _ => true, fun t => some ⟨t⟩, some, fun _ => true⟩ :=
  ⟨fun t i h => by cases h; show t.length ≤ _; omega, fun t g h => by cases h; omega⟩

end Rdftk
