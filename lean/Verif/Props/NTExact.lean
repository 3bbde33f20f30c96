import Verif.Lemmas.NTExact
import Verif.Props.NTAccept
import Verif.Props.NTriples

/-! N-Triples and N-Quads: exactly which texts are matched (C71), and when reading panics (C39). -/

namespace Rdftk

open Spec

theorem lineAt_solid {l : RLine} {u : Str} (h : TermsText l u) (r : Str) : Solid (u ++ r) ∧ u ≠ [] := by
  obtain ⟨-, s, g₁, g₂, o, h, -, -, -, rfl⟩ := h
  obtain ⟨c, v, rfl, hc⟩ := nodeText_head h
  refine ⟨?_, by simp⟩
  rcases hc with rfl | rfl | rfl <;> exact solid_cons (by decide)

/-- C71: a text is matched exactly if it is a document of the grammar of the code in which each label is as long as it can
be, and then the lines hold what it says. -/
theorem C71_iff (s : Str) (ls : List RLine) : pDoc pTriple s = some ls ↔ LinesAt TripleAt ls s := by
  constructor
  · intro h
    unfold pDoc at h
    split at h
    · rename_i ls' e
      obtain rfl := Option.some.inj h
      refine pLines_at_inv (fun s l r h => ?_) _ s e
      obtain ⟨t, h1, h2⟩ := pTriple_at_inv h
      refine ⟨t, h1, ?_, h2⟩
      obtain ⟨-, u, g, -, -, rfl, -⟩ := h1
      simp
    · cases h
  · intro h
    refine pDoc_at (fun l t r h => ⟨pTriple_at h, ?_⟩) (by simp [pTriple, pTerms, pSubject, pIriRef, pBlank, pLabel, pAnon]) h
    obtain ⟨-, u, g, h1, -, rfl, -⟩ := h
    have := lineAt_solid h1 (g ++ '.' :: r)
    exact ⟨by simpa using this.1, by simp⟩

/-- C71 for N-Quads. -/
theorem C71_quads_iff (s : Str) (ls : List RLine) : pDoc pQuad s = some ls ↔ LinesAt QuadAt ls s := by
  constructor
  · intro h
    unfold pDoc at h
    split at h
    · rename_i ls' e
      obtain rfl := Option.some.inj h
      refine pLines_at_inv (fun s l r h => ?_) _ s e
      obtain ⟨t, h1, h2⟩ := pQuad_at_inv h
      refine ⟨t, h1, ?_, h2⟩
      rcases h1 with ⟨-, u, g, -, -, rfl, -⟩ | ⟨n, u, g₁, v, g₂, -, -, -, -, -, rfl, -⟩ <;> simp
    · cases h
  · intro h
    refine pDoc_at (fun l t r h => ⟨pQuad_at h, ?_⟩) (by simp [pQuad, pTerms, pSubject, pIriRef, pBlank, pLabel, pAnon]) h
    rcases h with ⟨-, u, g, h1, -, rfl, -⟩ | ⟨n, u, g₁, v, g₂, -, h1, -, -, -, rfl, -⟩
    · have := lineAt_solid h1 (g ++ '.' :: r)
      exact ⟨by simpa using this.1, by simp⟩
    · have := lineAt_solid h1 (g₁ ++ (v ++ (g₂ ++ '.' :: r)))
      exact ⟨by simpa using this.1, by simp⟩

/-- A text has one reading only. -/
theorem C71_unique (s : Str) (ls ls' : List RLine) (h : LinesAt TripleAt ls s) (h' : LinesAt TripleAt ls' s) : ls = ls' := by
  rw [← C71_iff] at h h'
  exact Option.some.inj (h.symm.trans h')

/-- Without the condition on labels a text may have the form of a document and not be matched: the label takes what
follows it. -/
theorem C71_fails_greedy : LinesText TripleText
      [⟨.iri (str! "a"), str! "b", .node (.blank (str! "_:c")), none⟩, ⟨.blank (str! "_:d"), str! "b", .node (.iri (str! "e")), none⟩]
      (str! "<a> <b> _:c._:d <b> <e>.") ∧
    pDoc pTriple (str! "<a> <b> _:c._:d <b> <e>.") = none := by
  have plain : ∀ c : Char, IriPlain c → LooseIri [c] := fun c h => ⟨[[c]], by simpa using .inl (.inl h), rfl⟩
  have ha : LooseIri (str! "a") := plain _ ⟨by decide, by decide⟩
  have hb : LooseIri (str! "b") := plain _ ⟨by decide, by decide⟩
  have he : LooseIri (str! "e") := plain _ ⟨by decide, by decide⟩
  have hl : ∀ c : Char, (isPnCharsU c || isAsciiDigit c) = true → Label [c] := fun c h => label_of_tailOk (a := []) h rfl
  have hs : Gap (str! " ") := .ws (by decide) .nil
  refine ⟨?_, by decide +kernel⟩
  refine .line (g := []) (t := str! "<a> <b> _:c.") (r := str! "_:d <b> <e>.") .nil ⟨rfl, str! "<a> <b> _:c", [], ⟨hb, str! "<a>", str! " ", str! " ",
    str! "_:c", ⟨ha, rfl⟩, hs, hs, ⟨rfl, .inl ⟨str! "c", hl _ (by decide), rfl⟩⟩, rfl⟩, .nil, rfl⟩ ?_
  refine .line (g := []) (t := str! "_:d <b> <e>.") (r := []) .nil ⟨rfl, str! "_:d <b> <e>", [], ⟨hb, str! "_:d", str! " ", str! " ",
    str! "<e>", ⟨rfl, .inl ⟨str! "d", hl _ (by decide), rfl⟩⟩, hs, hs, ⟨he, rfl⟩, rfl⟩, .nil, rfl⟩ ?_
  exact .last (lastGap_of .nil)

/-! ### C39 -/

/-- A node whose IRI has an escape that names no character. -/
def BadNode : RNode → Prop
  | .iri i => ¬ ∃ t, DecodesIri i t
  | .blank _ => False

/-- The same for the IRI or the data type of an object. -/
def BadObject : RObject → Prop
  | .node n => BadNode n
  | .lit _ (.type i) => ¬ ∃ t, DecodesIri i t
  | .lit _ _ => False

/-- The first term of a statement that cannot be read has such an escape. -/
def BadLine (env : ReadEnv) (l : RLine) : Prop :=
  BadNode l.subject ∨
  (∃ s, evalNode env l.subject = .ok s) ∧ ((¬ ∃ t, DecodesIri l.predicate t) ∨
    (∃ p, evalIri env l.predicate = .ok p) ∧ BadObject l.object)

theorem Res.bind_panic {α β : Type _} (x : Res α) (f : α → Res β) :
    x.bind f = .panic ↔ x = .panic ∨ ∃ a, x = .ok a ∧ f a = .panic := by
  cases x <;> simp [Res.bind]

theorem evalNode_panic (env : ReadEnv) (n : RNode) : evalNode env n = .panic ↔ BadNode n := by
  cases n with
  | iri i =>
    simp only [evalNode, Res.bind_panic, C44_panic, BadNode]
    simp
  | blank b =>
    simp [evalNode, Res.bind_panic, BadNode, Res.ofOption_ne_panic]

theorem evalObject_panic (env : ReadEnv) (o : RObject) : evalObject env o = .panic ↔ BadObject o := by
  cases o with
  | node n => simp [evalObject, Res.bind_panic, evalNode_panic, BadObject]
  | lit a x =>
    cases x with
    | none => simp [evalObject, Res.bind_panic, evalLiteral, BadObject]
    | lang t => simp [evalObject, Res.bind_panic, evalLiteral, BadObject, Res.ofOption_ne_panic]
    | type i =>
      simp only [evalObject, Res.bind_panic, evalLiteral, BadObject, C44_panic]
      simp

theorem evalTriple_panic (env : ReadEnv) (l : RLine) : evalTriple env l = .panic ↔ BadLine env l := by
  simp only [evalTriple, Res.bind_panic, evalNode_panic, C44_panic, evalObject_panic, BadLine]
  constructor
  · rintro (h | ⟨s, h1, h | ⟨p, h2, h | ⟨o, h3, h⟩⟩⟩)
    · exact .inl h
    · exact .inr ⟨⟨s, h1⟩, .inl h⟩
    · exact .inr ⟨⟨s, h1⟩, .inr ⟨⟨p, h2⟩, h⟩⟩
    · cases h
  · rintro (h | ⟨⟨s, h1⟩, h | ⟨⟨p, h2⟩, h⟩⟩)
    · exact .inl h
    · exact .inr ⟨s, h1, .inl h⟩
    · exact .inr ⟨s, h1, .inr ⟨p, h2, .inl h⟩⟩

theorem evalTriples_panic (env : ReadEnv) (ls : List RLine) (g : Graph) : evalTriples env g ls = .panic ↔
    ∃ a l b, ls = a ++ l :: b ∧ (∀ k ∈ a, ∃ st, evalTriple env k = .ok st) ∧ BadLine env l := by
  induction ls generalizing g with
  | nil => simp [evalTriples]
  | cons k ls ih =>
    simp only [evalTriples, Res.bind_panic, ih, evalTriple_panic]
    constructor
    · rintro (h | ⟨st, h1, a, l, b, rfl, h2, h3⟩)
      · exact ⟨[], k, ls, rfl, by simp, h⟩
      · exact ⟨k :: a, l, b, rfl, by simpa using ⟨⟨st, h1⟩, h2⟩, h3⟩
    · rintro ⟨a, l, b, e, h2, h3⟩
      cases a with
      | nil =>
        simp only [List.nil_append, List.cons.injEq] at e
        exact .inl (e.1 ▸ h3)
      | cons x a =>
        simp only [List.cons_append, List.cons.injEq] at e
        obtain ⟨rfl, rfl⟩ := e
        obtain ⟨st, h⟩ := h2 k (by simp)
        exact .inr ⟨st, h, a, l, b, rfl, fun y hy => h2 y (by simp [hy]), h3⟩

/-- C39: reading N-Triples panics exactly for a text that is a document, when the first statement that cannot be read, and its
first term that cannot, is an IRI with an escape that names no character. -/
theorem C39_iff (env : ReadEnv) (s : Str) : readNt env s = .panic ↔
    ∃ a l b, LinesAt TripleAt (a ++ l :: b) s ∧ (∀ k ∈ a, ∃ st, evalTriple env k = .ok st) ∧ BadLine env l := by
  unfold readNt
  cases e : pDoc pTriple s with
  | none =>
    simp only [reduceCtorEq, false_iff]
    rintro ⟨a, l, b, h, -⟩
    rw [← C71_iff, e] at h
    cases h
  | some ls =>
    simp only [evalTriples_panic]
    constructor
    · rintro ⟨a, l, b, rfl, h⟩
      exact ⟨a, l, b, (C71_iff _ _).1 e, h⟩
    · rintro ⟨a, l, b, h, h'⟩
      rw [← C71_iff, e] at h
      exact ⟨a, l, b, Option.some.inj h, h'⟩

/-- The same for a quad, whose last term is the name of the graph; a quad without it is refused. -/
def BadQuad (env : ReadEnv) (l : RLine) : Prop :=
  BadLine env l ∨ (∃ st, evalTriple env l = .ok st) ∧ ∃ n, l.graph = some n ∧ BadNode n

/-- A quad that is read. -/
def GoodQuad (env : ReadEnv) (l : RLine) : Prop :=
  (∃ st, evalTriple env l = .ok st) ∧ ∃ n x, l.graph = some n ∧ evalNode env n = .ok x

theorem graphName_ofNode {env : ReadEnv} {n : RNode} {x : Subject} (h : evalNode env n = .ok x) : ∃ m, GraphName.ofSubject x = .ok m := by
  cases x with
  | res i => exact ⟨_, rfl⟩
  | blank b => exact ⟨_, rfl⟩
  | stmt t => exact absurd h (evalNode_not_stmt env n t)

theorem evalQuad_panic (env : ReadEnv) (d : DataSet) (l : RLine) : evalQuad env d l = .panic ↔ BadQuad env l := by
  simp only [evalQuad, Res.bind_panic, evalTriple_panic, BadQuad]
  refine or_congr Iff.rfl ⟨?_, ?_⟩
  · rintro ⟨st, h1, h2⟩
    refine ⟨⟨st, h1⟩, ?_⟩
    cases hg : l.graph with
    | none => rw [hg] at h2; cases h2
    | some n =>
      rw [hg] at h2
      simp only [Res.bind_panic, evalNode_panic] at h2
      rcases h2 with h2 | ⟨x, h2, h3⟩
      · exact ⟨n, rfl, h2⟩
      · obtain ⟨m, e⟩ := graphName_ofNode h2
        rw [e] at h3
        cases h3
  · rintro ⟨⟨st, h1⟩, n, hg, h2⟩
    refine ⟨st, h1, ?_⟩
    rw [hg]
    simp only [Res.bind_panic, evalNode_panic]
    exact .inl h2

theorem evalQuad_ok (env : ReadEnv) (d : DataSet) (l : RLine) : (∃ d', evalQuad env d l = .ok d') ↔ GoodQuad env l := by
  unfold evalQuad GoodQuad
  constructor
  · rintro ⟨d', h⟩
    cases h1 : evalTriple env l with
    | err => rw [h1] at h; cases h
    | panic => rw [h1] at h; cases h
    | ok st =>
      refine ⟨⟨st, rfl⟩, ?_⟩
      rw [h1] at h
      cases hg : l.graph with
      | none => simp only [hg, Res.bind] at h; cases h
      | some n =>
        simp only [hg, Res.bind] at h
        cases h2 : evalNode env n with
        | err => rw [h2] at h; cases h
        | panic => rw [h2] at h; cases h
        | ok x => exact ⟨n, x, rfl, h2⟩
  · rintro ⟨⟨st, h1⟩, n, x, hg, h2⟩
    obtain ⟨m, e⟩ := graphName_ofNode h2
    exact ⟨_, by simp only [h1, hg, Res.bind, h2, e]; rfl⟩

theorem evalQuads_panic (env : ReadEnv) (ls : List RLine) (d : DataSet) : evalQuads env d ls = .panic ↔
    ∃ a l b, ls = a ++ l :: b ∧ (∀ k ∈ a, GoodQuad env k) ∧ BadQuad env l := by
  induction ls generalizing d with
  | nil => simp [evalQuads]
  | cons k ls ih =>
    simp only [evalQuads, Res.bind_panic, ih, evalQuad_panic]
    constructor
    · rintro (h | ⟨d', h1, a, l, b, rfl, h2, h3⟩)
      · exact ⟨[], k, ls, rfl, by simp, h⟩
      · exact ⟨k :: a, l, b, rfl, by simpa using ⟨(evalQuad_ok env d k).1 ⟨d', h1⟩, h2⟩, h3⟩
    · rintro ⟨a, l, b, e, h2, h3⟩
      cases a with
      | nil =>
        simp only [List.nil_append, List.cons.injEq] at e
        exact .inl (e.1 ▸ h3)
      | cons x a =>
        simp only [List.cons_append, List.cons.injEq] at e
        obtain ⟨rfl, rfl⟩ := e
        obtain ⟨d', h⟩ := (evalQuad_ok env d k).2 (h2 k (by simp))
        exact .inr ⟨d', h, a, l, b, rfl, fun y hy => h2 y (by simp [hy]), h3⟩

/-- C39 for N-Quads. -/
theorem C39_quads_iff (env : ReadEnv) (s : Str) : readNq env s = .panic ↔
    ∃ a l b, LinesAt QuadAt (a ++ l :: b) s ∧ (∀ k ∈ a, GoodQuad env k) ∧ BadQuad env l := by
  unfold readNq
  cases e : pDoc pQuad s with
  | none =>
    simp only [reduceCtorEq, false_iff]
    rintro ⟨a, l, b, h, -⟩
    rw [← C71_quads_iff, e] at h
    cases h
  | some ls =>
    simp only [evalQuads_panic]
    constructor
    · rintro ⟨a, l, b, rfl, h⟩
      exact ⟨a, l, b, (C71_quads_iff _ _).1 e, h⟩
    · rintro ⟨a, l, b, h, h'⟩
      rw [← C71_quads_iff, e] at h
      exact ⟨a, l, b, Option.some.inj h, h'⟩

end Rdftk
