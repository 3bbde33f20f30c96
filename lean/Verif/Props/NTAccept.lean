import Verif.Lemmas.NTAccept
import Verif.Props.NTriples

/-! Which documents the N-Triples and N-Quads readers accept. -/

namespace Rdftk

open Spec

/-! ### C71 -/

/-- C71, the full statement: a text is matched if and only if it is a document of the grammar,
in any layout. -/
def C71_statement : Prop :=
  ∀ s : Str, (∃ ls, pDoc pTriple s = some ls) ↔
    ∃ first ls last, Gap first ∧ LastGap last ∧
      (∀ x ∈ ls, x.2.g = none ∧ x.2.Valid ∧ x.1.Valid x.2) ∧ s = first ++ (linesText ls ++ last)

/-- C71, what holds: a text that is matched is a document of the grammar of the code, and the
lines hold what the text says. -/
theorem C71_accepted_partial (s : Str) (ls : List RLine) (h : pDoc pTriple s = some ls) :
    LinesText TripleText ls s := by
  unfold pDoc at h
  split at h
  · rename_i ls' e
    obtain rfl := Option.some.inj h
    refine pLines_inv (fun s l r h => ?_) _ s e
    obtain ⟨t, h1, h2⟩ := pTriple_inv h
    refine ⟨t, h1, ?_, h2⟩
    obtain ⟨-, u, g, -, -, rfl⟩ := h1
    simp
  · cases h

/-- C71 for N-Quads. -/
theorem C71_accepted_quads_partial (s : Str) (ls : List RLine) (h : pDoc pQuad s = some ls) :
    LinesText QuadText ls s := by
  unfold pDoc at h
  split at h
  · rename_i ls' e
    obtain rfl := Option.some.inj h
    refine pLines_inv (fun s l r h => ?_) _ s e
    obtain ⟨t, h1, h2⟩ := pQuad_inv h
    refine ⟨t, h1, ?_, h2⟩
    obtain ⟨-, u, g, -, -, rfl⟩ | ⟨n, u, g, v, g', -, -, -, -, -, rfl⟩ := h1
    · simp
    · simp
  · cases h

/-- C71 fails: `[]` is accepted as a node. -/
theorem C71_fails : ¬ C71_statement := by
  intro h
  obtain ⟨first, ls, last, h1, h2, h3, h4⟩ :=
    (h (str! "[] <a:p> <a:o> .")).1 ⟨_, show pDoc pTriple (str! "[] <a:p> <a:o> .") =
      some [⟨.blank (str! "[]"), str! "a:p", .node (.iri (str! "a:o")), none⟩] from by decide +kernel⟩
  have h5 := pDoc_triples h1 h2 ls h3
  rw [← h4, show pDoc pTriple (str! "[] <a:p> <a:o> .") =
      some [⟨.blank (str! "[]"), str! "a:p", .node (.iri (str! "a:o")), none⟩] from by decide +kernel] at h5
  have h6 := Option.some.inj h5
  cases ls with
  | nil => cases h6
  | cons x r =>
    simp only [List.map_cons, List.cons.injEq, Line.raw, RLine.mk.injEq] at h6
    have := h6.1.1
    cases hs : x.2.s with
    | iri i => rw [hs] at this; cases this
    | blank b =>
      rw [hs] at this
      simp only [Term.raw, RNode.blank.injEq] at this
      cases this

/-- C71, another difference: an IRI with `<` inside is accepted. -/
theorem C71_fails_less :
    (∃ ls, pDoc pTriple (str! "<a:s> <a<p> <a:o> .") = some ls) ∧ ¬ IriText (str! "a<p") := by
  refine ⟨⟨[⟨.iri (str! "a:s"), str! "a<p", .node (.iri (str! "a:o")), none⟩], by decide +kernel⟩, ?_⟩
  intro h
  obtain ⟨ts, hts, e⟩ := h
  have : '<' ∈ ts.flatten := by rw [← e]; decide
  obtain ⟨t, ht, hm⟩ := List.mem_flatten.1 this
  rcases hts t ht with ⟨c, hc, rfl⟩ | ⟨ds, hd, ⟨-, rfl⟩ | ⟨-, rfl⟩⟩
  · rw [List.mem_singleton] at hm
    subst hm
    exact hc.2 (by decide)
  · simp only [List.mem_cons] at hm
    rcases hm with hm | hm | hm
    · cases hm
    · cases hm
    · exact absurd (hd _ hm) (by unfold Hex; decide +kernel)
  · simp only [List.mem_cons] at hm
    rcases hm with hm | hm | hm
    · cases hm
    · cases hm
    · exact absurd (hd _ hm) (by unfold Hex; decide +kernel)

/-- C71, the last difference: the W3C grammar allows two dots in a row in a label, the code
refuses them. -/
theorem C71_fails_dots :
    pDoc pTriple (str! "_:a..b <a:p> <a:o> .") = none ∧
    Dotted (fun c => PN_CHARS_U c ∨ Digit c) (str! "a..b") := by
  refine ⟨by decide +kernel, 'a', .inl ((isPnCharsU_iff _).1 (by decide)), .inr ⟨str! "..", 'b', rfl, by simp, ?_⟩⟩
  exact (isPnChars_iff _).1 (by decide)

/-- There are documents to which C71 applies. -/
example : LinesText TripleText
    [⟨.iri (str! "a:s"), str! "a:p", .lit (str! "x") (.lang (str! "en")), none⟩]
    (str! "<a:s> <a:p> \"x\"@en . # end") :=
  C71_accepted_partial _ _ (by decide +kernel)

end Rdftk
