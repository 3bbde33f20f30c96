import Verif.Lemmas.PegBack
import Verif.Lemmas.PegJoin

/-! C199: documents that begin with a byte order mark, or with white space. -/

namespace Rdftk

open PegGrammar Spec

variable {T : Nat}

/-- U+FEFF, with which some editors begin a file. -/
def byteOrderMark : Char := Char.ofNat 0xFEFF

/-- A byte order mark before a document changes nothing. -/
def C199_statement (d : GRule) : Prop := ∀ s, GReads d s → GReads d (byteOrderMark :: s)

theorem mark_solid (s : Str) : skip false (byteOrderMark :: s) = byteOrderMark :: s := skip_lead (by decide) (by decide)

theorem mark_subject (s : Str) : pSubject (byteOrderMark :: s) = none := by
  have h1 : pIriRef (byteOrderMark :: s) = none := pIriRef_head (by decide)
  have h2 : pBlank (byteOrderMark :: s) = none := by
    cases h : pBlank (byteOrderMark :: s) with
    | none => rfl
    | some x =>
      exfalso
      have := rej_blank (T := 0) (c := byteOrderMark) (u := s) (by decide) (by decide)
      have := this.det (reads_blank _)
      rw [h] at this
      cases this
  simp [pSubject, h1, h2]

/-- C199 fails for every document of N-Triples and N-Quads: none may begin with the mark. -/
theorem C199_lines (s : Str) : GRefuses .ntripleDoc (byteOrderMark :: s) ∧ GRefuses .nquadDoc (byteOrderMark :: s) ∧
    ∀ env, readNt env (byteOrderMark :: s) = .err ∧ readNq env (byteOrderMark :: s) = .err := by
  have h1 : pDoc pTriple (byteOrderMark :: s) = none := by
    simp [pDoc, mark_solid, pLines, pTriple, pTerms, mark_subject]
  have h2 : pDoc pQuad (byteOrderMark :: s) = none := by
    simp [pDoc, mark_solid, pLines, pQuad, pTerms, mark_subject]
  refine ⟨?_, ?_, fun env => ⟨?_, ?_⟩⟩
  · have := reads_doc (d := .ntripleDoc) (i := .ntriple) rfl rfl (byteOrderMark :: s) reads_triple
    rw [h1] at this; exact this
  · have := reads_doc (d := .nquadDoc) (i := .nquad) rfl rfl (byteOrderMark :: s) reads_quad
    rw [h2] at this; exact this
  · simp [readNt, h1]
  · simp [readNq, h2]

/-- C199 fails: the empty document is no document of N-Triples with the mark. -/
theorem C199_fails : ¬ C199_statement .ntripleDoc := fun h => (C199_lines []).1.not_reads (h [] ⟨40, _, rfl⟩)

/-- A word is no IRI when no colon follows. -/
theorem rej_word_apart {c d : Char} {p v : Str} (hc : isPnCharsBase c = true) (hp : ∀ e ∈ p, isPnChars e = true) (hd : EndsName d)
    (hs : ∀ w, skip false (d :: v) ≠ ':' :: w) : Rej T (.rule .iri) (c :: (p ++ d :: v)) := by
  have hns : Rej T (.rule .PNAME_NS) (c :: (p ++ d :: v)) := by
    refine Rej.rule rfl (Acc.seq_rej (Acc.opt (acc_prefix hc hp hd)) ?_)
    cases e : skip false (d :: v) with
    | nil => exact rej_str rfl
    | cons x w => exact rej_chr (by rintro rfl; exact hs w e)
  have hi : pIriRef (c :: (p ++ d :: v)) = none := pIriRef_head (pn_solid (base_pn hc)).2.2.1
  exact Rej.rule rfl (Rej.alt ((reads_iri _).cast (by rw [hi]; rfl)) (Rej.rule rfl (Rej.alt (Rej.rule rfl (Rej.seq hns)) hns)))

/-- The mark is a letter to the other grammars: with a word behind it that is not followed by a colon, they refuse the document. -/
theorem C199_refused (p v : Str) (d : Char) (hp : ∀ e ∈ p, isPnChars e = true) (hd : isPnChars d = false ∧ d ≠ '.')
    (hs : ∀ w, skip false (d :: v) ≠ ':' :: w) :
    GRefuses .turtleStarDoc (byteOrderMark :: (p ++ d :: v)) ∧ GRefuses .trigDoc (byteOrderMark :: (p ++ d :: v)) ∧
      GRefuses .n3Doc (byteOrderMark :: (p ++ d :: v)) := by
  have hi : ∀ T, Rej T (.rule .iri) (byteOrderMark :: (p ++ d :: v)) := fun T => rej_word_apart (by decide) hp hd hs
  have hdir : ∀ T, Rej T (.rule .directive) (byteOrderMark :: (p ++ d :: v)) := fun T => rej_no_directive (by decide)
  have hb : ∀ T, Rej T (.rule .blankNode) (byteOrderMark :: (p ++ d :: v)) := fun T => rej_blank (by decide) (by decide)
  refine ⟨refuses_of_rej (rej_doc (e := .rule .statement) rfl ?_ ?_), refuses_of_rej (rej_doc (e := .alt (.rule .directive) (.rule .block)) rfl ?_ ?_),
    refuses_of_rej (rej_doc (e := .alt (.seq (.rule .n3Statement) (.rule .END_OF_STATEMENT)) (.rule .sparqlDirective)) rfl ?_ ?_)⟩
  · rw [mark_solid]; simp
  · rw [mark_solid]
    exact Rej.rule rfl (Rej.alt (hdir _) (Rej.seq (Rej.rule rfl (Rej.alt (Rej.seq (Rej.rule rfl (Rej.alt (hi _) (Rej.alt (hb _) (Rej.alt
      (rej_coll (by decide)) (rej_tripleX (by decide))))))) (Rej.seq (rej_props (by decide)))))))
  · rw [mark_solid]; simp
  · rw [mark_solid]
    exact Rej.alt (hdir _) (Rej.rule rfl (Rej.alt (Rej.rule rfl (Rej.seq (Rej.rule rfl (Rej.alt (hi _) (hb _))))) (Rej.alt
      (rej_wrapped (by decide)) (Rej.alt (rej_triples2 (by decide) (by decide)) (Rej.rule rfl (Rej.seq (rej_str rfl)))))))
  · rw [mark_solid]; simp
  · rw [mark_solid]
    have hs := rej_sparql (T := (byteOrderMark :: (p ++ d :: v)).length) (c := byteOrderMark) (u := p ++ d :: v) (by decide)
    exact Rej.alt (Rej.seq (Rej.rule rfl (Rej.alt (Rej.rule rfl (Rej.alt (Rej.rule rfl (Rej.seq (rej_chr (by decide))))
      (Rej.rule rfl (Rej.seq (rej_chr (by decide)))))) (Rej.rule rfl (Rej.seq (Rej.rule rfl (rej_item (hi _) (hb _) (rej_quickVar (by decide))
        (rej_coll (by decide)) (rej_props (by decide)) (rej_turtleLiteral (by decide) (by decide) (fun e => absurd e (by decide)))
          (rej_formula (by decide)))))))))
      (Rej.rule rfl (Rej.alt hs.1 hs.2))

/-- C199 fails for the three: an IRI, a directive or nothing may not stand behind the mark. -/
theorem C199_fails_others : ¬ C199_statement .turtleStarDoc ∧ ¬ C199_statement .trigDoc ∧ ¬ C199_statement .n3Doc := by
  have h := C199_refused [] (str! "a:s> <a:p> <a:o> .") '<' (by simp) (by decide) (by rw [skip_lt]; simp)
  exact ⟨fun e => h.1.not_reads (e _ ⟨200, _, rfl⟩), fun e => h.2.1.not_reads (e _ ⟨200, _, rfl⟩), fun e => h.2.2.not_reads (e _ ⟨200, _, rfl⟩)⟩

/-- And what is read with the mark may mean something else: it becomes part of the first prefix. -/
theorem C199_fails_prefix : ∃ l k, commonGrammar.parse 200 .turtleStarDoc (str! ":s :p :o .") = some (some (l, [])) ∧
    commonGrammar.parse 200 .turtleStarDoc (byteOrderMark :: str! ":s :p :o .") = some (some (k, [])) ∧
      Under [.turtleStarDoc, .statement, .triples, .turtleSubject, .iri, .prefixedName, .PNAME_LN, .PNAME_NS, .PN_PREFIX] k ∧
        ¬ Under [.turtleStarDoc, .statement, .triples, .turtleSubject, .iri, .prefixedName, .PNAME_LN, .PNAME_NS, .PN_PREFIX] l :=
  ⟨_, _, rfl, rfl, by decide +kernel, by decide +kernel⟩

/-- What holds instead: white space and comments before a document change nothing, in any of the five languages. -/
theorem C199_gap (g s : Str) (hg : Gap g) (d : GRule) (hd : d ∈ [.ntripleDoc, .nquadDoc, .turtleStarDoc, .trigDoc, .n3Doc]) (x : List (Pair GRule)) :
    (∃ n, commonGrammar.parse n d (g ++ s) = some (some (x, []))) ↔
      ∃ k n, x = [.mk (some d) (g ++ s) k] ∧ commonGrammar.parse n d s = some (some ([.mk (some d) s k], [])) := by
  have key : ∀ {e : Peg GRule}, commonGrammar.body d = (.normal, .seq .soi (.seq (.star e) .eoi)) → innerPeg e = true →
      ((∃ n, commonGrammar.parse n d (g ++ s) = some (some (x, []))) ↔
        ∃ k n, x = [.mk (some d) (g ++ s) k] ∧ commonGrammar.parse n d s = some (some ([.mk (some d) s k], []))) := fun h1 h2 =>
    ((Chain.stop (skip_gap hg s)).doc h1 h2 x).trans ⟨fun ⟨k, e, n, h⟩ => ⟨k, n, e, h⟩, fun ⟨k, n, e, h⟩ => ⟨k, e, n, h⟩⟩
  simp only [List.mem_cons, List.not_mem_nil, or_false] at hd
  rcases hd with rfl | rfl | rfl | rfl | rfl <;> exact key rfl rfl

example : GReads .turtleStarDoc (byteOrderMark :: str! ":s :p :o .") := ⟨200, _, rfl⟩

end Rdftk
