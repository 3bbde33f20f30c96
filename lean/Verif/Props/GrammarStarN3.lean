import Verif.Lemmas.PegStarN3
import Verif.Props.GrammarStar

/-! What statements are printed as, under the grammar of N3 of the same project. -/

namespace Rdftk

open PegGrammar Spec

/-! ### C195 -/

/-- C195, the full statement: a printed statement that is a document of Turtle is a document of N3 as well. -/
def C195_statement (sty : IriStyle) : Prop :=
  ∀ t : Stmt, StmtShows t → GReads .turtleStarDoc (t.display sty ++ str! " .") → GReads .n3Doc (t.display sty ++ str! " .")

/-- C195, exactly: N3 reads the statements that Turtle reads other than those whose subject or object is a quoted statement. Inside of a
list a quoted statement is read. -/
theorem C195_iff (sty : IriStyle) (s : Subject) (p : Iri) (o : Object) (h : StmtShows (.mk s p o)) :
    (GReads .n3Doc ((Stmt.mk s p o).display sty ++ str! " .") ↔ sty = .bare ∧ (∀ t, s ≠ .stmt t) ∧ (∀ t, o ≠ .stmt t) ∧ ObjectQuotes o) ∧
    (GRefuses .n3Doc ((Stmt.mk s p o).display sty ++ str! " .") ↔
      ¬ (sty = .bare ∧ (∀ t, s ≠ .stmt t) ∧ (∀ t, o ≠ .stmt t) ∧ ObjectQuotes o)) := by
  have hsk : skip false ((Stmt.mk s p o).display sty ++ str! " .") = (Stmt.mk s p o).display sty ++ str! " ." := by
    have := display_solid sty s (' ' :: ('<' :: (p.fmt sty ++ ['>']) ++ ' ' :: (o.display sty false ++ str! " .")))
    simpa [Stmt.display] using this
  have hne : (Stmt.mk s p o).display sty ++ str! " ." ≠ [] := by simp
  by_cases hq : sty = .bare ∧ (∀ t, s ≠ .stmt t) ∧ (∀ t, o ≠ .stmt t) ∧ ObjectQuotes o
  · have h1 := (n3_top (T := ((Stmt.mk s p o).display sty ++ str! " .").length) sty h []).1 hq
    have h2 : GReads .n3Doc ((Stmt.mk s p o).display sty ++ str! " .") := by
      refine reads_of_acc (n3_doc (r := []) ?_ (by simp [skip]))
      rw [hsk]
      exact Acc.star h1 (Rej.more (rej_empty (by decide) (by decide)))
    exact ⟨⟨fun _ => hq, fun _ => h2⟩, ⟨fun h3 => absurd h2 h3.not_reads, fun h3 => absurd hq h3⟩⟩
  · have h2 : GRefuses .n3Doc ((Stmt.mk s p o).display sty ++ str! " .") :=
      refuses_of_rej (rej_doc rfl (by rw [hsk]; exact hne) (by rw [hsk]; exact (n3_top sty h []).2 hq))
    exact ⟨⟨fun h3 => absurd h3 h2.not_reads, fun h3 => absurd h3 hq⟩, ⟨fun _ => hq, fun _ => h2⟩⟩

/-- C195 fails: a statement with a quoted statement for its object. -/
theorem C195_fails : ¬ C195_statement .bare := by
  intro h
  have hl : LooseIri (str! "p") := ⟨[['p']], by
    intro t ht
    rw [List.mem_singleton.1 ht]
    exact .inl ⟨_, .inl ((iriPlain_iff _).1 ⟨by decide, by decide⟩), rfl⟩, rfl⟩
  have hs : StmtShows (.mk (.res ⟨str! "p"⟩) ⟨str! "p"⟩ (.stmt (.mk (.res ⟨str! "p"⟩) ⟨str! "p"⟩ (.res ⟨str! "p"⟩)))) := ⟨hl, hl, ⟨hl, hl, hl⟩⟩
  have h1 := h _ hs (C193_partial _ hs trivial ⟨trivial, by simp, trivial⟩)
  exact ((C195_iff .bare _ _ _ hs).1.1 h1).2.2.1 _ rfl

/-- C195 for statements of which neither end is a quoted statement. -/
theorem C195_partial (sty : IriStyle) (t : Stmt) (h : StmtShows t) (hs : ∀ x, t.subject ≠ .stmt x) (ho : ∀ x, t.object ≠ .stmt x)
    (ht : GReads .turtleStarDoc (t.display sty ++ str! " .")) : GReads .n3Doc (t.display sty ++ str! " .") := by
  cases t with
  | mk s p o =>
    have := (C193_iff sty s p o h).1.1 ht
    exact (C195_iff sty s p o h).1.2 ⟨this.1, hs, ho, this.2.2⟩

/-- Whatever N3 reads of the printed statements, Turtle and TriG read as well. -/
theorem C195_converse (sty : IriStyle) (t : Stmt) (h : StmtShows t) (hn : GReads .n3Doc (t.display sty ++ str! " .")) :
    GReads .turtleStarDoc (t.display sty ++ str! " .") ∧ GReads .trigDoc (t.display sty ++ str! " .") := by
  cases t with
  | mk s p o =>
    obtain ⟨h1, h2, -, h4⟩ := (C195_iff sty s p o h).1.1 hn
    refine ⟨(C193_iff sty s p o h).1.2 ⟨h1, ?_, h4⟩, (C194_iff sty s p o h).1.2 ⟨h1, h2, h4⟩⟩
    cases s with
    | stmt t => exact absurd rfl (h2 t)
    | _ => trivial

/-- C195 for a graph, one statement on each line: N3 reads it exactly when it reads each of the statements. -/
theorem C195_lines_iff (ts : List Stmt) (h : ∀ t ∈ ts, StmtShows t) :
    GReads .n3Doc (ts.flatMap fun t => t.display .bare ++ str! " .\n") ↔
      ∀ t ∈ ts, (∀ x, t.subject ≠ .stmt x) ∧ (∀ x, t.object ≠ .stmt x) ∧ ObjectQuotes t.object := by
  obtain ⟨r, h1, h2⟩ := n3_lines (T := (ts.flatMap fun t => t.display .bare ++ str! " .\n").length) ts h
  rw [← h2]
  constructor
  · intro hr
    exact Classical.byContradiction fun hn => (refuses_of_rej (n3_undoc h1 hn)).not_reads hr
  · intro hr
    exact reads_of_acc (n3_doc h1 hr)

/-- Statements quoted in a list are read, in the object of a statement of N3. -/
example : ObjectQuotes (.coll [.stmt (.mk (.blank ['b']) ⟨['p']⟩ (.blank ['c'])), .coll []]) := by
  simp [ObjectsQuote, StmtQuotes, ObjectQuotes, SubjectQuotes]

end Rdftk
