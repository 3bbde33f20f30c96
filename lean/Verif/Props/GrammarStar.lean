import Verif.Lemmas.PegStar
import Verif.Props.GrammarTrig

/-! What statements are printed as, under the grammar of Turtle of the same project. -/

namespace Rdftk

open PegGrammar Spec

/-! ### C193 -/

/-- C193, the full statement: a printed statement, with a dot behind it, is a document of the grammar of Turtle. -/
def C193_statement (sty : IriStyle) : Prop :=
  ∀ t : Stmt, StmtShows t → GReads .turtleStarDoc (t.display sty ++ str! " .")

/-- C193, exactly: of the statements whose labels, IRIs and literals are those of the grammar, the ones are read that are printed without
brackets inside brackets and quote, at any depth, no statement with a list for its object. All others are refused. -/
theorem C193_iff (sty : IriStyle) (s : Subject) (p : Iri) (o : Object) (h : StmtShows (.mk s p o)) :
    (GReads .turtleStarDoc ((Stmt.mk s p o).display sty ++ str! " .") ↔ sty = .bare ∧ SubjectQuotes s ∧ ObjectQuotes o) ∧
    (GRefuses .turtleStarDoc ((Stmt.mk s p o).display sty ++ str! " .") ↔ ¬ (sty = .bare ∧ SubjectQuotes s ∧ ObjectQuotes o)) := by
  have hsk : skip false ((Stmt.mk s p o).display sty ++ str! " .") = (Stmt.mk s p o).display sty ++ str! " ." := by
    have := display_solid sty s (' ' :: ('<' :: (p.fmt sty ++ ['>']) ++ ' ' :: (o.display sty false ++ str! " .")))
    simpa [Stmt.display] using this
  have hne : (Stmt.mk s p o).display sty ++ str! " ." ≠ [] := by simp
  have hrej : (∀ T, Rej T (.rule .statement) ((Stmt.mk s p o).display sty ++ str! " .")) →
      GRefuses .turtleStarDoc ((Stmt.mk s p o).display sty ++ str! " .") := fun hr =>
    refuses_of_rej (rej_doc rfl (by rw [hsk]; exact hne) (by rw [hsk]; exact hr _))
  have key : ((sty = .bare ∧ SubjectQuotes s ∧ ObjectQuotes o) ∧ GReads .turtleStarDoc ((Stmt.mk s p o).display sty ++ str! " .")) ∨
      (¬ (sty = .bare ∧ SubjectQuotes s ∧ ObjectQuotes o) ∧ GRefuses .turtleStarDoc ((Stmt.mk s p o).display sty ++ str! " .")) := by
    cases sty with
    | bracketed => exact .inr ⟨by simp, hrej fun T => rej_stmt_twice h _⟩
    | bare =>
      by_cases hq : SubjectQuotes s ∧ ObjectQuotes o
      · have hd := Stmts.stmt ((stmt_shown h).1 hq) .nil
        rw [List.append_nil] at hd
        exact .inl ⟨⟨rfl, hq⟩, reads_of_acc hd.doc⟩
      · refine .inr ⟨fun hh => hq hh.2, hrej fun T => ?_⟩
        simpa using (stmt_shown h).2 hq T []
  rcases key with ⟨h1, h2⟩ | ⟨h1, h2⟩
  · exact ⟨⟨fun _ => h1, fun _ => h2⟩, ⟨fun h3 => absurd h2 h3.not_reads, fun h3 => absurd h1 h3⟩⟩
  · exact ⟨⟨fun h3 => absurd h3 h2.not_reads, fun h3 => absurd h3 h1⟩, ⟨fun _ => h1, fun _ => h2⟩⟩

/-- C193 fails, and not only for the way the code prints IRIs: a statement about a statement whose object is the empty list is refused. -/
theorem C193_fails (sty : IriStyle) : ¬ C193_statement sty := by
  intro h
  have hl : LooseIri (str! "p") := ⟨[['p']], by
    intro t ht
    rw [List.mem_singleton.1 ht]
    exact .inl ⟨_, .inl ((iriPlain_iff _).1 ⟨by decide, by decide⟩), rfl⟩, rfl⟩
  have hs : StmtShows (.mk (.stmt (.mk (.res ⟨str! "p"⟩) ⟨str! "p"⟩ (.coll []))) ⟨str! "p"⟩ (.res ⟨str! "p"⟩)) := ⟨⟨hl, hl, trivial⟩, hl, hl⟩
  have := ((C193_iff sty _ _ _ hs).1.1 (h _ hs)).2.1.2.1 []
  exact this rfl

/-- C193 for statements that quote no statement with a list, printed without brackets inside brackets. -/
theorem C193_partial (t : Stmt) (h : StmtShows t) (hs : SubjectQuotes t.subject) (ho : ObjectQuotes t.object) :
    GReads .turtleStarDoc (t.display .bare ++ str! " .") := by
  cases t with
  | mk s p o => exact (C193_iff .bare s p o h).1.2 ⟨rfl, hs, ho⟩

/-- C193 for a graph of such statements, one on each line. -/
theorem C193_lines_partial (ts : List Stmt) (h : ∀ t ∈ ts, StmtShows t ∧ SubjectQuotes t.subject ∧ ObjectQuotes t.object) :
    GReads .turtleStarDoc (ts.flatMap fun t => t.display .bare ++ str! " .\n") := by
  refine reads_of_acc (Stmts.doc ?_)
  induction ts with
  | nil => exact .nil
  | cons t ts ih =>
    obtain ⟨h1, h2, h3⟩ := h t (by simp)
    cases t with
    | mk s p o =>
      have := Stmts.stmt ((stmt_shown h1).1 ⟨h2, h3⟩) (.blank (g := ['\n']) (by intro c hc; simp at hc; simp [hc]) (ih fun x hx => h x (by simp [hx])))
      simpa [List.flatMap_cons] using this

/-- The blank after the opening brackets of a quoted statement decides: with it the statement is read, without it the brackets are
taken for a part of the IRI behind them and the statement is refused. -/
theorem C193_space_iff (a b c q d g : Str) (ha : LooseIri a) (hb : LooseIri b) (hc : LooseIri c) (hq : LooseIri q) (hd : LooseIri d)
    (hg : g = [] ∨ g = [' ']) :
    (GReads .turtleStarDoc ((str! "<<") ++ (g ++ (str! "<") ++ a ++ (str! "> <") ++ b ++ (str! "> <") ++ c ++ (str! "> >> <") ++ q ++ (str! "> <") ++
      d ++ (str! "> ."))) ↔ g = [' ']) := by
  rcases hg with rfl | rfl
  · refine ⟨fun h => ?_, by simp⟩
    exfalso
    refine GRefuses.not_reads (refuses_of_rej (rej_doc (d := .turtleStarDoc) rfl ?_ ?_)) h
    · simp only [List.nil_append, List.cons_append]; rw [skip_lt]; simp
    · have e : ∀ T, Rej T (.rule .statement) ('<' :: (('<' :: '<' :: a) ++ ['>']) ++ ' ' :: ('<' :: (b ++ ['>']) ++ ' ' :: ('<' :: (c ++ ['>']) ++
          ' ' :: '>' :: '>' :: ' ' :: '<' :: (q ++ '>' :: ' ' :: '<' :: (d ++ str! "> ."))))) := by
        intro T
        have hgt : ∀ w, skip false ('>' :: w) = '>' :: w := fun w => skip_lead (by decide) (by decide)
        refine Rej.rule rfl (Rej.alt (rej_no_directive (by decide)) (Acc.seq_rej (r := '>' :: '>' :: ' ' :: '<' :: (q ++ '>' :: ' ' :: '<' :: (d ++ str! "> ."))) ?_ ?_))
        · refine Acc.rule rfl (Acc.left (Acc.seq (Acc.rule rfl (Acc.left (acc_bracketed (loose_lt (loose_lt ha))))) ?_))
          rw [skip_sp, show ∀ w : Str, skip false ('<' :: (b ++ ['>']) ++ w) = '<' :: (b ++ ['>']) ++ w from fun w => skip_lt _]
          refine Acc.rule rfl (Acc.seq (r := '>' :: '>' :: ' ' :: '<' :: (q ++ '>' :: ' ' :: '<' :: (d ++ str! "> ."))) (Acc.rule rfl (Acc.seq (Acc.rule rfl (Acc.left (Acc.rule rfl (acc_bracketed hb)))) ?_)) ?_)
          · rw [skip_sp, show ∀ w : Str, skip false ('<' :: (c ++ ['>']) ++ w) = '<' :: (c ++ ['>']) ++ w from fun w => skip_lt _]
            refine Acc.rule rfl (Acc.seq (Acc.rule rfl (Acc.left (acc_bracketed hc))) ?_)
            rw [skip_sp, hgt]
            exact Rej.star (Rej.seq (rej_chr (by decide)))
          · rw [hgt]; exact Rej.star (Rej.seq (rej_chr (by decide)))
        · rw [hgt]; exact Rej.rule rfl (rej_chr (by decide))
      simp only [List.nil_append, List.cons_append, List.append_assoc] at e ⊢
      rw [skip_lt]
      exact e _
  · refine ⟨fun _ => rfl, fun _ => ?_⟩
    have := C193_partial (.mk (.stmt (.mk (.res ⟨a⟩) ⟨b⟩ (.res ⟨c⟩))) ⟨q⟩ (.res ⟨d⟩)) ⟨⟨ha, hb, hc⟩, hq, hd⟩ ⟨trivial, by simp, trivial⟩ trivial
    simpa [Stmt.display, Subject.display, Object.display, Iri.fmt] using this

/-- A statement about a statement about a statement, with a list of a statement. -/
example : SubjectQuotes (.stmt (.mk (.stmt (.mk (.blank ['b']) ⟨['p']⟩ (.res ⟨['o']⟩))) ⟨['p']⟩ (.stmt (.mk (.blank ['b']) ⟨['p']⟩ (.blank ['c']))))) ∧
    ObjectQuotes (.coll [.stmt (.mk (.blank ['b']) ⟨['p']⟩ (.blank ['c'])), .coll []]) := by
  simp [SubjectQuotes, StmtQuotes, ObjectQuotes, ObjectsQuote]

/-! ### C194 -/

/-- C194, the full statement: a printed statement that is a document of Turtle is a document of TriG as well. -/
def C194_statement (sty : IriStyle) : Prop :=
  ∀ t : Stmt, StmtShows t → GReads .turtleStarDoc (t.display sty ++ str! " .") → GReads .trigDoc (t.display sty ++ str! " .")

/-- C194, exactly: outside of the braces TriG reads the statements that Turtle reads other than those about a quoted statement. -/
theorem C194_iff (sty : IriStyle) (s : Subject) (p : Iri) (o : Object) (h : StmtShows (.mk s p o)) :
    (GReads .trigDoc ((Stmt.mk s p o).display sty ++ str! " .") ↔ sty = .bare ∧ (∀ t, s ≠ .stmt t) ∧ ObjectQuotes o) ∧
    (GRefuses .trigDoc ((Stmt.mk s p o).display sty ++ str! " .") ↔ ¬ (sty = .bare ∧ (∀ t, s ≠ .stmt t) ∧ ObjectQuotes o)) := by
  have hsk : skip false ((Stmt.mk s p o).display sty ++ str! " .") = (Stmt.mk s p o).display sty ++ str! " ." := by
    have := display_solid sty s (' ' :: ('<' :: (p.fmt sty ++ ['>']) ++ ' ' :: (o.display sty false ++ str! " .")))
    simpa [Stmt.display] using this
  have hne : (Stmt.mk s p o).display sty ++ str! " ." ≠ [] := by simp
  by_cases hq : sty = .bare ∧ (∀ t, s ≠ .stmt t) ∧ ObjectQuotes o
  · have h1 := (trig_top (T := ((Stmt.mk s p o).display sty ++ str! " .").length) sty h []).1 hq
    have h2 : GReads .trigDoc ((Stmt.mk s p o).display sty ++ str! " .") := by
      refine reads_of_acc (trig_doc (r := []) ?_ (by simp [skip]))
      rw [hsk]
      exact Acc.star h1 (Rej.more (rej_empty (by decide) (by decide)))
    exact ⟨⟨fun _ => hq, fun _ => h2⟩, ⟨fun h3 => absurd h2 h3.not_reads, fun h3 => absurd hq h3⟩⟩
  · have h2 : GRefuses .trigDoc ((Stmt.mk s p o).display sty ++ str! " .") :=
      refuses_of_rej (rej_doc rfl (by rw [hsk]; exact hne) (by rw [hsk]; exact (trig_top sty h []).2 hq))
    exact ⟨⟨fun h3 => absurd h3 h2.not_reads, fun h3 => absurd h3 hq⟩, ⟨fun _ => hq, fun _ => h2⟩⟩

/-- C194 fails: a statement about a quoted statement. -/
theorem C194_fails : ¬ C194_statement .bare := by
  intro h
  have hl : LooseIri (str! "p") := ⟨[['p']], by
    intro t ht
    rw [List.mem_singleton.1 ht]
    exact .inl ⟨_, .inl ((iriPlain_iff _).1 ⟨by decide, by decide⟩), rfl⟩, rfl⟩
  have hs : StmtShows (.mk (.stmt (.mk (.res ⟨str! "p"⟩) ⟨str! "p"⟩ (.res ⟨str! "p"⟩))) ⟨str! "p"⟩ (.res ⟨str! "p"⟩)) := ⟨⟨hl, hl, hl⟩, hl, hl⟩
  have h1 := h _ hs (C193_partial _ hs ⟨trivial, by simp, trivial⟩ trivial)
  exact ((C194_iff .bare _ _ _ hs).1.1 h1).2.1 _ rfl

/-- C194 for statements not about a quoted statement. -/
theorem C194_partial (sty : IriStyle) (t : Stmt) (h : StmtShows t) (hs : ∀ x, t.subject ≠ .stmt x)
    (ht : GReads .turtleStarDoc (t.display sty ++ str! " .")) : GReads .trigDoc (t.display sty ++ str! " .") := by
  cases t with
  | mk s p o =>
    have := (C193_iff sty s p o h).1.1 ht
    exact (C194_iff sty s p o h).1.2 ⟨this.1, hs, this.2.2⟩

/-- Inside of braces TriG reads all statements that Turtle reads, in any number of graphs, named or not, with or without the keyword, and
with or without the dot behind the last statement. -/
theorem C194_graphs_partial (gs : List (Bool × Bool × Option GraphName × List Stmt))
    (hn : ∀ g ∈ gs, GraphNameOk g.2.2.1) (hs : ∀ g ∈ gs, ∀ t ∈ g.2.2.2, StmtShows t)
    (ht : ∀ g ∈ gs, ∀ t ∈ g.2.2.2, GReads .turtleStarDoc (t.display .bare ++ str! " .")) :
    GReads .trigDoc (gs.flatMap fun g => trigGraphText g.1 g.2.1 g.2.2.1 g.2.2.2) := by
  have hall : ∀ g ∈ gs, ∀ t ∈ g.2.2.2, StmtShows t ∧ SubjectQuotes t.subject ∧ ObjectQuotes t.object := by
    intro g hg t htt
    have h1 := hs g hg t htt
    have h2 := ht g hg t htt
    cases t with
    | mk s p o => exact ⟨h1, ((C193_iff .bare s p o h1).1.1 h2).2⟩
  have hmore : ∀ T, ∀ l : List (Bool × Bool × Option GraphName × List Stmt), (∀ g ∈ l, GraphNameOk g.2.2.1) →
      (∀ g ∈ l, ∀ t ∈ g.2.2.2, StmtShows t ∧ SubjectQuotes t.subject ∧ ObjectQuotes t.object) →
      ∃ r, Acc T (.more (.alt (.rule .directive) (.rule .block))) ('\n' :: l.flatMap fun g => trigGraphText g.1 g.2.1 g.2.2.1 g.2.2.2) r ∧
        skip false r = [] := by
    intro T l
    induction l with
    | nil =>
      intro _ _
      have e : skip false ['\n'] = [] := by simp [skip, isWs, isNewline]
      exact ⟨['\n'], Rej.more (by rw [List.flatMap_nil, e]; exact rej_empty (by decide) (by decide)), e⟩
    | cons g l ih =>
      intro h1 h2
      obtain ⟨r, h3, h4⟩ := ih (fun x hx => h1 x (by simp [hx])) (fun x hx => h2 x (by simp [hx]))
      obtain ⟨h5, h6⟩ := acc_graph_block (T := T) g.1 g.2.1 g.2.2.1 (h1 g (by simp)) g.2.2.2 (h2 g (by simp))
        (l.flatMap fun g => trigGraphText g.1 g.2.1 g.2.2.1 g.2.2.2)
      refine ⟨r, Acc.more ?_ h3, h4⟩
      rw [List.flatMap_cons, show ∀ w, skip false ('\n' :: w) = skip false w from fun w => by simp [skip, isWs, isNewline], h6]
      exact h5
  cases gs with
  | nil =>
    refine reads_of_acc (trig_doc (r := []) ?_ (by simp [skip]))
    simpa [skip] using Rej.star (rej_empty (e := .alt (.rule .directive) (.rule .block)) (by decide) (by decide))
  | cons g l =>
    obtain ⟨r, h3, h4⟩ := hmore (((g :: l).flatMap fun g => trigGraphText g.1 g.2.1 g.2.2.1 g.2.2.2).length) l
      (fun x hx => hn x (by simp [hx])) (fun x hx => hall x (by simp [hx]))
    obtain ⟨h5, h6⟩ := acc_graph_block (T := ((g :: l).flatMap fun g => trigGraphText g.1 g.2.1 g.2.2.1 g.2.2.2).length) g.1 g.2.1 g.2.2.1
      (hn g (by simp)) g.2.2.2 (hall g (by simp)) (l.flatMap fun g => trigGraphText g.1 g.2.1 g.2.2.1 g.2.2.2)
    refine reads_of_acc (trig_doc (r := r) ?_ h4)
    simp only [List.flatMap_cons] at h3 h5 h6 ⊢
    rw [h6]
    exact Acc.star h5 h3

/-- A named graph and one without a name. -/
example : trigGraphText false true (some (.bnode ['g'])) [.mk (.blank ['b']) ⟨['p']⟩ (.blank ['c'])] ++ trigGraphText true false none [.mk (.blank ['b']) ⟨['p']⟩ (.blank ['c'])] =
    str! "GRAPH _:g {\n_:b <p> _:c .\n}\n{\n_:b <p> _:c\n}\n" := rfl

end Rdftk
