import Verif.Lemmas.PegJoin
import Verif.Props.GrammarWrite

/-! C198: documents of Turtle one after another. -/

namespace Rdftk

open PegGrammar Spec

/-- Two documents of Turtle, one after the other, are a document of Turtle, and its statements are theirs. -/
def C198_statement : Prop :=
  ∀ n a b l k, commonGrammar.parse n .turtleStarDoc a = some (some ([.mk (some .turtleStarDoc) a (l ++ [.mk none [] []])], [])) →
    commonGrammar.parse n .turtleStarDoc b = some (some ([.mk (some .turtleStarDoc) b k], [])) →
      ∃ m, commonGrammar.parse m .turtleStarDoc (a ++ b) = some (some ([.mk (some .turtleStarDoc) (a ++ b) (l ++ k)], []))

/-- C198 fails: an empty string with another one right behind it is the beginning of a long string, if one ends later in the line. -/
theorem C198_fails : ¬ C198_statement := fun h => by
  obtain ⟨m, h1⟩ := h 200 (str! "<a:s> <a:p> (\"\"\"x\") . ") (str! "<a:s> <a:p> \"\"\"y\"\"\" .") _ _ rfl rfl
  have h2 : GRefuses .turtleStarDoc (str! "<a:s> <a:p> (\"\"\"x\") . <a:s> <a:p> \"\"\"y\"\"\" .") := ⟨200, rfl⟩
  exact h2.not_reads ⟨m, _, h1⟩

/-- Nor is the second document always refused or kept: behind a comment it is lost. -/
theorem C198_fails_comment (b : Str) (hb : ∀ c ∈ b, c ≠ '\r' ∧ c ≠ '\n') :
    Rd ('#' :: b).length (.rule .turtleStarDoc) ('#' :: b) [.mk (some .turtleStarDoc) ('#' :: b) [.mk none [] []]] [] := by
  refine (doc_readsAll (e := .rule .statement) rfl).2 ⟨[], ⟨[], ?_, rfl⟩, rfl⟩
  have : skip false ('#' :: b) = [] := skip_lastGap ⟨[], '#' :: b, .nil, rfl, .inr ⟨b, fun hc => (hb _ hc).1 rfl, fun hc => (hb _ hc).2 rfl, rfl⟩⟩
  rw [this]
  exact reads_star_none rej_statement_nil

theorem chain_refuses {e : Peg GRule} {d : GRule} (hd : commonGrammar.body d = (.normal, .seq .soi (.seq (.star e) .eoi))) (he : innerPeg e = true)
    {s b : Str} {l : List (Pair GRule)} (h : Chain s.length e s l b) :
    (GReads d s ↔ GReads d b) ∧ (GRefuses d s ↔ GRefuses d b) := by
  have key : GReads d s ↔ GReads d b := by
    constructor
    · rintro ⟨n, x, hx⟩
      obtain ⟨k, -, h1⟩ := (h.doc hd he x).1 ⟨n, hx⟩
      exact reads_of_acc h1.acc
    · rintro ⟨n, x, hx⟩
      obtain ⟨k, h1, rfl⟩ := (doc_readsAll hd).1 ⟨n, hx⟩
      exact reads_of_acc ((h.doc hd he _).2 ⟨_, rfl, n, hx⟩).acc
  refine ⟨key, ?_⟩
  have one : ∀ s, GRefuses d s ↔ ¬ GReads d s := by
    intro s
    refine ⟨fun h => h.not_reads, fun h => ?_⟩
    rcases rd_or_rej s.length d s with ⟨k, r, h1⟩ | h1
    · refine absurd ?_ h
      obtain ⟨_, h2, -⟩ := inv_rule (by rw [hd]) h1
      rw [hd] at h2
      obtain ⟨_, _, _, -, h3, -⟩ := inv_seq h2
      obtain ⟨_, _, _, -, h4, -⟩ := inv_seq h3
      obtain ⟨-, rfl, -⟩ := inv_eoi h4
      exact reads_of_acc h1.acc
    · exact refuses_of_rej h1
  rw [one, one, key]

theorem nt_lines {a : Str} (h : GReads .ntripleDoc a) : ∃ ls, LinesAt TripleAt ls a := by
  cases hd : pDoc pTriple a with
  | some ls => exact ⟨ls, (C71_iff _ _).1 hd⟩
  | none =>
    have := reads_doc (d := .ntripleDoc) (i := .ntriple) rfl rfl a reads_triple
    rw [hd] at this
    exact absurd h (GRefuses.not_reads this)

/-- C198, what holds: behind a document of N-Triples that ends with a line, any text is a document of Turtle, TriG or N3 exactly when it is one
by itself. -/
theorem C198_iff (a b : Str) (h : GReads .ntripleDoc a) (he : EndsLine a) :
    ((GReads .turtleStarDoc (a ++ b) ↔ GReads .turtleStarDoc b) ∧ (GRefuses .turtleStarDoc (a ++ b) ↔ GRefuses .turtleStarDoc b)) ∧
      ((GReads .trigDoc (a ++ b) ↔ GReads .trigDoc b) ∧ (GRefuses .trigDoc (a ++ b) ↔ GRefuses .trigDoc b)) ∧
        ((GReads .n3Doc (a ++ b) ↔ GReads .n3Doc b) ∧ (GRefuses .n3Doc (a ++ b) ↔ GRefuses .n3Doc b)) := by
  obtain ⟨ls, hl⟩ := nt_lines h
  obtain ⟨_, h1⟩ := chain_lines (T := (a ++ b).length) (e := .rule .statement) acc_turtle hl he b
  obtain ⟨_, h2⟩ := chain_lines (T := (a ++ b).length) (e := .alt (.rule .directive) (.rule .block)) acc_trig hl he b
  obtain ⟨_, h3⟩ := chain_lines (T := (a ++ b).length) (e := .alt (.seq (.rule .n3Statement) (.rule .END_OF_STATEMENT)) (.rule .sparqlDirective))
    acc_n3 hl he b
  exact ⟨chain_refuses rfl rfl h1, chain_refuses rfl rfl h2, chain_refuses rfl rfl h3⟩

/-- C198: the tree of such a document is that of the second, behind what has been read of the first. -/
theorem C198_tree (a b : Str) (h : GReads .ntripleDoc a) (he : EndsLine a) :
    ∃ l, ∀ x, (∃ n, commonGrammar.parse n .turtleStarDoc (a ++ b) = some (some (x, []))) ↔
      ∃ k n, x = [.mk (some .turtleStarDoc) (a ++ b) (l ++ k)] ∧
        commonGrammar.parse n .turtleStarDoc b = some (some ([.mk (some .turtleStarDoc) b k], [])) := by
  obtain ⟨ls, hl⟩ := nt_lines h
  obtain ⟨l, h1⟩ := chain_lines (T := (a ++ b).length) (e := .rule .statement) acc_turtle hl he b
  refine ⟨l, fun x => (h1.doc rfl rfl x).trans ?_⟩
  exact ⟨fun ⟨k, e, n, h⟩ => ⟨k, n, e, h⟩, fun ⟨k, n, e, h⟩ => ⟨k, e, n, h⟩⟩

/-- C198: nothing that is written behind a document of the Turtle writer changes how that is read, when the writer keeps to the grammar. -/
theorem C198_written (pr : Char → Bool) (url : Str → Option Iri) (sty : IriStyle) (opts : TurtleOptions) (o : Orders) (gen : Nat → Str)
    (k n : Nat) (g : Graph) (s : Str) (hfair : o.Fair) (hd : WritesDirectives sty opts g.mappings)
    (hst : ∀ t ∈ (denest gen k g).stmts, WritesStmt ⟨pr, url, sty, opts, denest gen k g, o⟩ t)
    (h : writeTurtle pr url sty opts o gen k n g = .ok s) (b : Str) :
    (GReads .turtleStarDoc (s ++ b) ↔ GReads .turtleStarDoc b) ∧ (GRefuses .turtleStarDoc (s ++ b) ↔ GRefuses .turtleStarDoc b) := by
  obtain ⟨l, h1⟩ := (written_stmts pr url sty opts o gen k n g s hfair hd hst h).chain (T := (s ++ b).length) b (s ++ b) rfl
  exact chain_refuses rfl rfl h1

/-- A line of N-Triples before a document of Turtle with a prefix, and before something else. -/
example : GReads .turtleStarDoc ((str! "<a:s> <a:p> \"x\" .\n") ++ str! "@prefix a: <a:> . a:s a:p ( 1 2 ) .") :=
  ((C198_iff (str! "<a:s> <a:p> \"x\" .\n") _ ⟨200, _, rfl⟩ (.inr ⟨str! "<a:s> <a:p> \"x\" .", '\n', by decide, rfl⟩)).1.1).2 ⟨300, _, rfl⟩

example : GRefuses .turtleStarDoc ((str! "<a:s> <a:p> \"x\" .\n") ++ str! "a:s a:p ( 1, 2 ) .") :=
  ((C198_iff (str! "<a:s> <a:p> \"x\" .\n") _ ⟨200, _, rfl⟩ (.inr ⟨str! "<a:s> <a:p> \"x\" .", '\n', by decide, rfl⟩)).1.2).2 ⟨300, rfl⟩

end Rdftk
