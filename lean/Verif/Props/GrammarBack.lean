import Verif.Lemmas.PegBack
import Verif.Props.GrammarParts

/-! C196 and C197: documents of TriG without graphs, and the word before the name of a graph. -/

namespace Rdftk

open PegGrammar Spec

/-! ### C196 -/

/-- **C196.** A document of TriG is one of Turtle exactly when nothing in it stands in braces; otherwise Turtle refuses it. -/
theorem C196_iff (n : Nat) (s : Str) (l : List (Pair GRule)) (h : commonGrammar.parse n .trigDoc s = some (some (l, []))) :
    (GReads .turtleStarDoc s ↔ ¬ ∃ p ∈ l, p.rule = some .trigDoc ∧ Braces p.inner) ∧
      (GRefuses .turtleStarDoc s ↔ ∃ p ∈ l, p.rule = some .trigDoc ∧ Braces p.inner) := by
  rcases turtle_of_trig ⟨n, h⟩ with ⟨h1, h2⟩ | ⟨h1, h2⟩
  · have := reads_of_acc h1
    exact ⟨⟨fun _ => h2, fun _ => this⟩, ⟨fun h => absurd this h.not_reads, fun h => absurd h h2⟩⟩
  · have := refuses_of_rej h1
    exact ⟨⟨fun h => absurd h this.not_reads, fun h => absurd h2 h⟩, ⟨fun _ => h2, fun _ => this⟩⟩

/-- C196 and C184 together: two trees of one text, and neither has what the other language does not know. -/
theorem C196_both (n m : Nat) (s : Str) (l k : List (Pair GRule)) (ht : commonGrammar.parse n .turtleStarDoc s = some (some (l, [])))
    (hg : commonGrammar.parse m .trigDoc s = some (some (k, []))) :
    ¬ Under [.turtleStarDoc, .statement, .triples, .turtleSubject, .tripleX] l ∧ ¬ ∃ p ∈ k, p.rule = some .trigDoc ∧ Braces p.inner :=
  ⟨(C184_trig_iff n s l ht).1.1 ⟨m, k, hg⟩, (C196_iff m s k hg).1.1 ⟨n, l, ht⟩⟩

/-- A document with a directive, a blank node and a list, without braces. -/
example : GReads .turtleStarDoc (str! "@prefix a: <a:b> . [] a:p ( 1 a:q ) . [ a:p a:o ] .") :=
  (C196_iff 300 _ _ rfl).1.2 (by simp only [Braces]; decide +kernel)

/-- A document with a graph. -/
example : GRefuses .turtleStarDoc (str! "<a:s> <a:p> <a:o> . <a:g> { <a:s> <a:p> <a:o> }") :=
  (C196_iff 300 _ _ rfl).2.2 (by simp only [Braces]; decide +kernel)

/-! ### C197 -/

/-- The word before the name of a graph may be written in small letters, as the other words that TriG has from SPARQL. -/
def C197_statement : Prop := ∀ w u, w.map asciiLower = (str! "GRAPH").map asciiLower → GReads .trigDoc ((str! "GRAPH") ++ u) → GReads .trigDoc (w ++ u)

/-- In other letters the word is refused before an IRI, whatever follows. -/
theorem C197_refused (w g u : Str) (hl : w.map asciiLower = (str! "GRAPH").map asciiLower) (hw : w ≠ (str! "GRAPH")) (hg : Gap g) :
    GRefuses .trigDoc (w ++ (g ++ '<' :: u)) := by
  have hlen : w.length = 5 := by simpa using congrArg List.length hl
  have hsk : skip false (w ++ (g ++ '<' :: u)) = w ++ (g ++ '<' :: u) := by
    cases w with
    | nil => simp at hlen
    | cons c w =>
      simp only [List.map_cons, List.cons.injEq] at hl
      have hb : isPnCharsBase c = true := lower_base (by rw [hl.1]; decide)
      have := pn_solid (base_pn hb)
      exact skip_lead this.1 this.2.1
  refine refuses_of_rej (rej_doc (e := .alt (.rule .directive) (.rule .block)) rfl ?_ ?_)
  · rw [hsk]; intro e; simp at e
  · rw [hsk]; exact rej_graph_case hl hw hg

/-- C197 fails: only capital letters will do. -/
theorem C197_fails : ¬ C197_statement := fun h =>
  (C197_refused (str! "graph") (str! " ") (str! "a:g> { }") rfl (by decide) (.ws (by decide) .nil)).not_reads
    (h (str! "graph") (str! " <a:g> { }") rfl ⟨100, _, rfl⟩)

/-- C197 exactly, for graphs with an IRI: the word has capital letters. -/
theorem C197_iff (w g u : Str) (hl : w.map asciiLower = (str! "GRAPH").map asciiLower) (hg : Gap g) (h : GReads .trigDoc ((str! "GRAPH") ++ (g ++ '<' :: u))) :
    GReads .trigDoc (w ++ (g ++ '<' :: u)) ↔ w = (str! "GRAPH") := by
  constructor
  · intro hr
    exact Classical.byContradiction fun hw => (C197_refused w g u hl hw hg).not_reads hr
  · rintro rfl
    exact h

end Rdftk
