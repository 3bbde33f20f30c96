import Verif.Lemmas.PegParts
import Verif.Props.GrammarTurtle

/-! C184 exactly: which documents of Turtle are documents of TriG and of N3. The tree `l` of the parse by the rule of Turtle says it. -/

namespace Rdftk

open PegGrammar Spec

/-- C184 for TriG: a document of Turtle is one of TriG exactly when no statement of it is about a quoted statement. Otherwise TriG refuses it. -/
theorem C184_trig_iff (n : Nat) (s : Str) (l : List (Pair GRule)) (h : commonGrammar.parse n .turtleStarDoc s = some (some (l, []))) :
    (GReads .trigDoc s ↔ ¬ Under [.turtleStarDoc, .statement, .triples, .turtleSubject, .tripleX] l) ∧
      (GRefuses .trigDoc s ↔ Under [.turtleStarDoc, .statement, .triples, .turtleSubject, .tripleX] l) := by
  rcases trig_of_turtle ⟨n, h⟩ with ⟨h1, h2⟩ | ⟨h1, h2⟩
  · have := reads_of_acc h1
    exact ⟨⟨fun _ => h2, fun _ => this⟩, ⟨fun h => absurd this h.not_reads, fun h => absurd h h2⟩⟩
  · have := refuses_of_rej h1
    exact ⟨⟨fun h => absurd h this.not_reads, fun h => absurd h2 h⟩, ⟨fun _ => h2, fun _ => this⟩⟩

/-- C184 for N3: a document of Turtle is one of N3 exactly when it has no `@prefix`, no `@base` and no quoted statement for the subject or an object
of a statement. Otherwise N3 refuses it. -/
theorem C184_n3_iff (n : Nat) (s : Str) (l : List (Pair GRule)) (h : commonGrammar.parse n .turtleStarDoc s = some (some (l, []))) :
    (GReads .n3Doc s ↔ ¬ ∃ p ∈ l, p.rule = some .turtleStarDoc ∧ NotN3 p.inner) ∧
      (GRefuses .n3Doc s ↔ ∃ p ∈ l, p.rule = some .turtleStarDoc ∧ NotN3 p.inner) := by
  rcases n3_of_turtle ⟨n, h⟩ with ⟨h1, h2⟩ | ⟨h1, h2⟩
  · have := reads_of_acc h1
    exact ⟨⟨fun _ => h2, fun _ => this⟩, ⟨fun h => absurd this h.not_reads, fun h => absurd h h2⟩⟩
  · have := refuses_of_rej h1
    exact ⟨⟨fun h => absurd h this.not_reads, fun h => absurd h2 h⟩, ⟨fun _ => h2, fun _ => this⟩⟩

/-- Documents of Turtle without `@prefix` and `@base` in which no statement has a quoted statement for an end belong to all three. -/
theorem C184_partial (n : Nat) (s : Str) (l : List (Pair GRule)) (h : commonGrammar.parse n .turtleStarDoc s = some (some (l, [])))
    (hp : ¬ Under [.turtleStarDoc, .statement, .directive, .prefixID] l) (hb : ¬ Under [.turtleStarDoc, .statement, .directive, .base] l)
    (hs : ¬ Under [.turtleStarDoc, .statement, .triples, .turtleSubject, .tripleX] l)
    (ho : ¬ Under [.turtleStarDoc, .statement, .triples, .predicateObjectList, .verbObjectList, .objectList, .turtleObject, .tripleX] l) :
    GReads .trigDoc s ∧ GReads .n3Doc s := by
  refine ⟨(C184_trig_iff n s l h).1.2 hs, (C184_n3_iff n s l h).1.2 ?_⟩
  rintro ⟨p, h1, h2, h3 | h3 | h3 | h3⟩
  · exact hp ⟨p, h1, h2, h3⟩
  · exact hb ⟨p, h1, h2, h3⟩
  · exact hs ⟨p, h1, h2, h3⟩
  · exact ho ⟨p, h1, h2, h3⟩

/-- C184 for both: the documents of Turtle that belong to all three are the ones just named. -/
theorem C184_iff (n : Nat) (s : Str) (l : List (Pair GRule)) (h : commonGrammar.parse n .turtleStarDoc s = some (some (l, []))) :
    (GReads .trigDoc s ∧ GReads .n3Doc s ↔ GReads .n3Doc s) ∧ (GReads .n3Doc s ↔
      ¬ Under [.turtleStarDoc, .statement, .directive, .prefixID] l ∧ ¬ Under [.turtleStarDoc, .statement, .directive, .base] l ∧
      ¬ Under [.turtleStarDoc, .statement, .triples, .turtleSubject, .tripleX] l ∧
      ¬ Under [.turtleStarDoc, .statement, .triples, .predicateObjectList, .verbObjectList, .objectList, .turtleObject, .tripleX] l) := by
  have hn : GReads .n3Doc s ↔ ¬ Under [.turtleStarDoc, .statement, .directive, .prefixID] l ∧ ¬ Under [.turtleStarDoc, .statement, .directive, .base] l ∧
      ¬ Under [.turtleStarDoc, .statement, .triples, .turtleSubject, .tripleX] l ∧
      ¬ Under [.turtleStarDoc, .statement, .triples, .predicateObjectList, .verbObjectList, .objectList, .turtleObject, .tripleX] l := by
    constructor
    · intro hr
      have := (C184_n3_iff n s l h).1.1 hr
      refine ⟨?_, ?_, ?_, ?_⟩ <;> rintro ⟨p, h1, h2, h3⟩ <;> exact this ⟨p, h1, h2, by simp [NotN3, h3]⟩
    · rintro ⟨h1, h2, h3, h4⟩
      exact (C184_partial n s l h h1 h2 h3 h4).2
  refine ⟨⟨fun h => h.2, fun hr => ?_⟩, hn⟩
  obtain ⟨h1, h2, h3, h4⟩ := hn.1 hr
  exact C184_partial n s l h h1 h2 h3 h4

/-- A document with predicates, objects, a blank node with properties and a list, which belongs to all three. -/
example : GReads .trigDoc (str! "<a:s> <a:p> 1, [ a <a:c> ] ; <a:q> ( <a:r> ) .") ∧ GReads .n3Doc (str! "<a:s> <a:p> 1, [ a <a:c> ] ; <a:q> ( <a:r> ) .") := by
  refine C184_partial 300 _ _ rfl ?_ ?_ ?_ ?_ <;> decide +kernel

/-- N3 and Turtle agree about the text but not about what it says: where `PREFIX` and the prefix stand without a space the one reads a directive
and a statement, the other one statement about `PREFIXa:`. -/
theorem C184_fails_prefix : ∃ s l k, commonGrammar.parse 300 .turtleStarDoc s = some (some (l, [])) ∧
    commonGrammar.parse 300 .n3Doc s = some (some (k, [])) ∧ Under [.turtleStarDoc, .statement, .directive, .sparqlPrefix] l ∧
      ¬ Under [.n3Doc, .sparqlDirective] k ∧ Under [.n3Doc, .n3Statement, .n3Triples, .n3Subject] k :=
  ⟨(str! "PREFIXa: <a:b> [ <a:p> <a:o> ] ."), _, _, rfl, rfl, by decide +kernel, by decide +kernel,
    by decide +kernel⟩

end Rdftk
