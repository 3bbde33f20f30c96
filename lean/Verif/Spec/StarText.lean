import Verif.Spec.TurtleGrammar
import Verif.Spec.TrigText

/-! Statements whose printed form the grammar of Turtle can read, and the places where a list may stand. -/

namespace Rdftk.Spec
open Rdftk

/-- A string with or without a suffix, a number, a truth value or an IRI in brackets. -/
def PlainLiteral (v : Str) : Prop :=
  (∃ q, QuoteText q ∧ (v = '"' :: (q ++ ['"']) ∨ (∃ t, LangTag t ∧ v = '"' :: (q ++ '"' :: '@' :: t)) ∨
    ∃ i, GIriText i ∧ v = '"' :: (q ++ '"' :: '^' :: '^' :: i))) ∨
  (∃ k, NumberText k v) ∨ v = str! "true" ∨ v = str! "false" ∨ ∃ i, LooseIri i ∧ v = '<' :: (i ++ ['>'])

mutual
/-- The labels, IRIs and literals of a subject are texts of the grammar. -/
def SubjectShows : Subject → Prop
  | .blank b => Label b
  | .res i => LooseIri i.text
  | .stmt t => StmtShows t
/-- The same for a statement. -/
def StmtShows : Stmt → Prop
  | .mk s p o => SubjectShows s ∧ LooseIri p.text ∧ ObjectShows o
/-- The same for an object. -/
def ObjectShows : Object → Prop
  | .blank b => Label b
  | .res i => LooseIri i.text
  | .lit l => PlainLiteral (l.display .bare false)
  | .coll c => ObjectsShow c
  | .stmt t => StmtShows t
/-- The same for the members of a list. -/
def ObjectsShow : List Object → Prop
  | [] => True
  | o :: os => ObjectShows o ∧ ObjectsShow os
end

mutual
/-- No statement quoted by a subject has a list for its object, however deep. -/
def SubjectQuotes : Subject → Prop
  | .stmt t => StmtQuotes t
  | _ => True
/-- A statement that can be quoted: its object is no list, nor that of any statement it quotes. -/
def StmtQuotes : Stmt → Prop
  | .mk s _ o => SubjectQuotes s ∧ (∀ c, o ≠ .coll c) ∧ ObjectQuotes o
/-- No statement quoted by an object has a list for its object; the object itself may be one. -/
def ObjectQuotes : Object → Prop
  | .stmt t => StmtQuotes t
  | .coll c => ObjectsQuote c
  | _ => True
/-- The same for the members of a list. -/
def ObjectsQuote : List Object → Prop
  | [] => True
  | o :: os => ObjectQuotes o ∧ ObjectsQuote os
end

/-- Statements one on a line, with dots between them; `dot` says whether there is one behind the last. -/
def blockText (dot : Bool) : List Stmt → Str
  | [] => []
  | [t] => t.display .bare ++ if dot then str! " .\n" else str! "\n"
  | t :: t' :: ts => t.display .bare ++ (str! " .\n") ++ blockText dot (t' :: ts)

/-- A graph of TriG: its name, if any, with or without the keyword, and its statements in braces. -/
def trigGraphText (noKeyword dot : Bool) (n : Option GraphName) (ts : List Stmt) : Str :=
  (match n with
   | some n => (if noKeyword then [] else str! "GRAPH ") ++ n.display .bare ++ str! " "
   | none => []) ++ (str! "{\n") ++ blockText dot ts ++ str! "}\n"

end Rdftk.Spec
