import Verif.Spec.Sparql

/-! Productions for the smallest queries and updates of SPARQL 1.1, written from the recommendation. -/

namespace Rdftk.Spec

/-- Only white space. -/
def AllWs (s : Str) : Prop := ∀ c ∈ s, SparqlWs c

/-- `Var+`, each with white space after it. -/
inductive Vars : Str → Prop
  | one {v g : Str} : VARNAME v → g ≠ [] → AllWs g → Vars ('?' :: v ++ g)
  | more {v g s : Str} : VARNAME v → g ≠ [] → AllWs g → Vars s → Vars ('?' :: v ++ g ++ s)

/-- Some texts of `SelectQuery`: `'SELECT' ( Var+ | '*' ) 'WHERE' '{' '}'`. -/
inductive SmallSelect : Str → Prop
  | all {k g g1 w g2 g3 g4 : Str} : Keyword (str! "SELECT") k → AllWs g → AllWs g1 → Keyword (str! "WHERE") w → AllWs g2 → AllWs g3 →
      AllWs g4 → SmallSelect (k ++ g ++ '*' :: g1 ++ w ++ g2 ++ '{' :: g3 ++ '}' :: g4)
  | vars {k g v w g2 g3 g4 : Str} : Keyword (str! "SELECT") k → g ≠ [] → AllWs g → Vars v → Keyword (str! "WHERE") w → AllWs g2 → AllWs g3 →
      AllWs g4 → SmallSelect (k ++ g ++ v ++ w ++ g2 ++ '{' :: g3 ++ '}' :: g4)

/-- Some texts of `Clear` and `Drop`: the keyword and `'DEFAULT'`, `'NAMED'` or `'ALL'`. -/
def SmallUpdate (s : Str) : Prop :=
  ∃ k g w, s = k ++ g ++ w ∧ (Keyword (str! "CLEAR") k ∨ Keyword (str! "DROP") k) ∧ g ≠ [] ∧ AllWs g ∧
    (Keyword (str! "DEFAULT") w ∨ Keyword (str! "NAMED") w ∨ Keyword (str! "ALL") w)

/-- `GraphRef ::= 'GRAPH' iri` with an `IRIREF`, and white space after it. -/
def GraphRefIri (s : Str) : Prop :=
  ∃ k g i w, s = k ++ g ++ '<' :: i ++ '>' :: w ∧ Keyword (str! "GRAPH") k ∧ (∀ c ∈ g, WhiteSpace c) ∧ (∀ c ∈ i, IriRefChar c) ∧
    ∀ c ∈ w, WhiteSpace c

end Rdftk.Spec
