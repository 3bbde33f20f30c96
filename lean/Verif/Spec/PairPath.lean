import Verif.Model.CommonPest

/-! Places in the tree of a parse. -/

namespace Rdftk.Spec

/-- Down from some pair of the list there is a way through pairs of these rules. -/
def Under : List GRule → List (Pair GRule) → Prop
  | [], _ => True
  | x :: xs, l => ∃ p ∈ l, p.rule = some x ∧ Under xs p.inner

instance Under.dec : ∀ xs l, Decidable (Under xs l)
  | [], _ => .isTrue trivial
  | x :: xs, l => by
    have := Under.dec xs
    unfold Under
    infer_instance

/-- What makes N3 refuse a statement of Turtle: the dot of a directive, and quoted statements for its ends. -/
def NotN3 (l : List (Pair GRule)) : Prop :=
  Under [.statement, .directive, .prefixID] l ∨ Under [.statement, .directive, .base] l ∨ Under [.statement, .triples, .turtleSubject, .tripleX] l ∨
    Under [.statement, .triples, .predicateObjectList, .verbObjectList, .objectList, .turtleObject, .tripleX] l

/-- Parts of a document of TriG in braces, with a name before them or without. -/
def Braces (l : List (Pair GRule)) : Prop := Under [.wrappedGraph] l ∨ Under [.triplesOrGraph, .wrappedGraph] l ∨ Under [.namedGraph] l

end Rdftk.Spec
