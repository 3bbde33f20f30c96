import Verif.Model.Turtle

/-! How deep objects are nested when blank nodes are written inside each other. -/

namespace Rdftk.Spec

/-- At most so many levels: collections are one level above their members, and, if blank nodes are nested, a blank node is one level
above the objects of the statements about it. -/
def NestsWithin (nest : Bool) (g : Graph) : Nat → Object → Prop
  | 0, _ => False
  | k + 1, .blank b => nest = true → ∀ p o, Stmt.mk (.blank b) p o ∈ g.stmts → NestsWithin nest g k o
  | k + 1, .coll c => ∀ o ∈ c, NestsWithin nest g k o
  | _ + 1, .res _ => True
  | _ + 1, .lit _ => True
  | _ + 1, .stmt _ => True

/-- Collections are at most so many levels within each other. -/
def ListsWithin : Nat → Object → Prop
  | 0, .coll _ => False
  | k + 1, .coll c => ∀ o ∈ c, ListsWithin k o
  | _, _ => True

end Rdftk.Spec
