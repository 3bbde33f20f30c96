import Verif.Model.Xml

/-! How far statements lead along blank nodes. -/

namespace Rdftk.Spec

/-- Fewer than so many statements lead on from the node, each but the first about the blank node that is the object of the one before. -/
def LeadsWithin (L : List Stmt) : Nat → Subject → Prop
  | 0, _ => False
  | k + 1, s => ∀ p b, Stmt.mk s p (.blank b) ∈ L → LeadsWithin L k (.blank b)

end Rdftk.Spec
