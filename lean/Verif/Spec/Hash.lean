import Verif.Model.Node

/-! Nodes whose collections have lengths that fit a word of the machine. -/

namespace Rdftk.Spec

/-- The number that bytes write, the lowest byte first. -/
def littleEndian : List Nat → Nat
  | [] => 0
  | b :: l => b + 256 * littleEndian l

mutual
/-- No collection in the subject has so many members that the number does not fit a word. -/
def SmallSubject : Subject → Prop
  | .blank _ => True
  | .res _ => True
  | .stmt t => SmallStmt t
/-- No collection in the statement has so many members that the number does not fit a word. -/
def SmallStmt : Stmt → Prop
  | .mk s _ o => SmallSubject s ∧ SmallObject o
/-- No collection in the object has so many members that the number does not fit a word. -/
def SmallObject : Object → Prop
  | .blank _ => True
  | .res _ => True
  | .lit _ => True
  | .coll c => c.length < 2 ^ 64 ∧ SmallAll c
  | .stmt t => SmallStmt t
/-- The same for all objects of a list. -/
def SmallAll : List Object → Prop
  | [] => True
  | o :: c => SmallObject o ∧ SmallAll c
end

end Rdftk.Spec
