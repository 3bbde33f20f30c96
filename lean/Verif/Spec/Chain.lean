import Verif.Model.Graph

/-! Chains of statements through blank nodes. -/

namespace Rdftk.Spec

/-- Statements of the graph that all have a blank node for object, each but the first about the object of the one before. -/
def StmtChain (g : Graph) : List Stmt → Prop
  | [] => True
  | t :: c => t ∈ g.stmts ∧ (∃ b, t.object = .blank b ∧ ∀ u ∈ c.head?, u.subject = .blank b) ∧ StmtChain g c

/-- Statements of the graph, each but the first about the blank node that is the object of the one before. -/
def StmtWalk (g : Graph) : List Stmt → Prop
  | [] => False
  | t :: c => t ∈ g.stmts ∧ (c = [] ∨ (∃ b, t.object = .blank b ∧ ∀ u ∈ c.head?, u.subject = .blank b) ∧ StmtWalk g c)

end Rdftk.Spec
