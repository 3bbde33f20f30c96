import Verif.Model.Graph

/-! The statements of a data set by the names that its graphs have themselves. -/

namespace Rdftk.Spec

/-- A graph of the name, under whatever key, has the statement. -/
def NamedHolds (d : DataSet) (k : Option GraphName) (st : Stmt) : Prop := ∃ g ∈ d.allGraphs, g.name = k ∧ st ∈ g.stmts

end Rdftk.Spec
