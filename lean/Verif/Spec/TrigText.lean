import Verif.Spec.TurtleGrammar
import Verif.Model.Graph

/-! The names of graphs a document of TriG can hold. -/

namespace Rdftk.Spec

open Rdftk

/-- The name of the graph is a label or an IRI of the grammar. -/
def GraphNameOk : Option GraphName → Prop
  | some (.bnode b) => Label b
  | some (.iri i) => LooseIri i.text
  | none => True

end Rdftk.Spec
