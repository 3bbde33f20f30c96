import Verif.Model.NTriples

/-! Model of the TriG writer (`rdftk_io/src/trig/writer.rs`). -/

namespace Rdftk

/-- `trig/writer.rs` 90-107, `write` for a graph; the call of the Turtle writer is a comment in
the code.  `noKeyword` is the option `omit_graph_keyword`. -/
def writeTrigGraph (sty : IriStyle) (noKeyword : Bool) (g : Graph) : Str :=
  (match g.name with
   | some n => (if noKeyword then [] else str! "GRAPH ") ++ n.display sty ++ str! " "
   | none => []) ++ str! "{\n" ++ str! "}\n"

/-- `trig/writer.rs` 74-82, `write` for a data set. -/
def writeTrig (sty : IriStyle) (noKeyword : Bool) (d : DataSet) : Str :=
  d.allGraphs.flatMap (writeTrigGraph sty noKeyword)

end Rdftk
