import Verif.Model.NTriples

/-!
Model of the Graphviz writer (`rdftk_io/src/dot/writer.rs`).

The map of nodes that the writer keeps is a list of pairs in the order of insertion; the order
in which it is visited is a parameter.  When a panic ends a run the text written so far is not
kept.
-/

namespace Rdftk

/-- `dot/writer.rs` 55-59, `NodeKind`. -/
inductive DotKind where
  | blank
  | iri
  | literal
deriving DecidableEq, Repr

/-- `dot/writer.rs` 62-66, `Node`. -/
structure DotNode where
  id : Str
  kind : DotKind
  label : Str
deriving DecidableEq, Repr

/-- `dot/writer.rs` 21-38, `DotOptions`. -/
structure DotOptions where
  blankShape : Str
  blankColor : Str
  blankLabels : Bool
  iriShape : Str
  iriColor : Str
  literalShape : Str
  literalColor : Str
  nodePrefix : Str

/-- `dot/writer.rs` 72-85, `Default for DotOptions`. -/
def DotOptions.default : DotOptions :=
  ⟨str! "circle", str! "green", false, str! "ellipse", str! "blue", str! "record", str! "black",
    str! "node_"⟩

/-- The map from the display of a node to its entry, `dot/writer.rs` 46. -/
abbrev DotNodes := List (Str × DotNode)

/-- `HashMap::get`. -/
def dotGet (m : DotNodes) (k : Str) : Option DotNode := (m.find? fun e => e.1 == k).map (·.2)

/-- The identifier of the next new node, `dot/writer.rs` 381 and 410. -/
def dotNextId (m : DotNodes) : Str := Nat.toDigits 10 (m.length + 1)

/-- `dot/writer.rs` 376-403, `subject_id`: the identifier and the new map. -/
def dotSubjectId (sty : IriStyle) (m : DotNodes) (s : Subject) : Str × DotNodes :=
  match dotGet m (s.display sty) with
  | some n => (n.id, m)
  | none =>
    (dotNextId m,
      match s with
      | .blank b => m ++ [(s.display sty, ⟨dotNextId m, .blank, b⟩)]
      | .res i => m ++ [(s.display sty, ⟨dotNextId m, .iri, i.fmt sty⟩)]
      | .stmt _ => m)

/-- `dot/writer.rs` 405-442, `object_id`. -/
def dotObjectId (sty : IriStyle) (m : DotNodes) (o : Object) : Str × DotNodes :=
  match dotGet m (o.display sty false) with
  | some n => (n.id, m)
  | none =>
    (dotNextId m,
      match o with
      | .blank b => m ++ [(o.display sty false, ⟨dotNextId m, .blank, b⟩)]
      | .res i => m ++ [(o.display sty false, ⟨dotNextId m, .iri, i.fmt sty⟩)]
      | .lit l => m ++ [(o.display sty false, ⟨dotNextId m, .literal, l.lexicalForm⟩)]
      | .coll _ => m
      | .stmt _ => m)

/-- `dot/writer.rs` 298-301: the label of an edge. -/
def dotEdgeLabel (sty : IriStyle) (pm : PrefixMap) (p : Iri) : Outcome Str :=
  match pm.compress p with
  | .panic => .panic
  | .ok none => .ok (p.fmt sty)
  | .ok (some q) => .ok q.display

/-- `dot/writer.rs` 292-302: the line of an edge. -/
def dotEdge (opts : DotOptions) (s o label : Str) : Str :=
  str! "    \"" ++ opts.nodePrefix ++ s ++ str! "\" -> \"node_" ++ o ++ str! "\" [label=\"" ++ label ++
    str! "\"];\n"

/-- `dot/writer.rs` 291-303: the loop over the statements. -/
def dotEdges (sty : IriStyle) (opts : DotOptions) (pm : PrefixMap) (m : DotNodes) :
    List Stmt → Outcome (Str × DotNodes)
  | [] => .ok ([], m)
  | st :: sts =>
    let s := dotSubjectId sty m st.subject
    let o := dotObjectId sty s.2 st.object
    match dotEdgeLabel sty pm st.predicate with
    | .panic => .panic
    | .ok label =>
      match dotEdges sty opts pm o.2 sts with
      | .panic => .panic
      | .ok (text, m') => .ok (dotEdge opts s.1 o.1 label ++ text, m')

/-- `dot/writer.rs` 307-357: the line of a node. -/
def dotNodeLine (opts : DotOptions) (n : DotNode) : Str :=
  match n.kind with
  | .blank =>
    if opts.blankLabels then
      str! "    \"" ++ opts.nodePrefix ++ n.id ++ str! "\" [label=\"" ++ opts.nodePrefix ++ n.id ++
        str! "\",shape=" ++ opts.blankShape ++ str! ",color=" ++ opts.blankColor ++ str! "];\n"
    else
      str! "    \"" ++ opts.nodePrefix ++ n.id ++ str! "\" [label=\"\",shape=" ++ opts.blankShape ++
        str! ",color=" ++ opts.blankColor ++ str! "];\n"
  | .iri =>
    str! "    \"" ++ opts.nodePrefix ++ n.id ++ str! "\" [URL=\"" ++ n.label ++ str! "\",label=\"" ++
      n.label ++ str! "\",shape=" ++ opts.iriShape ++ str! ",color=" ++ opts.iriColor ++ str! "];\n"
  | .literal =>
    str! "    \"" ++ opts.nodePrefix ++ n.id ++ str! "\" [label=\"" ++ n.label ++ str! "\",shape=" ++
      opts.literalShape ++ str! ",color=" ++ opts.literalColor ++ str! "];\n"

/-- `dot/writer.rs` 280-361, `write`: the text and the map the writer keeps for its next run.
`m` is the map before, `ord` the order in which the map is visited. -/
def writeDot (sty : IriStyle) (ord : DotNodes → DotNodes) (opts : DotOptions) (m : DotNodes) (g : Graph) :
    Outcome (Str × DotNodes) :=
  match dotEdges sty opts g.mappings m g.stmts with
  | .panic => .panic
  | .ok (edges, m') =>
    .ok (str! "digraph {\n    rankdir=BT\n    charset=\"utf-8\";\n" ++ str! "\n" ++ edges ++ str! "\n" ++
      (ord m').flatMap (fun e => dotNodeLine opts e.2) ++ str! "}\n", m')

end Rdftk
