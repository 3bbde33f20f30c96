import Verif.Spec.Escape
import Verif.Model.Dot
import Mathlib.Data.List.Forall2

/-!
Independent reading of the drawings of Graphviz: a tokenizer and a reader for the part of the
language made of edges and nodes with lists of attributes.
-/

namespace Rdftk.Spec

/-- A token. -/
inductive DotTok where
  | word (s : Str)
  | quoted (s : Str)
  | arrow
  | punct (c : Char)
deriving DecidableEq, Repr

/-- Where the tokenizer is. -/
inductive DotState where
  | idle
  | word (s : Str)                       -- the letters so far
  | quoted (pending : Bool) (s : Str)    -- the text so far, and whether a backslash is pending
  | dash
deriving DecidableEq, Repr

/-- Letters of words. -/
def isDotWord (c : Char) : Bool := c.isAlphanum || c == '_'

/-- Layout. -/
def isDotSpace (c : Char) : Bool := c == ' ' || c == '\n'

/-- Single characters that are tokens. -/
def isDotPunct (c : Char) : Bool :=
  c == '{' || c == '}' || c == '[' || c == ']' || c == '=' || c == ',' || c == ';'

/-- A character outside words and strings: the new state and the token it is. -/
def dotStart (c : Char) : Option (DotState × List DotTok) :=
  if isDotSpace c then some (.idle, [])
  else if isDotPunct c then some (.idle, [.punct c])
  else if c = '"' then some (.quoted false [], [])
  else if c = '-' then some (.dash, [])
  else if isDotWord c then some (.word [c], [])
  else none

/-- One character: the new state and the tokens that end before or at it. -/
def dotStep : DotState → Char → Option (DotState × List DotTok)
  | .idle, c => dotStart c
  | .word s, c =>
    if isDotWord c then some (.word (s ++ [c]), [])
    else (dotStart c).map fun r => (r.1, .word s :: r.2)
  | .quoted true s, c => some (.quoted false (s ++ [c]), [])
  | .quoted false s, c =>
    if c = '"' then some (.idle, [.quoted s]) else some (.quoted (c = '\\') (s ++ [c]), [])
  | .dash, c => if c = '>' then some (.idle, [.arrow]) else none

/-- The tokens of a text, from a state; nothing may be left open at the end. -/
def dotTokens : DotState → Str → Option (List DotTok)
  | .idle, [] => some []
  | .word s, [] => some [.word s]
  | _, [] => none
  | st, c :: r =>
    match dotStep st c with
    | none => none
    | some (st', ts) => (dotTokens st' r).map (ts ++ ·)

/-- The tokens up to each semicolon, and what follows the last one. -/
def dotStatements : List DotTok → List (List DotTok) × List DotTok
  | [] => ([], [])
  | t :: ts =>
    let r := dotStatements ts
    if t = .punct ';' then ([] :: r.1, r.2)
    else match r.1 with
      | [] => ([], t :: r.2)
      | s :: ss => ((t :: s) :: ss, r.2)

/-- `name=value` pairs, separated by commas and ended by the closing bracket. -/
def dotAttrs : List DotTok → Option (List (Str × Str))
  | .word k :: .punct '=' :: .quoted v :: .punct ',' :: r => (dotAttrs r).map ((k, v) :: ·)
  | .word k :: .punct '=' :: .word v :: .punct ',' :: r => (dotAttrs r).map ((k, v) :: ·)
  | [.word k, .punct '=', .quoted v, .punct ']'] => some [(k, v)]
  | [.word k, .punct '=', .word v, .punct ']'] => some [(k, v)]
  | _ => none

/-- A statement of a drawing. -/
inductive DotItem where
  | edge (tail head : Str) (attrs : List (Str × Str))
  | node (id : Str) (attrs : List (Str × Str))
deriving DecidableEq, Repr

/-- The item a statement stands for. -/
def dotItem : List DotTok → Option DotItem
  | .quoted a :: .arrow :: .quoted b :: .punct '[' :: r => (dotAttrs r).map (.edge a b)
  | .quoted a :: .punct '[' :: r => (dotAttrs r).map (.node a)
  | _ => none

/-- Reads a list of statements. -/
def dotItems : List (List DotTok) → Option (List DotItem)
  | [] => some []
  | s :: ss => (dotItem s).bind fun i => (dotItems ss).map (i :: ·)

/-- The settings at the head of the drawing: drawn upwards, in UTF-8. -/
def dotHead : List DotTok :=
  [.word (str! "digraph"), .punct '{', .word (str! "rankdir"), .punct '=', .word (str! "BT"),
    .word (str! "charset"), .punct '=', .quoted (str! "utf-8")]

/-- The items of the drawing a text stands for. -/
def readDot (s : Str) : Option (List DotItem) :=
  match dotTokens .idle s with
  | none => none
  | some ts =>
    match dotStatements ts with
    | (h :: ss, [.punct '}']) => if h = dotHead then dotItems ss else none
    | _ => none

/-! ### What is to be drawn -/

/-- The nodes of statements: their subjects and objects, each once. -/
def nodesOf (sts : List Stmt) : List Object :=
  setOf (sts.flatMap fun st => [st.subject.toObject, st.object])

/-- The label of an edge: the short name of the predicate if it has one, else its text. -/
def edgeLabel (sty : IriStyle) (pm : PrefixMap) (p : Iri) : Str :=
  match pm.compress p with
  | .ok (some q) => q.display
  | _ => p.fmt sty

/-- The edge of a statement. -/
def edgeItem (sty : IriStyle) (opts : DotOptions) (pm : PrefixMap) (id : Object → Str) (st : Stmt) : DotItem :=
  .edge (opts.nodePrefix ++ id st.subject.toObject) (opts.nodePrefix ++ id st.object)
    [(str! "label", edgeLabel sty pm st.predicate)]

/-- The attributes of a node; those of collections and statements are left open. -/
def nodeAttrs (sty : IriStyle) (opts : DotOptions) (id : Object → Str) : Object → Option (List (Str × Str))
  | .blank b =>
    some [(str! "label", if opts.blankLabels then opts.nodePrefix ++ id (.blank b) else []),
      (str! "shape", opts.blankShape), (str! "color", opts.blankColor)]
  | .res i =>
    some [(str! "URL", i.fmt sty), (str! "label", i.fmt sty), (str! "shape", opts.iriShape),
      (str! "color", opts.iriColor)]
  | .lit l =>
    some [(str! "label", l.lexicalForm), (str! "shape", opts.literalShape), (str! "color", opts.literalColor)]
  | _ => none

/-- The item draws the node. -/
def draws (sty : IriStyle) (opts : DotOptions) (id : Object → Str) (o : Object) (it : DotItem) : Prop :=
  ∃ attrs, it = .node (opts.nodePrefix ++ id o) attrs ∧
    ∀ as, nodeAttrs sty opts id o = some as → attrs = as

/-- The items draw the graph: some choice of identifiers gives different ones to different
nodes, there is an edge for each statement, in order, and then one item for each node, in any
order. -/
def Draws (sty : IriStyle) (opts : DotOptions) (g : Graph) (items : List DotItem) : Prop :=
  ∃ id : Object → Str,
    (∀ a ∈ nodesOf g.stmts, ∀ b ∈ nodesOf g.stmts, id a = id b → a = b) ∧
    ∃ nodes drawn, nodes.Perm (nodesOf g.stmts) ∧ List.Forall₂ (draws sty opts id) nodes drawn ∧
      items = g.stmts.map (edgeItem sty opts g.mappings id) ++ drawn

/-- Text that may stand in quotes and next to other such text. -/
abbrev dotSafe (s : Str) : Prop := noBareQuote false s = true

/-- A non-empty word. -/
def isWord (s : Str) : Bool := !s.isEmpty && s.all isDotWord

/-- Shapes and colours are words and the prefix may stand in quotes. -/
def OptionsSafe (opts : DotOptions) : Prop :=
  isWord opts.blankShape = true ∧ isWord opts.blankColor = true ∧ isWord opts.iriShape = true ∧
  isWord opts.iriColor = true ∧ isWord opts.literalShape = true ∧ isWord opts.literalColor = true ∧
  dotSafe opts.nodePrefix

/-- No quote and no backslash. -/
def quoteFree (s : Str) : Prop := ∀ c ∈ s, c ≠ '"' ∧ c ≠ '\\'

/-- The texts of a graph that go into the drawing: IRIs and prefixes without quotes and
backslashes, lexical forms without bare quotes. -/
def GraphSafe (g : Graph) : Prop :=
  (∀ st ∈ g.stmts, quoteFree st.predicate.text) ∧
  (∀ i, Object.res i ∈ nodesOf g.stmts → quoteFree i.text) ∧
  (∀ l, Object.lit l ∈ nodesOf g.stmts → dotSafe l.lexicalForm) ∧
  (∀ e ∈ g.mappings.entries, quoteFree e.1.text)

end Rdftk.Spec
