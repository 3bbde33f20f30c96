import Verif.Spec.TurtleNested

/-! Simple interpretations and simple entailment, RDF 1.1 Semantics, section 5. -/

namespace Rdftk.Spec

/-- A simple interpretation: resources, which of them are properties, the extensions of
properties, what IRIs denote and what literals denote, if anything. -/
structure Interp where
  /-- `IR` -/
  Res : Type
  /-- `IP` -/
  IsProp : Res → Prop
  /-- `IEXT` -/
  ext : Res → Res → Res → Prop
  /-- `IS` -/
  ofIri : Str → Res
  /-- `IL` -/
  ofLit : Str → Str → Option Str → Option Res

/-- What a node denotes, with a mapping for blank nodes. -/
def Interp.node (I : Interp) (A : Node → I.Res) : Node → Option I.Res
  | .iri s => some (I.ofIri s)
  | .lit t d l => I.ofLit t d l
  | x => some (A x)

/-- A triple is true. -/
def Interp.Holds (I : Interp) (A : Node → I.Res) (t : Triple) : Prop :=
  I.IsProp (I.ofIri t.p) ∧ ∃ x y, I.node A t.s = some x ∧ I.node A t.o = some y ∧ I.ext (I.ofIri t.p) x y

/-- A graph is true: its triples are for some mapping of the blank nodes. -/
def Interp.Satisfies (I : Interp) (L : List Triple) : Prop := ∃ A : Node → I.Res, ∀ t ∈ L, I.Holds A t

/-- Simple entailment. -/
def Entails (L M : List Triple) : Prop := ∀ I : Interp, I.Satisfies L → I.Satisfies M

/-- A triple with other nodes. -/
def mapTriple (σ : Node → Node) (t : Triple) : Triple := ⟨σ t.s, t.p, σ t.o⟩

/-- A mapping of blank nodes to nodes. -/
def IsInstance (σ : Node → Node) : Prop := ∀ x, ¬ x.IsBlank → σ x = x

/-- The IRI stands in a triple. -/
def Mentions (L : List Triple) (s : Str) : Prop := InTriples L (.iri s)

end Rdftk.Spec
