import Verif.Model.Turtle
import Verif.Spec.NTSafe

/-! Which graphs the Turtle writer can write, and for which its recursion ends. -/

namespace Rdftk.Spec

/-- The IRI can be printed. -/
def IriPrints (env : TurtleEnv) (i : Iri) : Prop := ∃ s, compressIri env i = .ok s

/-- An object without nested statements all of whose IRIs can be printed. -/
inductive Printable (env : TurtleEnv) : Object → Prop
  | blank (b : Str) : Printable env (.blank b)
  | res (i : Iri) : IriPrints env i → Printable env (.res i)
  | lit (l : Literal) : (∃ s, writeLiteral env l = .ok s) → Printable env (.lit l)
  | coll (c : List Object) : (∀ o ∈ c, Printable env o) → Printable env (.coll c)

/-- A blank node that is the object or occurs, however deep, in the collection. -/
inductive HasBlank : Object → Str → Prop
  | self (b : Str) : HasBlank (.blank b) b
  | member (c : List Object) (o : Object) (b : Str) : o ∈ c → HasBlank o b → HasBlank (.coll c) b

/-- `c` occurs in an object of a statement about the blank node `b` and is described in the
graph itself. -/
def Points (g : Graph) (c b : Str) : Prop :=
  (∃ p o, Stmt.mk (.blank b) p o ∈ g.stmts ∧ HasBlank o c) ∧ ∃ p o, Stmt.mk (.blank c) p o ∈ g.stmts

/-- No blank node starts an endless chain of blank nodes. -/
def NoEndlessChain (g : Graph) : Prop := ∀ b, Acc (Points g) b

/-- A subject that can be printed. -/
def SubjectPrints (env : TurtleEnv) : Subject → Prop
  | .blank _ => True
  | .res i => IriPrints env i
  | .stmt _ => False

/-- All parts of the graph, and `rdf:type`, can be printed. -/
def GraphPrints (env : TurtleEnv) : Prop :=
  IriPrints env rdfType ∧ ∀ s p o, Stmt.mk s p o ∈ env.graph.stmts →
    SubjectPrints env s ∧ IriPrints env p ∧ Printable env o

end Rdftk.Spec
