import Verif.Spec.TurtleEnd

/-! What has to be looked up to print the parts of a graph. -/

namespace Rdftk.Spec
open Rdftk

/-- What is looked up to print an object: the short form of an IRI, of the data type of a literal, of the IRI in the text of a
literal; however deep in collections.  There is no way to print a nested statement. -/
inductive ObjectAsks (env : TurtleEnv) : Object → Run Str → Prop
  | res (i : Iri) : ObjectAsks env (.res i) (compressIri env i)
  | lit (l : Literal) : ObjectAsks env (.lit l) (writeLiteral env l)
  | member (c : List Object) (o : Object) (r : Run Str) : o ∈ c → ObjectAsks env o r → ObjectAsks env (.coll c) r
  | stmt (t : Stmt) : ObjectAsks env (.stmt t) .panic

/-- What is looked up to print the subject of a block. -/
inductive SubjectAsks (env : TurtleEnv) : Subject → Run Str → Prop
  | res (i : Iri) : SubjectAsks env (.res i) (compressIri env i)
  | stmt (t : Stmt) : SubjectAsks env (.stmt t) .panic

/-- What is looked up to print the graph. -/
inductive GraphAsks (env : TurtleEnv) : Run Str → Prop
  | type (s : Subject) (p : Iri) (o : Object) :
    Stmt.mk s p o ∈ env.graph.stmts → groupOf p = .type → env.opts.typeA = false → GraphAsks env (compressIri env rdfType)
  | subject (s : Subject) (p : Iri) (o : Object) (r : Run Str) :
    Stmt.mk s p o ∈ env.graph.stmts → SubjectAsks env s r → GraphAsks env r
  | predicate (s : Subject) (p : Iri) (o : Object) :
    Stmt.mk s p o ∈ env.graph.stmts → GraphAsks env (compressIri env p)
  | object (s : Subject) (p : Iri) (o : Object) (r : Run Str) :
    Stmt.mk s p o ∈ env.graph.stmts → ObjectAsks env o r → GraphAsks env r

/-- A predicate whose short form is an error, among others of the same subject and group that are sorted by their short forms
without having been looked up before. -/
def SortedError (env : TurtleEnv) : Prop :=
  env.opts.padding = true ∧ ∃ s p o q o', Stmt.mk s p o ∈ env.graph.stmts ∧ Stmt.mk s q o' ∈ env.graph.stmts ∧ p ≠ q ∧ groupOf p = groupOf q ∧
    compressIri env p = .err

end Rdftk.Spec
