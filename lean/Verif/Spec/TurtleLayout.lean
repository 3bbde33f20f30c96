import Verif.Model.Turtle

/-! How Turtle text is laid out. -/

namespace Rdftk.Spec
open Rdftk

/-- A new line, so far indented. -/
def onNewLine (d : Nat) : Str := '\n' :: List.replicate d ' '

/-- A text with at least one space after it, or filled up to a column. -/
def filled (v : Str) : Nat → Str
  | 0 => v ++ [' ']
  | n + 1 => v ++ List.replicate (n + 1 - v.length) ' '

/-- Objects one after the other: after a comma the next starts on a new line, one level deeper and after the column of the predicates,
unless it is a blank node. -/
def objectsText (w d m : Nat) (text : Object → Str) : List Object → Str
  | [] => []
  | [o] => text o
  | o :: o' :: r =>
    text o ++ ',' :: (if o'.isBlank then [] else onNewLine (d + w) ++ List.replicate m ' ') ++ objectsText w d m text (o' :: r)

/-- Predicates one after the other, with semicolons between them; the last one ends with a full stop unless it is inside a blank
node. -/
def predicatesText (inner : Bool) (verb objects : Iri → Str) : List Iri → Str
  | [] => []
  | [p] => verb p ++ objects p ++ (if inner then [] else str! " .\n")
  | p :: q :: r => verb p ++ objects p ++ str! " ;" ++ predicatesText inner verb objects (q :: r)

/-- A predicate as it is written: those of the type group as `a` or `rdf:type`, on the same line if so asked for. -/
inductive VerbLaid (env : TurtleEnv) (d m : Nat) (p : Iri) : Str → Prop
  | other (v : Str) : groupOf p ≠ .type → compressIri env p = .ok v → VerbLaid env d m p (onNewLine d ++ filled v m)
  | type (v : Str) : groupOf p = .type → (if env.opts.typeA then v = ['a'] else compressIri env rdfType = .ok v) →
    env.opts.typeOnLine = false → VerbLaid env d m p (onNewLine d ++ filled v m)
  | onLine (v : Str) : groupOf p = .type → (if env.opts.typeA then v = ['a'] else compressIri env rdfType = .ok v) →
    env.opts.typeOnLine = true → VerbLaid env d m p (' ' :: v ++ [' '])

/-- The column at which the objects of a subject begin: after the longest predicate, in bytes; or none. -/
def Column (env : TurtleEnv) (s : Subject) (m : Nat) : Prop :=
  if env.opts.padding then m = 0
  else (∀ p o, Stmt.mk s p o ∈ env.graph.stmts → ∃ v, compressIri env p = .ok v ∧ byteLen v < m) ∧
    ∃ p o v, Stmt.mk s p o ∈ env.graph.stmts ∧ compressIri env p = .ok v ∧ byteLen v + 1 = m

/-- The predicates of a subject, each with its objects, in some orders. -/
structure Arranged (env : TurtleEnv) (s : Subject) (ps : List Iri) (os : Iri → List Object) : Prop where
  each : ∀ p, p ∈ ps ↔ ∃ o, Stmt.mk s p o ∈ env.graph.stmts
  once : ps.Nodup
  objects : ∀ p ∈ ps, (∀ o, o ∈ os p ↔ Stmt.mk s p o ∈ env.graph.stmts) ∧ (os p).Nodup

/-- Members of a collection one after the other. -/
def membersText (text : Object → Str) : List Object → Str
  | [] => []
  | [o] => text o
  | o :: o' :: r => text o ++ str! ", " ++ membersText text (o' :: r)

/-- An object as it is laid out at an indentation. -/
inductive Laid (env : TurtleEnv) : Nat → Object → Str → Prop
  | res (d : Nat) (i : Iri) (t : Str) : compressIri env i = .ok t → Laid env d (.res i) t
  | lit (d : Nat) (l : Literal) (t : Str) : writeLiteral env l = .ok t → Laid env d (.lit l) t
  | label (d : Nat) (b : Str) : env.opts.nest = false → Laid env d (.blank b) ('_' :: ':' :: b)
  | alone (d : Nat) (b : Str) : env.opts.nest = true → (∀ p o, Stmt.mk (.blank b) p o ∉ env.graph.stmts) →
    Laid env d (.blank b) (str! "[]")
  | nested (d m : Nat) (b : Str) (ps : List Iri) (os : Iri → List Object) (text : Iri → Object → Str) (verb : Iri → Str) :
    env.opts.nest = true → (∃ p o, Stmt.mk (.blank b) p o ∈ env.graph.stmts) → Arranged env (.blank b) ps os →
    Column env (.blank b) m → (∀ p ∈ ps, VerbLaid env (d + env.opts.width) m p (verb p)) →
    (∀ p ∈ ps, ∀ o ∈ os p, Laid env (d + env.opts.width) o (text p o)) →
    Laid env d (.blank b) ('[' :: predicatesText true verb
      (fun p => objectsText env.opts.width (d + env.opts.width) m (text p) (os p)) ps ++ onNewLine d ++ [']'])
  | none (d : Nat) : Laid env d (.coll []) (str! "()")
  | coll (d : Nat) (c : List Object) (text : Object → Str) : c ≠ [] → (∀ o ∈ c, Laid env (d + env.opts.width) o (text o)) →
    Laid env d (.coll c) ('(' :: onNewLine (d + env.opts.width) ++ membersText text c ++
      onNewLine (if env.opts.outdentColl then d else d + env.opts.width) ++ [')'])

/-- The subject of a block as it is written. -/
inductive SubjectLaid (env : TurtleEnv) : Subject → Str → Prop
  | res (i : Iri) (t : Str) : compressIri env i = .ok t → SubjectLaid env (.res i) t
  | blank (b : Str) : SubjectLaid env (.blank b) ('\n' :: '_' :: ':' :: b)

/-- The block of a subject. -/
inductive BlockLaid (env : TurtleEnv) (s : Subject) : Str → Prop
  | mk (m : Nat) (head : Str) (ps : List Iri) (os : Iri → List Object) (text : Iri → Object → Str) (verb : Iri → Str) :
    SubjectLaid env s head → Arranged env s ps os → Column env s m → (∀ p ∈ ps, VerbLaid env env.opts.width m p (verb p)) →
    (∀ p ∈ ps, ∀ o ∈ os p, Laid env env.opts.width o (text p o)) →
    BlockLaid env s (head ++ predicatesText false verb
      (fun p => objectsText env.opts.width env.opts.width m (text p) (os p)) ps ++ str! "\n")

end Rdftk.Spec
