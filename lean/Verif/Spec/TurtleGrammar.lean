import Verif.Spec.TurtleSafe
import Verif.Spec.NTAccept
import Verif.Spec.Tokens

/-! Texts that the grammar of the code reads as terms of Turtle, and graphs whose terms are written as such texts. -/

namespace Rdftk.Spec
open Rdftk

/-- A prefix, without its colon; it may be empty. -/
def NamePrefix (p : Str) : Prop := p = [] ∨ ∃ c q, p = c :: q ∧ isPnCharsBase c = true ∧ ∀ e ∈ q, isPnChars e = true

/-- The part after the colon; here it is not empty. -/
def NameLocal (x : Str) : Prop := ∃ c q, x = c :: q ∧ isPnCharsU c = true ∧ ∀ e ∈ q, isPnChars e = true

/-- An IRI in brackets or a prefixed name. -/
def GIriText (v : Str) : Prop :=
  (∃ i, LooseIri i ∧ v = '<' :: (i ++ ['>'])) ∨ ∃ p x, NamePrefix p ∧ NameLocal x ∧ v = p ++ ':' :: x

/-- A literal: a string with or without a suffix, a number, a truth value, or what stands for a literal whose type is that of IRIs. -/
def GLiteralText (v : Str) : Prop :=
  (∃ q, QuoteText q ∧ (v = '"' :: (q ++ ['"']) ∨ (∃ t, LangTag t ∧ v = '"' :: (q ++ '"' :: '@' :: t)) ∨
    ∃ i, GIriText i ∧ v = '"' :: (q ++ '"' :: '^' :: '^' :: i))) ∨
  (∃ k, NumberText k v) ∨
  v = str! "true" ∨ v = str! "false" ∨ GIriText v

/-- The IRI is written as a text of the grammar, if at all. -/
def WritesIri (env : TurtleEnv) (i : Iri) : Prop := ∀ v, compressIri env i = .ok v → GIriText v

/-- The object is written as a text of the grammar, if at all; a collection has one member at most. -/
inductive WritesObject (env : TurtleEnv) : Object → Prop
  | res (i : Iri) : WritesIri env i → WritesObject env (.res i)
  | lit (l : Literal) : (∀ v, writeLiteral env l = .ok v → GLiteralText v) → WritesObject env (.lit l)
  | blank (b : Str) : Label b → WritesObject env (.blank b)
  | none : WritesObject env (.coll [])
  | one (o : Object) : WritesObject env o → WritesObject env (.coll [o])

/-- The subject is written as a text of the grammar. -/
def WritesSubject (env : TurtleEnv) : Subject → Prop
  | .res i => WritesIri env i
  | .blank b => Label b
  | .stmt _ => False

/-- The object is not written with the empty prefix. -/
def NotBareName (env : TurtleEnv) : Object → Prop
  | .res i => ∀ v, compressIri env i = .ok v → v.head? ≠ some ':'
  | .lit l => ∀ v, writeLiteral env l = .ok v → v.head? ≠ some ':'
  | _ => True

/-- The parts of a statement are written as texts of the grammar, and the text for `rdf:type` stays apart from what follows it. -/
structure WritesStmt (env : TurtleEnv) (t : Stmt) : Prop where
  subject : WritesSubject env t.subject
  predicate : WritesIri env t.predicate
  object : WritesObject env t.object
  type : groupOf t.predicate = .type →
    if env.opts.typeA then NotBareName env t.object else t.predicate = rdfType

/-- The base and the prefixes are written as texts of the grammar. -/
def WritesDirectives (sty : IriStyle) (opts : TurtleOptions) (m : PrefixMap) : Prop :=
  (∀ b, opts.idBase = some b → LooseIri (b.fmt sty)) ∧
  ∀ e ∈ m.mappings, LooseIri (convertFirst sty opts.convert (e.2.fmt sty)) ∧ ∃ p, NamePrefix p ∧ e.1.text = p ++ [':']

end Rdftk.Spec
