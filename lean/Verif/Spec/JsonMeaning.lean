import Verif.Model.Json
import Verif.Spec.NTMeaning
import Mathlib.Data.List.Forall2

/-! What documents of RDF 1.1 JSON Alternate Serialization (W3C Note, 2013) say. -/

namespace Rdftk.Spec

/-- The node that the name of a member stands for: `_:` and a label, or an IRI. -/
def KeyMeans (env : ReadEnv) (k : Str) (x : RdfTerm) : Prop :=
  (∃ b, k = '_' :: ':' :: b ∧ Label b ∧ x = .blank b) ∨
  ((∀ b, k ≠ '_' :: ':' :: b) ∧ ∃ i, env.url k = some i ∧ x = .iri i)

/-- What a literal stands for, from the members `value`, `lang` and `datatype`.  At most one of the last two is
present. -/
def LiteralMeans (env : ReadEnv) (v : Str) (lang type : Option Json) (x : RdfTerm) : Prop :=
  (lang = none ∧ type = none ∧ x = .lit v none none) ∨
  (∃ l h, lang = some (.str l) ∧ type = none ∧ env.lang l = some h ∧ x = .lit v none (some h)) ∨
  (∃ d i, lang = none ∧ type = some (.str d) ∧ env.url d = some i ∧ x = .lit v (some i) none)

/-- The node that an object stands for. -/
def ValueMeans (env : ReadEnv) (j : Json) (x : RdfTerm) : Prop :=
  ∃ m t v, j = .obj m ∧ mapGet (str! "type") m = some (.str t) ∧ mapGet (str! "value") m = some (.str v) ∧
    ((t = str! "uri" ∧ ∃ i, env.url v = some i ∧ x = .iri i) ∨
     (t = str! "bnode" ∧ ∃ b, v = '_' :: ':' :: b ∧ Label b ∧ x = .blank b) ∨
     (t = str! "literal" ∧ LiteralMeans env v (mapGet (str! "lang") m) (mapGet (str! "datatype") m) x))

/-- The objects of a document with their subjects and predicates, as they stand. -/
def entries (m : List (Str × Json)) : List (Str × Str × Json) :=
  m.flatMap fun e => match e.2 with
    | .obj ps => ps.flatMap fun f => match f.2 with
      | .arr os => os.map fun o => (e.1, f.1, o)
      | _ => []
    | _ => []

/-- A document has the form of the note, and all in it stands for something. -/
def NoteForm (env : ReadEnv) (m : List (Str × Json)) : Prop :=
  ∀ e ∈ m, (∃ x, KeyMeans env e.1 x) ∧ ∃ ps, e.2 = .obj ps ∧
    ∀ f ∈ ps, (∃ i, env.url f.1 = some i) ∧ ∃ os, f.2 = .arr os ∧ ∀ o ∈ os, ∃ y, ValueMeans env o y

/-- The triple that an object stands for, with its subject and predicate. -/
def EntryMeans (env : ReadEnv) (e : Str × Str × Json) (t : RdfTriple) : Prop :=
  KeyMeans env e.1 t.1 ∧ env.url e.2.1 = some t.2.1 ∧ ValueMeans env e.2.2 t.2.2

/-- The text of a literal. -/
def RdfTerm.text : RdfTerm → Option Str
  | .lit v _ _ => some v
  | _ => none

end Rdftk.Spec
