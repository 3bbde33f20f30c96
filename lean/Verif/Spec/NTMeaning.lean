import Verif.Model.NTriples
import Verif.Spec.NTriples

/-!
What N-Triples and N-Quads documents say by the W3C recommendations: the terms of the abstract
syntax that the tokens stand for.
-/

namespace Rdftk.Spec

/-- A term of the RDF abstract syntax. -/
inductive RdfTerm where
  | iri (i : Iri)
  | blank (label : Str)
  | lit (text : Str) (type : Option Iri) (lang : Option Str)
deriving DecidableEq

/-- A triple of the RDF abstract syntax. -/
abbrev RdfTriple := RdfTerm × Iri × RdfTerm

/-- The characters of the one character escapes. -/
def echarTable : List (Char × Nat) :=
  [('t', 0x09), ('b', 0x08), ('n', 0x0A), ('r', 0x0D), ('f', 0x0C), ('"', 0x22), ('\'', 0x27), ('\\', 0x5C)]

/-- `DecodesString s t`: `t` is the string that the inside `s` of a quoted string stands for. -/
inductive DecodesString : Str → Str → Prop where
  | nil : DecodesString [] []
  | plain {c : Char} {s t : Str} : c ≠ '\\' → DecodesString s t → DecodesString (c :: s) (c :: t)
  | echar {e c : Char} {s t : Str} : (e, c.toNat) ∈ echarTable → DecodesString s t →
      DecodesString ('\\' :: e :: s) (c :: t)
  | uchar {ds u s t : Str} {c : Char} : UcharOf ds u → c.toNat = hexValue ds → DecodesString s t →
      DecodesString (u ++ s) (c :: t)

/-- What a term of a document stands for. -/
def Term.Means (env : ReadEnv) : Term → RdfTerm → Prop
  | .iri s, x => ∃ t i, DecodesIri s t ∧ env.url t = some i ∧ x = .iri i
  | .blank l, x => x = .blank l

/-- What an object of a document stands for. -/
def Obj.Means (env : ReadEnv) : Obj → RdfTerm → Prop
  | .term t, x => t.Means env x
  | .lit a .none, x => ∃ t, DecodesString a t ∧ x = .lit t none none
  | .lit a (.lang g), x => ∃ t h, DecodesString a t ∧ env.lang g = some h ∧ x = .lit t none (some h)
  | .lit a (.type s), x => ∃ t u i, DecodesString a t ∧ DecodesIri s u ∧ env.url u = some i ∧
      x = .lit t (some i) none

/-- What a statement of a document stands for. -/
def Line.Means (env : ReadEnv) (l : Line) (x : RdfTriple) : Prop :=
  l.s.Means env x.1 ∧ (∃ t, DecodesIri l.p t ∧ env.url t = some x.2.1) ∧ l.o.Means env x.2.2

/-- The subject as a term. -/
def subjectTerm : Subject → Option RdfTerm
  | .blank b => some (.blank b)
  | .res i => some (.iri i)
  | .stmt _ => none

/-- The object as a term. -/
def objectTerm : Object → Option RdfTerm
  | .blank b => some (.blank b)
  | .res i => some (.iri i)
  | .lit l => some (.lit l.lexicalForm (l.dataType.map DataType.asIri) l.language)
  | .coll _ => none
  | .stmt _ => none

/-- The statement as a triple. -/
def stmtTriple (st : Stmt) : Option RdfTriple :=
  match subjectTerm st.subject, objectTerm st.object with
  | some s, some o => some (s, st.predicate, o)
  | _, _ => none

/-- A graph name as a term. -/
def graphTerm : GraphName → RdfTerm
  | .iri i => .iri i
  | .bnode b => .blank b

/-- What the graph of a statement stands for; no term is the default graph. -/
def Line.GraphMeans (env : ReadEnv) (l : Line) : Option RdfTerm → Prop
  | none => l.g = none
  | some x => ∃ t, l.g = some t ∧ t.Means env x

/-- What the reader needs of other crates: no IRI begins with an angle bracket, and the labels of
the document are labels. -/
def SaneEnv (env : ReadEnv) : Prop :=
  (∀ t, env.url ('<' :: t) = none) ∧ ∀ l, Label l → env.blankOk l = true

/-- The inside of the quotes of a literal. -/
def Obj.inner : Obj → Option Str
  | .lit a _ => some a
  | .term _ => none

end Rdftk.Spec
