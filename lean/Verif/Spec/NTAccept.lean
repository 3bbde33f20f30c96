import Verif.Model.NTriples
import Verif.Spec.NTriples

/-!
The texts that the N-Triples and N-Quads readers may accept, with what they must take from
them.  Against the W3C grammar an IRI may hold `<`, a blank node may be `[]`, and gaps may hold
line ends anywhere; two dots in a row are not allowed in labels.
-/

namespace Rdftk.Spec

/-- The inside of an `IRIREF`, which may hold `<`. -/
def LooseIri : Str → Prop := Tokens fun t => (∃ c, (IriPlain c ∨ c = '<') ∧ t = [c]) ∨ Uchar t

/-- The text of an IRI or a blank node. -/
def NodeText : RNode → Str → Prop
  | .iri i, t => LooseIri i ∧ t = '<' :: (i ++ ['>'])
  | .blank b, t => b = t ∧
    ((∃ l, Label l ∧ t = '_' :: ':' :: l) ∨ ∃ g, Gap g ∧ t = '[' :: (g ++ [']']))

/-- The text after the string of a literal. -/
def SuffixText : RSuffix → Str → Prop
  | .none, t => t = []
  | .lang tag, t => LangTag tag ∧ ∃ g, Gap g ∧ t = g ++ '@' :: tag
  | .type i, t => LooseIri i ∧ ∃ g g', Gap g ∧ Gap g' ∧ t = g ++ '^' :: '^' :: (g' ++ '<' :: (i ++ ['>']))

/-- The text of an object. -/
def ObjectText : RObject → Str → Prop
  | .node n, t => NodeText n t
  | .lit a x, t => QuoteText a ∧ ∃ u, SuffixText x u ∧ t = '"' :: (a ++ '"' :: u)

/-- The text of the terms with which a statement begins. -/
def TermsText (l : RLine) (t : Str) : Prop :=
  LooseIri l.predicate ∧ ∃ s g₁ g₂ o, NodeText l.subject s ∧ Gap g₁ ∧ Gap g₂ ∧ ObjectText l.object o ∧
    t = s ++ g₁ ++ '<' :: (l.predicate ++ '>' :: (g₂ ++ o))

/-- The text of a triple. -/
def TripleText (l : RLine) (t : Str) : Prop :=
  l.graph = none ∧ ∃ u g, TermsText l u ∧ Gap g ∧ t = u ++ g ++ ['.']

/-- The text of a quad. -/
def QuadText (l : RLine) (t : Str) : Prop :=
  TripleText l t ∨ ∃ n u g₁ v g₂, l.graph = some n ∧ TermsText l u ∧ Gap g₁ ∧ NodeText n v ∧ Gap g₂ ∧
    t = u ++ g₁ ++ v ++ g₂ ++ ['.']

/-- The text of statements with gaps between them. -/
inductive LinesText (one : RLine → Str → Prop) : List RLine → Str → Prop
  | last {t : Str} : LastGap t → LinesText one [] t
  | line {l : RLine} {ls : List RLine} {g t r : Str} : Gap g → one l t → LinesText one ls r →
      LinesText one (l :: ls) (g ++ (t ++ r))

/-- The text does not go on with a label: neither with one of its characters nor with a dot and one. -/
def LabelEnds (r : Str) : Prop :=
  (∀ c s, r = c :: s → ¬ PN_CHARS c) ∧ ∀ c s, r = '.' :: c :: s → ¬ PN_CHARS c

/-- A label is followed by what does not go on with it. -/
def NodeEnds : RNode → Str → Prop
  | .blank ('_' :: _), r => LabelEnds r
  | _, _ => True

/-- The same for an object. -/
def ObjectEnds : RObject → Str → Prop
  | .node n, r => NodeEnds n r
  | .lit _ _, _ => True

/-- The text of a triple, followed by `r`. -/
def TripleAt (l : RLine) (t r : Str) : Prop :=
  l.graph = none ∧ ∃ u g, TermsText l u ∧ Gap g ∧ t = u ++ g ++ ['.'] ∧ ObjectEnds l.object (g ++ '.' :: r)

/-- The text of a quad, followed by `r`. -/
def QuadAt (l : RLine) (t r : Str) : Prop :=
  TripleAt l t r ∨ ∃ n u g₁ v g₂, l.graph = some n ∧ TermsText l u ∧ Gap g₁ ∧ NodeText n v ∧ Gap g₂ ∧
    t = u ++ g₁ ++ v ++ g₂ ++ ['.'] ∧ ObjectEnds l.object (g₁ ++ (v ++ (g₂ ++ '.' :: r))) ∧ NodeEnds n (g₂ ++ '.' :: r)

/-- The text of statements with gaps between them, in which each label is as long as it can be. -/
inductive LinesAt (one : RLine → Str → Str → Prop) : List RLine → Str → Prop
  | last {t : Str} : LastGap t → LinesAt one [] t
  | line {l : RLine} {ls : List RLine} {g t r : Str} : Gap g → one l t r → LinesAt one ls r →
      LinesAt one (l :: ls) (g ++ (t ++ r))

end Rdftk.Spec
