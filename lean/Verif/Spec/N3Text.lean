import Verif.Spec.NTAccept

/-! Texts of N3 with formulas in any depth: statements of IRIs and formulas, joined by an IRI, an equals sign or the arrow to the left. -/

namespace Rdftk.Spec
open Rdftk

/-- What joins the two sides of a statement. -/
def N3Verb (v : Str) : Prop := v = str! "=" ∨ v = str! "<=" ∨ ∃ i, LooseIri i ∧ v = '<' :: (i ++ ['>'])

mutual

/-- An IRI or a formula. -/
inductive N3Term : Str → Prop
  | iri {i : Str} : LooseIri i → N3Term ('<' :: (i ++ ['>']))
  | formula {b : Str} : N3Body b → N3Term ('{' :: (b ++ ['}']))

/-- Statements, each with a full stop. -/
inductive N3Body : Str → Prop
  | nil : N3Body []
  | cons {a v b c : Str} : N3Term a → N3Verb v → N3Term b → N3Body c → N3Body (a ++ ' ' :: (v ++ ' ' :: (b ++ ' ' :: '.' :: c)))

end

end Rdftk.Spec
