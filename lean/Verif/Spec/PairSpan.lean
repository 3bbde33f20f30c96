import Verif.Model.Peg

/-! Where the pairs of a parse lie in the text. -/

namespace Rdftk.Spec
open Rdftk

mutual

/-- The pairs inside a pair lie one after the other in its text, and so do the pairs inside those. -/
inductive Nested {R : Type} : Pair R → Prop
  | mk {i : Option R} {t : Str} {l : List (Pair R)} : Lies l t → Nested (.mk i t l)

/-- The texts of the pairs lie one after the other in the text, with anything between them. -/
inductive Lies {R : Type} : List (Pair R) → Str → Prop
  | nil {t : Str} : Lies [] t
  | cons {p : Pair R} {l : List (Pair R)} {g t : Str} : Nested p → Lies l t → Lies (p :: l) (g ++ (p.text ++ t))

end

/-- The second pair is the first or inside it, in any depth. -/
inductive Inside {R : Type} : Pair R → Pair R → Prop
  | self {p : Pair R} : Inside p p
  | inner {p q c : Pair R} : c ∈ p.inner → Inside c q → Inside p q

end Rdftk.Spec
