import Verif.Spec.TurtleSafe

/-! Texts of Turtle in which IRIs are written under another base. -/

namespace Rdftk.Spec

/-- The text with the first base that it starts with, of the pairs, replaced by the other of its pair. -/
inductive Rebased : List (Iri × Iri) → Str → Str → Prop
  | none {s : Str} : Rebased [] s s
  | here {a b : Iri} {r : List (Iri × Iri)} {t : Str} : Rebased ((a, b) :: r) (a.text ++ t) (b.text ++ t)
  | later {a b : Iri} {r : List (Iri × Iri)} {s u : Str} : ¬ a.text <+: s → Rebased r s u → Rebased ((a, b) :: r) s u

/-- The text stands for the IRI in a document with this base and these prefixes, once their IRIs are written under other bases. -/
def StandsForRebased (cs : List (Iri × Iri)) (base : Option Iri) (m : PrefixMap) (s u : Str) : Prop :=
  (∃ r, s = '<' :: r ++ ['>'] ∧ (∀ c ∈ r, iriChar c = true) ∧ iriValue (base.map Iri.text) r = some u) ∨
  (∃ p l ns v, s = p ++ ':' :: l ∧ isPrefix p = true ∧ isLocal l = true ∧ (⟨p ++ [':']⟩, ns) ∈ m.mappings ∧
    Rebased cs ns.text v ∧ v ++ l = u)

end Rdftk.Spec
