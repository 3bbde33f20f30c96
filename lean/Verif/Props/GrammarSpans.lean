import Verif.Lemmas.PegSpan
import Verif.Props.Grammar

/-! The pairs that a parse makes, and the text. -/

namespace Rdftk

open PegGrammar Spec

/-! ### C191 -/

/-- **C191.** For every grammar, rule and text: what is left is the end of the text, and the pairs lie one after the other in what was read, each
with the pairs inside it in its own text, in any depth. -/
theorem C191_spans {R : Type} (g : PegGrammar R) (n : Nat) (x : R) (s r : Str) (l : List (Pair R)) (h : g.parse n x s = some (some (l, r))) :
    ∃ t, s = t ++ r ∧ Lies l t := run_spans g s.length n .free (.rule x) s l r h

/-- C191: the text of a pair, in any depth, is a part of the text. -/
theorem C191_parts {R : Type} (g : PegGrammar R) (n : Nat) (x : R) (s r : Str) (l : List (Pair R)) (h : g.parse n x s = some (some (l, r)))
    (p q : Pair R) (hp : p ∈ l) (hq : Inside p q) : q.text <:+: s := by
  obtain ⟨t, rfl, hl⟩ := C191_spans g n x s r l h
  obtain ⟨h1, h2⟩ := hl.infix hp
  exact ((h2.inside hq).1.trans h1).trans (List.prefix_append t r).isInfix

/-- C191: no character is in two pairs that stand side by side, in any depth. -/
theorem C191_apart {R : Type} (g : PegGrammar R) (n : Nat) (x : R) (s r : Str) (l : List (Pair R)) (h : g.parse n x s = some (some (l, r)))
    (p q : Pair R) (hp : p ∈ l) (hq : Inside p q) : List.Sublist (q.inner.map (·.text)).flatten q.text := by
  obtain ⟨t, rfl, hl⟩ := C191_spans g n x s r l h
  obtain ⟨-, h2⟩ := hl.infix hp
  cases (h2.inside hq).2 with
  | mk hl => exact hl.sublist

example : ∃ p, commonGrammar.parse 60 .turtleStarDoc (str! "<a:b> a <c:d> .") = some (some ([p], [])) := ⟨_, by rfl⟩

end Rdftk
