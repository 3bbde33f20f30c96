import Verif.Model.CommonPest

/-! How deep the calls of a parser are nested. -/

namespace Rdftk.Spec

/-- The run of `e` on `s` that ends with `x` needs at most `d` calls within each other.  The functions that `pest` generates call one another
as the expressions are nested; characters are compared without a call, and a repetition is a loop: its rounds do not add up. -/
inductive CallsWithin {R : Type} (g : PegGrammar R) (total : Nat) : Nat → PegMode → Peg R → Str → PegRes R → Prop
  /-- what needs no call -/
  | leaf {d m e s x} : g.run total 1 m e s = some x → CallsWithin g total d m e s x
  | rule {d m i s x} : CallsWithin g total d ((g.body i).1.mode m) (g.body i).2 s x →
      CallsWithin g total (d + 1) m (.rule i) s (x.map fun y => (if (g.body i).1.makes m then [.mk (some i) (textRead s y.2) y.1] else y.1, y.2))
  | seq_none {d m a b s} : CallsWithin g total d m a s none → CallsWithin g total (d + 1) m (.seq a b) s none
  | seq {d m a b s l q l' q' x} : CallsWithin g total d m a s (some (l, q)) → (m = .free → CallsWithin g total d .atomic g.skipper q (some (l', q'))) →
      (m ≠ .free → l' = [] ∧ q' = q) → CallsWithin g total d m b q' x →
      CallsWithin g total (d + 1) m (.seq a b) s (x.map fun y => (l ++ (l' ++ y.1), y.2))
  | left {d m a b s y} : CallsWithin g total d m a s (some y) → CallsWithin g total (d + 1) m (.alt a b) s (some y)
  | right {d m a b s x} : CallsWithin g total d m a s none → CallsWithin g total d m b s x → CallsWithin g total (d + 1) m (.alt a b) s x
  | opt {d m a s x} : CallsWithin g total d m a s x → CallsWithin g total (d + 1) m (.opt a) s (x.or (some ([], s)))
  | star_none {d m a s} : CallsWithin g total d m a s none → CallsWithin g total (d + 1) m (.star a) s (some ([], s))
  | star {d m a s l q y} : CallsWithin g total d m a s (some (l, q)) → CallsWithin g total d m (.more a) q (some y) →
      CallsWithin g total (d + 1) m (.star a) s (some (l ++ y.1, y.2))
  | more_none {d m a s l' q'} : (m = .free → CallsWithin g total d .atomic g.skipper s (some (l', q'))) → (m ≠ .free → l' = [] ∧ q' = s) →
      CallsWithin g total d m a q' none → CallsWithin g total (d + 1) m (.more a) s (some ([], s))
  /-- another round -/
  | more {d m a s l q l' q' y} : (m = .free → CallsWithin g total d .atomic g.skipper s (some (l', q'))) → (m ≠ .free → l' = [] ∧ q' = s) →
      CallsWithin g total d m a q' (some (l, q)) → CallsWithin g total (d + 1) m (.more a) q (some y) →
      CallsWithin g total (d + 1) m (.more a) s (some (l' ++ (l ++ y.1), y.2))
  | not {d m a s x} : CallsWithin g total d m a s x → CallsWithin g total (d + 1) m (.not a) s (if x.isSome then none else some ([], s))
  | look {d m a s x} : CallsWithin g total d m a s x → CallsWithin g total (d + 1) m (.look a) s (x.map fun _ => ([], s))

/-- None of the words occurs in the text. -/
def Lacks (ws : List Str) (s : Str) : Prop := ∀ w ∈ ws, ¬ w <:+: s

end Rdftk.Spec
