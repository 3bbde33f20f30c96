import Verif.Lemmas.XmlPanic
import Verif.Props.Xml

/-! Just when the reader of RDF/XML panics: C79. -/

namespace Rdftk

open Spec

/-- The calls that are open, and what was read, after some events that were all taken. -/
inductive XmlTaken (env : ReadEnv) (sty : IriStyle) (gen : Nat → Str) (emit : Emit) (n : Nat) : List XmlIn → List XmlFrame → XmlState → Prop
  | nil : XmlTaken env sty gen emit n [] [] ⟨Graph.default, n⟩
  | snoc {l : List XmlIn} {stack stack' : List XmlFrame} {st st' : XmlState} {ev : XmlIn} (h : XmlTaken env sty gen emit n l stack st)
      (e : xmlStep env sty gen emit stack st ev = .ok (stack', st')) : XmlTaken env sty gen emit n (l ++ [ev]) stack' st'

theorem xmlTaken_run {env : ReadEnv} {sty : IriStyle} {gen : Nat → Str} {emit : Emit} {n : Nat} {l : List XmlIn} {stack : List XmlFrame}
    {st : XmlState} (h : XmlTaken env sty gen emit n l stack st) (r : List XmlIn) :
    readXml env sty gen n emit (l ++ r) = xmlRun env sty gen emit stack st r := by
  induction h generalizing r with
  | nil => rfl
  | snoc h e ih =>
    rw [List.append_assoc, List.singleton_append, ih]
    simp only [xmlRun, e]

/-- C79, exactly: the reader panics just if the events before some event are taken, and this one, for the call that is open then, has one
of these faults: a strange parse type; `rdf:ID` without a base; a node element, property attribute or property element without a
namespace; a collection; the end of an XML literal without an element, or one that cannot be written again. -/
theorem C79_iff (env : ReadEnv) (sty : IriStyle) (gen : Nat → Str) (n : Nat) (emit : Emit) (evs : List XmlIn) :
    readXml env sty gen n emit evs = .panic ↔
      ∃ l ev r stack st, evs = l ++ ev :: r ∧ XmlTaken env sty gen emit n l stack st ∧ EventPanics env sty emit stack ev := by
  constructor
  · have main : ∀ (r l : List XmlIn) (stack : List XmlFrame) (st : XmlState), XmlTaken env sty gen emit n l stack st →
        xmlRun env sty gen emit stack st r = .panic →
        ∃ l' ev r' stack' st', l ++ r = l' ++ ev :: r' ∧ XmlTaken env sty gen emit n l' stack' st' ∧ EventPanics env sty emit stack' ev := by
      intro r
      induction r with
      | nil => intro l stack st _ h; cases stack <;> cases h
      | cons ev r ih =>
        intro l stack st ht h
        simp only [xmlRun] at h
        split at h
        · rename_i stack' st' e
          obtain ⟨l', ev', r', s', t', h1, h2⟩ := ih (l ++ [ev]) stack' st' (.snoc ht e) h
          exact ⟨l', ev', r', s', t', by simpa using h1, h2⟩
        · cases h
        · rename_i e
          exact ⟨l, ev, r, stack, st, rfl, ht, xmlStep_panic.1 e⟩
    exact fun h => main evs [] [] _ .nil h
  · rintro ⟨l, ev, r, stack, st, rfl, ht, he⟩
    rw [xmlTaken_run ht]
    simp only [xmlRun, xmlStep_panic.2 he]

/-- C79: what follows the fault is not looked at: a document that goes on after it panics as well. -/
theorem C79_prefix (env : ReadEnv) (sty : IriStyle) (gen : Nat → Str) (n : Nat) (emit : Emit) (l r : List XmlIn)
    (h : readXml env sty gen n emit l = .panic) : readXml env sty gen n emit (l ++ r) = .panic := by
  obtain ⟨l', ev, r', stack, st, rfl, h1, h2⟩ := (C79_iff ..).1 h
  exact (C79_iff ..).2 ⟨l', ev, r' ++ r, stack, st, by simp, h1, h2⟩

/-- C79: where no event has one of the faults, for whatever call, there is no panic; this has no condition on nesting. -/
theorem C79_safe (env : ReadEnv) (sty : IriStyle) (gen : Nat → Str) (n : Nat) (emit : Emit) (evs : List XmlIn)
    (h : ∀ ev ∈ evs, ∀ stack, ¬EventPanics env sty emit stack ev) : readXml env sty gen n emit evs ≠ .panic := fun h' => by
  obtain ⟨l, ev, r, stack, st, rfl, -, h2⟩ := (C79_iff ..).1 h'
  exact h ev (by simp) stack h2

end Rdftk
