import Verif.Model.Formula

/-! N3 formulae: C128. -/

namespace Rdftk

/-- The text is a block in braces, after something else. -/
def Braced (t : Str) : Prop := ∃ pre body, t = pre ++ '{' :: body ++ ['}']

/-- C128, the full statement: a printed formula is in braces. -/
def C128_statement : Prop := ∀ (sty : IriStyle) (f : Formula), Braced (f.display sty)

theorem variableLines_eq (sty : IriStyle) (vs : List N3Variable) :
    Formula.variableLines sty vs = vs.flatMap fun v => v.display sty ++ ['\n'] := by
  induction vs with
  | nil => rfl
  | cons v vs ih =>
    cases vs with
    | nil => simp [Formula.variableLines]
    | cons w vs =>
      rw [List.flatMap_cons, ← ih]
      simp [Formula.variableLines, List.intercalate, List.intersperse]

/-- The declaration of a variable. -/
def variableLine (sty : IriStyle) (v : N3Variable) : Str :=
  match v.universal with
  | true => str! "@forAll <" ++ v.id.fmt sty ++ str! "> ."
  | false => str! "@forSome <" ++ v.id.fmt sty ++ str! "> ."

theorem display_line (sty : IriStyle) (v : N3Variable) : v.display sty = variableLine sty v := by
  obtain ⟨u, i⟩ := v
  cases u <;> simp [N3Variable.display, variableLine]

/-- C128: what is printed: a line for each variable, those for all first, one for the opening brace, and one for each
statement.  Without statements, two braces and no variables. -/
theorem C128_text (sty : IriStyle) (f : Formula) :
    f.display sty = if f.statements = [] then str! "{}" else
      (((f.variables.filter fun v => v.universal = true).map (variableLine sty) ++
        (f.variables.filter fun v => v.universal = false).map (variableLine sty) ++ [str! "{"] ++
        f.statements.map fun st => st.display sty ++ str! " .").map (· ++ ['\n'])).flatten := by
  unfold Formula.display
  by_cases h : f.statements = []
  · simp [h]
  · have hn : (!f.statements.isEmpty) = true := by simpa using h
    have e : (fun v : N3Variable => !v.universal) = fun v => decide (v.universal = false) := by
      funext v; cases v.universal <;> rfl
    have e' : (fun v : N3Variable => v.universal) = fun v => decide (v.universal = true) := by
      funext v; cases v.universal <;> rfl
    rw [if_pos hn, if_neg h, variableLines_eq, variableLines_eq, e, ← e']
    simp [List.flatMap_def, display_line, Function.comp_def]

/-- C128 holds exactly for formulae without statements: the brace is not closed. -/
theorem C128_iff (sty : IriStyle) (f : Formula) : Braced (f.display sty) ↔ f.statements = [] := by
  constructor
  · rintro ⟨pre, body, h⟩
    apply Classical.byContradiction
    intro hn
    have h1 : (f.display sty).getLast? = some '}' := by rw [h, List.append_assoc, ← List.append_assoc pre]; exact List.getLast?_concat
    have : ∃ t, f.display sty = t ++ ['\n'] := by
      unfold Formula.display
      rw [if_pos (by simpa using hn)]
      obtain ⟨l, x, e⟩ : ∃ l x, f.statements = l ++ [x] := ⟨_, _, (List.dropLast_concat_getLast hn).symm⟩
      rw [e]
      generalize Formula.variableLines sty (f.variables.filter fun v => v.universal) = a
      generalize Formula.variableLines sty (f.variables.filter fun v => !v.universal) = b
      refine ⟨a ++ b ++ str! "{\n" ++ (l.flatMap fun st => st.display sty ++ str! " .\n") ++ (x.display sty ++ str! " ."), ?_⟩
      simp
    obtain ⟨t, e⟩ := this
    rw [e] at h1
    simp at h1
  · intro h
    exact ⟨[], [], by simp [Formula.display, h]⟩

/-- C128 fails for every formula with a statement. -/
theorem C128_fails : ¬C128_statement := fun h => by
  have := (C128_iff .bare ⟨[], [.mk (.blank (str! "a")) ⟨str! "a:p"⟩ (.blank (str! "b"))]⟩).1 (h _ _)
  cases this

/-- C128: without statements the variables are lost. -/
theorem C128_lost (sty : IriStyle) (f g : Formula) (hf : f.statements = []) (hg : g.statements = []) :
    f.display sty = g.display sty := by
  simp [Formula.display, hf, hg]

/-- C128: a variable is for all or for some, as it was made. -/
theorem C128_kinds (i : Iri) :
    (N3Variable.forAll i).isUniversal = true ∧ (N3Variable.forAll i).isExistential = false ∧
    (N3Variable.forSome i).isUniversal = false ∧ (N3Variable.forSome i).isExistential = true := ⟨rfl, rfl, rfl, rfl⟩

/-- C128: a formula is empty when it has no statements. -/
theorem C128_empty (f : Formula) : (f.isEmpty = true ↔ f.statements = []) ∧ f.len = f.statements.length ∧ (f.isEmpty = true ↔ f.len = 0) := by
  simp [Formula.isEmpty, Formula.len]

example : Formula.display .bare ⟨[.forSome ⟨str! "a:x"⟩, .forAll ⟨str! "a:y"⟩], [.mk (.blank (str! "a")) ⟨str! "a:p"⟩ (.blank (str! "b"))]⟩ =
    str! "@forAll <a:y> .\n@forSome <a:x> .\n{\n_:a <a:p> _:b .\n" := by decide +kernel

end Rdftk
