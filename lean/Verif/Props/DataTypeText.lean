import Verif.Model.DataTypeText
import Verif.Model.Graph

/-! Properties of the printed form of data types. -/

namespace Rdftk

/-- C96: the printed form of a built-in data type is a prefixed name that the mappings of a new graph
expand to the IRI of the data type. -/
theorem C96_expand (t : DataType) (h : ∀ i, t ≠ .other i) :
    ∃ l, LocalName.parse t.display = .ok l ∧ defaultMappings.expand l = some t.asIri := by
  have key : ∀ (s : Str) (i : Iri), (match LocalName.parse s with
      | .ok l => decide (defaultMappings.expand l = some i)
      | .error _ => false) = true →
      ∃ l, LocalName.parse s = .ok l ∧ defaultMappings.expand l = some i := by
    intro s i h
    cases e : LocalName.parse s with
    | error _ => rw [e] at h; cases h
    | ok l => rw [e] at h; exact ⟨l, rfl, of_decide_eq_true h⟩
  cases t <;> first | exact absurd rfl (h _) | exact key _ _ (by decide +kernel)

/-- C96, the full statement: data types that print the same are equal. -/
def C96_statement : Prop := ∀ t u : DataType, t.display = u.display → t = u

/-- C96 fails: an IRI with the scheme `xsd` prints like a built-in type. -/
theorem C96_fails : ¬ C96_statement := fun h => by
  have := h .string (.other ⟨str! "xsd:string"⟩) rfl
  cases this

/-- C96, what holds: without IRIs of the schemes `xsd` and `rdf`. -/
theorem C96_partial (t u : DataType) (ht : ∀ i s, t = .other i → i.text ≠ xsdQname s ∧ i.text ≠ rdfQname s)
    (hu : ∀ i s, u = .other i → i.text ≠ xsdQname s ∧ i.text ≠ rdfQname s) (h : t.display = u.display) : t = u := by
  by_cases e : ∃ i, t = .other i
  · obtain ⟨i, rfl⟩ := e
    by_cases e' : ∃ j, u = .other j
    · obtain ⟨j, rfl⟩ := e'
      cases i; cases j; cases h; rfl
    · have h' : (∃ s, u.display = xsdQname s) ∨ ∃ s, u.display = rdfQname s := by
        cases u <;> first | exact absurd ⟨_, rfl⟩ e' | exact .inl ⟨_, rfl⟩ | exact .inr ⟨_, rfl⟩
      rw [← h] at h'
      rcases h' with ⟨s, hs⟩ | ⟨s, hs⟩
      · exact absurd hs (ht i s rfl).1
      · exact absurd hs (ht i s rfl).2
  · by_cases e' : ∃ j, u = .other j
    · obtain ⟨j, rfl⟩ := e'
      have h' : (∃ s, t.display = xsdQname s) ∨ ∃ s, t.display = rdfQname s := by
        cases t <;> first | exact absurd ⟨_, rfl⟩ e | exact .inl ⟨_, rfl⟩ | exact .inr ⟨_, rfl⟩
      rw [h] at h'
      rcases h' with ⟨s, hs⟩ | ⟨s, hs⟩
      · exact absurd hs (hu j s rfl).1
      · exact absurd hs (hu j s rfl).2
    · cases t <;> first
        | exact absurd ⟨_, rfl⟩ e
        | (cases u <;> first | rfl | exact absurd ⟨_, rfl⟩ e' | (exfalso; revert h; decide))

end Rdftk
