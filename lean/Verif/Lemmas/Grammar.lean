import Verif.Lemmas.PName
import Verif.Spec.Grammar

/-! The character classes of the code are those of the grammar. -/

namespace Rdftk

theorem isPnCharsBase_iff (c : Char) : isPnCharsBase c = true ↔ Spec.PN_CHARS_BASE c := by
  simp only [isPnCharsBase, inRange, Spec.PN_CHARS_BASE, Spec.InRanges, Bool.or_eq_true,
    Bool.and_eq_true, decide_eq_true_eq, List.mem_cons, List.not_mem_nil, or_false,
    exists_eq_or_imp, exists_eq_left, or_assoc]

theorem isAsciiDigit_iff (c : Char) : isAsciiDigit c = true ↔ Spec.Digit c := by
  simp [isAsciiDigit, inRange, Spec.Digit, Spec.InRanges]

theorem isPnCharsU_iff (c : Char) : isPnCharsU c = true ↔ Spec.PN_CHARS_U c := by
  simp [isPnCharsU, Spec.PN_CHARS_U, isPnCharsBase_iff]

theorem isPnChars_iff (c : Char) : isPnChars c = true ↔ Spec.PN_CHARS c := by
  have : (c.toNat = 0xB7) ↔ (0xB7 ≤ c.toNat ∧ c.toNat ≤ 0xB7) := by omega
  simp only [isPnChars, Spec.PN_CHARS, Bool.or_eq_true, isPnCharsU_iff, isAsciiDigit_iff, beq_iff_eq,
    inRange, Spec.InRanges, Bool.and_eq_true, decide_eq_true_eq, List.mem_cons, List.not_mem_nil,
    or_false, exists_eq_or_imp, exists_eq_left, or_assoc, this]

theorem isRest_iff (c : Char) :
    isPnPrefixLocalRest c = true ↔ (Spec.PN_CHARS c ∨ c = '.') := by
  simp [isPnPrefixLocalRest, isPnChars_iff]

theorem isFirst_iff (c : Char) :
    isPnLocalFirst c = true ↔ (Spec.PN_CHARS_U c ∨ Spec.Digit c) := by
  simp [isPnLocalFirst, isPnCharsU_iff, isAsciiDigit_iff]

/-- A dotted production is: a first character, then allowed characters, not
ending in a dot. -/
theorem dotted_iff (first : Char → Prop) (hdot : ¬ first '.') (s : Str) :
    Spec.Dotted first s ↔
      (∃ c cs, s = c :: cs ∧ first c ∧ ∀ x ∈ cs, (Spec.PN_CHARS x ∨ x = '.')) ∧
      endsWith s '.' = false := by
  have hd : ¬ Spec.PN_CHARS '.' := by
    intro h; rw [← isPnChars_iff] at h; revert h; decide
  constructor
  · rintro ⟨c, hc, rfl | ⟨mid, last, rfl, hm, hl⟩⟩
    · refine ⟨⟨c, [], rfl, hc, by simp⟩, ?_⟩
      simp only [endsWith, List.getLast?_singleton, beq_eq_false_iff_ne, ne_eq, Option.some.injEq]
      rintro rfl; exact hdot hc
    · refine ⟨⟨c, mid ++ [last], rfl, hc, ?_⟩, ?_⟩
      · intro x hx
        rcases List.mem_append.1 hx with h | h
        · exact hm x h
        · simp at h; subst h; exact .inl hl
      · simp only [endsWith, List.getLast?_concat, beq_eq_false_iff_ne, ne_eq, Option.some.injEq]
        rintro rfl; exact hd hl
  · rintro ⟨⟨c, cs, rfl, hc, hr⟩, he⟩
    refine ⟨c, hc, ?_⟩
    rcases List.eq_nil_or_concat cs with rfl | ⟨mid, last, rfl⟩
    · exact .inl rfl
    · refine .inr ⟨mid, last, by simp, fun x hx => hr x (by simp [hx]), ?_⟩
      rcases hr last (by simp) with h | h
      · exact h
      · subst h
        exfalso
        have : endsWith (c :: (mid ++ ['.'])) '.' = true := endsWith_iff.2 ⟨c :: mid, rfl⟩
        simp only [List.concat_eq_append] at he
        rw [this] at he; cases he

theorem base_dot : ¬ Spec.PN_CHARS_BASE '.' := by rw [← isPnCharsBase_iff]; decide

end Rdftk
