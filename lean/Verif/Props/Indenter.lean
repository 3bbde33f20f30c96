import Verif.Model.Indenter
import Mathlib.Tactic.Ring
import Mathlib.Data.List.Induction
import Mathlib.Data.List.Infix

/-! Indentation: C49. -/

namespace Rdftk

/-- Indents of a sequence. -/
def ins (l : List IndentOp) : Nat := l.count .indent
/-- Outdents of a sequence. -/
def outs (l : List IndentOp) : Nat := l.count .outdent

/-- No more outdents than indents in any beginning of the sequence. -/
def Nested (l : List IndentOp) : Prop := ∀ a, a <+: l → outs a ≤ ins a

/-- C49, the full statement: sequences that are nested end at the right column, others are
reported. -/
def C49_statement : Prop :=
  ∀ (offset width : Nat) (l : List IndentOp),
    (Nested l → (Indenter.default.withWidth width |>.withOffset offset).run l =
      .ok ⟨offset, width, offset + width * (ins l - outs l)⟩) ∧
    (¬ Nested l → (Indenter.default.withWidth width |>.withOffset offset).run l = .panic)

theorem run_nested (w : Nat) (hw : 0 < w) (off : Nat) (l : List IndentOp) (h : Nat)
    (hl : ∀ a, a <+: l → outs a ≤ h + ins a) :
    (Indenter.mk off w (off + w * h)).run l = .ok ⟨off, w, off + w * (h + ins l - outs l)⟩ := by
  induction l generalizing h with
  | nil => simp [Indenter.run, ins, outs]
  | cons o l ih =>
    cases o with
    | indent =>
      have e : (Indenter.mk off w (off + w * h)).indent = ⟨off, w, off + w * (h + 1)⟩ := by
        simp only [Indenter.indent, Indenter.indentBy]; congr 1; ring
      rw [Indenter.run, e, ih (h + 1) (fun a ha => by
        have := hl (.indent :: a) (List.cons_prefix_cons.2 ⟨rfl, ha⟩)
        simp [ins, outs] at this ⊢; omega)]
      have : h + 1 + ins l - outs l = h + ins (.indent :: l) - outs (.indent :: l) := by
        simp [ins, outs]; omega
      rw [this]
    | outdent =>
      have h1 := hl [.outdent] (by simp)
      simp [ins, outs] at h1
      obtain ⟨k, rfl⟩ : ∃ k, h = k + 1 := ⟨h - 1, by omega⟩
      have e : (Indenter.mk off w (off + w * (k + 1))).outdent = .ok ⟨off, w, off + w * k⟩ := by
        have a1 : off + w * (k + 1) = off + w * k + w := by ring
        have a2 : ¬ off + w * k + w = 0 := by omega
        have a3 : ¬ off + w * k + w < w := by omega
        simp only [Indenter.outdent, Indenter.outdentBy, a1, a2, a3, if_false, Nat.add_sub_cancel]
      rw [Indenter.run, e]
      simp only
      rw [ih k (fun a ha => by
        have := hl (.outdent :: a) (List.cons_prefix_cons.2 ⟨rfl, ha⟩)
        simp [ins, outs] at this ⊢; omega)]
      have : k + ins l - outs l = k + 1 + ins (.outdent :: l) - outs (.outdent :: l) := by
        simp [ins, outs]; omega
      rw [this]

theorem run_append (i : Indenter) (a b : List IndentOp) :
    i.run (a ++ b) = match i.run a with | .panic => .panic | .ok j => j.run b := by
  induction a generalizing i with
  | nil => rfl
  | cons o a ih =>
    cases o with
    | indent => exact ih _
    | outdent =>
      simp only [List.cons_append, Indenter.run]
      cases i.outdent with
      | panic => rfl
      | ok j => exact ih j

/-- A sequence that is not nested has a first outdent too many. -/
theorem first_excess (l : List IndentOp) (h : ¬ Nested l) :
    ∃ a b, l = a ++ .outdent :: b ∧ Nested a ∧ ins a = outs a := by
  induction l using List.reverseRecOn with
  | nil => exact absurd (fun a ha => by simp [List.prefix_nil.1 ha, ins, outs]) h
  | append_singleton l o ih =>
    by_cases hl : Nested l
    · have e : ¬ outs (l ++ [o]) ≤ ins (l ++ [o]) := by
        intro e
        apply h
        intro a ha
        rcases List.prefix_concat_iff.1 ha with rfl | ha
        · exact e
        · exact hl a ha
      have h0 := hl l (List.prefix_refl _)
      cases o with
      | indent => simp [ins, outs] at e h0; omega
      | outdent => exact ⟨l, [], by simp, hl, by simp [ins, outs] at e h0 ⊢; omega⟩
    · obtain ⟨a, b, rfl, h1, h2⟩ := ih hl
      exact ⟨a, b ++ [o], by simp, h1, h2⟩

/-- C49: nested sequences end at the right column, for every width but zero and every offset.
Sequences that are not nested are reported when there is no offset, or one less than the
width. -/
theorem C49_balanced_partial (offset width : Nat) (hw : 0 < width) (l : List IndentOp) :
    (Nested l → (Indenter.default.withWidth width |>.withOffset offset).run l =
      .ok ⟨offset, width, offset + width * (ins l - outs l)⟩) ∧
    (offset < width → ¬ Nested l →
      (Indenter.default.withWidth width |>.withOffset offset).run l = .panic) := by
  have key : ∀ l, Nested l → (Indenter.default.withWidth width |>.withOffset offset).run l =
      .ok ⟨offset, width, offset + width * (ins l - outs l)⟩ := by
    intro l h
    have := run_nested width hw offset l 0 (by simpa [Nested] using h)
    simpa [Indenter.default, Indenter.withWidth, Indenter.withOffset] using this
  refine ⟨key l, fun ho h => ?_⟩
  obtain ⟨a, b, rfl, h1, h2⟩ := first_excess l h
  rw [run_append, key a h1, h2]
  simp only [Nat.sub_self, Nat.mul_zero, Nat.add_zero, Indenter.run]
  have : (Indenter.mk offset width offset).outdent = .panic := by
    simp only [Indenter.outdent, Indenter.outdentBy]
    split
    · rfl
    · simp [ho]
  rw [this]

/-- C49 fails for an offset of at least the width: one outdent too many goes unnoticed and the
text starts left of the offset. -/
theorem C49_fails : ¬ C49_statement := by
  intro h
  exact absurd ((h 2 2 [.outdent]).2 (fun hn => absurd (hn [.outdent] (List.prefix_refl _)) (by decide)))
    (by decide)

/-- C49: a new indenter is not indented and steps by two; the width is set without moving, the offset is where it starts. -/
theorem C49_new (i : Indenter) (offset width n : Nat) :
    Indenter.default.display = [] ∧ Indenter.default.indent.display = [' ', ' '] ∧ Indenter.default.isNotIndented = true ∧
    (i.withWidth width).display = i.display ∧ (i.withWidth width).isNotIndented = i.isNotIndented ∧
    (i.withWidth width).reset.display = i.reset.display ∧
    (i.withWidth width).indent.display = i.display ++ List.replicate width ' ' ∧
    (i.withOffset offset).display = List.replicate offset ' ' ∧ (i.withOffset offset).isNotIndented = true ∧
    (i.indentBy n).display = i.display ++ List.replicate n ' ' := by
  simp [Indenter.default, Indenter.indent, Indenter.display, Indenter.withWidth, Indenter.withOffset, Indenter.isNotIndented,
    Indenter.indentBy, Indenter.reset, List.replicate_append_replicate]

/-- In that case it never is noticed. -/
theorem C49_fails_offset (offset width : Nat) (hw : 0 < width) (h : width ≤ offset) :
    (Indenter.default.withWidth width |>.withOffset offset).run [.outdent] =
      .ok ⟨offset, width, offset - width⟩ := by
  have h1 : offset ≠ 0 := by omega
  have h2 : ¬ offset < width := by omega
  simp [Indenter.run, Indenter.default, Indenter.withWidth, Indenter.withOffset, Indenter.outdent,
    Indenter.outdentBy, h1, h2]

/-- C49 also fails for the width zero, which `with_indent_width` lets through: every nested
sequence with an outdent is taken for an unbalanced one. -/
theorem C49_fails_zero (l : List IndentOp) (h : .outdent ∈ l) :
    (Indenter.default.withWidth 0).run l = .panic := by
  have : (Indenter.default.withWidth 0) = ⟨0, 0, 0⟩ := rfl
  rw [this]
  induction l with
  | nil => simp at h
  | cons o l ih =>
    cases o with
    | indent => exact ih (by simpa using h)
    | outdent => rfl

theorem run_exact (w : Nat) (hw : 0 < w) (off : Nat) (l : List IndentOp) (c : Nat) :
    ((∀ a, a <+: l → w * outs a ≤ c + w * ins a) → (Indenter.mk off w c).run l = .ok ⟨off, w, c + w * ins l - w * outs l⟩) ∧
    ((∃ a, a <+: l ∧ c + w * ins a < w * outs a) → (Indenter.mk off w c).run l = .panic) := by
  induction l generalizing c with
  | nil =>
    refine ⟨fun _ => by simp [Indenter.run, ins, outs], fun ⟨a, ha, h⟩ => ?_⟩
    rw [List.prefix_nil.1 ha] at h
    simp [ins, outs] at h
  | cons o l ih =>
    cases o with
    | indent =>
      have e : (Indenter.mk off w c).indent = ⟨off, w, c + w⟩ := rfl
      have hi : ∀ a : List IndentOp, w * ins (.indent :: a) = w + w * ins a := fun a => by simp [ins]; ring
      have ho : ∀ a : List IndentOp, outs (.indent :: a) = outs a := fun a => by simp [outs]
      rw [Indenter.run, e, hi l, ho l]
      refine ⟨fun h => ?_, fun ⟨a, ha, h⟩ => (ih (c + w)).2 ?_⟩
      · rw [(ih (c + w)).1 fun a ha => by
          have := h (.indent :: a) (List.cons_prefix_cons.2 ⟨rfl, ha⟩)
          rw [hi, ho] at this
          omega]
        congr 2
        omega
      · cases a with
        | nil => simp [ins, outs] at h
        | cons x a =>
          obtain ⟨rfl, ha'⟩ := List.cons_prefix_cons.1 ha
          rw [hi, ho] at h
          exact ⟨a, ha', by omega⟩
    | outdent =>
      have hi : ∀ a : List IndentOp, ins (.outdent :: a) = ins a := fun a => by simp [ins]
      have ho : ∀ a : List IndentOp, w * outs (.outdent :: a) = w + w * outs a := fun a => by simp [outs]; ring
      rw [Indenter.run, hi l, ho l]
      by_cases hc : c < w
      · have e : (Indenter.mk off w c).outdent = .panic := by
          simp only [Indenter.outdent, Indenter.outdentBy]
          split
          · rfl
          · simp [hc]
        rw [e]
        refine ⟨fun h => ?_, fun _ => rfl⟩
        have := h [.outdent] (by simp)
        rw [hi, ho] at this
        simp [ins, outs] at this
        omega
      · have e : (Indenter.mk off w c).outdent = .ok ⟨off, w, c - w⟩ := by
          have h0 : c ≠ 0 := by omega
          simp [Indenter.outdent, Indenter.outdentBy, h0, hc]
        rw [e]
        refine ⟨fun h => ?_, fun ⟨a, ha, h⟩ => (ih (c - w)).2 ?_⟩
        · simp only
          rw [(ih (c - w)).1 fun a ha => by
            have := h (.outdent :: a) (List.cons_prefix_cons.2 ⟨rfl, ha⟩)
            rw [hi, ho] at this
            omega]
          congr 2
          omega
        · cases a with
          | nil => simp [ins, outs] at h
          | cons x a =>
            obtain ⟨rfl, ha'⟩ := List.cons_prefix_cons.1 ha
            rw [hi, ho] at h
            exact ⟨a, ha', by omega⟩

/-- C49, exactly what happens for every sequence and every width but zero: it is reported if and only if at some time the text
would start left of the margin. -/
theorem C49_exact (offset width : Nat) (hw : 0 < width) (l : List IndentOp) :
    ((∀ a, a <+: l → width * outs a ≤ offset + width * ins a) →
      (Indenter.default.withWidth width |>.withOffset offset).run l = .ok ⟨offset, width, offset + width * ins l - width * outs l⟩) ∧
    ((∃ a, a <+: l ∧ offset + width * ins a < width * outs a) →
      (Indenter.default.withWidth width |>.withOffset offset).run l = .panic) := run_exact width hw offset l offset

/-- C49 holds for an offset and a width if and only if the width is not zero and the offset is less than it. -/
theorem C49_iff (offset width : Nat) :
    (∀ l, (Nested l → (Indenter.default.withWidth width |>.withOffset offset).run l =
        .ok ⟨offset, width, offset + width * (ins l - outs l)⟩) ∧
      (¬ Nested l → (Indenter.default.withWidth width |>.withOffset offset).run l = .panic)) ↔ 0 < width ∧ offset < width := by
  have notNested : ¬Nested [.outdent] := fun hn => absurd (hn [.outdent] (List.prefix_refl _)) (by decide)
  constructor
  · intro h
    have h1 := (h [.outdent]).2 notNested
    by_cases hw : 0 < width
    · refine ⟨hw, Classical.byContradiction fun ho => ?_⟩
      rw [C49_fails_offset offset width hw (by omega)] at h1
      cases h1
    · obtain rfl : width = 0 := by omega
      by_cases ho : offset = 0
      · subst ho
        have hn : Nested [.indent, .outdent] := by
          have h : ∀ a ∈ [IndentOp.indent, .outdent].inits, outs a ≤ ins a := by decide
          exact fun a ha => h a ((List.mem_inits _ _).2 ha)
        exact absurd ((h [.indent, .outdent]).1 hn) (by decide)
      · simp [Indenter.run, Indenter.default, Indenter.withWidth, Indenter.withOffset, Indenter.outdent, Indenter.outdentBy, ho] at h1
  · rintro ⟨hw, ho⟩ l
    exact ⟨(C49_balanced_partial offset width hw l).1, (C49_balanced_partial offset width hw l).2 ho⟩

/-- C49: whatever was called before, a reset leads back to the start, and the text is indented by
the offset. -/
theorem C49_reset (offset width : Nat) (l : List IndentOp) (j : Indenter)
    (h : (Indenter.default.withWidth width |>.withOffset offset).run l = .ok j) :
    j.reset = (Indenter.default.withWidth width |>.withOffset offset) ∧ j.reset.isNotIndented = true ∧
      j.reset.display = List.replicate offset ' ' := by
  have key : ∀ (l : List IndentOp) (i j : Indenter), i.run l = .ok j → j.offset = i.offset ∧ j.width = i.width := by
    intro l
    induction l with
    | nil => intro i j h; cases h; exact ⟨rfl, rfl⟩
    | cons o l ih =>
      intro i j h
      cases o with
      | indent => exact ih i.indent j h
      | outdent =>
        simp only [Indenter.run, Indenter.outdent, Indenter.outdentBy] at h
        by_cases h0 : i.current = 0
        · simp [h0] at h
        · by_cases h1 : i.current < i.width
          · simp [h0, h1] at h
          · simp only [h0, h1, if_false] at h
            exact ih ⟨i.offset, i.width, i.current - i.width⟩ j h
  obtain ⟨h1, h2⟩ := key _ _ _ h
  obtain ⟨o, w, c⟩ := j
  simp only [Indenter.withOffset, Indenter.withWidth] at h1 h2
  subst h1 h2
  exact ⟨rfl, by simp [Indenter.reset, Indenter.isNotIndented], rfl⟩

example : Nested [.indent, .indent, .outdent, .outdent] := by
  have h : ∀ a ∈ [IndentOp.indent, .indent, .outdent, .outdent].inits, outs a ≤ ins a := by decide
  exact fun a ha => h a ((List.mem_inits _ _).2 ha)

end Rdftk
