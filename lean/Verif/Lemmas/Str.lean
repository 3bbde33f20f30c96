import Verif.Model.Str

/-! Helper lemmas about strings. -/

namespace Rdftk

theorem stripSuffix_eq_some {s t : Str} {c : Char} :
    stripSuffix s c = some t ↔ s = t ++ [c] := by
  unfold stripSuffix
  constructor
  · intro h
    split at h
    · rename_i hl
      cases h
      have hne : s ≠ [] := by intro h0; simp [h0] at hl
      rw [List.getLast?_eq_some_getLast hne, Option.some.injEq] at hl
      rw [← hl]; exact (List.dropLast_concat_getLast hne).symm
    · cases h
  · rintro rfl; simp

theorem stripSuffix_eq_none {s : Str} {c : Char} :
    stripSuffix s c = none ↔ s.getLast? ≠ some c := by
  unfold stripSuffix; split <;> simp_all

theorem splitFirst_some {c : Char} {s a b : Str} :
    splitFirst c s = (a, some b) ↔ s = a ++ c :: b ∧ c ∉ a := by
  induction s generalizing a b with
  | nil => simp [splitFirst]
  | cons d s ih =>
    unfold splitFirst
    split
    · rename_i h; subst h
      cases a with
      | nil => simp
      | cons x a => simp; rintro rfl h; simp
    · rename_i h
      rcases hs : splitFirst c s with ⟨a', b'⟩
      simp only [Prod.mk.injEq]
      cases b' with
      | none =>
        simp only [reduceCtorEq, and_false, false_iff, not_and]
        rintro h1 h2
        cases a with
        | nil => simp at h1; exact h h1.1
        | cons x a =>
          simp at h1 h2
          have := (@ih a b).2 ⟨h1.2, h2.2⟩
          rw [hs] at this; simp at this
      | some b' =>
        have key := (@ih a' b').1 hs
        constructor
        · rintro ⟨rfl, h2⟩; cases h2
          refine ⟨by simp [key.1], ?_⟩
          simp; exact ⟨fun e => h e.symm, key.2⟩
        · rintro ⟨h1, h2⟩
          cases a with
          | nil => simp at h1; exact absurd h1.1 h
          | cons x a =>
            simp at h1 h2
            have := (@ih a b).2 ⟨h1.2, h2.2⟩
            rw [hs] at this; simp at this
            simp [h1.1, this]

theorem splitFirst_none {c : Char} {s a : Str} :
    splitFirst c s = (a, none) ↔ s = a ∧ c ∉ s := by
  induction s generalizing a with
  | nil => simp [splitFirst, eq_comm]
  | cons d s ih =>
    unfold splitFirst
    split
    · rename_i h; subst h; simp
    · rename_i h
      rcases hs : splitFirst c s with ⟨a', b'⟩
      cases b' with
      | none =>
        obtain ⟨h1, h2⟩ := (@ih a').1 hs
        subst h1
        simp [h2]; intro _ e; exact h e.symm
      | some b' =>
        have := splitFirst_some.1 hs
        simp [this.1]

theorem splitFirst_append {c : Char} {a b : Str} (h : c ∉ a) :
    splitFirst c (a ++ c :: b) = (a, some b) := splitFirst_some.2 ⟨rfl, h⟩

theorem splitFirst_not_mem {c : Char} {s : Str} (h : c ∉ s) :
    splitFirst c s = (s, none) := splitFirst_none.2 ⟨rfl, h⟩

theorem endsWith_iff {s : Str} {c : Char} : endsWith s c = true ↔ ∃ t, s = t ++ [c] := by
  unfold endsWith
  simp only [beq_iff_eq]
  constructor
  · intro h
    exact ⟨s.dropLast, stripSuffix_eq_some.1 (by simp [stripSuffix, h])⟩
  · rintro ⟨t, rfl⟩; simp

end Rdftk
