import Verif.Model.PName
import Verif.Lemmas.Str

/-! Helper lemmas about names. -/

namespace Rdftk

theorem colon_not_rest : isPnPrefixLocalRest ':' = false := by decide
theorem colon_not_base : isPnCharsBase ':' = false := by decide
theorem colon_not_first : isPnLocalFirst ':' = false := by decide

theorem Namespace.parse_ok_iff {s : Str} {n : Namespace} :
    Namespace.parse s = .ok n ↔
      n = ⟨s⟩ ∧ (s = [':'] ∨ ∃ c cs, s = c :: cs ++ [':'] ∧
        isPnCharsBase c = true ∧ ∀ x ∈ cs, isPnPrefixLocalRest x = true) := by
  unfold Namespace.parse
  split
  · rename_i h; simp at h; subst h; simp
  split
  · rename_i h1 h2; subst h2
    constructor
    · intro h; cases h; exact ⟨rfl, .inl rfl⟩
    · rintro ⟨rfl, _⟩; rfl
  rename_i hne hc
  split
  · rename_i p hp
    rw [stripSuffix_eq_some] at hp
    subst hp
    split
    · rename_i h
      simp at h
      simp only [reduceCtorEq, false_iff, not_and, not_or, not_exists]
      rintro - ; refine ⟨hc, ?_⟩
      rintro c cs he hb hr
      have he' : p = c :: cs := by simpa using List.append_cancel_right he
      subst he'
      rcases List.mem_cons.1 h with h | h
      · subst h; simp [colon_not_base] at hb
      · have := hr _ h; simp [colon_not_rest] at this
    · cases p with
      | nil => simp at hc
      | cons c cs =>
        simp only
        split
        · rename_i h
          simp only [Bool.and_eq_true, List.all_eq_true] at h
          constructor
          · intro e; cases e; exact ⟨rfl, .inr ⟨c, cs, rfl, h⟩⟩
          · rintro ⟨rfl, _⟩; rfl
        · rename_i h
          simp only [reduceCtorEq, false_iff, not_and, not_or, not_exists]
          rintro -; refine ⟨hc, ?_⟩
          rintro c' cs' he hb hr
          have he' := List.append_cancel_right he
          simp only [List.cons.injEq] at he'
          obtain ⟨rfl, rfl⟩ := he'
          apply h; simp only [Bool.and_eq_true, List.all_eq_true]; exact ⟨hb, hr⟩
  · rename_i hn
    rw [stripSuffix_eq_none] at hn
    simp only [reduceCtorEq, false_iff, not_and, not_or, not_exists]
    rintro -; refine ⟨hc, ?_⟩
    rintro c cs rfl
    exact absurd (List.getLast?_concat (l := c :: cs)) hn

theorem Name.parse_ok_iff {s : Str} {n : Name} :
    Name.parse s = .ok n ↔
      n = ⟨s⟩ ∧ endsWith s '.' = false ∧ ∃ c cs, s = c :: cs ∧
        isPnLocalFirst c = true ∧ ∀ x ∈ cs, isPnPrefixLocalRest x = true := by
  unfold Name.parse
  split
  · simp
  · rename_i c cs
    split
    · rename_i h; simp [h]
    · rename_i h
      split
      · rename_i h2
        simp only [Bool.and_eq_true, List.all_eq_true] at h2
        constructor
        · intro e; cases e; exact ⟨rfl, by simpa using h, c, cs, rfl, h2⟩
        · rintro ⟨rfl, _⟩; rfl
      · rename_i h2
        simp only [reduceCtorEq, false_iff, not_and, not_exists]
        rintro - - c' cs' he hb hr
        cases he
        apply h2; simp only [Bool.and_eq_true, List.all_eq_true]; exact ⟨hb, hr⟩

theorem Namespace.parse_colon {s : Str} {n : Namespace} (h : Namespace.parse s = .ok n) :
    ∃ p, s = p ++ [':'] ∧ ':' ∉ p := by
  rw [Namespace.parse_ok_iff] at h
  obtain ⟨_, h | ⟨c, cs, rfl, hb, hr⟩⟩ := h
  · exact ⟨[], by simpa using h, by simp⟩
  · refine ⟨c :: cs, rfl, ?_⟩
    intro hm
    rcases List.mem_cons.1 hm with h | h
    · subst h; simp [colon_not_base] at hb
    · have := hr _ h; simp [colon_not_rest] at this

theorem Name.parse_no_colon {s : Str} {n : Name} (h : Name.parse s = .ok n) : ':' ∉ s := by
  rw [Name.parse_ok_iff] at h
  obtain ⟨_, _, c, cs, rfl, hb, hr⟩ := h
  intro hm
  rcases List.mem_cons.1 hm with h | h
  · subst h; simp [colon_not_first] at hb
  · have := hr _ h; simp [colon_not_rest] at this

theorem LocalName.parse_ok_iff {s : Str} {l : LocalName} :
    LocalName.parse s = .ok l ↔
      ∃ a b, s = a ++ b ∧ Namespace.parse a = .ok l.namespace ∧ Name.parse b = .ok l.name := by
  unfold LocalName.parse
  split
  · rename_i h; simp at h; subst h
    simp [Namespace.parse]
  rename_i hne
  rcases hs : splitFirst ':' s with ⟨a, b⟩
  cases b with
  | none =>
    rw [splitFirst_none] at hs
    obtain ⟨rfl, hm⟩ := hs
    simp only [reduceCtorEq, false_iff, not_exists, not_and]
    rintro a b rfl ha
    obtain ⟨p, rfl, _⟩ := Namespace.parse_colon ha
    simp at hm
  | some b =>
    rw [splitFirst_some] at hs
    obtain ⟨rfl, hm⟩ := hs
    simp only
    constructor
    · intro h
      cases h1 : Namespace.parse (a ++ [':']) with
      | error e => simp [h1, bind, Except.bind] at h
      | ok ns =>
        cases h2 : Name.parse b with
        | error e => simp [h1, h2, bind, Except.bind] at h
        | ok nm =>
          simp [h1, h2, bind, Except.bind] at h
          subst h
          exact ⟨a ++ [':'], b, by simp, h1, h2⟩
    · rintro ⟨a', b', he, h1, h2⟩
      obtain ⟨p, rfl, hp⟩ := Namespace.parse_colon h1
      have e1 := splitFirst_append (b := b) hm
      rw [he] at e1
      have e2 := splitFirst_append (b := b') hp
      simp at e1
      rw [e2] at e1
      simp at e1
      obtain ⟨rfl, rfl⟩ := e1
      simp [h1, h2, bind, Except.bind]

theorem Namespace.parse_text {s : Str} {n : Namespace} (h : Namespace.parse s = .ok n) : n.text = s := by
  rw [Namespace.parse_ok_iff] at h; rw [h.1]

theorem Name.parse_text {s : Str} {n : Name} (h : Name.parse s = .ok n) : n.text = s := by
  rw [Name.parse_ok_iff] at h; rw [h.1]

end Rdftk
