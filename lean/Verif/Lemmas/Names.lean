import Verif.Model.Names

/-! Helper lemmas about the vocabulary tables and decimal digits. -/

namespace Rdftk

/-- The finite part of C53, over every member of every table. -/
theorem nameTables_entries : ∀ t ∈ nameTables, ∀ m ∈ t.members,
    t.entry m.2 = some (m.2, ⟨t.ns ++ m.2⟩, t.pfx ++ ':' :: m.2) ∧
    Name.parse m.2 = .ok ⟨m.2⟩ ∧
    Iri.split ⟨t.ns ++ m.2⟩ = .ok (some (⟨t.ns⟩, ⟨m.2⟩)) := by decide +kernel

theorem nameTables_nodup : ∀ t ∈ nameTables,
    (t.members.map (·.2)).Nodup ∧ (t.members.map (·.1)).Nodup ∧
    Name.parse t.pfx = .ok ⟨t.pfx⟩ := by decide +kernel

theorem makeCache_eq (t : NameTable) (hn : (t.members.map (·.2)).Nodup)
    (he : ∀ m ∈ t.members, t.entry m.2 = some (m.2, ⟨t.ns ++ m.2⟩, t.pfx ++ ':' :: m.2)) :
    t.makeCache =
      some (t.members.map fun m => (m.2, (⟨t.ns ++ m.2⟩ : Iri), t.pfx ++ ':' :: m.2)) := by
  unfold NameTable.makeCache
  suffices h : ∀ (l : List (Str × Str)) (c : List (Str × Iri × Str)),
      (l.map (·.2)).Nodup → (∀ m ∈ l, ∀ e ∈ c, e.1 ≠ m.2) →
      (∀ m ∈ l, t.entry m.2 = some (m.2, ⟨t.ns ++ m.2⟩, t.pfx ++ ':' :: m.2)) →
      l.foldl t.cacheStep (some c) =
      some (c ++ l.map fun m => (m.2, (⟨t.ns ++ m.2⟩ : Iri), t.pfx ++ ':' :: m.2)) by
    simpa using h t.members [] hn (by simp) he
  intro l
  induction l with
  | nil => intro c _ _ _; simp
  | cons m l ih =>
    intro c hn hc he
    rw [List.map_cons, List.nodup_cons] at hn
    have hf : (c.filter fun x => x.1 != m.2) = c := by
      rw [List.filter_eq_self]
      intro e he'
      simpa using hc m (by simp) e he'
    rw [List.foldl_cons]
    simp only [NameTable.cacheStep, he m (by simp), hf]
    rw [ih _ hn.2 _ (fun m' h' => he m' (by simp [h']))]
    · simp
    · intro m' h' e h''
      rcases List.mem_append.1 h'' with h'' | h''
      · exact hc m' (by simp [h']) e h''
      · simp at h''; subst h''
        intro e'; apply hn.1
        exact List.mem_map.2 ⟨m', h', e'.symm⟩

theorem find_unique {α β : Type _} [BEq β] [LawfulBEq β] {l : List α} {f : α → β} {m : α}
    (hm : m ∈ l) (hn : (l.map f).Nodup) : l.find? (fun x => f x == f m) = some m := by
  induction l with
  | nil => simp at hm
  | cons x l ih =>
    rw [List.map_cons, List.nodup_cons] at hn
    rcases List.mem_cons.1 hm with e | hm'
    · subst e; simp
    · have hne : (f x == f m) = false := by
        rw [beq_eq_false_iff_ne]
        intro e; exact hn.1 (List.mem_map.2 ⟨m, hm', e.symm⟩)
      rw [List.find?_cons, hne]
      exact ih hm' hn.2

theorem toDigits_inj {a b : Nat} (h : Nat.toDigits 10 a = Nat.toDigits 10 b) : a = b := by
  have := congrArg (fun l => Nat.ofDigitChars 10 l 0) h
  simpa using this

theorem digit_ascii {c : Char} (h : c.isDigit = true) :
    isPnPrefixLocalRest c = true ∧ c.toNat < 0x80 ∧ c ≠ '.' := by
  simp only [Char.isDigit, Bool.and_eq_true, decide_eq_true_eq, UInt32.le_iff_toNat_le] at h
  have h1 : 48 ≤ c.toNat := h.1
  have h2 : c.toNat ≤ 57 := h.2
  refine ⟨?_, by omega, ?_⟩
  · simp [isPnPrefixLocalRest, isPnChars, isAsciiDigit, inRange, h1, h2]
  · rintro rfl; revert h1; decide

end Rdftk
